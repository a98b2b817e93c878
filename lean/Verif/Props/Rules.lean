import Verif.Props.Abstract
import Verif.Props.Score
import Verif.Props.Tables
/-!
# New games, rule sets, winners and resignation: C53, C54, C55, C56
-/

namespace Model
open Spec (OnBoard NoDead State Forbidden)

variable {dbg : Bool} {n : Dim} {m : Nat} {g : Game}

/-! ## C53 -/

/-- What everybody expects of a new game on an `h × w` board. -/
structure Blank (h w : Nat) (rule : Rule) (g : Game) : Prop where
  size : g.goban.size = (h, w)
  empty : ∀ p, OnRect (h, w) p → g.goban.getColor p = .ok none
  stones : g.goban.numberOfStones = (0, 0)
  turn : g.turn = .black
  prisoners : g.prisoners = (0, 0)
  goesOn : g.isOver = false ∧ g.outcome = none
  rule : g.rule = rule
  history : g.history = []

/-- The sides asked for. -/
def GobanSizes.asked : GobanSizes → Nat × Nat
  | .nineteen => (19, 19)
  | .nine => (9, 9)
  | .thirteen => (13, 13)
  | .custom h w => (h, w)

/-- The full statement of **C53**: a new game is on the board asked for, or there is none. Refuted by `C53_false`. -/
def C53Full : Prop := ∀ (size : GobanSizes) (rule : Rule), size.asked.1 < 2 ^ 64 → size.asked.2 < 2 ^ 64 →
  (Game.new size rule = panic ∧ ¬ (size.asked.1 ≤ 19 ∧ size.asked.2 ≤ 19)) ∨
  ∃ g, Game.new size rule = .ok g ∧ Blank size.asked.1 size.asked.2 rule g

theorem goban_new_blank {h w : Nat} (hh : h ≤ 19) (hw : w ≤ 19) : ∃ b, Goban.new (h, w) = .ok b ∧ b.size = (h, w) ∧
    (∀ p, OnRect (h, w) p → b.getColor p = .ok none) ∧ b.numberOfStones = (0, 0) := by
  unfold Goban.new
  simp only [hh, hw, decide_true, Bool.and_self, assertM, if_true]
  refine ⟨_, rfl, rfl, fun p hp => ?_, rfl⟩
  have := C26_in_range_partial hh hw hp
  unfold Goban.getColor Goban.getColorIdx Goban.boardAt
  dsimp only
  rw [List.getElem?_replicate, if_pos (by exact this)]
  rfl

/-- **C53** for sides below 256. Missing: larger sides, for which it is false (`C53_false`). -/
theorem C53_new_partial (size : GobanSizes) (rule : Rule) (h1 : size.asked.1 < 256) (h2 : size.asked.2 < 256) :
    (Game.new size rule = panic ∧ ¬ (size.asked.1 ≤ 19 ∧ size.asked.2 ≤ 19)) ∨
    ((size.asked.1 ≤ 19 ∧ size.asked.2 ≤ 19) ∧ ∃ g, Game.new size rule = .ok g ∧ Blank size.asked.1 size.asked.2 rule g) := by
  have hs : size.toSize = size.asked := by
    cases size with
    | custom h w =>
      show (u8 h, u8 w) = (h, w)
      unfold u8
      rw [Nat.mod_eq_of_lt (show h < 256 from h1), Nat.mod_eq_of_lt (show w < 256 from h2)]
    | _ => rfl
  by_cases hk : size.asked.1 ≤ 19 ∧ size.asked.2 ≤ 19
  · right
    refine ⟨hk, ?_⟩
    obtain ⟨b, e, hb1, hb2, hb3⟩ := goban_new_blank hk.1 hk.2
    unfold Game.new
    rw [hs, show size.asked = (size.asked.1, size.asked.2) from rfl, e, ok_bind]
    exact ⟨_, rfl, hb1, hb2, hb3, rfl, rfl, ⟨rfl, rfl⟩, rfl, rfl⟩
  · left
    refine ⟨?_, hk⟩
    unfold Game.new Goban.new
    rw [hs]
    have : (decide (size.asked.1 ≤ 19) && decide (size.asked.2 ≤ 19)) = false := by simpa using hk
    rw [this]
    rfl

/-- **C53**: a size made from a number is the square of that side; only the three usual numbers are taken. -/
theorem C53_of_usize (x : Nat) : (∀ s, GobanSizes.ofNat x = .ok s → s.asked = (x, x)) ∧
    (GobanSizes.ofNat x = panic ↔ x ≠ 9 ∧ x ≠ 13 ∧ x ≠ 19) := by
  unfold GobanSizes.ofNat
  split
  · rename_i h; subst h; exact ⟨fun s e => by cases e; rfl, by simp [panic]⟩
  · split
    · rename_i h; subst h; exact ⟨fun s e => by cases e; rfl, by simp [panic]⟩
    · split
      · rename_i h; subst h; exact ⟨fun s e => by cases e; rfl, by simp [panic]⟩
      · rename_i h1 h2 h3
        refine ⟨fun s e => ?_, by simp [h1, h2, h3]⟩
        cases e

/-- A side of 256 or more is silently taken modulo 256. -/
theorem C53_wraps {h w : Nat} (rule : Rule) (hh : h % 256 ≤ 19) (hw : w % 256 ≤ 19) :
    ∃ g, Game.new (.custom h w) rule = .ok g ∧ Blank (h % 256) (w % 256) rule g := by
  obtain ⟨b, e, hb1, hb2, hb3⟩ := goban_new_blank hh hw
  unfold Game.new GobanSizes.toSize u8
  dsimp only
  rw [e, ok_bind]
  exact ⟨_, rfl, hb1, hb2, hb3, rfl, rfl, ⟨rfl, rfl⟩, rfl, rfl⟩

theorem C53_false : ¬ C53Full := by
  intro h
  obtain ⟨g, e, hb⟩ := C53_wraps (h := 265) (w := 265) JAPANESE (by decide) (by decide)
  obtain ⟨h1, _⟩ | ⟨g', e', hb'⟩ := h (.custom 265 265) JAPANESE (by decide) (by decide)
  · rw [h1] at e; cases e
  · rw [e] at e'
    cases e'
    have := hb.size.symm.trans hb'.size
    exact absurd this (by decide)

/-- Non-vacuity of C53: a preset, a rectangle, an edge case, a size refused. -/
example : okAnd (Game.new .thirteen CHINESE) (fun g => g.goban.size == (13, 13)) = true ∧
    okAnd (Game.new (.custom 3 7) CHINESE) (fun g => g.goban.size == (3, 7)) = true ∧
    okAnd (Game.new (.custom 0 0) CHINESE) (fun g => g.goban.size == (0, 0)) = true ∧
    Game.new (.custom 20 19) CHINESE = panic := by decide +kernel

/-! ## C54 -/

/-- **C54**: exactly two names are known. -/
theorem C54_names (s : String) : (∃ r, Rule.fromStr s = some r) ↔ s = "JAP" ∨ s = "CHI" := by
  unfold Rule.fromStr
  split
  · rename_i h; simp [h]
  · split
    · rename_i h; simp [h]
    · rename_i h1 h2; simp [h1, h2]

/-- **C54**, Japanese play: suicide and the retake of a ko are refused, repetition otherwise is not, nor is filling eyes. -/
theorem C54_japanese_play {r : Rule} {g0 : Game} {m0 : Nat} (hn : Rule.fromStr "JAP" = some r) (hr : g0.rule = r)
    (hf : Fresh dbg n m0 g0) (hd : NoDead n g0.goban.view) {cs : List GOp} (hcs : ∀ c ∈ cs, c.OnBoard n)
    {es : List (Option PlayError)} (e : g0.run dbg cs = .ok (es, g)) :
    es.map toAnswer = (Spec.run n { ko := true, superko := false, suicide := true, fillEye := false }
      (.start g0.goban.view g0.turn) (cs.map GOp.call)).1 ∧
    Looks n g0.outcome g (Spec.run n { ko := true, superko := false, suicide := true, fillEye := false }
      (.start g0.goban.view g0.turn) (cs.map GOp.call)).2 := by
  cases hn
  have := C49_refines hf hd (Or.inl (by rw [hr]; rfl)) hcs e
  rw [hr] at this
  exact this

/-- **C54**, Chinese play: as the Japanese, and every earlier position is refused too. -/
theorem C54_chinese_play {r : Rule} {g0 : Game} {m0 : Nat} (hn : Rule.fromStr "CHI" = some r) (hr : g0.rule = r)
    (hf : Fresh dbg n m0 g0) (hd : NoDead n g0.goban.view) {cs : List GOp} (hcs : ∀ c ∈ cs, c.OnBoard n)
    {es : List (Option PlayError)} (e : g0.run dbg cs = .ok (es, g)) :
    es.map toAnswer = (Spec.run n { ko := true, superko := true, suicide := true, fillEye := false }
      (.start g0.goban.view g0.turn) (cs.map GOp.call)).1 ∧
    Looks n g0.outcome g (Spec.run n { ko := true, superko := true, suicide := true, fillEye := false }
      (.start g0.goban.view g0.turn) (cs.map GOp.call)).2 := by
  cases hn
  have := C49_refines hf hd (Or.inl (by rw [hr]; rfl)) hcs e
  rw [hr] at this
  exact this

/-- **C54**, Japanese counting: territory and prisoners, 6.5 for White. -/
theorem C54_japanese_score {n : Nat} {r : Rule} (hn : Rule.fromStr "JAP" = some r) (hr : g.rule = r) (h : Reach dbg n m g)
    (hb : g.prisoners.1 < 2 ^ 20) (hw : g.prisoners.2 < 2 ^ 20) {ord : List Point → List Point} (hord : ∀ l, (ord l).Perm l) :
    g.calculateScore dbg ord = .ok
      (.fin ((Spec.territorySize n g.goban.view .black + g.prisoners.1 : Nat) : Rat),
       .fin (((Spec.territorySize n g.goban.view .white + g.prisoners.2 : Nat) : Rat) + 13 / 2)) := by
  cases hn
  have hx : Exact g g.rule.flagScore 13 :=
    ⟨fun _ => by rw [hr]; decide +kernel, by decide, fun _ => hb, fun _ => hw⟩
  rw [C21_calculate_score h hx hord, hr]
  rfl

/-- **C54**, Chinese counting: territory and stones on the board, 7.5 for White. -/
theorem C54_chinese_score {n : Nat} {r : Rule} (hn : Rule.fromStr "CHI" = some r) (hr : g.rule = r) (h : Reach dbg n m g)
    {ord : List Point → List Point} (hord : ∀ l, (ord l).Perm l) :
    g.calculateScore dbg ord = .ok
      (.fin ((Spec.territorySize n g.goban.view .black + Spec.count n g.goban.view (some .black) : Nat) : Rat),
       .fin (((Spec.territorySize n g.goban.view .white + Spec.count n g.goban.view (some .white) : Nat) : Rat) + 15 / 2)) := by
  cases hn
  have hx : Exact g g.rule.flagScore 15 :=
    ⟨fun _ => by rw [hr]; decide +kernel, by decide, fun h => absurd (hr ▸ h) (by decide), fun h => absurd (hr ▸ h) (by decide)⟩
  rw [C21_calculate_score h hx hord, hr]
  rfl

/-- Non-vacuity of C54: the same captures under both names. -/
example : (∃ g, Legal true 3 9 g ∧ (Rule.fromStr "JAP" == some g.rule && g.prisoners == (3, 0) &&
      decide (g.calculateScore true id = .ok (.fin 8, .fin (13 / 2)))) = true) ∧
    (∃ g, Legal true 3 9 g ∧ (Rule.fromStr "CHI" == some g.rule && g.prisoners == (3, 0) &&
      decide (g.calculateScore true id = .ok (.fin 9, .fin (15 / 2)))) = true) :=
  ⟨mkGame_exists (rule := JAPANESE) (l := exScored) (by decide) (by decide +kernel),
   mkGame_exists (rule := CHINESE) (l := exScored) (by decide) (by decide +kernel)⟩

/-! ## C55 -/

/-- **C55**. After two passes the winner named by the outcome is the side with the larger score, and there is none iff the
scores are equal. -/
theorem C55_winner_by_score {n : Nat} {K : Int} (h : Reach dbg n m g) (ho : g.outcome = none) (hp : 2 ≤ g.passes)
    (hx : Exact g g.rule.flagScore K) {ord : List Point → List Point} (hord : ∀ l, (ord l).Perm l) :
    ∃ (b w : Rat) (e : EndGame), g.calculateScore dbg ord = .ok (.fin b, .fin w) ∧ g.getOutcome dbg ord = .ok (some e) ∧
      (e.getWinner = some .black ↔ w < b) ∧ (e.getWinner = some .white ↔ b < w) ∧ (e.getWinner = none ↔ b = w) := by
  obtain ⟨b, w, e, h1, h2, h3⟩ := C22_two_passes h ho hp hx hord
  refine ⟨b, w, ?_⟩
  by_cases hl : w < b
  · have : ¬ b < w ∧ b ≠ w := by grind
    exact ⟨_, e, h2 hl, by simp [EndGame.getWinner, hl], by simp [EndGame.getWinner, this.1], by simp [EndGame.getWinner, this.2]⟩
  · by_cases hl' : b < w
    · have : b ≠ w := by grind
      exact ⟨_, e, h3 hl', by simp [EndGame.getWinner, hl], by simp [EndGame.getWinner, hl'], by simp [EndGame.getWinner, this]⟩
    · have : b = w := by grind
      exact ⟨_, e, h1 this, by simp [EndGame.getWinner, hl], by simp [EndGame.getWinner, hl'], by simp [EndGame.getWinner, this]⟩

/-- The colour a recorded result is in favour of. -/
inductive EndGame.Favours : EndGame → Color → Prop
  | score (c : Color) (by_ : F32) : Favours (.winnerByScore c by_) c
  | resign (c : Color) : Favours (.winnerByResign c) c
  | time (c : Color) : Favours (.winnerByTime c) c
  | forfeit (c : Color) : Favours (.winnerByForfeit c) c

/-- **C55**. A recorded result (a game record, a builder, a resignation) is reported as it is, and its winner is the colour it
is in favour of. -/
theorem C55_recorded {e : EndGame} (ho : g.outcome = some e) {ord : List Point → List Point} :
    g.getOutcome dbg ord = .ok (some e) ∧ (∀ c, e.getWinner = some c ↔ e.Favours c) ∧ (e.getWinner = none ↔ e = .draw) := by
  refine ⟨C22_recorded ho, fun c => ?_, ?_⟩
  · constructor
    · intro h
      cases e <;> cases h <;> constructor
    · intro h
      cases h <;> rfl
  · cases e <;> simp [EndGame.getWinner]

/-- Non-vacuity of C55: Black's win, White's win and a draw. -/
example : (∃ g, Legal true 3 9 g ∧ okAnd (g.getOutcome true id) (fun o => o.bind EndGame.getWinner == some .black) = true) ∧
    (∃ g, Legal true 3 2 g ∧ okAnd (g.getOutcome true id) (fun o => o.bind EndGame.getWinner == some .white) = true) ∧
    (∃ g, Legal true 3 2 g ∧ okAnd (g.getOutcome true id) (fun o => o == some .draw) = true) :=
  ⟨mkGame_exists (rule := JAPANESE) (l := exScored) (by decide) (by decide +kernel),
   mkGame_exists (rule := JAPANESE) (l := [.try_ .pass, .try_ .pass]) (by decide) (by decide +kernel),
   mkGame_exists (rule := JAPANESE) (l := [.setKomi (.fin 0), .try_ .pass, .try_ .pass]) (by decide) (by decide +kernel)⟩

/-! ## C56 -/

/-- The full statement of **C56**: whoever resigns loses. Refuted by `C56_false`. -/
def C56Full : Prop := ∀ (dbg : Bool) (n : Dim) (m : Nat) (g g' : Game) (c : Color), Reach dbg n m g →
  g.play dbg (.resign c) = .ok g' → ∃ e, g'.getOutcome dbg id = .ok (some e) ∧ e.getWinner = some c.opp

/-- **C56**, what holds: a resignation ends the game at once, changes nothing else, and the result is by resignation.
Missing: that the player who resigns loses, which is false (`C56_resigner_wins`). -/
theorem C56_resign_partial (g : Game) (c : Color) : ∃ g', g.play dbg (.resign c) = .ok g' ∧ g'.isOver = true ∧
    (∃ w, ∀ ord, g'.getOutcome dbg ord = .ok (some (.winnerByResign w))) ∧ g'.goban = g.goban ∧ g'.turn = g.turn ∧
    g'.prisoners = g.prisoners ∧ g'.passes = g.passes ∧ g'.rule = g.rule :=
  ⟨_, rfl, rfl, ⟨c, fun _ => C22_recorded rfl⟩, rfl, rfl, rfl, rfl, rfl⟩

/-- The winner after the resignation of a player is that same player, in every game. -/
theorem C56_resigner_wins {g' : Game} {c : Color} (e : g.play dbg (.resign c) = .ok g') :
    ∃ r, (∀ ord, g'.getOutcome dbg ord = .ok (some r)) ∧ r.getWinner = some c := by
  cases e
  exact ⟨.winnerByResign c, fun _ => C22_recorded rfl, rfl⟩

theorem C56_false : ¬ C56Full := by
  intro h
  obtain ⟨g, hg, _⟩ := mkGame_exists (dbg := true) (n := 3) (rule := JAPANESE) (l := [.try_ (.play 1 1)]) (f := fun _ => true)
    (by decide) (by decide +kernel)
  obtain ⟨_, _, hr⟩ := hg.reach
  obtain ⟨e, h1, h2⟩ := h true 3 _ g _ .white hr rfl
  obtain ⟨r, h3, h4⟩ := C56_resigner_wins (dbg := true) (g := g) (c := .white) rfl
  rw [h3 id] at h1
  cases h1
  rw [h4] at h2
  cases h2

end Model
