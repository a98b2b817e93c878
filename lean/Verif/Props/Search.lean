import Verif.Props.DeadStones
import Verif.Model.Convert
import Verif.Props.Strategy
import Verif.Props.AnyTerritory
/-!
# The game as the tree search sees it (`GameTrait`): C99
-/

namespace Model
open Spec (OnBoard)

variable {dbg : Bool} {n : Dim} {m : Nat} {g : Game}

/-- A descent of the search from `g`: while the game is not final one of the offered moves is made. The list is the moves made. -/
inductive Descent (dbg : Bool) (g : Game) : List Move → Game → Prop
  | start : Descent dbg g [] g
  | step {l g1 g2 ms mv} : Descent dbg g l g1 → g1.traitFinal = false → g1.legalsMoves dbg = .ok ms → mv ∈ ms →
      g1.traitMove dbg mv = .ok g2 → Descent dbg g (l ++ [mv]) g2

theorem mem_legalsMoves {ms : List Move} (e : g.legalsMoves dbg = .ok ms) {mv : Move} (h : mv ∈ ms) :
    mv = .pass ∨ ∃ x y, mv = .play x y := by
  unfold Game.legalsMoves at e
  obtain ⟨l, _, e⟩ := bind_eq_ok e
  dsimp only at e
  split at e
  · split at e <;> cases e
    · cases h
    · exact Or.inl (List.mem_singleton.1 h)
  · cases e
    obtain ⟨p, _, rfl⟩ := List.mem_map.1 h
    exact Or.inr ⟨_, _, rfl⟩

theorem play_point {x y : Nat} {g' : Game} (e : g.play dbg (.play x y) = .ok g') :
    g'.turn = g.turn.opp ∧ g'.passes = 0 ∧ g'.outcome = g.outcome := by
  rw [play_eq] at e
  obtain ⟨_, _, e⟩ := bind_eq_ok e
  obtain ⟨_, _, e⟩ := bind_eq_ok e
  cases e
  exact ⟨rfl, rfl, rfl⟩

theorem play_pass {g' : Game} (e : g.play dbg .pass = .ok g') :
    g'.turn = g.turn.opp ∧ g'.passes = g.passes + 1 ∧ g'.outcome = g.outcome := by
  obtain ⟨_, _, e⟩ := bind_eq_ok e
  cases e
  exact ⟨rfl, rfl, rfl⟩

/-- **C99**, `is_final`: of every game, a result is recorded or two passes were made in a row. -/
theorem C99_final (g : Game) : g.traitFinal = true ↔ g.outcome ≠ none ∨ 2 ≤ g.passes := by
  unfold Game.traitFinal Game.isOver
  cases g.outcome <;> simp

/-- **C99**, `player_turn`: after a descent of an even number of moves the player of the start is to move, after an odd number the
other one. -/
theorem C99_turn {l : List Move} {g' : Game} (h : Descent dbg g l g') :
    g'.traitTurn = if l.length % 2 = 0 then g.traitTurn else g.traitTurn.opp := by
  unfold Game.traitTurn
  induction h with
  | start => rfl
  | @step l g1 g2 ms mv _ _ e hm e2 ih =>
    have : g2.turn = g1.turn.opp := by
      rcases mem_legalsMoves e hm with rfl | ⟨x, y, rfl⟩
      · exact (play_pass e2).1
      · exact (play_point e2).1
    rw [this, ih, List.length_append, List.length_singleton]
    rcases Nat.mod_two_eq_zero_or_one l.length with h0 | h0
    · rw [if_pos h0, if_neg (by omega)]
    · rw [if_neg (by omega), if_pos (by omega), Color.opp_opp]

/-- The passes at the end of a list of moves. -/
def trailing : List Move → Nat
  | [] => 0
  | .pass :: l => trailing l + 1
  | _ :: _ => 0

theorem Descent.passes {l : List Move} {g' : Game} (h : Descent dbg g l g') (hp : g.passes = 0) :
    g'.passes = trailing l.reverse ∧ g'.outcome = g.outcome := by
  induction h with
  | start => exact ⟨hp, rfl⟩
  | @step l g1 g2 ms mv _ _ e hm e2 ih =>
    rw [List.reverse_append, List.reverse_singleton, List.singleton_append]
    rcases mem_legalsMoves e hm with rfl | ⟨x, y, rfl⟩
    · obtain ⟨_, h2, h3⟩ := play_pass e2
      exact ⟨by rw [h2, ih.1]; rfl, h3.trans ih.2⟩
    · obtain ⟨_, h2, h3⟩ := play_point e2
      exact ⟨by rw [h2]; rfl, h3.trans ih.2⟩

/-- **C99**, the leaves: a descent from a game without recorded result, whose last move was not a pass, has ended exactly when its last
two moves are passes. The search never resigns. -/
theorem C99_leaf {l : List Move} {g' : Game} (h : Descent dbg g l g') (hp : g.passes = 0) (ho : g.outcome = none) :
    (g'.traitFinal = true ↔ ∃ l0, l = l0 ++ [.pass, .pass]) ∧ (∀ c, Move.resign c ∉ l) ∧ g'.outcome = none := by
  obtain ⟨h1, h2⟩ := h.passes hp
  refine ⟨?_, ?_, h2.trans ho⟩
  · rw [C99_final, h2, ho, h1]
    constructor
    · rintro (h | h)
      · exact absurd rfl h
      · match e : l.reverse, h with
        | .pass :: .pass :: r, _ =>
          exact ⟨r.reverse, by rw [← List.reverse_reverse l, e]; simp⟩
        | [], h => exact absurd h (by decide)
        | [.pass], h => exact absurd h (by decide)
        | .pass :: .play _ _ :: _, h => exact absurd h (by unfold trailing trailing; omega)
        | .pass :: .resign _ :: _, h => exact absurd h (by unfold trailing trailing; omega)
        | .play _ _ :: _, h => exact absurd h (by unfold trailing; omega)
        | .resign _ :: _, h => exact absurd h (by unfold trailing; omega)
    · rintro ⟨l0, rfl⟩
      refine Or.inr ?_
      simp only [List.reverse_append, List.reverse_cons, List.reverse_nil, List.nil_append, List.cons_append, trailing]
      omega
  · clear h1 h2
    induction h with
    | start => intro c; simp
    | @step l g1 g2 ms mv _ _ e hm e2 ih =>
      intro c hc
      rcases List.mem_append.1 hc with hc | hc
      · exact ih c hc
      · rw [← List.mem_singleton.1 hc] at hm
        rcases mem_legalsMoves e hm with h | ⟨_, _, h⟩ <;> cases h

/-- What is offered in a legal game that is not final: some move, and each of them can be made and is one `try_play` accepts. -/
theorem Legal.offers (h : Legal dbg n m g) (hm : m < 65535) (hf : g.traitFinal = false) : ∃ ms, g.legalsMoves dbg = .ok ms ∧ ms ≠ [] ∧
    ∀ mv ∈ ms, mv.OnBoard n ∧ ∃ g', g.traitMove dbg mv = .ok g' ∧ g.tryPlay dbg mv = .ok (none, g') := by
  have hps := not_over_passes hf
  obtain ⟨m', hm', hr⟩ := h.reach
  obtain ⟨ms, e, h1, h2, _⟩ := C91_legals_moves hr (by omega) (by omega)
  refine ⟨ms, e, ?_, fun mv hmv => ?_⟩
  · rintro rfl
    have := C46_empty_over e
    rw [show g.isOver = false from hf] at this
    cases this
  · cases mv with
    | pass =>
      have e := tryPlay_pass (dbg := dbg) hps
      exact ⟨trivial, _, C13_accepted_is_play e, e⟩
    | play x y =>
      obtain ⟨_, hc⟩ := (h1 x y).1 hmv
      obtain ⟨g', e⟩ := hc.2.1
      exact ⟨hc.1, g', C13_accepted_is_play e, e⟩
    | resign c => exact absurd hmv (h2 c)

/-- **C99**, the descent: every game the search meets below a legal game is a legal game; in it, unless it is final, at least one move
is offered, each offered move can be made without panic, and is one `try_play` accepts, with the same game as result. -/
theorem C99_descent {l : List Move} {g' : Game} (h : Legal dbg n m g) (hw : Descent dbg g l g') (hm : m + l.length < 65535) :
    Legal dbg n (m + l.length) g' ∧ (g'.traitFinal = false → ∃ ms, g'.legalsMoves dbg = .ok ms ∧ ms ≠ [] ∧
      ∀ mv ∈ ms, ∃ g2, g'.traitMove dbg mv = .ok g2 ∧ g'.tryPlay dbg mv = .ok (none, g2)) := by
  have key : Legal dbg n (m + l.length) g' := by
    induction hw with
    | start => exact h
    | @step l g1 g2 ms mv _ hf e hmv e2 ih =>
      rw [List.length_append, List.length_singleton] at hm ⊢
      have h1 := ih (by omega)
      obtain ⟨ms', e', _, hall⟩ := h1.offers (by omega) hf
      rw [e] at e'; cases e'
      obtain ⟨hon, g3, e3, e4⟩ := hall mv hmv
      rw [e2] at e3; cases e3
      exact .tryPlay h1 hon e4
  refine ⟨key, fun hf => ?_⟩
  obtain ⟨ms, e, hne, hall⟩ := key.offers hm hf
  exact ⟨ms, e, hne, fun mv hmv => (hall mv hmv).2⟩

/-- **C99**, `get_winner`: it panics on a game that is not final, and gives the recorded winner of a game with a recorded result,
panicking if that is a draw; after two passes it gives the side with the larger score, panicking exactly when the scores differ by less
than 2^-23; with an infinite komi that counts the side the komi favours, with one that is not a number White. -/
theorem C99_winner (h : Reach dbg n m g) {ord : List Point → List Point} (hord : ∀ l, (ord l).Perm l) :
    (g.traitFinal = false → g.traitWinner dbg ord = panic) ∧
    (∀ c, (g.outcome = some (.winnerByResign c) ∨ g.outcome = some (.winnerByTime c) ∨ g.outcome = some (.winnerByForfeit c) ∨
      ∃ s, g.outcome = some (.winnerByScore c s)) → g.traitWinner dbg ord = .ok c) ∧
    (g.outcome = some .draw → g.traitWinner dbg ord = panic) ∧
    (g.outcome = none → 2 ≤ g.passes → (∀ v, g.rule.komi = .fin v → Spec.Single v) →
      (g.rule.flagScore.komi = true → ∃ v, g.rule.komi = .fin v) → ∃ b w : Rat,
      g.calculateScore dbg ord = .ok (.fin b, .fin w) ∧
      (g.traitWinner dbg ord = .ok .black ↔ w < b ∧ 2 ^ (-23 : Int) ≤ Spec.dist b w) ∧
      (g.traitWinner dbg ord = .ok .white ↔ b < w ∧ 2 ^ (-23 : Int) ≤ Spec.dist b w) ∧
      (g.traitWinner dbg ord = panic ↔ Spec.dist b w < 2 ^ (-23 : Int))) ∧
    (g.outcome = none → 2 ≤ g.passes → g.rule.flagScore.komi = true →
      (∀ s, g.rule.komi = .inf s → g.traitWinner dbg ord = .ok (if s then .black else .white)) ∧
      (g.rule.komi = .nan → g.traitWinner dbg ord = .ok .white)) := by
  obtain ⟨tb, tw, et, hb, hw⟩ := h.counted hord
  refine ⟨fun hf => ?_, fun c hc => ?_, fun hc => ?_, fun ho hp hs hk => ?_, fun ho hp hf => ⟨fun s hk => ?_, fun hk => ?_⟩⟩
  · obtain ⟨o, e, ho⟩ := C22_none_iff h hord
    have : o = none := ho.2 (by
      have := (not_congr (C99_final g)).1 (by rw [hf]; simp)
      simpa using this)
    unfold Game.traitWinner
    rw [e, this]; rfl
  · unfold Game.traitWinner
    rcases hc with hc | hc | hc | ⟨s, hc⟩ <;> (rw [C22_recorded hc]; rfl)
  · unfold Game.traitWinner
    rw [C22_recorded hc]; rfl
  · obtain ⟨b, w, e, h1, h2, h3⟩ := (outcome_of h.tally ho hp et hb hw).1 hs hk
    refine ⟨b, w, e, ?_⟩
    unfold Game.traitWinner
    by_cases hd : Spec.dist b w < 2 ^ (-23 : Int)
    · rw [h1 hd]
      exact ⟨⟨fun h => (by cases h), fun h => absurd h.2 (by grind)⟩, ⟨fun h => (by cases h), fun h => absurd h.2 (by grind)⟩, ⟨fun _ => hd, fun _ => rfl⟩⟩
    · have hd' : (2 : Rat) ^ (-23 : Int) ≤ Spec.dist b w := by grind
      rcases (by grind : b < w ∨ b = w ∨ w < b) with hlt | rfl | hlt
      · obtain ⟨d, e3, _⟩ := h3 hd' hlt
        rw [e3]
        exact ⟨⟨fun h => (by cases h), fun h => absurd h.1 (by grind)⟩, ⟨fun _ => ⟨hlt, hd'⟩, fun _ => rfl⟩, ⟨fun h => (by cases h), fun h => (by grind)⟩⟩
      · exfalso
        apply hd
        unfold Spec.dist
        rw [Rat.sub_self, ite_self]
        decide +kernel
      · obtain ⟨d, e3, _⟩ := h2 hd' hlt
        rw [e3]
        exact ⟨⟨fun _ => ⟨hlt, hd'⟩, fun _ => rfl⟩, ⟨fun h => (by cases h), fun h => absurd h.1 (by grind)⟩, ⟨fun h => (by cases h), fun h => (by grind)⟩⟩
  · unfold Game.traitWinner
    rw [(outcome_of h.tally ho hp et hb hw).2.1 hf s hk]
    rfl
  · unfold Game.traitWinner
    rw [(outcome_of h.tally ho hp et hb hw).2.2 hf hk]
    rfl

/-- The value of a leaf for one side is 1 exactly if it is 0 for the other: no leaf is won by both or, if it can be evaluated, by none. -/
theorem C99_zero_sum {ord : List Point → List Point} (c : Color) (v : Nat) :
    g.evaluateLeaf dbg ord c = .ok v ↔ v ≤ 1 ∧ g.evaluateLeaf dbg ord c.opp = .ok (1 - v) := by
  unfold Game.evaluateLeaf
  cases g.traitWinner dbg ord with
  | error e => exact ⟨fun h => (by cases h), fun h => by cases (h.2 : (.error e : M Nat) = _)⟩
  | ok w =>
    simp only [ok_bind, Except.ok.injEq]
    cases w <;> cases c <;> simp [Color.opp] <;> omega

/-- Makes the moves of a descent, checking that each is offered. -/
def descend (dbg : Bool) : List Move → Game → M (Option Game)
  | [], g => .ok (some g)
  | mv :: l, g => do
    let ms ← g.legalsMoves dbg
    if g.traitFinal = false ∧ mv ∈ ms then descend dbg l (← g.traitMove dbg mv) else .ok none

theorem Descent.of_descend : ∀ (l l0 : List Move) {g1 g' : Game}, Descent dbg g l0 g1 → descend dbg l g1 = .ok (some g') →
    Descent dbg g (l0 ++ l) g'
  | [], l0, g1, g', h, e => by cases e; rwa [List.append_nil]
  | mv :: l, l0, g1, g', h, e => by
    unfold descend at e
    obtain ⟨ms, e1, e⟩ := bind_eq_ok e
    split at e
    · rename_i hc
      obtain ⟨g2, e2, e⟩ := bind_eq_ok e
      have := Descent.of_descend l _ (h.step hc.1 e1 hc.2 e2) e
      rwa [List.append_assoc] at this
    · cases e

/-- **C99**, a descent to a leaf that Black has won, on the 3 × 3 board: twelve stones, with captures and a pass among them, and the two
passes that end it. -/
theorem C99_example (dbg : Bool) : ∃ g g', Legal dbg 3 0 g ∧ g.passes = 0 ∧ g.outcome = none ∧
    Descent dbg g [.play 0 2, .play 0 1, .play 0 0, .play 1 2, .play 1 1, .play 0 2, .play 2 1, .play 2 0, .play 1 0, .pass, .play 2 2,
      .play 0 1, .play 0 2, .pass, .pass] g' ∧
    g'.traitFinal = true ∧ g'.traitTurn = .white ∧ g'.traitWinner dbg id = .ok .black ∧ g'.evaluateLeaf dbg id .white = .ok 0 := by
  have : ∃ g, Legal dbg 3 0 g ∧ (g.passes = 0 ∧ g.outcome = none ∧ okAnd (descend dbg [.play 0 2, .play 0 1, .play 0 0, .play 1 2,
      .play 1 1, .play 0 2, .play 2 1, .play 2 0, .play 1 0, .pass, .play 2 2, .play 0 1, .play 0 2, .pass, .pass] g) (fun o => match o with
        | some g' => g'.traitFinal = true ∧ g'.traitTurn = .white ∧ g'.traitWinner dbg id = .ok .black ∧ g'.evaluateLeaf dbg id .white = .ok 0
        | none => false) = true : Bool) = true :=
    mkGame_exists (rule := JAPANESE) (l := []) (by decide) (by cases dbg <;> decide +kernel)
  obtain ⟨g, hg, h⟩ := this
  simp only [decide_eq_true_eq] at h
  obtain ⟨h1, h2, h3⟩ := h
  obtain ⟨o, e, h3⟩ := okAnd_iff.1 h3
  cases o with
  | none => cases h3
  | some g' => exact ⟨g, g', hg, h1, h2, .of_descend _ [] .start e, of_decide_eq_true h3⟩

/-- **C99**, beyond the end: `legals_moves` lists moves of a final game as well, after two passes and after a resignation; only
`is_final` tells the search to stop. -/
theorem C99_beyond (dbg : Bool) :
    (∃ g, Legal dbg 2 2 g ∧ g.traitFinal = true ∧ g.legalsMoves dbg = .ok [.play 0 0, .play 0 1, .play 1 0, .play 1 1]) ∧
    ∃ g, Legal dbg 2 1 g ∧ g.traitFinal = true ∧ g.traitWinner dbg id = .ok .white ∧
      g.legalsMoves dbg = .ok [.play 0 0, .play 0 1, .play 1 0, .play 1 1] := by
  constructor
  · have : ∃ g, Legal dbg 2 2 g ∧ (g.traitFinal = true ∧ g.legalsMoves dbg = .ok [.play 0 0, .play 0 1, .play 1 0, .play 1 1] : Bool) = true :=
      mkGame_exists (rule := JAPANESE) (l := [.try_ .pass, .try_ .pass]) (by decide) (by cases dbg <;> decide +kernel)
    obtain ⟨g, hg, h⟩ := this
    exact ⟨g, hg, of_decide_eq_true h⟩
  · have : ∃ g, Legal dbg 2 1 g ∧ (g.traitFinal = true ∧ g.traitWinner dbg id = .ok .white ∧
        g.legalsMoves dbg = .ok [.play 0 0, .play 0 1, .play 1 0, .play 1 1] : Bool) = true :=
      mkGame_exists (rule := JAPANESE) (l := [.try_ (.resign .white)]) (by decide) (by cases dbg <;> decide +kernel)
    obtain ⟨g, hg, h⟩ := this
    exact ⟨g, hg, of_decide_eq_true h⟩

end Model
