import Verif.Proofs.Refine
import Verif.Props.Support
/-!
# Properties of games: C09–C18

`Reach dbg n m g`: `g` is reached with the public calls, `play` being used on empty on-board points only.
`Legal dbg n m g`: `g` is reached with `try_play`, `resume` and `set_komi` from a fresh game without dead groups.
`Safe full x P`: the call `x` returns a value with `P`, or it panics and `full` holds; in the theorems `full` is always
`65535 ≤ m`, the limit of C27.
-/

namespace Model
open Spec (OnBoard Adj Linked HasLiberty NoDead place SameOn Pos Suicide State)

variable {dbg : Bool} {n : Dim} {m : Nat} {g : Game}

/-- A game used by the examples: a ko has just been taken on a 4 × 4 board. -/
def exKo : List GOp :=
  [.try_ (.play 0 1), .try_ (.play 0 2), .try_ (.play 1 0), .try_ (.play 1 3), .try_ (.play 2 1), .try_ (.play 2 2),
   .try_ (.play 3 3), .try_ (.play 1 1), .try_ (.play 1 2)]

/-! ## C09 -/

theorem Reach.full (h : Reach dbg n m g) (hf : g.Full) : 65535 ≤ m := by
  have := h.spec.board.inv.2
  unfold Game.Full at hf
  omega

theorem Reach.play_full (h : Reach dbg n m g) {x y : Nat} (hp : OnBoard n (x, y)) (he : g.goban.getColor (x, y) = .ok none) :
    Safe g.Full (g.play dbg (.play x y)) (fun g' => ∃ s, MoveSpec n g.goban (!g.rule.flagIllegal.suicide) (x, y) g.turn s ∧
      g'.goban = s.goban ∧ g'.turn = g.turn.opp ∧ g'.passes = 0 ∧ g'.rule = g.rule ∧ g'.outcome = g.outcome ∧
      g'.prisoners = (g.prisoners.1 + s.removed.1, g.prisoners.2 + s.removed.2)) := by
  have hs := h.spec
  have hI := h.inv
  rw [play_eq]
  obtain ⟨l', el, _⟩ := historyInsert_ok hI g.history (fun b hb => by
    obtain ⟨m', _, hb'⟩ := hs.history b hb
    exact hb'.inv.1)
  rw [el, ok_bind]
  refine Safe.bind (move_total (dbg := dbg) hI hp ((getColor_none hI hp).1 he)) ?_
  intro s hs
  exact Safe.ok ⟨s, hs, rfl, rfl, rfl, rfl, rfl, rfl⟩

theorem Reach.play_spec (h : Reach dbg n m g) {x y : Nat} (hp : OnBoard n (x, y)) (he : g.goban.getColor (x, y) = .ok none) :
    Safe (65535 ≤ m) (g.play dbg (.play x y)) (fun g' => ∃ s, MoveSpec n g.goban (!g.rule.flagIllegal.suicide) (x, y) g.turn s ∧
      g'.goban = s.goban ∧ g'.turn = g.turn.opp ∧ g'.passes = 0 ∧ g'.rule = g.rule ∧ g'.outcome = g.outcome ∧
      g'.prisoners = (g.prisoners.1 + s.removed.1, g.prisoners.2 + s.removed.2)) :=
  (h.play_full hp he).weaken h.full

/-- **C09**, on every reachable game: `play` on an empty point puts the stone, removes exactly the opposing groups next to it
that have no liberty left, then, iff the rule allows suicide, the group of the stone if that has no liberty; all other points
are unchanged (`Spec.playLocal`). -/
theorem C09_play_local (h : Reach dbg n m g) {x y : Nat} (hp : OnBoard n (x, y)) (he : g.goban.getColor (x, y) = .ok none) :
    Safe (65535 ≤ m) (g.play dbg (.play x y)) (fun g' =>
      SameOn n g'.goban.view (Spec.playLocal n (!g.rule.flagIllegal.suicide) g.goban.view (x, y) g.turn)) :=
  (h.play_spec hp he).mono (fun g' ⟨s, hs, e, _⟩ => by rw [e]; exact hs.view)

/-- **C09**, the rule of the book: when no group was without liberties before, every opposing group without liberties is
removed, wherever it is, and then, iff the rule allows suicide, every own group without liberties. -/
theorem C09_play (h : Reach dbg n m g) (hd : NoDead n g.goban.view) {x y : Nat} (hp : OnBoard n (x, y))
    (he : g.goban.getColor (x, y) = .ok none) :
    Safe (65535 ≤ m) (g.play dbg (.play x y)) (fun g' =>
      SameOn n g'.goban.view (Spec.play n (!g.rule.flagIllegal.suicide) g.goban.view (x, y) g.turn)) :=
  (C09_play_local h hp he).mono (fun _ hv =>
    SameOn.trans hv (playLocal_eq_play _ hd hp ((getColor_none h.inv hp).1 he)))

theorem Legal.reach (h : Legal dbg n m g) : ∃ m', m' ≤ m ∧ Reach dbg n m' g := by
  induction h with
  | fresh hf _ => exact ⟨_, Nat.le_refl _, .fresh hf⟩
  | @tryPlay m g mv e g' h hmv e1 ih =>
    obtain ⟨m', hm', hr⟩ := ih
    unfold Game.tryPlay at e1
    split at e1
    · cases e1; exact ⟨m', by omega, hr⟩
    · cases mv with
      | pass =>
        obtain ⟨g1, e2, e1⟩ := bind_eq_ok e1
        cases e1; exact ⟨m', by omega, .pass hr e2⟩
      | resign c =>
        obtain ⟨g1, e2, e1⟩ := bind_eq_ok e1
        cases e1; exact ⟨m', by omega, .resign hr e2⟩
      | play x y =>
        dsimp only at e1
        obtain ⟨col, e0, e1⟩ := bind_eq_ok e1
        split at e1
        · cases e1; exact ⟨m', by omega, hr⟩
        · rename_i hc
          have hc := Classical.not_not.1 hc
          subst hc
          obtain ⟨e3, e4, e1⟩ := bind_eq_ok e1
          cases e3 with
          | some e5 => cases e1; exact ⟨m', by omega, hr⟩
          | none =>
            obtain ⟨g1, e2, e1⟩ := bind_eq_ok e1
            cases e1
            exact ⟨m' + 1, by omega, .play hr hmv e0 e2⟩
  | resume h ih => obtain ⟨m', hm', hr⟩ := ih; exact ⟨m', hm', .resume hr⟩
  | setKomi h ih => obtain ⟨m', hm', hr⟩ := ih; exact ⟨m', hm', .setKomi hr⟩

theorem Safe.legal {α} {m' : Nat} {x : M α} {P : α → Prop} (h : Safe (65535 ≤ m') x P) (hm : m' ≤ m) : Safe (65535 ≤ m) x P :=
  h.weaken (fun h => by omega)

/-- Non-vacuity of C09–C14: a legal game with a ko, an empty point and stones of both colours. -/
example : ∃ g, Legal true 4 9 g ∧ (g.goban.getColor (1, 1) = .ok none ∧ g.prisoners = (1, 0) ∧
    g.checkKo true { coord := (1, 1), color := .white } = .ok true : Bool) = true :=
  mkGame_exists (rule := JAPANESE) (l := exKo) (by decide) (by decide +kernel)

/-! ## C10 -/

/-- **C10**. Games played with `try_play` never show a group without liberties, whatever the rule and the calls. -/
theorem C10_no_dead_groups (h : Legal dbg n m g) : NoDead n g.goban.view := by
  obtain ⟨o, s, m', _, _, hs⟩ := h.sim
  exact hs.noDead'

/-! ## C11 -/

theorem playLocal_sub {pos : Pos} {s : Bool} {p : Coord} {c : Color} (q : Coord) :
    Spec.playLocal n s pos p c q = none ∨ Spec.playLocal n s pos p c q = place pos p c q := by
  have h1 : ∀ q, Spec.captureAround n (place pos p c) p c.opp q = none ∨
      Spec.captureAround n (place pos p c) p c.opp q = place pos p c q := by
    intro q; unfold Spec.captureAround; split
    · exact Or.inl rfl
    · exact Or.inr rfl
  unfold Spec.playLocal
  split
  · unfold Spec.removeGroupIfDead; split
    · exact Or.inl rfl
    · exact h1 q
  · exact h1 q

/-- **C11**, one move: `prisoners().0` grows by the number of white stones that vanish and `prisoners().1` by the number of
black stones that vanish (stones that are there once the stone is put and gone after the move). -/
theorem C11_play (h : Reach dbg n m g) {x y : Nat} (hp : OnBoard n (x, y)) (he : g.goban.getColor (x, y) = .ok none) :
    Safe (65535 ≤ m) (g.play dbg (.play x y)) (fun g' =>
      g'.prisoners.1 = g.prisoners.1 + Spec.vanished n (place g.goban.view (x, y) g.turn) g'.goban.view .white ∧
      g'.prisoners.2 = g.prisoners.2 + Spec.vanished n (place g.goban.view (x, y) g.turn) g'.goban.view .black) := by
  refine (h.play_spec hp he).mono ?_
  rintro g' ⟨s, hs, e1, _, _, _, _, e2⟩
  have key : ∀ c, removedOf s.removed c = Spec.vanished n (place g.goban.view (x, y) g.turn) g'.goban.view c := by
    intro c
    have h1 := hs.cnt c
    rw [cnt_eq_count h.inv, cnt_eq_count hs.inv] at h1
    have h2 := count_place (c := g.turn) hp ((getColor_none h.inv hp).1 he) c
    have h3 := count_vanished (n := n) (a := place g.goban.view (x, y) g.turn) (b := s.goban.view)
      (fun q hq => by rw [hs.view q hq]; exact playLocal_sub q) c
    rw [e1]
    omega
  rw [e2]
  exact ⟨by rw [← key .white]; rfl, by rw [← key .black]; rfl⟩

theorem Plays.reach {g0 g : Game} {b w : Nat} (h : Plays dbg n g0 b w g) {m0 : Nat} (hf : Fresh dbg n m0 g0) :
    ∃ m, Reach dbg n m g := by
  induction h with
  | start => exact ⟨_, .fresh hf⟩
  | play _ hp he e ih => obtain ⟨m, ih⟩ := ih; exact ⟨_, .play ih hp he e⟩
  | pass _ e ih => obtain ⟨m, ih⟩ := ih; exact ⟨_, .pass ih e⟩
  | resign _ e ih => obtain ⟨m, ih⟩ := ih; exact ⟨_, .resign ih e⟩
  | resume _ ih => obtain ⟨m, ih⟩ := ih; exact ⟨_, .resume ih⟩
  | setKomi _ ih => obtain ⟨m, ih⟩ := ih; exact ⟨_, .setKomi ih⟩

/-- **C11**, whole games: the black stones played plus those of the start are the black stones on the board plus the black
prisoners; the same for white. -/
theorem C11_conservation {g0 : Game} {m0 b w : Nat} (hf : Fresh dbg n m0 g0) (h : Plays dbg n g0 b w g) :
    g.goban.numberOfStones.1 + g.prisoners.2 = g0.goban.numberOfStones.1 + b ∧
    g.goban.numberOfStones.2 + g.prisoners.1 = g0.goban.numberOfStones.2 + w := by
  have count : ∀ {g : Game} {m : Nat}, Reach dbg n m g → g.goban.numberOfStones =
      (cnt g.goban.col .black 361, cnt g.goban.col .white 361) := by
    intro g m hr
    rw [numberOfStones_ok hr.inv, cnt_eq_count hr.inv, cnt_eq_count hr.inv]
  induction h with
  | start => rw [hf.spec.prisoners]; exact ⟨rfl, rfl⟩
  | @play b w g x y g' h hp he e ih =>
    obtain ⟨m, hr⟩ := Plays.reach h hf
    obtain ⟨s, hs, e1, _, _, _, _, e2⟩ := (hr.play_spec hp he).of_ok e
    have hw := hs.cnt .white
    have hb := hs.cnt .black
    rw [count hr] at ih
    rw [count (.play hr hp he e), e1, e2]
    unfold removedOf at hw hb
    have t1 : (if Color.black = g.turn then 1 else 0) = (if g.turn = .black then 1 else 0) := by simp only [eq_comm]
    have t2 : (if Color.white = g.turn then 1 else 0) = (if g.turn = .white then 1 else 0) := by simp only [eq_comm]
    rw [t1] at hb
    rw [t2] at hw
    dsimp only at hw hb ih ⊢
    omega
  | pass h e ih =>
    unfold Game.play at e
    obtain ⟨_, _, e⟩ := bind_eq_ok e
    cases e; exact ih
  | resign h e ih => cases e; exact ih
  | resume h ih => exact ih
  | setKomi h ih => exact ih

/-- Non-vacuity of `C11_conservation`: a capture on a 2 × 2 board. -/
theorem exCapture : ∃ g0 g, Fresh true 2 0 g0 ∧ Plays true 2 g0 2 1 g ∧ (g.prisoners = (1, 0) ∧ g.goban.numberOfStones = (2, 0) : Bool) := by
  obtain ⟨g0, e0, h0⟩ : ∃ g0, Game.new (.custom 2 2) CHINESE = .ok g0 ∧ okAnd (do
      let g1 ← g0.play true (.play 0 1)
      let g2 ← g1.play true (.play 0 0)
      let g3 ← g2.play true (.play 1 0)
      .ok (g1, g2, g3)) (fun r => g0.goban.getColor (0, 1) = .ok none ∧ r.1.goban.getColor (0, 0) = .ok none ∧
        r.2.1.goban.getColor (1, 0) = .ok none ∧ g0.turn = .black ∧ r.1.turn = .white ∧ r.2.1.turn = .black ∧
        r.2.2.prisoners = (1, 0) ∧ r.2.2.goban.numberOfStones = (2, 0)) = true :=
    ⟨_, rfl, by decide +kernel⟩
  obtain ⟨⟨g1, g2, g3⟩, e, h⟩ := okAnd_iff.1 h0
  obtain ⟨x1, e1, e⟩ := bind_eq_ok e
  obtain ⟨x2, e2, e⟩ := bind_eq_ok e
  obtain ⟨x3, e3, e⟩ := bind_eq_ok e
  cases e
  simp only [decide_eq_true_eq] at h
  obtain ⟨a1, a2, a3, t1, t2, t3, a4, a5⟩ := h
  refine ⟨g0, g3, new_fresh (by decide) e0, ?_, by simp [a4, a5]⟩
  have := Plays.play (dbg := true) (n := 2) (g0 := g0) (Plays.play (Plays.play Plays.start (by decide) a1 e1) (by decide) a2 e2) (by decide) a3 e3
  simpa [t1, t2, t3] using this

/-! ## C12 -/

/-- **C12**. `check_suicide` is exact, for either colour. -/
theorem C12_check_suicide (h : Reach dbg n m g) (hd : NoDead n g.goban.view) {p : Coord} (hp : OnBoard n p)
    (he : g.goban.getColor p = .ok none) (c : Color) :
    ∃ b, g.checkSuicide dbg { coord := p, color := c } = .ok b ∧ (b = true ↔ Suicide n g.goban.view p c) :=
  checkSuicide_ok h.inv hd hp ((getColor_none h.inv hp).1 he)

/-- Both answers occur. -/
example : ∃ g, Legal false 3 3 g ∧ (g.goban.getColor (0, 0) = .ok none ∧
    g.checkSuicide false { coord := (0, 0), color := .white } = .ok true ∧
    g.checkSuicide false { coord := (0, 0), color := .black } = .ok false : Bool) = true :=
  mkGame_exists (rule := CHINESE) (l := [.try_ (.play 0 1), .try_ (.play 2 2), .try_ (.play 1 0)]) (by decide) (by decide +kernel)

/-! ## C13 -/

/-- **C13**, on any game at all: a refused call changes nothing. -/
theorem C13_refused_unchanged {mv : Move} {e : PlayError} {g' : Game} (h : g.tryPlay dbg mv = .ok (some e, g')) : g' = g := by
  unfold Game.tryPlay at h
  split at h
  · cases h; rfl
  · cases mv with
    | pass =>
      obtain ⟨g1, _, h⟩ := bind_eq_ok h
      cases h
    | resign c =>
      obtain ⟨g1, _, h⟩ := bind_eq_ok h
      cases h
    | play x y =>
      obtain ⟨col, _, h⟩ := bind_eq_ok h
      split at h
      · cases h; rfl
      · obtain ⟨e3, _, h⟩ := bind_eq_ok h
        cases e3 with
        | some e5 => cases h; rfl
        | none =>
          obtain ⟨g1, _, h⟩ := bind_eq_ok h
          cases h

/-- **C13**, on any game at all: an accepted call does what `play` does. -/
theorem C13_accepted_is_play {mv : Move} {g' : Game} (h : g.tryPlay dbg mv = .ok (none, g')) : g.play dbg mv = .ok g' := by
  unfold Game.tryPlay at h
  split at h
  · cases h
  · cases mv with
    | pass =>
      obtain ⟨g1, e, h⟩ := bind_eq_ok h
      cases h; exact e
    | resign c =>
      obtain ⟨g1, e, h⟩ := bind_eq_ok h
      cases h; exact e
    | play x y =>
      obtain ⟨col, _, h⟩ := bind_eq_ok h
      split at h
      · cases h
      · obtain ⟨e3, _, h⟩ := bind_eq_ok h
        cases e3 with
        | some e5 => cases h
        | none =>
          obtain ⟨g1, e, h⟩ := bind_eq_ok h
          cases h; exact e

/-- **C13**, paused: while two passes are pending every call is refused with `GamePaused`. -/
theorem C13_paused (h : g.passes = 2) (mv : Move) : g.tryPlay dbg mv = .ok (some .gamePaused, g) := by
  unfold Game.tryPlay
  rw [if_pos h]

open Classical in
/-- **C13**, decision list: on a legal game that is not paused, `try_play` at an on-board point answers, in this order,
`PointNotEmpty` iff the point is occupied, `Suicide` iff the rule forbids suicide and the move is suicide, `Ko` iff the rule
forbids ko and `check_ko` (C14) says so, `FillEye` iff the rule forbids filling eyes and the point is an eye (C31), `Ko` iff
the rule forbids super-ko and `check_super_ko` (C15) says so, and otherwise `Ok`. -/
theorem C13_decision (h : Legal dbg n m g) (hps : g.passes ≠ 2) {x y : Nat} (hp : OnBoard n (x, y)) :
    Safe (65535 ≤ m) (g.tryPlay dbg (.play x y)) (fun r => r.1 =
      if g.goban.view (x, y) ≠ none then some .pointNotEmpty
      else if g.rule.flagIllegal.suicide = true ∧ Suicide n g.goban.view (x, y) g.turn then some .suicide
      else if g.rule.flagIllegal.ko = true ∧ g.checkKo dbg { coord := (x, y), color := g.turn } = .ok true then some .ko
      else if g.rule.flagIllegal.fillEye = true ∧ Spec.Eye n g.goban.view g.turn (x, y) then some .fillEye
      else if g.rule.flagIllegal.superko = true ∧ g.checkSuperKo dbg { coord := (x, y), color := g.turn } = .ok true
        then some .ko
      else none) := by
  obtain ⟨o, s, m', hm', hps2, hs⟩ := h.sim
  have hf : g.Full → 65535 ≤ m := fun hf => by have := hs.full hf; omega
  have hpos := hs.pos (x, y) hp
  rw [hs.tryPlay_play hp, if_neg (by rw [← hs.passes]; exact hps), ← hpos]
  by_cases he : g.goban.view (x, y) ≠ none
  · rw [if_pos he, if_pos he]; exact Safe.ok rfl
  rw [if_neg he, if_neg he]
  have he := Classical.not_not.1 he
  have he' : s.pos (x, y) = none := by rw [← hpos]; exact he
  obtain ⟨bs, e1, hsu⟩ := checkSuicide_ok (dbg := dbg) (c := g.turn) hs.inv hs.noDead' hp he
  obtain ⟨bk, e2, _⟩ := hs.checkKo hp he'
  obtain ⟨be, e3, hy⟩ := checkEye_ok (dbg := dbg) (c := g.turn) hs.inv hp
  have hq := (hs.checkSuperKo (dbg := dbg) hp he' true).weaken hf
  rw [checkPointBy_eq ((getColor_none hs.inv hp).2 he) e1 e2 e3, ← hsu, ← hy, e2]
  simp only [Bool.and_eq_true, Except.ok.injEq]
  by_cases h1 : g.rule.flagIllegal.suicide = true ∧ bs = true
  · rw [if_pos h1, if_pos h1]; exact Safe.ok rfl
  rw [if_neg h1, if_neg h1]
  by_cases h2 : g.rule.flagIllegal.ko = true ∧ bk = true
  · rw [if_pos h2, if_pos h2]; exact Safe.ok rfl
  rw [if_neg h2, if_neg h2]
  by_cases h3 : g.rule.flagIllegal.fillEye = true ∧ be = true
  · rw [if_pos h3, if_pos h3]; exact Safe.ok rfl
  rw [if_neg h3, if_neg h3]
  have hns : g.rule.flagIllegal.suicide = true → ¬ Suicide n s.pos (x, y) s.turn := by
    intro h4 h5
    exact h1 ⟨h4, hsu.2 (by rw [hs.turn]; exact (suicide_congr hs.pos hp _).2 h5)⟩
  have hpl : Safe (65535 ≤ m) (do let g' ← g.play dbg (.play x y); .ok ((none : Option PlayError), g')) (fun r => r.1 = none) :=
    Safe.bind ((hs.play (dbg := dbg) hp he' hns).weaken hf) (fun g' _ => Safe.ok rfl)
  by_cases h4 : g.rule.flagIllegal.superko = true
  · rw [if_pos h4]
    rcases hq with ⟨bq, e4, _⟩ | ⟨e4, hfull⟩
    · rw [e4]
      simp only [h4, true_and, Except.ok.injEq]
      cases bq with
      | true => exact Safe.ok rfl
      | false => exact hpl
    · exact Or.inr ⟨by rw [e4]; rfl, hfull⟩
  · rw [if_neg h4, if_neg (fun h' => h4 h'.1)]
    exact hpl

/-- The five refusals and the acceptance all occur. -/
example : ∃ g, Legal true 4 9 g ∧ ((g.tryPlay true (.play 1 1)).toOption.map (·.1) = some (some .ko) ∧
    (g.tryPlay true (.play 0 0)).toOption.map (·.1) = some (some .suicide) ∧
    (g.tryPlay true (.play 1 2)).toOption.map (·.1) = some (some .pointNotEmpty) ∧
    (g.tryPlay true (.play 3 0)).toOption.map (·.1) = some none : Bool) = true :=
  mkGame_exists (rule := JAPANESE) (l := exKo) (by decide) (by decide +kernel)

end Model
