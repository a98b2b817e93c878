import Verif.Props.SmallBoards
/-!
# Where suicide is allowed, and exactly which boards and rules: C72

A suicide changes nothing on the board, captures nothing, and takes a group record: super-ko does not look at it.
-/

namespace Model
open Spec (OnBoard Adj Linked HasLiberty NoDead place SameOn Pos Suicide State Call)

variable {dbg : Bool} {n : Dim} {m : Nat} {o : Option EndGame} {g : Game} {s : State}

/-- A play that captures nothing and is not suicide, ko or an eye is accepted, whatever was played before. -/
theorem quiet_ok {r : Spec.Forbidden} {p : Coord} (hps : s.passes ≤ 1) (he : s.pos p = none)
    (hsu : r.suicide = true → ¬ Suicide n s.pos p s.turn) (hb : ∀ b, s.before = some b → b p = none) (hp : OnBoard n p)
    (hey : r.fillEye = true → ¬ Spec.Eye n s.pos s.turn p) (hc : ¬ Spec.Captures n s.pos p s.turn) :
    Spec.answerSeen n r s (.play p) = .ok := by
  unfold Spec.answerSeen
  dsimp only
  rw [if_neg (by omega), if_neg (by simp [he]), if_neg, if_neg, if_neg, if_neg]
  · rintro ⟨_, _, h, _⟩
    exact hc h
  · rintro ⟨h1, h2⟩
    exact hey h1 h2
  · rintro ⟨_, ⟨b, hb', h1⟩, _⟩
    have := ((h1 _ hp).2 rfl).1
    rw [hb b hb'] at this
    cases this
  · rintro ⟨h1, h2⟩
    exact hsu h1 h2

theorem Steps.legal {g' : Game} (h : Legal dbg n m g) (hs : Steps dbg n g g') : ∃ m', Legal dbg n m' g' := by
  obtain ⟨ms, es, a1, a2, _, _⟩ := hs
  exact Legal.run _ h (onBoard_map a1) a2

/-- A legal game in an abstract state. -/
structure At (dbg : Bool) (n : Dim) (o : Option EndGame) (g : Game) (s : State) : Prop where
  legal : ∃ m, Legal dbg n m g
  sim : ∃ m, Sim dbg n m o g s

/-- A stone that the abstract game accepts, then a pass of the other player. -/
theorem At.stone_pass (h : At dbg n o g s) {p : Coord} (hp : OnBoard n p) (hps : s.passes ≤ 1)
    (ha : Spec.answerSeen n g.rule.flagIllegal.forbidden s (.play p) = .ok) :
    Crash dbg n g ∨ ∃ g' s', Steps dbg n g g' ∧ At dbg n o g' s' ∧ s'.pos = Spec.play n (!g.rule.flagIllegal.suicide) s.pos p s.turn ∧
      s'.turn = s.turn ∧ s'.passes = 1 ∧ s'.before = none ∧ g'.rule.flagIllegal = g.rule.flagIllegal ∧
      g.goban.age n < g'.goban.age n := by
  obtain ⟨⟨m, hl⟩, m1, hs⟩ := h
  rcases hs.make (.play p.1 p.2) hp (by omega) ha with h1 | ⟨g1, m2, e, h1, h2⟩
  · exact Or.inl h1
  have st1 : Steps dbg n g g1 := Steps.one (mv := .play p.1 p.2) hp nofun e
  obtain ⟨m3, hl1⟩ := st1.legal hl
  have a1 := (call_age hl (c := .try_ (.play p.1 p.2)) hp e).2 ⟨_, _, rfl⟩ rfl
  rcases h1.make .pass trivial (by show 0 ≤ 2; omega) rfl with h3 | ⟨g2, m4, e2, h3, h4⟩
  · exact Or.inl (h3.after st1)
  have st2 : Steps dbg n g1 g2 := Steps.one (mv := .pass) trivial nofun e2
  have a2 := (call_age hl1 (c := .try_ .pass) trivial e2).1
  refine Or.inr ⟨g2, _, st1.trans st2, ⟨st2.legal hl1, m4, h3⟩, rfl, ?_, rfl, rfl, h4.trans h2, by omega⟩
  show s.turn.opp.opp = s.turn
  exact Color.opp_opp _

/-- What can always be gone on with, making the board older every time, ends in a panic. -/
theorem crash_of_loop (I : Game → Prop) (hI : ∀ g, I g → (∃ m, Legal dbg n m g) ∧
      (Crash dbg n g ∨ ∃ g', Steps dbg n g g' ∧ I g' ∧ g.goban.age n < g'.goban.age n)) : ∀ (d : Nat) (g : Game),
    lifeOf n - g.goban.age n = d → I g → Crash dbg n g := by
  intro d
  induction d using Nat.strongRecOn with
  | ind d ih =>
    intro g hd h
    obtain ⟨⟨m, hl⟩, h1⟩ := hI g h
    rcases h1 with h1 | ⟨g', st, h', ha⟩
    · exact h1
    · obtain ⟨_, hl'⟩ := st.legal hl
      obtain ⟨_, _, hr⟩ := hl'.reach
      have hb : g'.goban.age n ≤ lifeOf n := age_le hr.inv
      exact (ih _ (by omega) g' rfl h').after st

/-! ### The corner -/

/-- White stones next to the corner, and nothing else. -/
def trap : Pos := fun q => if q = (1, 0) ∨ q = (0, 1) then some .white else none

/-- The stones of the trap have liberties that are not the corner. -/
theorem trap_free (hn : n.area ≠ 2) (hw : n.w ≤ n.h) {q : Coord} (hq : OnBoard n q) (ht : trap q = some .white) :
    HasLiberty n (place trap (0, 0) .black) q := by
  have hq' : q = (1, 0) ∨ q = (0, 1) := by
    unfold trap at ht
    split at ht
    · assumption
    · cases ht
  have hon : q.1 < n.h ∧ q.2 < n.w := hq
  have h2 : 2 ≤ n.h := by rcases hq' with rfl | rfl <;> dsimp only at hon <;> omega
  by_cases hw2 : 2 ≤ n.w
  · refine ⟨q, (1, 1), .refl q, ?_, ⟨by show 1 < n.h; omega, by show 1 < n.w; omega⟩, by decide⟩
    rcases hq' with rfl | rfl <;> decide
  · have hw1 : n.w = 1 := by omega
    have h3 : 3 ≤ n.h := by
      have : n.h * n.w ≠ 2 := hn
      rw [hw1, Nat.mul_one] at this
      omega
    rcases hq' with rfl | rfl
    · exact ⟨(1, 0), (2, 0), .refl _, by decide, ⟨by show 2 < n.h; omega, by show 0 < n.w; omega⟩, by decide⟩
    · dsimp only at hon; omega

theorem trap_after (hn : n.area ≠ 2) (hw : n.w ≤ n.h) : SameOn n (Spec.removeDead n (place trap (0, 0) .black) .white) (place trap (0, 0) .black) := by
  intro q hq
  unfold Spec.removeDead
  rw [if_neg]
  rintro ⟨h1, h2⟩
  refine h2 (trap_free hn hw hq ?_)
  unfold place at h1
  split at h1
  · cases h1
  · exact h1

theorem adj_corner {q : Coord} (h : Adj (0, 0) q) : q = (1, 0) ∨ q = (0, 1) := by
  obtain ⟨x, y⟩ := q
  rcases h with ⟨h1, h2 | h2⟩ | ⟨h1, h2 | h2⟩ <;> dsimp only at h1 h2
  · right; rw [← h1, ← h2]
  · omega
  · left; rw [← h1, ← h2]
  · omega

/-- The corner stone is alone. -/
theorem trap_linked {q : Coord} (h : Linked n (place trap (0, 0) .black) (0, 0) q) : q = (0, 0) := by
  induction h with
  | refl => rfl
  | step _ h1 _ h2 ih =>
    subst ih
    rcases adj_corner h1 with rfl | rfl <;> revert h2 <;> decide

theorem trap_dead : ¬ HasLiberty n (place trap (0, 0) .black) (0, 0) := by
  rintro ⟨q, r, h1, h2, _, h3⟩
  rw [trap_linked h1] at h2
  rcases adj_corner h2 with rfl | rfl <;> revert h3 <;> decide

theorem trap_play (hn : n.area ≠ 2) (hw : n.w ≤ n.h) : SameOn n (Spec.play n true trap (0, 0) .black) trap := by
  have h1 := trap_after hn hw
  refine SameOn.trans (removeDead_congr h1 .black) ?_
  intro q hq
  unfold Spec.removeDead
  by_cases hq0 : q = (0, 0)
  · subst hq0
    rw [if_pos ⟨by decide, trap_dead⟩]
    decide
  · have hpl : place trap (0, 0) .black q = trap q := by unfold place; rw [if_neg hq0]
    rw [hpl, if_neg]
    rintro ⟨h2, _⟩
    unfold trap at h2
    split at h2 <;> cases h2

theorem trap_noDead (hn : n.area ≠ 2) (hw : n.w ≤ n.h) : NoDead n trap := by
  intro q hq ht
  have h1 : trap q = some .white := by
    unfold trap at ht ⊢
    split
    · rfl
    · rename_i h; rw [if_neg h] at ht; exact absurd rfl ht
  obtain ⟨a, b, h2, h3, h4, h5⟩ := trap_free hn hw hq h1
  have hb0 : b ≠ (0, 0) := by
    rintro rfl
    revert h5
    decide
  refine ⟨a, b, ?_, h3, h4, by unfold place at h5; rwa [if_neg hb0] at h5⟩
  clear h3
  induction h2 with
  | refl => exact .refl _
  | @step u v h6 h7 h8 h9 ih =>
    refine .step ih h7 h8 ?_
    unfold place at h9
    have hu : ∀ x, Linked n (place trap (0, 0) .black) q x → place trap (0, 0) .black x = some .white := by
      intro x hx
      have : place trap (0, 0) .black q = some .white := by
        have hq0 : q ≠ (0, 0) := by rintro rfl; revert h1; decide
        unfold place; rw [if_neg hq0]; exact h1
      induction hx with
      | refl => exact this
      | step _ _ _ h ih' => rw [h]; exact ih'
    have hu1 := hu _ h6
    have hu0 : u ≠ (0, 0) := by rintro rfl; revert hu1; decide
    rw [if_neg hu0] at h9
    split at h9
    · unfold place at hu1
      rw [if_neg hu0] at hu1
      rw [hu1] at h9
      cases h9
    · exact h9

/-! ### Black plays, White passes -/

/-- A legal game under `r` that shows `P`, with Black to move, in which no point empty in `P` is a ko point. -/
def Ready (dbg : Bool) (n : Dim) (o : Option EndGame) (r : IllegalRules) (P : Pos) (g : Game) : Prop :=
  ∃ s, At dbg n o g s ∧ SameOn n s.pos P ∧ s.turn = .black ∧ s.passes ≤ 1 ∧
    (∀ b, s.before = some b → ∀ q, OnBoard n q → P q = none → b q = none) ∧ g.rule.flagIllegal = r

/-- A stone of Black's that captures nothing, and White's pass. -/
theorem Ready.step {r : IllegalRules} {P P' : Pos} (h : Ready dbg n o r P g) {p : Coord} (hp : OnBoard n p) (he : P p = none)
    (hsu : r.suicide = true → ¬ Suicide n P p .black) (hey : r.fillEye = true → ¬ Spec.Eye n P .black p)
    (hc : ¬ Spec.Captures n P p .black) (hP : SameOn n (Spec.play n (!r.suicide) P p .black) P') :
    Crash dbg n g ∨ ∃ g', Steps dbg n g g' ∧ Ready dbg n o r P' g' ∧ g.goban.age n < g'.goban.age n := by
  obtain ⟨s, ha, h1, h2, h3, h4, rfl⟩ := h
  have hans : Spec.answerSeen n g.rule.flagIllegal.forbidden s (.play p) = .ok := by
    refine quiet_ok h3 (by rw [h1 p hp]; exact he) ?_ (fun b hb => h4 b hb p hp he) hp ?_ ?_
    · rw [h2, suicide_congr h1 hp]; exact hsu
    · rw [h2, eye_congr h1 hp]; exact hey
    · rw [h2, captures_congr h1]; exact hc
  rcases ha.stone_pass hp h3 hans with hx | ⟨g', s', a1, a2, a3, a4, a5, a6, a7, a8⟩
  · exact Or.inl hx
  · refine Or.inr ⟨g', a1, ⟨s', a2, ?_, a4.trans h2, by omega, by rw [a6]; nofun, a7⟩, a8⟩
    rw [a3, h2]
    exact SameOn.trans (play_congr h1 _ _ _) hP

/-- A position without dead stones from which Black can go on for ever, White passing, is reached from the new game, which then panics. -/
theorem panicGame_of_ready (hfit : n.Fits) (hh : n.h ≤ 19) (hw : n.w ≤ 19) (rule : Rule) {P : Pos} (hd : NoDead n P)
    (hgo : ∀ o g, Ready dbg n o rule.flagIllegal P g →
      Crash dbg n g ∨ ∃ g', Steps dbg n g g' ∧ Ready dbg n o rule.flagIllegal P g' ∧ g.goban.age n < g'.goban.age n) :
    PanicGame dbg n rule := by
  have hsz : GobanSizes.toSize (.custom n.h n.w) = n.sz := by
    show (u8 n.h, u8 n.w) = _
    unfold u8 Dim.sz
    rw [Nat.mod_eq_of_lt (by omega), Nat.mod_eq_of_lt (by omega)]
  obtain ⟨_, hx⟩ | ⟨_, g0, e0, hb⟩ := C53_new_partial (.custom n.h n.w) rule (by show n.h < 256; omega) (by show n.w < 256; omega)
  · exact absurd ⟨hh, hw⟩ hx
  have h0 : Fresh dbg n 0 g0 := .new hfit hsz e0
  have hempty : ∀ p, OnBoard n p → g0.goban.view p = none := fun p hp =>
    (getColor_none h0.spec.board.inv.1 hp).1 (hb.empty p hp)
  have hl0 : Legal dbg n 0 g0 := .fresh h0 (fun p hp h => absurd (hempty p hp) h)
  have harea : n.area ≤ 361 := by
    have : n.h * n.w ≤ 19 * 19 := Nat.mul_le_mul hh hw
    exact this
  obtain ⟨cs, g, s, _, hpl, hgr, hps⟩ := grow g0 h0 hempty harea _ _ rfl hd
  obtain ⟨h1, ⟨es, e, hes⟩, k, hk, hs⟩ := hpl
  obtain ⟨ms, rfl, hms⟩ := Played.moves h1
  have hsteps : Steps dbg n g0 g := ⟨ms, es, hms, e, hes, by rw [hs.outcome, hgr.resigned]⟩
  have hrule : g.rule.flagIllegal = rule.flagIllegal := by
    have h1 := (Sgf.run_rule e).1
    have h2 : g.rule.flagIllegal = g0.rule.flagIllegal := by rw [← h1]
    rw [h2, hb.rule]
  have hl := hsteps.legal hl0
  have hloop : ∀ o g, Ready dbg n o rule.flagIllegal P g → Crash dbg n g := fun o g hr =>
    crash_of_loop (dbg := dbg) (n := n) (Ready dbg n o rule.flagIllegal P)
      (fun g h => ⟨by obtain ⟨s, ha, _⟩ := h; exact ha.legal, hgo o g h⟩) _ g rfl hr
  have hc : Crash dbg n g0 := by
    cases ht : s.turn with
    | black =>
      refine (hloop _ g ⟨s, ⟨hl, k, hs⟩, hgr.pos, ht, by omega, ?_, hrule⟩).after hsteps
      intro b hb' q hq hP
      by_contra hne
      exact hgr.before b hb' q hq hne (by rw [hgr.pos q hq]; exact hP)
    | white =>
      rcases hs.make .pass trivial (by omega) (by unfold Spec.answerSeen Move.call; dsimp only; rw [if_neg (by omega)]) with h3 | ⟨g2, m4, e2, h3, h4⟩
      · exact h3.after hsteps
      have st : Steps dbg n g g2 := Steps.one (mv := .pass) trivial nofun e2
      obtain ⟨_, hl1⟩ := hl
      refine ((hloop _ g2 ⟨_, ⟨st.legal hl1, m4, h3⟩, hgr.pos, ?_, ?_, nofun, h4.trans hrule⟩).after st).after hsteps
      · show s.turn.opp = .black
        rw [ht]; rfl
      · show s.passes + 1 ≤ 1
        omega
  obtain ⟨g', mv, ⟨ms', es', a1, a2, a3, a4⟩, b1, b2⟩ := hc
  exact ⟨g0, ms', es', g', mv, e0, a1, a2, a3, goes_on hl0 a1 a2 (a4.trans hb.goesOn.2) b2, b1, b2⟩

/-- The sides of a supported board. -/
theorem fits_sides (hfit : n.Fits) (hp : 1 ≤ n.area) : 1 ≤ n.w ∧ n.w ≤ n.h := by
  have hp : 1 ≤ n.h * n.w := hp
  have hw1 : 1 ≤ n.w := by
    rcases Nat.eq_zero_or_pos n.w with h0 | h0
    · rw [h0, Nat.mul_zero] at hp; omega
    · exact h0
  have hh1 : 1 ≤ n.h := by
    rcases Nat.eq_zero_or_pos n.h with h0 | h0
    · rw [h0, Nat.zero_mul] at hp; omega
    · exact h0
  exact ⟨hw1, Nat.le_of_dvd hh1 hfit⟩

/-- **C72**, rules that allow suicide. On every supported board of three points or more and under every rule that does not forbid suicide,
whatever it says of ko, super-ko and eyes, there is a game of `try_play` calls from the new game, all accepted, after which the game is not
over and an on-board `try_play` panics. -/
theorem C72_suicide (dbg : Bool) (hfit : n.Fits) (hh : n.h ≤ 19) (hw : n.w ≤ 19) (hp : 3 ≤ n.area) (rule : Rule)
    (hsu : rule.flagIllegal.suicide = false) :
    ∃ (g0 : Game) (ms : List Move) (es : List (Option PlayError)) (g : Game) (mv : Move),
      Game.new (.custom n.h n.w) rule = .ok g0 ∧ (∀ mv ∈ ms, Move.OnBoard n mv) ∧
      g0.run dbg (ms.map GOp.try_) = .ok (es, g) ∧ (∀ e ∈ es, e = none) ∧
      g.isOver = false ∧ Move.OnBoard n mv ∧ g.tryPlay dbg mv = panic := by
  obtain ⟨hw1, hwh⟩ := fits_sides hfit (by omega)
  have hne : n.area ≠ 2 := by omega
  have h2 : 2 ≤ n.h := by
    by_contra h
    have h1 : n.h = 1 ∧ n.w = 1 := by omega
    have : 3 ≤ n.h * n.w := hp
    rw [h1.1, h1.2] at this
    omega
  have hO : OnBoard n (0, 0) := ⟨by show 0 < n.h; omega, by show 0 < n.w; omega⟩
  refine panicGame_of_ready hfit hh hw rule (trap_noDead hne hwh) (fun o g h => h.step hO (by decide) (by rw [hsu]; nofun) ?_ ?_ ?_)
  · rintro _ ⟨_, h1, _⟩
    have := h1 (1, 0) (by decide) ⟨by show 1 < n.h; omega, by show 0 < n.w; omega⟩
    revert this
    decide
  · rintro ⟨q, hq, h1, h3⟩
    have h4 := trap_after hne hwh q hq
    rw [show (Color.black).opp = Color.white from rfl] at h1 h3
    rw [h3] at h4
    have hq0 : q ≠ (0, 0) := by rintro rfl; revert h1; decide
    unfold place at h4
    rw [if_neg hq0, h1] at h4
    cases h4
  · rw [hsu]
    exact trap_play hne hwh

/-- For example on 3 × 3 under a rule that forbids ko, super-ko and the filling of eyes, but not suicide. -/
example : PanicGame false 3 { JAPANESE with flagIllegal := { ko := true, superko := true, suicide := false, fillEye := true } } :=
  C72_suicide false (by decide) (by decide) (by decide) (by decide) _ rfl

/-! ### One and two points, and the exact answer -/

/-- When there is a game that panics: the board has three points, and super-ko or suicide is allowed; or one may fill an own eye by suicide;
or the board has two points and neither ko nor super-ko is forbidden. -/
def Endless (n : Dim) (r : IllegalRules) : Prop :=
  (3 ≤ n.area ∧ (r.superko = false ∨ r.suicide = false)) ∨ (r.suicide = false ∧ r.fillEye = false) ∨
    (n.area = 2 ∧ r.ko = false ∧ r.superko = false)

/-- The moves other than resignations on a board of one column. -/
def columnMoves (n : Dim) : List Move := .pass :: (List.range n.h).map (fun x => .play x 0)

theorem tiny_exhausted : ∀ dbg, ∀ n ∈ [(⟨1, 1⟩ : Dim), ⟨2, 1⟩], ∀ ko sk su fe, ¬ (su = false ∧ fe = false) →
    ¬ (n = ⟨2, 1⟩ ∧ ko = false ∧ sk = false) →
    okAnd (Game.new (.custom n.h n.w) (ruleOf { ko := ko, superko := sk, suicide := su, fillEye := fe })) (exhausted dbg (columnMoves n) 12) =
      true := by
  decide +kernel

/-- The cycle on two points: each player takes the other's stone. -/
theorem tinyCycle_runs : ∀ su fe, Proper ⟨2, 1⟩ ([.play 0 0, .play 1 0, .play 0 0], [.play 1 0, .play 0 0]) ∧
    okAnd (cycleRuns ⟨2, 1⟩ { ko := false, superko := false, suicide := su, fillEye := fe }
      ([.play 0 0, .play 1 0, .play 0 0], [.play 1 0, .play 0 0])) id = true := by
  decide +kernel

/-- A board with only Black's stones: White has nothing to lose. -/
theorem lone_captures {P : Pos} (hP : ∀ q, P q ≠ some .white) (p : Coord) : ¬ Spec.Captures n P p .black := by
  rintro ⟨q, _, h, _⟩
  exact hP q h

theorem lone_after {P : Pos} (hP : ∀ q, P q ≠ some .white) (p : Coord) : Spec.removeDead n (place P p .black) .white = place P p .black := by
  funext q
  unfold Spec.removeDead
  rw [if_neg]
  rintro ⟨h, _⟩
  unfold place at h
  split at h
  · cases h
  · exact hP q h

/-- On one or two points Black fills the board and it is empty again. -/
theorem tiny_suicide (dbg : Bool) (hn : n ∈ [(⟨1, 1⟩ : Dim), ⟨2, 1⟩]) (rule : Rule) (hsu : rule.flagIllegal.suicide = false)
    (hfe : rule.flagIllegal.fillEye = false) : PanicGame dbg n rule := by
  have hd : ∀ n, NoDead n (fun _ => none) := fun n q _ h => absurd rfl h
  have hno : ∀ q : Coord, (fun _ => none : Pos) q ≠ some .white := fun q h => by cases h
  simp only [List.mem_cons, List.not_mem_nil, or_false] at hn
  rcases hn with rfl | rfl
  · refine panicGame_of_ready (by decide) (by decide) (by decide) rule (hd _) (fun o g h => h.step (p := (0, 0)) (by decide) rfl (by rw [hsu]; nofun)
      (by rw [hfe]; nofun) (lone_captures hno _) ?_)
    rw [hsu]
    show SameOn _ (Spec.removeDead _ (Spec.removeDead _ (place (fun _ => none) (0, 0) .black) .white) .black) _
    rw [lone_after hno]
    intro q hq
    unfold Spec.removeDead
    rw [if_pos]
    have hq0 : q = (0, 0) := by
      obtain ⟨x, y⟩ := q
      have hq : x < 1 ∧ y < 1 := hq
      simp only [Prod.mk.injEq]; omega
    subst hq0
    refine ⟨by decide, ?_⟩
    rintro ⟨a, b, _, _, hb, h⟩
    have hb0 : b = (0, 0) := by
      obtain ⟨x, y⟩ := b
      have hb : x < 1 ∧ y < 1 := hb
      simp only [Prod.mk.injEq]; omega
    subst hb0
    revert h
    decide
  · have hpt : ∀ q, OnBoard ⟨2, 1⟩ q → q = (0, 0) ∨ q = (1, 0) := by
      rintro ⟨x, y⟩ hq
      have hq : x < 2 ∧ y < 1 := hq
      simp only [Prod.mk.injEq]; omega
    have hno1 : ∀ q : Coord, place (fun _ => none) (0, 0) .black q ≠ some .white := by
      intro q h
      unfold place at h
      split at h <;> cases h
    refine panicGame_of_ready (by decide) (by decide) (by decide) rule (hd _) (fun o g h => ?_)
    rcases h.step (P' := place (fun _ => none) (0, 0) .black) (p := (0, 0)) (by decide) rfl (by rw [hsu]; nofun) (by rw [hfe]; nofun)
      (lone_captures hno _) (by
        rw [hsu]
        show SameOn _ (Spec.removeDead _ (Spec.removeDead _ (place (fun _ => none) (0, 0) .black) .white) .black) _
        rw [lone_after hno]
        intro q hq
        unfold Spec.removeDead
        rw [if_neg]
        rintro ⟨h1, h2⟩
        refine h2 ⟨q, (1, 0), .refl _, ?_, by decide, by decide⟩
        rcases hpt q hq with rfl | rfl
        · decide
        · revert h1; decide) with hx | ⟨g', st, h', ha⟩
    · exact Or.inl hx
    rcases h'.step (P' := fun _ => none) (p := (1, 0)) (by decide) (by decide) (by rw [hsu]; nofun) (by rw [hfe]; nofun)
      (lone_captures hno1 _) (by
        rw [hsu]
        show SameOn _ (Spec.removeDead _ (Spec.removeDead _ (place (place (fun _ => none) (0, 0) .black) (1, 0) .black) .white) .black) _
        rw [lone_after hno1]
        intro q hq
        unfold Spec.removeDead
        rw [if_pos]
        refine ⟨by rcases hpt q hq with rfl | rfl <;> decide, ?_⟩
        rintro ⟨a, b, _, _, hb, h⟩
        rcases hpt b hb with rfl | rfl <;> revert h <;> decide) with hx | ⟨g'', st', h'', ha'⟩
    · exact Or.inl (hx.after st)
    · exact Or.inr ⟨g'', st.trans st', h'', by omega⟩

/-- **C72**, exactly: on which supported boards and under which rules there is such a game. Only the rules that forbid both super-ko and suicide
on boards of more than nine points are left out; for those see `C72_smaller`. -/
theorem C72_exact (dbg : Bool) (hfit : n.Fits) (hh : n.h ≤ 19) (hw : n.w ≤ 19) (hp : 1 ≤ n.area) (rule : Rule)
    (hsk : rule.flagIllegal.superko = false ∨ rule.flagIllegal.suicide = false ∨ n.area ≤ 9) :
    (∃ (g0 : Game) (ms : List Move) (es : List (Option PlayError)) (g : Game) (mv : Move),
      Game.new (.custom n.h n.w) rule = .ok g0 ∧ (∀ mv ∈ ms, Move.OnBoard n mv) ∧
      g0.run dbg (ms.map GOp.try_) = .ok (es, g) ∧ (∀ e ∈ es, e = none) ∧
      g.isOver = false ∧ Move.OnBoard n mv ∧ g.tryPlay dbg mv = panic) ↔ Endless n rule.flagIllegal := by
  by_cases h3 : 3 ≤ n.area
  · by_cases hs : rule.flagIllegal.superko = false
    · exact iff_of_true (C72_small dbg hfit hh hw h3 rule hs) (Or.inl ⟨h3, Or.inl hs⟩)
    by_cases hsu : rule.flagIllegal.suicide = false
    · exact iff_of_true (C72_suicide dbg hfit hh hw h3 rule hsu) (Or.inl ⟨h3, Or.inr hsu⟩)
    refine iff_of_false ?_ ?_
    · rintro ⟨g0, ms, es, g, mv, e0, h1, e1, _, _, h4, e4⟩
      have hsz : GobanSizes.toSize (.custom n.h n.w) = n.sz := by
        show (u8 n.h, u8 n.w) = _
        unfold u8 Dim.sz
        rw [Nat.mod_eq_of_lt (by omega), Nat.mod_eq_of_lt (by omega)]
      obtain ⟨_, hx⟩ | ⟨_, g0', e0', hb⟩ := C53_new_partial (.custom n.h n.w) rule (by show n.h < 256; omega) (by show n.w < 256; omega)
      · exact hx ⟨hh, hw⟩
      rw [e0] at e0'
      cases e0'
      have h0 : Fresh dbg n 0 g0 := .new hfit hsz e0
      have hempty : ∀ p, OnBoard n p → g0.goban.view p = none := fun p hp =>
        (getColor_none h0.spec.board.inv.1 hp).1 (hb.empty p hp)
      obtain ⟨r, e⟩ := C58_never_panics h0 hempty (by tauto) (by rw [hb.rule]; simpa using hsu) (by rw [hb.rule]; simpa using hs) (by omega)
        (cs := (ms ++ [mv]).map GOp.try_) (onBoard_map (by
          intro x hx
          rcases List.mem_append.1 hx with hx | hx
          · exact h1 x hx
          · rw [List.mem_singleton.1 hx]; exact h4))
      rw [List.map_append, run_append, e1, ok_bind] at e
      dsimp only at e
      rw [show [mv].map GOp.try_ = [.try_ mv] from rfl, run_cons_eq, show g.call dbg (.try_ mv) = panic from e4] at e
      cases e
    · rintro (⟨_, h | h⟩ | ⟨h, _⟩ | ⟨h, _⟩)
      · exact hs h
      · exact hsu h
      · exact hsu h
      · omega
  have hn : n ∈ [(⟨1, 1⟩ : Dim), ⟨2, 1⟩] := by
    obtain ⟨h, w⟩ := n
    obtain ⟨k, hk⟩ := hfit
    dsimp only at hk
    have hp : 1 ≤ h * w := hp
    have h3 : ¬ 3 ≤ h * w := h3
    have hw1 : 1 ≤ w := by
      rcases Nat.eq_zero_or_pos w with h0 | h0
      · rw [h0, Nat.mul_zero] at hp; omega
      · exact h0
    have hk1 : 1 ≤ k := by
      rcases Nat.eq_zero_or_pos k with h0 | h0
      · rw [hk, h0] at hp; omega
      · exact h0
    have hwh : w ≤ h := by rw [hk]; exact Nat.le_mul_of_pos_right w hk1
    have hw2 : w = 1 := by
      by_contra hne
      have : 2 * 2 ≤ h * w := Nat.mul_le_mul (by omega) (by omega)
      omega
    subst hw2
    have : h = 1 ∨ h = 2 := by omega
    rcases this with rfl | rfl <;> simp
  have h2 : n.area = 2 ↔ n = ⟨2, 1⟩ := by
    simp only [List.mem_cons, List.not_mem_nil, or_false] at hn
    rcases hn with rfl | rfl <;> decide
  constructor
  · rintro ⟨g0, ms, es, g, mv, e0, h1, e1, _, _, h4, e4⟩
    by_contra hne
    have hne1 : ¬ (rule.flagIllegal.suicide = false ∧ rule.flagIllegal.fillEye = false) := fun h => hne (Or.inr (Or.inl h))
    have hne2 : ¬ (n = ⟨2, 1⟩ ∧ rule.flagIllegal.ko = false ∧ rule.flagIllegal.superko = false) := fun h =>
      hne (Or.inr (Or.inr ⟨h2.2 h.1, h.2⟩))
    obtain ⟨k0, ek, hx⟩ := okAnd_iff.1 (tiny_exhausted dbg n hn _ _ _ _ hne1 hne2)
    have hsame : SamePlay k0 g0 ∧ k0.forget k0.prisoners k0.outcome = k0 := by
      unfold Game.new at ek e0
      obtain ⟨b1, x1, ek⟩ := bind_eq_ok ek
      obtain ⟨b2, x2, e0⟩ := bind_eq_ok e0
      rw [x1] at x2
      cases x2
      cases ek
      cases e0
      exact ⟨⟨⟨rfl, rfl, rfl, rfl, rfl, rfl, rfl, rfl, rfl⟩, rfl⟩, rfl⟩
    have hall : ∀ mv' ∈ ms ++ [mv], mv' ∈ columnMoves n ∨ mv'.isResign = true := by
      have hcol : ∀ mv', Move.OnBoard n mv' → mv' ∈ columnMoves n ∨ mv'.isResign = true := by
        intro mv' ho
        have hw1 : n.w = 1 := by
          simp only [List.mem_cons, List.not_mem_nil, or_false] at hn
          rcases hn with rfl | rfl <;> rfl
        cases mv' with
        | pass => exact Or.inl (by simp [columnMoves])
        | resign c => exact Or.inr rfl
        | play x y =>
          have ho : x < n.h ∧ y < n.w := ho
          have hy : y = 0 := by omega
          subst hy
          exact Or.inl (by simp [columnMoves, ho.1])
      intro mv' hm
      rcases List.mem_append.1 hm with hm | hm
      · exact hcol _ (h1 _ hm)
      · rw [List.mem_singleton.1 hm]; exact hcol _ h4
    obtain ⟨r, e⟩ := exhausted_run (ms ++ [mv]) (P := k0.prisoners) (O := k0.outcome) hx hall
    rw [hsame.2] at e
    have hf : ∀ l : List Move, List.Forall₂ SameCall (l.map GOp.try_) (l.map GOp.try_) := by
      intro l
      induction l with
      | nil => exact .nil
      | cons a l ih => exact .cons (.try_ a) ih
    have ho := C108_run (dbg := dbg) (hf (ms ++ [mv])) hsame.1
    rw [e, List.map_append, run_append, e1, ok_bind] at ho
    dsimp only at ho
    rw [show [mv].map GOp.try_ = [.try_ mv] from rfl, run_cons_eq, show g.call dbg (.try_ mv) = panic from e4] at ho
    cases ho
  · rintro (⟨h, _⟩ | ⟨h, h'⟩ | ⟨h, h', h''⟩)
    · exact absurd h h3
    · exact tiny_suicide dbg hn rule h h'
    · have h1 := h2.1 h
      subst h1
      obtain ⟨a, b⟩ := tinyCycle_runs rule.flagIllegal.suicide rule.flagIllegal.fillEye
      exact panicGame_of_cycle dbg hfit hh hw h'' (r := { ko := false, superko := false, suicide := rule.flagIllegal.suicide, fillEye := rule.flagIllegal.fillEye })
        ⟨fun h => (by rw [h'] at h; cases h), fun h => (by rw [h''] at h; cases h), id, id⟩ rfl a b

/-- On 2 × 1 the Japanese rule, which refuses ko and suicide, allows no such game; without the ko rule there is one. On 3 × 3 the Chinese rule
allows none; without the suicide rule there is one. -/
example : ¬ Endless ⟨2, 1⟩ JAPANESE.flagIllegal ∧ Endless ⟨2, 1⟩ { JAPANESE.flagIllegal with ko := false } ∧
    ¬ Endless 3 CHINESE.flagIllegal ∧ Endless 3 { CHINESE.flagIllegal with suicide := false } := by
  unfold Endless; decide

end Model
