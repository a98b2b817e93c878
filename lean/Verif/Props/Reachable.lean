import Verif.Proofs.Seen
import Verif.Props.Limits
import Verif.Props.Finite
import Verif.Props.Rules
import Verif.Props.Simulate
/-!
# The positions that can be played: C69
-/

namespace Model
open Spec (OnBoard Adj Linked HasLiberty NoDead place SameOn Pos Suicide State Call)

variable {dbg : Bool} {n : Dim} {m : Nat} {g : Game}

/-! ### Leaving stones out of a position -/

/-- Taking stones away from a position where every group has a liberty leaves such a position. -/
theorem noDead_sub {P Q : Pos} (hd : NoDead n P) (hs : ∀ q, Q q = none ∨ Q q = P q) : NoDead n Q := by
  intro p hp hne
  have hv : Q p = P p := (hs p).resolve_left hne
  obtain ⟨q, r, hl, hadj, hr, he⟩ := hd p hp (by rw [← hv]; exact hne)
  have key : HasLiberty n Q p ∨ (Linked n Q p q ∧ Q q = Q p) := by
    clear hadj
    induction hl with
    | refl => exact Or.inr ⟨Linked.refl _, rfl⟩
    | @step a b h1 h2 h3 h4 ih =>
      rcases ih with h | ⟨h, hv'⟩
      · exact Or.inl h
      · by_cases hb : Q b = none
        · exact Or.inl ⟨a, b, h, h2, h3, hb⟩
        · have e1 : Q b = P b := (hs b).resolve_left hb
          have e2 : Q a = P a := (hs a).resolve_left (by rw [hv']; exact hne)
          have e3 : Q b = Q a := by rw [e1, e2, h4]
          exact Or.inr ⟨h.step h2 h3 e3, by rw [e3, hv']⟩
  rcases key with h | ⟨h, _⟩
  · exact h
  · exact ⟨q, r, h, hadj, hr, (hs r).elim id (fun h => by rw [h, he])⟩

/-- A position with a stone taken away. -/
def without (P : Pos) (p : Coord) : Pos := fun q => if q = p then none else P q

theorem place_without {P : Pos} {p : Coord} {c : Color} (h : P p = some c) : place (without P p) p c = P := by
  funext q
  unfold place without
  by_cases hq : q = p
  · rw [if_pos hq, hq, h]
  · rw [if_neg hq, if_neg hq]

/-! ### Putting one stone more -/

/-- A state reached without any capture. -/
structure Grown (n : Dim) (P : Pos) (s : State) : Prop where
  pos : SameOn n s.pos P
  passes : s.passes ≤ 1
  prisoners : s.prisoners = (0, 0)
  resigned : s.resigned = none
  before : ∀ b, s.before = some b → ∀ q, OnBoard n q → b q ≠ none → s.pos q ≠ none
  earlier : ∀ b ∈ s.played, (∀ q, OnBoard n q → b q ≠ none → P q = b q) ∧ ∃ q, OnBoard n q ∧ b q = none ∧ P q ≠ none

theorem removeDead_noDead {P : Pos} (hd : NoDead n P) (c : Color) : SameOn n (Spec.removeDead n P c) P := by
  intro q hq
  unfold Spec.removeDead
  rw [if_neg]
  rintro ⟨h1, h2⟩
  exact h2 (hd q hq (by rw [h1]; simp))

theorem vanished_self {a b : Pos} (h : SameOn n a b) (x : Color) : Spec.vanished n a b x = 0 := by
  unfold Spec.vanished
  rw [List.length_eq_zero_iff, List.filter_eq_nil_iff]
  intro q hq
  rw [h q (mem_points.1 hq)]
  simp only [decide_eq_true_eq]
  rintro ⟨h1, h2⟩
  rw [h2] at h1
  cases h1

/-- Playing the last stone of a position, when it has an empty neighbour. -/
theorem Grown.step {P : Pos} {s : State} {p r : Coord} (r' : Spec.Forbidden) (hd : NoDead n P) (hp : OnBoard n p)
    (hc : P p = some s.turn) (hadj : Adj p r) (hr : OnBoard n r) (he : P r = none) (h : Grown n (without P p) s) :
    (Spec.stepSeen n r' s (.play p)).1 = .ok ∧ Grown n P (Spec.stepSeen n r' s (.play p)).2 ∧
    (Spec.stepSeen n r' s (.play p)).2.passes = 0 ∧ (Spec.stepSeen n r' s (.play p)).2.turn = s.turn.opp := by
  have hrp : r ≠ p := by rintro rfl; rw [he] at hc; cases hc
  have hpe : s.pos p = none := by rw [h.pos p hp]; unfold without; rw [if_pos rfl]
  have hput : SameOn n (place s.pos p s.turn) P := by
    rw [← place_without hc]
    exact place_congr h.pos p s.turn
  have hrem : ∀ c, SameOn n (Spec.removeDead n (place s.pos p s.turn) c) P := fun c =>
    SameOn.trans (removeDead_congr hput c) (removeDead_noDead hd c)
  have hafter : ∀ sa, SameOn n (Spec.play n sa s.pos p s.turn) P := by
    intro sa
    unfold Spec.play
    dsimp only
    split
    · exact SameOn.trans (removeDead_congr (hrem _) _) (removeDead_noDead hd _)
    · exact hrem _
  have hans : Spec.answerSeen n r' s (.play p) = .ok := by
    unfold Spec.answerSeen
    dsimp only
    rw [if_neg (by have := h.passes; omega), if_neg (by simp [hpe]), if_neg, if_neg, if_neg, if_neg]
    · rintro ⟨_, _, ⟨q, hq, h1, h2⟩, _⟩
      rw [hrem _ q hq, ← hput q hq, place_ne] at h2
      · rw [h1] at h2; cases h2
      · rintro rfl; rw [hpe] at h1; cases h1
    · rintro ⟨_, _, h2, _⟩
      have := h2 r hadj hr
      rw [h.pos r hr] at this
      unfold without at this
      rw [if_neg hrp, he] at this
      cases this
    · rintro ⟨_, ⟨b, hb, h1⟩, _⟩
      have := (h1 p hp).2 rfl
      exact h.before b hb p hp (by rw [this.1]; simp) hpe
    · rintro ⟨_, h1⟩
      exact h1 ⟨p, r, Linked.refl _, hadj, hr, by rw [hrem _ r hr, he]⟩
  unfold Spec.stepSeen
  rw [if_pos hans]
  refine ⟨rfl, ⟨hafter _, Nat.zero_le _, ?_, h.resigned, ?_, ?_⟩, rfl, rfl⟩
  · show (_ + _, _ + _) = (0, 0)
    rw [h.prisoners, vanished_self, vanished_self]
    · exact SameOn.trans hput (SameOn.symm (hafter _))
    · exact SameOn.trans hput (SameOn.symm (hafter _))
  · intro b hb q hq hne
    obtain rfl : s.pos = b := by injection hb
    show Spec.play n _ s.pos p s.turn q ≠ none
    rw [hafter _ q hq, ← hput q hq, place_ne (by rintro rfl; exact hne hpe)]
    exact hne
  · intro b hb
    have hsub : ∀ q, without P p q ≠ none → P q = without P p q := by
      intro q hq
      unfold without at hq ⊢
      split at hq
      · exact absurd rfl hq
      · rename_i h'; rw [if_neg h']
    rcases List.mem_append.1 hb with hb | hb
    · obtain ⟨h1, q, h2, h3, h4⟩ := h.earlier b hb
      refine ⟨fun q hq hne => ?_, q, h2, h3, ?_⟩
      · have := h1 q hq hne
        rw [← this]
        exact hsub q (by rw [this]; exact hne)
      · rw [hsub q h4]; exact h4
    · obtain rfl := List.mem_singleton.1 hb
      refine ⟨fun q hq hne => ?_, p, hp, hpe, by rw [hc]; simp⟩
      have := h.pos q hq
      rw [this]
      exact hsub q (by rw [← this]; exact hne)

theorem Grown.pass {P : Pos} {s : State} (r' : Spec.Forbidden) (h : Grown n P s) (hps : s.passes = 0) :
    (Spec.stepSeen n r' s .pass).1 = .ok ∧ Grown n P (Spec.stepSeen n r' s .pass).2 ∧
    (Spec.stepSeen n r' s .pass).2.turn = s.turn.opp := by
  have hans : Spec.answerSeen n r' s .pass = .ok := by
    unfold Spec.answerSeen
    dsimp only
    rw [if_neg (by omega)]
  unfold Spec.stepSeen
  rw [if_pos hans]
  refine ⟨rfl, ⟨h.pos, ?_, h.prisoners, h.resigned, ?_, h.earlier⟩, rfl⟩
  · show s.passes + 1 ≤ 1
    omega
  · intro b hb
    cases hb

/-! ### Playing the whole position -/

/-- The stones of a position. -/
def stoneCount (n : Dim) (P : Pos) : Nat := Spec.count n P (some .black) + Spec.count n P (some .white)

theorem stoneCount_place {P : Pos} {p : Coord} {c : Color} (hp : OnBoard n p) (h : P p = some c) :
    stoneCount n P = stoneCount n (without P p) + 1 := by
  have hw : without P p p = none := by unfold without; rw [if_pos rfl]
  have h1 := count_place (c := c) hp hw .black
  have h2 := count_place (c := c) hp hw .white
  rw [place_without h] at h1 h2
  unfold stoneCount
  rw [h1, h2]
  cases c <;> simp <;> omega

theorem stoneCount_pos {P : Pos} {p : Coord} (hp : OnBoard n p) (h : P p ≠ none) : stoneCount n P ≠ 0 := by
  cases hc : P p with
  | none => exact absurd hc h
  | some c => rw [stoneCount_place hp hc]; omega

/-- What a run from a new game shows: every call accepted, nothing captured. -/
structure Played (dbg : Bool) (n : Dim) (g0 : Game) (cs : List GOp) (g : Game) (s : State) : Prop where
  calls : ∀ c ∈ cs, ∃ m, c = .try_ m ∧ Move.OnBoard n m
  run : ∃ es, g0.run dbg cs = .ok (es, g) ∧ ∀ e ∈ es, e = none
  sim : ∃ m ≤ cs.length, Sim dbg n m g0.outcome g s

theorem Played.more {g0 : Game} {cs : List GOp} {s : State} (h : Played dbg n g0 cs g s) (mv : Move) (hmv : mv.OnBoard n)
    (hlen : cs.length < 65535) (hps : s.passes ≤ 2)
    (hok : ∀ r, (Spec.stepSeen n r s mv.call).1 = .ok) :
    ∃ g' r, Played dbg n g0 (cs ++ [.try_ mv]) g' (Spec.stepSeen n r s mv.call).2 := by
  obtain ⟨h1, ⟨es, e, hes⟩, k, hk, hs⟩ := h
  obtain ⟨⟨e0, g'⟩, e1, h2, ⟨m', hm', h3⟩, _, _⟩ := (hs.call_seen (dbg := dbg) (.try_ mv) hmv hps).total (hs.notFull (by omega))
  refine ⟨g', _, ?_, ⟨es ++ [e0], ?_, ?_⟩, m', ?_, h3⟩
  · intro c hc
    rcases List.mem_append.1 hc with hc | hc
    · exact h1 c hc
    · rw [List.mem_singleton] at hc
      exact ⟨mv, hc, hmv⟩
  · rw [run_append, e, ok_bind]
    show (do
      let r' ← (do
        let r ← g.call dbg (.try_ mv)
        let rs ← r.2.run dbg []
        Except.ok (r.1 :: rs.1, rs.2))
      Except.ok (es ++ r'.1, r'.2)) = _
    rw [e1]
    rfl
  · intro e' he'
    rcases List.mem_append.1 he' with he' | he'
    · exact hes e' he'
    · rw [List.mem_singleton] at he'
      rw [he', ← toAnswer_ok]
      exact h2.trans (hok _)
  · rw [List.length_append]
    show m' ≤ cs.length + 1
    omega

theorem grow (g0 : Game) (h0 : Fresh dbg n 0 g0) (hb : ∀ p, OnBoard n p → g0.goban.view p = none) (hn : n.area ≤ 361) :
    ∀ (k : Nat) (P : Pos), stoneCount n P = k → NoDead n P →
    ∃ cs g s, cs.length ≤ 2 * k ∧ Played dbg n g0 cs g s ∧ Grown n P s ∧ s.passes = 0 := by
  intro k
  induction k with
  | zero =>
    intro P hk hd
    have hP : ∀ p, OnBoard n p → P p = none := by
      intro p hp
      by_contra hne
      exact stoneCount_pos hp hne hk
    have hsame : SameOn n g0.goban.view P := fun p hp => by rw [hb p hp, hP p hp]
    refine ⟨[], g0, _, by simp, ⟨by simp, ⟨[], rfl, by simp⟩, 0, by simp, h0.sim ((noDead_congr hsame).2 hd)⟩,
      ⟨?_, ?_, rfl, rfl, ?_, ?_⟩, rfl⟩
    · exact hsame
    · exact Nat.zero_le _
    · intro b hb; cases hb
    · intro b hb; cases hb
  | succ k ih =>
    intro P hk hd
    -- a stone with an empty neighbour
    obtain ⟨p, hp, r, hne, hadj, hr, he⟩ : ∃ p, OnBoard n p ∧ ∃ r, P p ≠ none ∧ Adj p r ∧ OnBoard n r ∧ P r = none := by
      have hex : ∃ p, OnBoard n p ∧ P p ≠ none := by
        by_contra hcon
        have hP : ∀ p, OnBoard n p → P p = none := fun p hp => by
          by_contra hne; exact hcon ⟨p, hp, hne⟩
        have : ∀ x, Spec.count n P (some x) = 0 := by
          intro x
          unfold Spec.count
          rw [List.length_eq_zero_iff, List.filter_eq_nil_iff]
          intro q hq
          rw [hP q (mem_points.1 hq)]
          simp
        unfold stoneCount at hk
        rw [this, this] at hk
        omega
      obtain ⟨p, hp, hne⟩ := hex
      obtain ⟨q, r, hl, hadj, hr, he⟩ := hd p hp hne
      exact ⟨q, linked_onBoard hl hp, r, by rw [linked_same hl]; exact hne, hadj, hr, he⟩
    obtain ⟨c, hc⟩ := Option.ne_none_iff_exists'.1 hne
    have hk' : stoneCount n (without P p) = k := by have := stoneCount_place hp hc; omega
    have hd' : NoDead n (without P p) := noDead_sub hd (fun q => by
      unfold without; split
      · exact Or.inl rfl
      · exact Or.inr rfl)
    have hle : stoneCount n P ≤ 361 := Nat.le_trans (colours_le n P) hn
    obtain ⟨cs, g, s, hlen, hpl, hgr, hps⟩ := ih _ hk' hd'
    by_cases ht : s.turn = c
    · have hst := fun r' => hgr.step r' hd hp (by rw [hc, ht]) hadj hr he
      obtain ⟨g', r', h'⟩ := hpl.more (.play p.1 p.2) hp (by omega) (by omega) (fun r' => (hst r').1)
      exact ⟨_, g', _, by rw [List.length_append]; show cs.length + 1 ≤ _; omega, h', (hst r').2.1, (hst r').2.2.1⟩
    · have hpa := fun r' => hgr.pass r' hps
      obtain ⟨g1, r1, h1⟩ := hpl.more .pass trivial (by omega) (by omega) (fun r' => (hpa r').1)
      have ht1 : (Spec.stepSeen n r1 s Move.pass.call).2.turn = c := by
        rw [show Move.pass.call = .pass from rfl, (hpa r1).2.2]
        cases hst : s.turn <;> cases c <;> simp_all [Color.opp]
      have hgr1 : Grown n (without P p) (Spec.stepSeen n r1 s Move.pass.call).2 := (hpa r1).2.1
      generalize (Spec.stepSeen n r1 s Move.pass.call).2 = s1 at *
      have hst := fun r' => hgr1.step r' hd hp (by rw [hc, ht1]) hadj hr he
      obtain ⟨g', r', h'⟩ := h1.more (.play p.1 p.2) hp (by rw [List.length_append]; show cs.length + 1 < _; omega)
        (by have := hgr1.passes; omega) (fun r' => (hst r').1)
      refine ⟨_, g', _, ?_, h', (hst r').2.1, (hst r').2.2.1⟩
      rw [List.length_append, List.length_append]; show cs.length + 1 + 1 ≤ _; omega

theorem Played.moves {cs : List GOp} (h : ∀ c ∈ cs, ∃ m, c = .try_ m ∧ Move.OnBoard n m) :
    ∃ ms : List Move, cs = ms.map GOp.try_ ∧ ∀ mv ∈ ms, mv.OnBoard n := by
  induction cs with
  | nil => exact ⟨[], rfl, by simp⟩
  | cons c cs ih =>
    obtain ⟨ms, h1, h2⟩ := ih (fun c hc => h c (by simp [hc]))
    obtain ⟨mv, h3, h4⟩ := h c (by simp)
    refine ⟨mv :: ms, by rw [h3, h1]; rfl, ?_⟩
    intro x hx
    rcases List.mem_cons.1 hx with rfl | hx
    · exact h4
    · exact h2 x hx

/-- Every position on which all groups have a liberty can be reached from a new game with `try_play` calls that are all
accepted, whatever the rule and with either player to move; no stone is captured on the way. -/
theorem C69_every_position (dbg : Bool) (hfit : n.Fits) (hh : n.h ≤ 19) (hw : n.w ≤ 19) (rule : Rule) {P : Pos} (hd : NoDead n P)
    (c : Color) :
    ∃ (g0 : Game) (ms : List Move) (es : List (Option PlayError)) (g : Game),
      Game.new (.custom n.h n.w) rule = .ok g0 ∧ (∀ mv ∈ ms, Move.OnBoard n mv) ∧
      g0.run dbg (ms.map GOp.try_) = .ok (es, g) ∧ (∀ e ∈ es, e = none) ∧ ms.length ≤ 2 * stoneCount n P + 1 ∧
      (∀ p, OnBoard n p → g.goban.getColor p = .ok (P p)) ∧ g.turn = c ∧ g.prisoners = (0, 0) ∧ g.isOver = false := by
  have hsz : GobanSizes.toSize (.custom n.h n.w) = n.sz := by
    show (u8 n.h, u8 n.w) = _
    unfold u8 Dim.sz
    rw [Nat.mod_eq_of_lt (by omega), Nat.mod_eq_of_lt (by omega)]
  have hnew := C53_new_partial (.custom n.h n.w) rule (by show n.h < 256; omega) (by show n.w < 256; omega)
  obtain ⟨_, hx⟩ | ⟨_, g0, e0, hb⟩ := hnew
  · exact absurd ⟨hh, hw⟩ hx
  have hf : Fresh dbg n 0 g0 := .new hfit hsz e0
  have hempty : ∀ p, OnBoard n p → g0.goban.view p = none := fun p hp =>
    (getColor_none hf.spec.board.inv.1 hp).1 (hb.empty p hp)
  have harea : n.area ≤ 361 := by
    have : n.h * n.w ≤ 19 * 19 := Nat.mul_le_mul hh hw
    exact this
  have hout : g0.outcome = none := hb.goesOn.2
  have hle : stoneCount n P ≤ 361 := Nat.le_trans (colours_le n P) harea
  obtain ⟨cs, g, s, hlen, hpl, hgr, hps⟩ := grow g0 hf hempty harea _ P rfl hd
  have fin : ∀ {cs : List GOp} {g : Game} {s : State}, cs.length ≤ 2 * stoneCount n P + 1 → Played dbg n g0 cs g s → Grown n P s →
      s.turn = c → ∃ (g0 : Game) (ms : List Move) (es : List (Option PlayError)) (g : Game),
      Game.new (.custom n.h n.w) rule = .ok g0 ∧ (∀ mv ∈ ms, Move.OnBoard n mv) ∧
      g0.run dbg (ms.map GOp.try_) = .ok (es, g) ∧ (∀ e ∈ es, e = none) ∧ ms.length ≤ 2 * stoneCount n P + 1 ∧
      (∀ p, OnBoard n p → g.goban.getColor p = .ok (P p)) ∧ g.turn = c ∧ g.prisoners = (0, 0) ∧ g.isOver = false := by
    intro cs g s hlen hpl hgr ht
    obtain ⟨h1, ⟨es, e, hes⟩, k, hk, hs⟩ := hpl
    obtain ⟨ms, rfl, hms⟩ := Played.moves h1
    rw [List.length_map] at hlen
    refine ⟨g0, ms, es, g, e0, hms, e, hes, hlen, ?_, ?_, ?_, ?_⟩
    · intro p hp
      rw [hs.inv.getColor_view hp, hs.pos p hp, hgr.pos p hp]
    · rw [hs.turn, ht]
    · rw [hs.prisoners, hgr.prisoners]
    · unfold Game.isOver
      rw [hs.outcome, hgr.resigned, hs.passes]
      dsimp only
      rw [hout]
      have := hgr.passes
      simp only [Option.isSome_none, Bool.false_eq_true, if_false, decide_eq_false_iff_not]
      omega
  by_cases ht : s.turn = c
  · exact fin (by omega) hpl hgr ht
  · have hpa := fun r' => hgr.pass r' hps
    obtain ⟨g1, r1, h1⟩ := hpl.more .pass trivial (by omega) (by omega) (fun r' => (hpa r').1)
    refine fin ?_ h1 (hpa r1).2.1 ?_
    · rw [List.length_append]; show cs.length + 1 ≤ _; omega
    · refine (hpa r1).2.2.trans ?_
      cases hst : s.turn <;> cases c <;> simp_all [Color.opp]

/-- The positions that `try_play` can bring about from a new game are exactly those on which every group has a liberty. -/
theorem C69_exactly (dbg : Bool) (hfit : n.Fits) (hh : n.h ≤ 19) (hw : n.w ≤ 19) (rule : Rule) (P : Pos) :
    (∃ (g0 : Game) (ms : List Move) (es : List (Option PlayError)) (g : Game),
      Game.new (.custom n.h n.w) rule = .ok g0 ∧ (∀ mv ∈ ms, Move.OnBoard n mv) ∧
      g0.run dbg (ms.map GOp.try_) = .ok (es, g) ∧ (∀ p, OnBoard n p → g.goban.getColor p = .ok (P p))) ↔ NoDead n P := by
  constructor
  · rintro ⟨g0, ms, es, g, e0, hms, e, hP⟩
    have hsz : GobanSizes.toSize (.custom n.h n.w) = n.sz := by
      show (u8 n.h, u8 n.w) = _
      unfold u8 Dim.sz
      rw [Nat.mod_eq_of_lt (by omega), Nat.mod_eq_of_lt (by omega)]
    have hf : Fresh dbg n 0 g0 := .new hfit hsz e0
    have hl : Legal dbg n 0 g0 := .fresh hf (by
      intro p hp hne
      obtain ⟨_, hx⟩ | ⟨_, g0', e0', hb⟩ := C53_new_partial (.custom n.h n.w) rule (by show n.h < 256; omega) (by show n.w < 256; omega)
      · exact absurd ⟨hh, hw⟩ hx
      · rw [e0] at e0'
        obtain rfl : g0 = g0' := by injection e0'
        exact absurd ((getColor_none hf.spec.board.inv.1 hp).1 (hb.empty p hp)) hne)
    obtain ⟨m', hl'⟩ := Legal.run _ hl (by
      intro c hc
      obtain ⟨mv, h1, rfl⟩ := List.mem_map.1 hc
      exact hms mv h1) e
    obtain ⟨o, s, k, _, _, hs⟩ := hl'.sim
    refine (noDead_congr ?_).1 hs.noDead'
    intro p hp
    have := hP p hp
    rw [hs.inv.getColor_view hp] at this
    injection this
  · intro hd
    obtain ⟨g0, ms, es, g, h1, h2, h3, _, _, h4, _⟩ := C69_every_position dbg hfit hh hw rule hd .black
    exact ⟨g0, ms, es, g, h1, h2, h3, h4⟩

/-! ### Examples -/

/-- Three black stones in the first column, three white ones in the last. -/
def exWalls : Pos := fun p => if p.2 = 0 then some .black else if p.2 = 2 then some .white else none

theorem exWalls_noDead : NoDead 3 exWalls := by
  intro p hp hne
  refine ⟨p, (p.1, 1), Linked.refl _, Or.inl ⟨rfl, ?_⟩, ⟨hp.1, (by decide : 1 < 3)⟩, rfl⟩
  have : p.2 < 3 := hp.2
  have : p.2 ≠ 1 := by
    intro h
    unfold exWalls at hne
    rw [h] at hne
    exact hne rfl
  show p.2 + 1 = 1 ∨ 1 + 1 = p.2
  omega

/-- The hypotheses of `C69_every_position`, under a rule with everything forbidden. -/
example : (3 : Dim).Fits ∧ NoDead 3 exWalls ∧ stoneCount 3 exWalls = 6 ∧
    ∃ rule : Rule, rule.flagIllegal = ⟨true, true, true, true⟩ :=
  ⟨by decide, exWalls_noDead, by decide, { CHINESE with flagIllegal := ⟨true, true, true, true⟩ }, rfl⟩

/-- A full board cannot be reached. -/
example : ¬ NoDead 3 (fun _ => some .black) := by
  intro h
  obtain ⟨_, _, _, _, _, h⟩ := h (0, 0) (by decide) (by simp)
  cases h

end Model
