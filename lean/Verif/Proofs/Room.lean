import Verif.Spec.Room
import Verif.Proofs.Grow
import Verif.Proofs.Total
/-!
# When the group table takes another stone
-/

namespace Model
open Spec (OnBoard Adj Linked Joins)

variable {dbg : Bool} {n : Dim} {m : Nat} {g : Game}

theorem same_joins {b : Goban} (h : Inv n b) {p : Coord} {c : Color} (hp : OnBoard n p) {a : Goban.Around}
    (ha : AroundOK b c (nbrs n (twoTo1dim n.sz p)) a) : a.same.length = 1 ↔ Joins n b.view p c := by
  have hpN := twoTo1_lt h.good hp
  have toK : ∀ q, OnBoard n q → Adj p q → b.view q = some c → ∃ k ∈ a.same, b.bd (twoTo1dim n.sz q) = some k := by
    intro q hq hadj hv
    rw [h.view hq] at hv
    cases hb : b.bd (twoTo1dim n.sz q) with
    | none => rw [col_none hb] at hv; cases hv
    | some k =>
      refine ⟨k, (ha.same k).2 ⟨_, ?_, hb, hv⟩, rfl⟩
      refine (mem_nbrs h.good hpN).2 ⟨twoTo1_lt h.good hq, ?_⟩
      rwa [ptOf_twoTo1 h.good hp, ptOf_twoTo1 h.good hq]
  have ofK : ∀ k ∈ a.same, ∃ q, OnBoard n q ∧ Adj p q ∧ b.view q = some c ∧ b.bd (twoTo1dim n.sz q) = some k := by
    intro k hk
    obtain ⟨j, hj, hbj, hcj⟩ := (ha.same k).1 hk
    obtain ⟨hj1, hj2⟩ := (mem_nbrs h.good hpN).1 hj
    have hO := ptOf_onBoard hj1
    refine ⟨ptOf n j, hO, ?_, ?_, ?_⟩
    · rwa [ptOf_twoTo1 h.good hp] at hj2
    · rw [h.view hO, twoTo1_ptOf]; exact hcj
    · rw [twoTo1_ptOf]; exact hbj
  constructor
  · intro hl
    obtain ⟨k, hk⟩ := List.length_eq_one_iff.1 hl
    obtain ⟨q, h1, h2, h3, _⟩ := ofK k (by rw [hk]; simp)
    refine ⟨⟨q, h1, h2, h3⟩, fun q r hq hr aq ar vq vr => ?_⟩
    obtain ⟨k1, m1, e1⟩ := toK q hq aq vq
    obtain ⟨k2, m2, e2⟩ := toK r hr ar vr
    rw [hk, List.mem_singleton] at m1 m2
    rw [h.linked_iff hq hr e1, e2, m1, m2]
  · rintro ⟨⟨q, hq, aq, vq⟩, hall⟩
    obtain ⟨k, hk, e⟩ := toK q hq aq vq
    have huniq : ∀ k' ∈ a.same, k' = k := by
      intro k' hk'
      obtain ⟨r, hr, ar, vr, er⟩ := ofK k' hk'
      have := (h.linked_iff hq hr e).1 (hall q r hq hr aq ar vq vr)
      rw [er] at this
      exact Option.some.inj this
    have hnd := ha.snd
    cases hs : a.same with
    | nil => rw [hs] at hk; cases hk
    | cons x l =>
      cases l with
      | nil => rfl
      | cons y l =>
        rw [hs] at hnd huniq
        have hx := huniq x (by simp)
        have hy := huniq y (by simp)
        rw [hx, hy] at hnd
        simp at hnd

open Classical in
/-- The exact fate of a stone put on an empty point. -/
theorem push_exact {b : Goban} (h : Inv n b) {p : Coord} {c : Color} (hp : OnBoard n p) (hv : b.view p = none) :
    (∃ f, b.pushWthFeedback dbg p c = .ok f ∧ PushSpec n b (twoTo1dim n.sz p) c f ∧ (b.chains.length < 65535 ∨ Joins n b.view p c) ∧
      f.goban.chains.length = b.chains.length + if Joins n b.view p c then 0 else 1) ∨
    (b.pushWthFeedback dbg p c = panic ∧ b.chains.length = 65535 ∧ ¬ Joins n b.view p c) := by
  rcases push_total_around (dbg := dbg) (c := c) h hp ((h.view_none_iff hp).1 hv) with ⟨f, e, hf⟩ | ⟨e, hl, a, ha, hs⟩
  · refine Or.inl ⟨f, e, hf, ?_⟩
    obtain ⟨nbs, a, e1, e2, e3⟩ := pushWthFeedback_clen e
    have hpN := twoTo1_lt h.good hp
    rw [h.size, neighborsIdx_ok h.size h.good hpN] at e1
    cases e1
    obtain ⟨a', e4, ha⟩ := around_ok (c := c) h.rep (fun x hx => h.lt361 (nbrs_lt h.good hpN hx))
    rw [e4] at e2; cases e2
    have hj := same_joins h hp ha
    have hfew := hf.inv.rep.few
    by_cases hJ : Joins n b.view p c
    · rw [if_pos (hj.2 hJ)] at e3
      exact ⟨Or.inr hJ, by rw [if_pos hJ]; exact e3⟩
    · rw [if_neg (fun h' => hJ (hj.1 h'))] at e3
      exact ⟨Or.inl (by omega), by rw [if_neg hJ]; exact e3⟩
  · exact Or.inr ⟨e, hl, fun hJ => hs ((same_joins h hp ha).2 hJ)⟩

open Classical in
theorem move_exact {b : Goban} (h : Inv n b) {p : Coord} {c : Color} {sa : Bool} (hp : OnBoard n p) (hv : b.view p = none) :
    (∃ s, b.move dbg sa p c = .ok s ∧ MoveSpec n b sa p c s ∧ (b.chains.length < 65535 ∨ Joins n b.view p c) ∧
      s.goban.chains.length = b.chains.length + if Joins n b.view p c then 0 else 1) ∨
    (b.move dbg sa p c = panic ∧ b.chains.length = 65535 ∧ ¬ Joins n b.view p c) := by
  rcases push_exact (dbg := dbg) (c := c) h hp hv with ⟨f, ef, hf, hroom, hlen⟩ | ⟨e, hl, hJ⟩
  · obtain ⟨s, es, hs⟩ := move_of_push (suicide := sa) h hp hv ef hf
    refine Or.inl ⟨s, es, hs, hroom, ?_⟩
    unfold Goban.move at es
    rw [ef, ok_bind] at es
    rw [removeCaptured_clen es, hlen]
  · exact Or.inr ⟨by unfold Goban.move; rw [e]; rfl, hl, hJ⟩

/-- No room for a stone of the player to move on `p`. -/
def Game.Stuck (n : Dim) (g : Game) (p : Coord) : Prop := g.Full ∧ ¬ Joins n g.goban.view p g.turn

theorem playForVerification_stuck (hI : Inv n g.goban) {p : Coord} (hp : OnBoard n p) (he : g.goban.getColor p = .ok none) :
    (∃ b, g.playForVerification dbg p = .ok b ∧ Inv n b ∧ ¬ g.Stuck n p) ∨ (g.playForVerification dbg p = panic ∧ g.Stuck n p) := by
  rw [playForVerification_eq]
  rcases move_exact (dbg := dbg) (sa := g.rule.flagIllegal.suicide) (c := g.turn) hI hp ((getColor_none hI hp).1 he) with
    ⟨s, e, hs, hr, _⟩ | ⟨e, hl, hJ⟩
  · refine Or.inl ⟨s.goban, by rw [e]; rfl, hs.inv, fun hst => ?_⟩
    rcases hr with h | h
    · have := hst.1; unfold Game.Full at this; omega
    · exact hst.2 h
  · exact Or.inr ⟨by rw [e]; rfl, hl, hJ⟩

theorem checkSuperKo_stuck (hI : Inv n g.goban) (hh : ∀ b ∈ g.history, Inv n b) {s : Stone} (hp : OnBoard n s.coord)
    (he : g.goban.getColor s.coord = .ok none) :
    (∃ b, g.checkSuperKo dbg s = .ok b ∧ (¬ (g.Stuck n s.coord ∧ 2 < g.history.length ∧ g.willCapture dbg s.coord = .ok true)) ∧
      (g.Stuck n s.coord → b = false)) ∨
    (g.checkSuperKo dbg s = panic ∧ g.Stuck n s.coord ∧ 2 < g.history.length ∧ g.willCapture dbg s.coord = .ok true) := by
  unfold Game.checkSuperKo
  split
  · rename_i hl
    exact Or.inl ⟨false, rfl, fun h => by omega, fun _ => rfl⟩
  · rename_i hl
    obtain ⟨b1, e1⟩ := willCapture_any (dbg := dbg) hI hp
    rw [e1, ok_bind]
    cases b1 with
    | false => exact Or.inl ⟨false, rfl, fun h => (by cases h.2.2), fun _ => rfl⟩
    | true =>
      simp only [Bool.not_true, Bool.false_eq_true, if_false]
      rcases playForVerification_stuck (dbg := dbg) hI hp he with ⟨t, et, ht, hns⟩ | ⟨ep, hst⟩
      · rw [et, ok_bind]
        obtain ⟨b2, e2⟩ := checkKo_any (dbg := dbg) hI hp
        rw [e2, ok_bind]
        have : ∃ b, (if b2 then .ok true else historyContains g.history t : M Bool) = .ok b := by
          cases b2
          · obtain ⟨r, e, _⟩ := historyContains_ok ht g.history hh
            exact ⟨r, e⟩
          · exact ⟨true, rfl⟩
        obtain ⟨b, eb⟩ := this
        exact Or.inl ⟨b, eb, fun h => hns h.1, fun h => absurd h hns⟩
      · rw [ep]
        exact Or.inr ⟨rfl, hst, by omega, trivial⟩

/-- `check_point_by` without the super-ko test: it always returns, and the test comes last. -/
theorem checkPointBy_split (hI : Inv n g.goban) {p : Coord} (hp : OnBoard n p) (r : IllegalRules) :
    ∃ o, g.checkPointBy dbg p { r with superko := false } = .ok o ∧
      g.checkPointBy dbg p r = (match o with
        | some e => .ok (some e)
        | none => do
          if ← (if r.superko then g.checkSuperKo dbg { coord := p, color := g.turn } else pure false) then .ok (some .ko)
          else .ok none) ∧ (o = none → g.goban.getColor p = .ok none) := by
  obtain ⟨b1, e1⟩ := checkSuicide_any (dbg := dbg) hI (s := { coord := p, color := g.turn }) hp
  obtain ⟨b2, e2⟩ := checkKo_any (dbg := dbg) hI (s := { coord := p, color := g.turn }) hp
  obtain ⟨b3, e3, _⟩ := checkEye_ok (dbg := dbg) (c := g.turn) hI hp
  have flag : ∀ {a b : Bool} {x : M Bool}, x = .ok b → ∃ b', (if a then x else pure false) = .ok b' := by
    intro a b x h; cases a
    · exact ⟨false, rfl⟩
    · exact ⟨b, h⟩
  obtain ⟨c1, f1⟩ := flag (a := r.suicide) e1
  obtain ⟨c2, f2⟩ := flag (a := r.ko) e2
  obtain ⟨c3, f3⟩ := flag (a := r.fillEye) e3
  unfold Game.checkPointBy
  dsimp only
  rw [hI.getColor_view hp, ok_bind, ok_bind]
  cases hv : g.goban.view p with
  | some c => exact ⟨some .pointNotEmpty, rfl, rfl, fun h => by cases h⟩
  | none =>
    simp only [Option.isSome_none, Bool.false_eq_true, if_false]
    rw [f1, ok_bind, ok_bind]
    cases c1 with
    | true => exact ⟨some .suicide, rfl, rfl, fun h => by cases h⟩
    | false =>
      simp only [Bool.false_eq_true, if_false]
      rw [f2, ok_bind, ok_bind]
      cases c2 with
      | true => exact ⟨some .ko, rfl, rfl, fun h => by cases h⟩
      | false =>
        simp only [Bool.false_eq_true, if_false]
        rw [f3, ok_bind, ok_bind]
        cases c3 with
        | true => exact ⟨some .fillEye, rfl, rfl, fun h => by cases h⟩
        | false => exact ⟨none, rfl, rfl, fun _ => trivial⟩

/-- Exactly when `check_point_by` panics. -/
theorem checkPointBy_stuck (hI : Inv n g.goban) (hh : ∀ b ∈ g.history, Inv n b) {p : Coord} (hp : OnBoard n p) (r : IllegalRules) :
    ((∃ o, g.checkPointBy dbg p r = .ok o) ∨ g.checkPointBy dbg p r = panic) ∧
    (g.checkPointBy dbg p r = panic ↔ g.Stuck n p ∧ r.superko = true ∧ 2 < g.history.length ∧ g.willCapture dbg p = .ok true ∧
      g.checkPointBy dbg p { r with superko := false } = .ok none) ∧
    (g.Stuck n p → ∀ o, g.checkPointBy dbg p r = .ok o → g.checkPointBy dbg p { r with superko := false } = .ok o) := by
  obtain ⟨o, e0, e, hemp⟩ := checkPointBy_split (dbg := dbg) hI hp r
  rw [e0, e]
  cases o with
  | some x =>
    dsimp only
    exact ⟨Or.inl ⟨_, rfl⟩, ⟨fun h => (by cases h), fun h => (by cases h.2.2.2.2)⟩, fun _ _ h => h⟩
  | none =>
    dsimp only
    cases hr : r.superko with
    | false =>
      refine ⟨Or.inl ⟨none, rfl⟩, ⟨fun h => (by cases h), fun h => (by cases h.2.1)⟩, fun _ _ h => h⟩
    | true =>
      simp only [if_true]
      rcases checkSuperKo_stuck (dbg := dbg) hI hh (s := { coord := p, color := g.turn }) hp (hemp rfl) with
        ⟨b, eb, h1, h2⟩ | ⟨eb, h1⟩
      · rw [eb, ok_bind]
        refine ⟨?_, ⟨?_, fun h => absurd ⟨h.1, h.2.2.1, h.2.2.2.1⟩ h1⟩, ?_⟩
        · cases b <;> exact Or.inl ⟨_, rfl⟩
        · cases b <;> exact fun h => by cases h
        · intro hst o ho
          rw [h2 hst] at ho
          exact ho
      · rw [eb]
        exact ⟨Or.inr rfl, ⟨fun _ => ⟨h1.1, trivial, h1.2.1, h1.2.2, trivial⟩, fun _ => rfl⟩, fun _ o ho => by cases ho⟩

end Model
