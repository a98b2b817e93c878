import Verif.Spec.Anywhere
import Verif.Proofs.Eye
import Verif.Proofs.Hidden
/-!
# The queries with any pair of bytes
-/

namespace Model
open Bits (has)
open Spec (OnBoard Adj Beside Overflows landsOn cornersFrom)

variable {dbg : Bool} {n : Dim}

/-- What the neighbour queries take for the neighbours of `c`. -/
def adjFrom (n : Dim) (c : Coord) : List Coord :=
  [((c.1 + 1) % 256, c.2), (wsub1 c.1, c.2), (c.1, (c.2 + 1) % 256), (c.1, wsub1 c.2)].filter (isCoordValid n.sz)

theorem addU8_wraps {x : Nat} (hx : x < 256) (h : ¬ (dbg = true ∧ x = 255)) : addU8 dbg x 1 = .ok ((x + 1) % 256) := by
  unfold addU8
  by_cases h1 : x + 1 < 256
  · rw [if_pos h1, Nat.mod_eq_of_lt h1]
  · rw [if_neg h1, if_neg (fun hd => h ⟨hd, by omega⟩)]

theorem addU8_checks : addU8 true 255 1 = panic := rfl

theorem validCoords_from {c : Coord} (h1 : c.1 < 256) (h2 : c.2 < 256) (ho : ¬ Overflows dbg c) :
    validCoords dbg c n.sz = .ok (adjFrom n c) := by
  unfold validCoords neighborCoords
  rw [addU8_wraps h1 (fun h => ho ⟨h.1, Or.inl h.2⟩), ok_bind, addU8_wraps h2 (fun h => ho ⟨h.1, Or.inr h.2⟩), ok_bind]
  rfl

theorem neighborCoords_overflows {c : Coord} (h1 : c.1 < 256) (ho : Overflows dbg c) : neighborCoords dbg c = panic := by
  obtain ⟨hd, ho⟩ := ho
  subst hd
  obtain ⟨x, y⟩ := c
  unfold neighborCoords
  simp only at *
  by_cases hx : x = 255
  · subst hx; rfl
  · obtain rfl : y = 255 := by omega
    rw [addU8_wraps (by omega) (by omega)]
    rfl

theorem cornerPoints_from {c : Coord} (h1 : c.1 < 256) (h2 : c.2 < 256) (ho : ¬ Overflows dbg c) :
    cornerPoints dbg c = .ok [((c.1 + 1) % 256, (c.2 + 1) % 256), ((c.1 + 255) % 256, (c.2 + 255) % 256),
      ((c.1 + 1) % 256, (c.2 + 255) % 256), ((c.1 + 255) % 256, (c.2 + 1) % 256)] := by
  unfold cornerPoints
  rw [addU8_wraps h1 (fun h => ho ⟨h.1, Or.inl h.2⟩), ok_bind, addU8_wraps h2 (fun h => ho ⟨h.1, Or.inr h.2⟩), ok_bind]
  rfl

theorem mem_adjFrom {c q : Coord} (hn : n.Good) (h1 : c.1 < 256) (h2 : c.2 < 256) :
    q ∈ adjFrom n c ↔ OnBoard n q ∧ Beside c q := by
  obtain ⟨a, b⟩ := c
  obtain ⟨x, y⟩ := q
  unfold adjFrom
  rw [List.mem_filter, isCoordValid_iff, and_comm]
  refine and_congr_right fun ho => ?_
  have h3 : x < n.h := ho.1
  have h4 : y < n.w := ho.2
  have h5 := onBoard_w19 hn ho
  unfold Beside Spec.Next wsub1
  simp only [List.mem_cons, Prod.mk.injEq, List.not_mem_nil, or_false] at *
  omega

theorem adjFrom_nodup {c : Coord} (h1 : c.1 < 256) (h2 : c.2 < 256) : (adjFrom n c).Nodup := by
  obtain ⟨a, b⟩ := c
  unfold adjFrom
  apply List.Pairwise.filter
  unfold wsub1
  simp only [List.pairwise_cons, List.mem_cons, List.not_mem_nil, or_false, ne_eq, forall_eq_or_imp, Prod.mk.injEq,
    forall_eq, List.Pairwise.nil, and_true] at *
  refine ⟨⟨?_, ?_, ?_⟩, ⟨?_, ?_⟩, ?_, ?_⟩
  all_goals first | omega | (intro _ h; cases h)

theorem adjFrom_onBoard {c q : Coord} (h : q ∈ adjFrom n c) : OnBoard n q :=
  isCoordValid_iff.1 (List.mem_filter.1 h).2

theorem beside_iff_adj {p q : Coord} (hn : n.Good) (hp : OnBoard n p) (hq : OnBoard n q) : Beside p q ↔ Adj p q := by
  have := hp.1; have := hp.2; have := hq.1; have := hq.2
  have := onBoard_w19 hn hp
  unfold Beside Spec.Next Adj
  omega

theorem connectedPoints_from {g : Goban} {p : Coord} (h : Inv n g) (h1 : p.1 < 256) (h2 : p.2 < 256) (ho : ¬ Overflows dbg p) :
    g.connectedPoints dbg p = .ok ((adjFrom n p).map (fun q => { coord := q, color := g.view q })) := by
  unfold Goban.connectedPoints Goban.neighborsCoords
  rw [h.size, validCoords_from h1 h2 ho, ok_bind]
  apply mapM_ok
  intro q hq
  rw [h.getColor_view (adjFrom_onBoard hq)]
  rfl

theorem connectedStones_from {g : Goban} {p : Coord} (h : Inv n g) (h1 : p.1 < 256) (h2 : p.2 < 256) (ho : ¬ Overflows dbg p) :
    g.connectedStones dbg p =
      .ok ((adjFrom n p).filterMap (fun q => (g.view q).map (fun c => { coord := q, color := c }))) := by
  unfold Goban.connectedStones
  rw [connectedPoints_from h h1 h2 ho, ok_bind, List.filterMap_map]
  rfl

theorem getLiberties_from {g : Goban} {p : Coord} (h : Inv n g) (h1 : p.1 < 256) (h2 : p.2 < 256) (ho : ¬ Overflows dbg p) :
    g.getLiberties dbg p = .ok ((adjFrom n p).filter (fun q => (g.view q).isNone)) := by
  unfold Goban.getLiberties Goban.neighborsCoords
  rw [h.size, validCoords_from h1 h2 ho, ok_bind,
    mapM_ok (h := fun q => if (g.view q).isNone then some q else none), ok_bind]
  · rw [filterMap_map_id]
    congr 1
    rw [filterMap_if (P := fun q => (g.view q).isNone) (f := fun q => q), List.map_id']
  · intro q hq
    rw [h.getColor_view (adjFrom_onBoard hq)]
    rfl

theorem hasLiberties_from {g : Goban} {p : Coord} (h : Inv n g) (h1 : p.1 < 256) (h2 : p.2 < 256) (ho : ¬ Overflows dbg p) :
    g.hasLiberties dbg p = .ok ((adjFrom n p).any (fun q => (g.view q).isNone)) := by
  rw [Goban.hasLiberties_of (getLiberties_from h h1 h2 ho)]
  congr 1
  rw [Bool.eq_iff_iff, Bool.not_eq_true', ← Bool.not_eq_true, List.isEmpty_iff, List.filter_eq_nil_iff, List.any_eq_true]
  constructor
  · intro h'
    apply Classical.byContradiction
    intro hne
    exact h' (fun a ha hv => hne ⟨a, ha, hv⟩)
  · rintro ⟨a, ha, hv⟩ h'
    exact h' a ha hv

/-! ### Groups, by index -/

theorem neighborsIdx_from {g : Goban} {p : Coord} (hs : g.size = n.sz) (hw : 0 < n.h) (hn : n.Good)
    (ho : ¬ Overflows dbg (landsOn n p)) :
    g.neighborsIdx dbg (twoTo1dim g.size p) = .ok ((adjFrom n (landsOn n p)).map (twoTo1dim n.sz)) := by
  have hw' : 0 < n.w := by
    rcases Nat.eq_zero_or_pos n.w with h | h
    · obtain ⟨d, hd⟩ := hn.fits
      rw [h] at hd; omega
    · exact h
  have h19 := hn.w19
  have hm := Nat.mod_lt (p.1 * n.h + p.2) hw'
  unfold Goban.neighborsIdx Goban.neighborsCoords
  have : oneTo2dim n.sz (twoTo1dim n.sz p) = .ok (landsOn n p) := by
    unfold oneTo2dim twoTo1dim Dim.sz u8 landsOn
    rw [if_neg (by simp only; omega)]
    simp only
    rw [Nat.mod_eq_of_lt (a := (p.1 * n.h + p.2) % n.w) (by omega)]
  rw [hs, this, ok_bind, validCoords_from (Nat.mod_lt _ (by omega)) (Nat.lt_trans hm (by omega)) ho]
  rfl

theorem neighborsIdx_overflows {g : Goban} {p : Coord} (hs : g.size = n.sz) (hw : 0 < n.h) (hn : n.Good)
    (ho : Overflows dbg (landsOn n p)) : g.neighborsIdx dbg (twoTo1dim g.size p) = panic := by
  have hw' : 0 < n.w := by
    rcases Nat.eq_zero_or_pos n.w with h | h
    · obtain ⟨d, hd⟩ := hn.fits
      rw [h] at hd; omega
    · exact h
  have h19 := hn.w19
  have hm := Nat.mod_lt (p.1 * n.h + p.2) hw'
  unfold Goban.neighborsIdx Goban.neighborsCoords
  have : oneTo2dim n.sz (twoTo1dim n.sz p) = .ok (landsOn n p) := by
    unfold oneTo2dim twoTo1dim Dim.sz u8 landsOn
    rw [if_neg (by simp only; omega)]
    simp only
    rw [Nat.mod_eq_of_lt (a := (p.1 * n.h + p.2) % n.w) (by omega)]
  rw [hs, this, ok_bind]
  unfold validCoords
  rw [neighborCoords_overflows (Nat.mod_lt _ (by omega)) ho]
  rfl

theorem connectedGroups_from {g : Goban} {p : Coord} (h : Inv n g) (hw : 0 < n.h) (ho : ¬ Overflows dbg (landsOn n p)) :
    (∃ ks, g.connectedGroupsIdx dbg (twoTo1dim g.size p) = .ok ks ∧ ks.Nodup ∧
      ∀ k, k ∈ ks ↔ ∃ q, OnBoard n q ∧ Beside (landsOn n p) q ∧ g.bd (twoTo1dim n.sz q) = some k) ∧
    ∃ gs, g.connectedGroups dbg p = .ok gs ∧ ∀ grp, grp ∈ gs ↔
      ∃ s k, OnBoard n s ∧ Beside (landsOn n p) s ∧ g.bd (twoTo1dim n.sz s) = some k ∧ g.ch k = some grp := by
  have hl1 : (landsOn n p).1 < 256 := Nat.mod_lt _ (by omega)
  have hl2 : (landsOn n p).2 < 256 := by
    have h19 := h.good.w19
    have hw' : 0 < n.w := by
      rcases Nat.eq_zero_or_pos n.w with h' | h'
      · obtain ⟨d, hd⟩ := h.good.fits
        rw [h'] at hd; omega
      · exact h'
    exact Nat.lt_trans (Nat.mod_lt _ hw') (by omega)
  have hb : ∀ x ∈ (adjFrom n (landsOn n p)).map (twoTo1dim n.sz), x < 361 := by
    intro x hx
    obtain ⟨q, hq, rfl⟩ := List.mem_map.1 hx
    exact h.lt361 (twoTo1_lt h.good (adjFrom_onBoard hq))
  obtain ⟨ks, e, hnd, hks0⟩ := connectedGroupsIdx_of (neighborsIdx_from h.size hw h.good ho) h.rep.blen hb
  have hks : ∀ k, k ∈ ks ↔ ∃ q, OnBoard n q ∧ Beside (landsOn n p) q ∧ g.bd (twoTo1dim n.sz q) = some k := by
    intro k
    rw [hks0]
    constructor
    · rintro ⟨j, hj, hk⟩
      obtain ⟨q, hq, rfl⟩ := List.mem_map.1 hj
      obtain ⟨a, b⟩ := (mem_adjFrom h.good hl1 hl2).1 hq
      exact ⟨q, a, b, hk⟩
    · rintro ⟨q, a, b, hk⟩
      exact ⟨_, List.mem_map.2 ⟨q, (mem_adjFrom h.good hl1 hl2).2 ⟨a, b⟩, rfl⟩, hk⟩
  refine ⟨⟨ks, e, hnd, hks⟩, ?_⟩
  have hlive : ∀ k ∈ ks, ∃ grp, g.ch k = some grp := by
    intro k hk
    obtain ⟨j, _, _, hj⟩ := (hks k).1 hk
    exact h.rep.live _ _ hj
  refine ⟨ks.filterMap g.ch, ?_, ?_⟩
  · unfold Goban.connectedGroups
    rw [e, ok_bind]
    clear e hks hks0 hnd
    induction ks with
    | nil => rfl
    | cons k ks ih =>
      obtain ⟨grp, hg⟩ := hlive k (by simp)
      rw [List.mapM_cons, Goban.chainAt_ok hg, ok_bind, ih (fun j hj => hlive j (by simp [hj])), ok_bind,
        List.filterMap_cons, hg]
      rfl
  · intro grp
    rw [List.mem_filterMap]
    constructor
    · rintro ⟨k, hk, hg⟩
      obtain ⟨q, a, b, d⟩ := (hks k).1 hk
      exact ⟨q, k, a, b, d, hg⟩
    · rintro ⟨s, k, a, b, d, hg⟩
      exact ⟨k, (hks k).2 ⟨s, a, b, d⟩, hg⟩

/-! ### The cell of a pair of bytes -/

theorem getColor_from {g : Goban} {p : Coord} (h : Inv n g) :
    (361 ≤ p.1 * n.h + p.2 → g.getColor p = panic) ∧
    (∀ q, OnBoard n q → p.1 * n.h + p.2 = q.1 * n.h + q.2 → g.getColor p = .ok (g.view q)) ∧
    (p.1 * n.h + p.2 < 361 → (∀ q, OnBoard n q → p.1 * n.h + p.2 ≠ q.1 * n.h + q.2) → g.getColor p = .ok none) := by
  have e : twoTo1dim g.size p = p.1 * n.h + p.2 := by rw [h.size]; rfl
  refine ⟨fun hi => ?_, fun q hq hi => ?_, fun hi hno => ?_⟩
  · unfold Goban.getColor Goban.getColorIdx Goban.boardAt
    rw [e, List.getElem?_eq_none (by rw [h.rep.blen]; exact hi)]
    rfl
  · rw [← h.getColor_view hq]
    unfold Goban.getColor
    rw [e, hi, h.size]
    rfl
  · unfold Goban.getColor
    rw [e, h.rep.getColorIdx hi, h.col_off]
    intro hx
    exact hno (ptOf n (p.1 * n.h + p.2)) (ptOf_onBoard hx) (twoTo1_ptOf (n := n)).symm

/-! ### The eye test -/

theorem helperCheckEye_from {g : Game} {p : Coord} {c : Color} (h : Inv n g.goban) (h1 : p.1 < 256) (h2 : p.2 < 256)
    (ho : ¬ Overflows dbg p) :
    ∃ ally off, g.helperCheckEye dbg p c = .ok (ally, off, (cornersFrom n p).filter (fun q => g.goban.view q = none)) ∧
      ally.length + off.length + Spec.openCorners n g.goban.view c p = 4 := by
  have hv : isCoordValid n.sz = fun q => decide (OnBoard n q) := by
    funext q
    rw [Bool.eq_iff_iff, isCoordValid_iff, decide_eq_true_eq]
  unfold Game.helperCheckEye
  rw [cornerPoints_from h1 h2 ho, ok_bind, eyeFold_ok h, hv]
  refine ⟨_, _, rfl, ?_⟩
  have key : ∀ L : List Coord, L.length = 4 →
      ((L.filter (fun q => decide (OnBoard n q))).filter (fun q => decide (g.goban.view q = some c))).length +
        (L.filter (fun q => !decide (OnBoard n q))).length +
        ((L.filter (fun q => decide (OnBoard n q))).filter (fun q => decide (g.goban.view q ≠ some c))).length = 4 := by
    intro L hL
    have h3 := filter_length_add (fun q => decide (OnBoard n q)) L
    have h4 := filter_length_add (fun q => decide (g.goban.view q = some c)) (L.filter (fun q => decide (OnBoard n q)))
    have h5 : (fun q => decide (g.goban.view q ≠ some c)) = (fun q => !decide (g.goban.view q = some c)) := by
      funext q; simp
    rw [h5]
    omega
  exact key _ rfl

theorem checkEye_from {g : Game} {p : Coord} {c : Color} (h : Inv n g.goban) (h1 : p.1 < 256) (h2 : p.2 < 256)
    (ho : ¬ Overflows dbg p) (he : g.goban.getColor p = .ok none) :
    ∃ b, g.checkEye dbg { coord := p, color := c } = .ok b ∧ (b = true ↔ Spec.EyeFrom n g.goban.view c p) := by
  unfold Game.checkEye
  dsimp only
  rw [he, ok_bind]
  dsimp only [Option.isSome]
  rw [if_neg (by simp), Goban.anyConnectedPoint_of (connectedPoints_from h h1 h2 ho), ok_bind]
  have hany : (((adjFrom n p).map (fun q => ({ coord := q, color := g.goban.view q } : Point))).any
      (fun q => decide (q.color ≠ some c)) = true) ↔
      ¬ ∀ q, OnBoard n q → Beside p q → g.goban.view q = some c := by
    rw [any_iff]
    constructor
    · rintro ⟨s, hs, hne⟩ hall
      obtain ⟨r, hr, rfl⟩ := List.mem_map.1 hs
      obtain ⟨hrb, hra⟩ := (mem_adjFrom h.good h1 h2).1 hr
      rw [decide_eq_true_eq] at hne
      exact hne (hall r hrb hra)
    · intro hall
      apply Classical.byContradiction
      intro hno
      apply hall
      intro r hrb hra
      apply Classical.byContradiction
      intro hv
      apply hno
      exact ⟨_, List.mem_map.2 ⟨r, (mem_adjFrom h.good h1 h2).2 ⟨hrb, hra⟩, rfl⟩, by simpa using hv⟩
  split
  · rename_i hh
    refine ⟨false, rfl, ?_⟩
    unfold Spec.EyeFrom
    simp only [Bool.false_eq_true, false_iff]
    intro h'
    exact (hany.1 hh) h'.1
  · rename_i hh
    have hall := Classical.not_not.1 (fun h' => hh (hany.2 h'))
    obtain ⟨ally, off, e, hs⟩ := helperCheckEye_from (dbg := dbg) (c := c) h h1 h2 ho
    rw [e, ok_bind]
    dsimp only
    unfold Spec.EyeFrom
    split
    · rename_i h4
      exact ⟨true, rfl, by simp only [true_iff]; exact ⟨hall, Or.inl (by omega)⟩⟩
    · rename_i h4
      split
      · rename_i h3
        obtain ⟨b, e, hb⟩ := eyeCorners_ok (dbg := dbg) (c := c) h ((cornersFrom n p).filter (fun q => g.goban.view q = none))
          (fun r hr => by
            have := (List.mem_filter.1 (List.mem_filter.1 hr).1).2
            exact of_decide_eq_true this)
        refine ⟨b, e, hb.trans ?_⟩
        constructor
        · intro h'; exact ⟨hall, Or.inr ⟨by omega, h'⟩⟩
        · rintro ⟨_, h' | ⟨_, h'⟩⟩
          · exact absurd (by omega) h4
          · exact h'
      · rename_i h3
        refine ⟨false, rfl, ?_⟩
        simp only [Bool.false_eq_true, false_iff]
        rintro ⟨_, h' | ⟨h', _⟩⟩
        · exact h4 (by omega)
        · exact h3 (by omega)

/-! ### Captures and suicide -/

theorem willCapture_from {g : Game} {p : Coord} (h : Inv n g.goban) (hw : 0 < n.h) (ho : ¬ Overflows dbg (landsOn n p)) :
    ∃ b, g.willCapture dbg p = .ok b ∧ (b = true ↔ ∃ q, OnBoard n q ∧ Beside (landsOn n p) q ∧
      g.goban.view q = some g.turn.opp ∧ Spec.OneLiberty n g.goban.view q) := by
  obtain ⟨_, gs, e, hgs⟩ := connectedGroups_from (dbg := dbg) h hw ho
  unfold Game.willCapture
  rw [e, ok_bind]
  refine ⟨_, rfl, ?_⟩
  rw [any_iff]
  constructor
  · rintro ⟨grp, hm, hP⟩
    obtain ⟨s, k, a1, a2, a3, a4⟩ := (hgs grp).1 hm
    rw [Bool.and_eq_true, decide_eq_true_eq] at hP
    refine ⟨s, a1, a2, ?_, (h.atari_iff a4 a1 a3).1 hP.2⟩
    rw [h.view a1, col_of_bd a3 a4, Color.eq_opp_of_ne hP.1]
  · rintro ⟨s, a1, a2, a3, a4⟩
    obtain ⟨k, grp, b1, b2, b3⟩ := h.view_some a1 a3
    refine ⟨grp, (hgs grp).2 ⟨s, k, a1, a2, b1, b2⟩, ?_⟩
    rw [Bool.and_eq_true, decide_eq_true_eq, b3]
    exact ⟨Color.opp_ne _, (h.atari_iff b2 a1 b1).2 a4⟩

theorem checkSuicide_from {g : Game} {p : Coord} {c : Color} (h : Inv n g.goban) (hw : 0 < n.h) (h1 : p.1 < 256) (h2 : p.2 < 256)
    (ho : ¬ Overflows dbg p) (ho' : ¬ Overflows dbg (landsOn n p)) :
    ∃ b, g.checkSuicide dbg { coord := p, color := c } = .ok b ∧ (b = true ↔ Spec.SuicideFrom n g.goban.view c p) := by
  obtain ⟨_, gs, e, hgs⟩ := connectedGroups_from (dbg := dbg) h hw ho'
  unfold Game.checkSuicide
  dsimp only
  rw [hasLiberties_from h h1 h2 ho, ok_bind]
  by_cases hl : (adjFrom n p).any (fun q => (g.goban.view q).isNone) = true
  · rw [if_pos hl]
    refine ⟨false, rfl, ?_⟩
    simp only [Bool.false_eq_true, false_iff]
    rintro ⟨h', _⟩
    obtain ⟨q, hq, hv⟩ := List.any_eq_true.1 hl
    obtain ⟨a, b⟩ := (mem_adjFrom h.good h1 h2).1 hq
    exact h' q a b (Option.isNone_iff_eq_none.1 hv)
  · rw [if_neg hl, e, ok_bind]
    refine ⟨_, rfl, ?_⟩
    rw [Bool.not_eq_true', ← Bool.not_eq_true, any_iff]
    constructor
    · intro hno
      refine ⟨fun q a b hv => hl (List.any_eq_true.2 ⟨q, (mem_adjFrom h.good h1 h2).2 ⟨a, b⟩, by rw [hv]; rfl⟩), ?_⟩
      intro q a b
      constructor
      · intro hv
        obtain ⟨k, grp, b1, b2, b3⟩ := h.view_some a hv
        apply Classical.byContradiction
        intro hone
        refine hno ⟨grp, (hgs grp).2 ⟨q, k, a, b, b1, b2⟩, ?_⟩
        rw [if_pos b3, Bool.not_eq_true', ← Bool.not_eq_true, h.atari_iff b2 a b1]
        exact hone
      · intro hv hone
        obtain ⟨k, grp, b1, b2, b3⟩ := h.view_some a hv
        refine hno ⟨grp, (hgs grp).2 ⟨q, k, a, b, b1, b2⟩, ?_⟩
        rw [if_neg (by rw [b3]; exact Color.opp_ne c), h.atari_iff b2 a b1]
        exact hone
    · rintro ⟨_, hall⟩ ⟨grp, hm, hP⟩
      obtain ⟨s, k, a1, a2, a3, a4⟩ := (hgs grp).1 hm
      have hv : g.goban.view s = some grp.color := by rw [h.view a1, col_of_bd a3 a4]
      by_cases hc : grp.color = c
      · rw [if_pos hc, Bool.not_eq_true', ← Bool.not_eq_true, h.atari_iff a4 a1 a3] at hP
        exact hP ((hall s a1 a2).1 (by rw [hv, hc]))
      · rw [if_neg hc, h.atari_iff a4 a1 a3] at hP
        exact (hall s a1 a2).2 (by rw [hv, Color.eq_opp_of_ne hc]) hP

end Model
