import Verif.Proofs.Remove
import Verif.Spec.Observe
/-!
# From the data structure to positions: groups are components, liberties are empty neighbours
-/

namespace Model
open Bits (has)
open Spec (OnBoard Adj Linked HasLiberty)

theorem Inv.getColor {n g} (h : Inv n g) {p : Coord} (hp : OnBoard n p) :
    g.getColor p = .ok (g.col (twoTo1dim n.sz p)) := by
  unfold Goban.getColor
  rw [h.size]
  exact h.rep.getColorIdx (h.lt361 (twoTo1_lt h.good hp))

theorem Inv.view {n g} (h : Inv n g) {p : Coord} (hp : OnBoard n p) : g.view p = g.col (twoTo1dim n.sz p) := by
  unfold Goban.view
  rw [h.getColor hp]

theorem Inv.view_ptOf {n g} (h : Inv n g) {i : Nat} (hi : Ix n i) : g.view (ptOf n i) = g.col i := by
  rw [h.view (ptOf_onBoard hi), twoTo1_ptOf]

theorem Inv.getColor_view {n g} (h : Inv n g) {p : Coord} (hp : OnBoard n p) : g.getColor p = .ok (g.view p) := by
  rw [h.view hp, h.getColor hp]

/-- Position of a board as an index map restricted to the board; used to compare with `col`. -/
theorem Inv.col_off {n g} (h : Inv n g) {i : Nat} (hi : ¬ Ix n i) : g.col i = none := by
  cases hb : g.bd i with
  | none => exact col_none hb
  | some k => exact absurd (h.off i k hb) hi

theorem linked_onBoard {n : Dim} {pos : Spec.Pos} {p q : Coord} (h : Linked n pos p q) (hp : OnBoard n p) : OnBoard n q := by
  induction h with
  | refl => exact hp
  | step _ _ hr _ _ => exact hr

theorem linked_same {n : Dim} {pos : Spec.Pos} {p q : Coord} (h : Linked n pos p q) : pos q = pos p := by
  induction h with
  | refl => rfl
  | step _ _ _ he ih => rw [he, ih]

theorem linked_trans {n : Dim} {pos : Spec.Pos} {p q r : Coord} (h1 : Linked n pos p q) (h2 : Linked n pos q r) :
    Linked n pos p r := by
  induction h2 with
  | refl => exact h1
  | step _ ha hr he ih => exact .step ih ha hr he

theorem linked_symm {n : Dim} {pos : Spec.Pos} {p q : Coord} (hp : OnBoard n p) (h : Linked n pos p q) :
    Linked n pos q p := by
  induction h with
  | refl => exact .refl _
  | step h ha hr he ih =>
    exact linked_trans (.step (.refl _) (adj_symm ha) (linked_onBoard h hp) he.symm) ih

/-- Only the shown colours on the board matter. -/
theorem linked_congr {n : Dim} {a b : Spec.Pos} (hab : Spec.SameOn n a b) {p q : Coord} (hp : OnBoard n p)
    (h : Linked n a p q) : Linked n b p q := by
  induction h with
  | refl => exact .refl _
  | step h ha hr he ih =>
    exact .step ih ha hr (by rw [← hab _ hr, he, hab _ (linked_onBoard h hp)])

theorem hasLiberty_congr {n : Dim} {a b : Spec.Pos} (hab : Spec.SameOn n a b) {p : Coord} (hp : OnBoard n p)
    (h : HasLiberty n a p) : HasLiberty n b p := by
  obtain ⟨q, r, h1, h2, h3, h4⟩ := h
  exact ⟨q, r, linked_congr hab hp h1, h2, h3, by rw [← hab r h3, h4]⟩

theorem SameOn.symm {n : Dim} {a b : Spec.Pos} (h : Spec.SameOn n a b) : Spec.SameOn n b a := fun p hp => (h p hp).symm
theorem SameOn.trans {n : Dim} {a b c : Spec.Pos} (h : Spec.SameOn n a b) (h2 : Spec.SameOn n b c) : Spec.SameOn n a c :=
  fun p hp => (h p hp).trans (h2 p hp)

theorem twoTo1_mem_nbrs {n : Dim} {p q : Coord} (hn : n.Good) (hp : OnBoard n p) :
    twoTo1dim n.sz q ∈ nbrs n (twoTo1dim n.sz p) ∧ OnBoard n q ↔ OnBoard n q ∧ Adj p q := by
  constructor
  · rintro ⟨h1, h2⟩
    rw [mem_nbrs hn (twoTo1_lt hn hp), ptOf_twoTo1 hn hp, ptOf_twoTo1 hn h2] at h1
    exact ⟨h2, h1.2⟩
  · rintro ⟨h1, h2⟩
    refine ⟨?_, h1⟩
    rw [mem_nbrs hn (twoTo1_lt hn hp), ptOf_twoTo1 hn hp, ptOf_twoTo1 hn h1]
    exact ⟨twoTo1_lt hn h1, h2⟩

theorem adj_mem_nbrs {n : Dim} {p q : Coord} (hn : n.Good) (hp : OnBoard n p) (hq : OnBoard n q) (h : Adj p q) :
    twoTo1dim n.sz q ∈ nbrs n (twoTo1dim n.sz p) := ((twoTo1_mem_nbrs hn hp).2 ⟨hq, h⟩).1

/-- Two stones are linked iff they carry the same group index. -/
theorem Inv.linked_iff {n g} (h : Inv n g) {p q : Coord} (hp : OnBoard n p) (hq : OnBoard n q) {k : Nat}
    (hk : g.bd (twoTo1dim n.sz p) = some k) :
    Linked n g.view p q ↔ g.bd (twoTo1dim n.sz q) = some k := by
  constructor
  · intro hl
    clear hq
    induction hl with
    | refl => exact hk
    | step hl ha hr he ih =>
      have hq := linked_onBoard hl hp
      apply h.closed _ _ k (adj_mem_nbrs h.good hq hr ha) ih
      rw [← h.view hq, ← h.view hr]; exact he
  · intro hb
    have hc := h.conn k _ _ hk hb
    have key : ∀ i j, Conn n (fun x => g.bd x = some k) i j → Linked n g.view (ptOf n i) (ptOf n j) := by
      intro i j hc
      induction hc with
      | refl => exact .refl _
      | step hc hk' hs ih =>
        have hj := h.off _ _ hc.right
        obtain ⟨h1, h2⟩ := (mem_nbrs h.good hj).1 hk'
        refine .step ih h2 (ptOf_onBoard h1) ?_
        rw [h.view_ptOf h1, h.view_ptOf hj]
        obtain ⟨grp, hg⟩ := h.rep.live _ _ hs
        rw [col_of_bd hs hg, col_of_bd hc.right hg]
    have := key _ _ hc
    rwa [ptOf_twoTo1 h.good hp, ptOf_twoTo1 h.good hq] at this

theorem Inv.view_none_iff {n g} (h : Inv n g) {p : Coord} (hp : OnBoard n p) :
    g.view p = none ↔ g.bd (twoTo1dim n.sz p) = none := by
  rw [h.view hp, h.rep.col_none_iff]

theorem Inv.view_some {n g} (h : Inv n g) {p : Coord} (hp : OnBoard n p) {c : Color} (hv : g.view p = some c) :
    ∃ k grp, g.bd (twoTo1dim n.sz p) = some k ∧ g.ch k = some grp ∧ grp.color = c := by
  rw [h.view hp] at hv
  exact h.rep.col_some_iff.1 hv

theorem isDead_iff {grp : Group} : grp.isDead = true ↔ ∀ x, has x grp.liberties = false := by
  unfold Group.isDead
  rw [Bool.not_eq_true', ← Bool.not_eq_true, Bits.any_eq_true]
  constructor
  · intro h x; rw [← Bool.not_eq_true]; exact fun h' => h ⟨x, h'⟩
  · rintro h ⟨x, hx⟩; rw [h x] at hx; cases hx

/-- A recorded liberty is an empty point next to the group. -/
theorem Inv.has_iff {n g} (h : Inv n g) {k : Nat} {grp : Group} (hg : g.ch k = some grp) {p : Coord} (hp : OnBoard n p)
    (hk : g.bd (twoTo1dim n.sz p) = some k) {r : Coord} (hr : OnBoard n r) :
    has (twoTo1dim n.sz r) grp.liberties = true ↔
      g.view r = none ∧ ∃ q, OnBoard n q ∧ Adj q r ∧ Linked n g.view p q := by
  rw [h.libs k grp hg, h.view_none_iff hr]
  constructor
  · rintro ⟨_, h2, j, hj, hbj⟩
    have hjN := h.off j k hbj
    rw [mem_nbrs h.good (twoTo1_lt h.good hr), ptOf_twoTo1 h.good hr] at hj
    refine ⟨h2, ptOf n j, ptOf_onBoard hjN, adj_symm hj.2, ?_⟩
    rw [h.linked_iff hp (ptOf_onBoard hjN) hk, twoTo1_ptOf]; exact hbj
  · rintro ⟨h2, q, hq, ha, hl⟩
    exact ⟨twoTo1_lt h.good hr, h2, _, adj_mem_nbrs h.good hr hq (adj_symm ha), (h.linked_iff hp hq hk).1 hl⟩

theorem Inv.hasLiberty_iff {n g} (h : Inv n g) {k : Nat} {grp : Group} (hg : g.ch k = some grp) {p : Coord}
    (hp : OnBoard n p) (hk : g.bd (twoTo1dim n.sz p) = some k) :
    HasLiberty n g.view p ↔ grp.isDead = false := by
  rw [← Bool.not_eq_true, isDead_iff]
  constructor
  · rintro ⟨q, r, h1, h2, h3, h4⟩ hd
    have hq := linked_onBoard h1 hp
    have := (h.has_iff hg hp hk h3).2 ⟨h4, q, hq, h2, h1⟩
    rw [hd] at this; cases this
  · intro hd
    have : ∃ x, has x grp.liberties = true := by
      apply Classical.byContradiction
      intro hn
      apply hd
      intro x
      rw [← Bool.not_eq_true]
      exact fun h' => hn ⟨x, h'⟩
    obtain ⟨x, hx⟩ := this
    obtain ⟨hxN, _⟩ := (h.libs k grp hg x).1 hx
    have hr := ptOf_onBoard hxN
    obtain ⟨h4, q, hq, ha, hl⟩ := (h.has_iff hg hp hk hr).1 (by rw [twoTo1_ptOf]; exact hx)
    exact ⟨q, ptOf n x, hl, ha, hr, h4⟩

end Model
