import Verif.Model.Goban
import Verif.Spec.Go
/-!
# Coordinates: on boards whose width divides their height indices and points are in bijection, neighbour lists are exact
-/

namespace Model
open Spec (OnBoard Adj)

/-- Sizes for which indices and points are in bijection. -/
structure _root_.Dim.Good (n : Dim) : Prop where
  fits : n.Fits
  h19 : n.h ≤ 19
  w19 : n.w ≤ 19

theorem good_sq {n : Nat} (h : n ≤ 19) : (n : Dim).Good := ⟨Nat.dvd_refl _, h, h⟩

theorem _root_.Dim.Good.area_le {n : Dim} (hn : n.Good) : n.area ≤ 19 * 19 := Nat.mul_le_mul hn.h19 hn.w19

theorem _root_.Dim.Good.new {n : Dim} (hn : n.Good) : ∃ b, Goban.new n.sz = .ok b := by
  unfold Goban.new
  simp [Dim.sz, hn.h19, hn.w19, assertM]

/-- The point with index `i`. -/
def ptOf (n : Dim) (i : Nat) : Coord := (i / n.h, i % n.h)

/-- `i` is the index of a point. -/
def Ix (n : Dim) (i : Nat) : Prop := i / n.h < n.h ∧ i % n.h < n.w

instance (n : Dim) (i : Nat) : Decidable (Ix n i) := inferInstanceAs (Decidable (_ ∧ _))

theorem _root_.Dim.Good.w_le {n : Dim} (hn : n.Good) (h : 0 < n.h) : n.w ≤ n.h := Nat.le_of_dvd h hn.fits

theorem onBoard_w19 {n : Dim} (hn : n.Good) {p : Coord} (h : OnBoard n p) : n.w ≤ n.h ∧ n.h ≤ 19 :=
  ⟨hn.w_le (Nat.lt_of_le_of_lt (Nat.zero_le _) h.1), hn.h19⟩

theorem twoTo1_ptOf {n : Dim} {i : Nat} : twoTo1dim n.sz (ptOf n i) = i := by
  unfold twoTo1dim ptOf Dim.sz
  simp only
  rw [Nat.mul_comm]; exact Nat.div_add_mod i n.h

theorem ptOf_twoTo1 {n : Dim} (hn : n.Good) {p : Coord} (h : OnBoard n p) : ptOf n (twoTo1dim n.sz p) = p := by
  have h0 := onBoard_w19 hn h
  unfold twoTo1dim ptOf Dim.sz
  have h2 : p.2 < n.h := Nat.lt_of_lt_of_le h.2 h0.1
  simp only
  have hn : 0 < n.h := by omega
  rw [Nat.add_comm, Nat.add_mul_div_right _ _ hn, Nat.div_eq_of_lt h2, Nat.add_mul_mod_self_right,
    Nat.mod_eq_of_lt h2]
  simp

theorem ptOf_onBoard {n : Dim} {i : Nat} (h : Ix n i) : OnBoard n (ptOf n i) := h

theorem twoTo1_lt {n : Dim} (hn : n.Good) {p : Coord} (h : OnBoard n p) : Ix n (twoTo1dim n.sz p) := by
  show OnBoard n (ptOf n (twoTo1dim n.sz p))
  rw [ptOf_twoTo1 hn h]; exact h

theorem twoTo1_inj {n : Dim} (hn : n.Good) {p q : Coord} (hp : OnBoard n p) (hq : OnBoard n q)
    (h : twoTo1dim n.sz p = twoTo1dim n.sz q) : p = q := by
  rw [← ptOf_twoTo1 hn hp, ← ptOf_twoTo1 hn hq, h]

theorem ptOf_inj {n : Dim} {i j : Nat} (h : ptOf n i = ptOf n j) : i = j := by
  rw [← twoTo1_ptOf (n := n) (i := i), ← twoTo1_ptOf (n := n) (i := j), h]

theorem Ix.lt {n : Dim} {i : Nat} (h : Ix n i) : i < n.h * n.h := by
  have h1 := h.1
  have h0 : 0 < n.h := Nat.lt_of_le_of_lt (Nat.zero_le _) h1
  have h2 := Nat.div_add_mod i n.h
  have h3 := Nat.mod_lt i h0
  have h4 : n.h * (i / n.h + 1) ≤ n.h * n.h := Nat.mul_le_mul_left _ h1
  rw [Nat.mul_add] at h4
  omega

theorem Ix.lt361 {n : Dim} {i : Nat} (hn : n.Good) (h : Ix n i) : i < 361 :=
  Nat.lt_of_lt_of_le h.lt (Nat.mul_le_mul hn.h19 hn.h19)

theorem oneTo2_ok {n : Dim} {i : Nat} (hn : n.Good) (h : Ix n i) : oneTo2dim n.sz i = .ok (ptOf n i) := by
  have h0 := onBoard_w19 hn (ptOf_onBoard h)
  unfold Ix at h
  unfold oneTo2dim Dim.sz
  rw [if_neg (by simp only; omega)]
  have hm : i % n.w = i % n.h := by
    rw [← Nat.mod_mod_of_dvd i hn.fits, Nat.mod_eq_of_lt h.2]
  unfold ptOf u8
  simp only
  rw [hm, Nat.mod_eq_of_lt (by omega), Nat.mod_eq_of_lt (by omega)]

/-- The on-board orthogonal neighbours of a point in the order of `neighbor_coords`. -/
def adjList (n : Dim) (c : Coord) : List Coord :=
  [(c.1 + 1, c.2), (wsub1 c.1, c.2), (c.1, c.2 + 1), (c.1, wsub1 c.2)].filter (isCoordValid n.sz)

theorem neighborCoords_ok {dbg : Bool} {c : Coord} (h1 : c.1 < 255) (h2 : c.2 < 255) :
    neighborCoords dbg c = .ok [(c.1 + 1, c.2), (wsub1 c.1, c.2), (c.1, c.2 + 1), (c.1, wsub1 c.2)] := by
  unfold neighborCoords addU8
  rw [if_pos (by omega), if_pos (by omega)]
  rfl

theorem validCoords_ok {dbg : Bool} {n : Dim} {c : Coord} (hn : n.Good) (h : OnBoard n c) :
    validCoords dbg c n.sz = .ok (adjList n c) := by
  unfold validCoords
  have := h.1; have := h.2; have := onBoard_w19 hn h
  rw [neighborCoords_ok (by omega) (by omega)]
  rfl

theorem isCoordValid_iff {n : Dim} {c : Coord} : isCoordValid n.sz c = true ↔ OnBoard n c := by
  unfold isCoordValid OnBoard Dim.sz; simp

theorem mem_adjList {n : Dim} {c q : Coord} (hn : n.Good) (h : OnBoard n c) :
    q ∈ adjList n c ↔ OnBoard n q ∧ Adj c q := by
  have := onBoard_w19 hn h
  obtain ⟨a, b⟩ := c
  obtain ⟨x, y⟩ := q
  unfold adjList
  rw [List.mem_filter, isCoordValid_iff]
  unfold OnBoard Adj wsub1 at *
  simp only [List.mem_cons, Prod.mk.injEq, List.not_mem_nil, or_false] at *
  omega

theorem adjList_nodup {n : Dim} {c : Coord} (hn : n.Good) (h : OnBoard n c) : (adjList n c).Nodup := by
  have := onBoard_w19 hn h
  obtain ⟨a, b⟩ := c
  unfold adjList
  apply List.Pairwise.filter
  unfold OnBoard wsub1 at *
  simp only [List.pairwise_cons, List.mem_cons, List.not_mem_nil, or_false, ne_eq, forall_eq_or_imp, Prod.mk.injEq,
    forall_eq, List.Pairwise.nil, and_true] at *
  refine ⟨⟨?_, ?_, ?_⟩, ⟨?_, ?_⟩, ?_, ?_⟩
  all_goals first | omega | (intro _ h; cases h)

theorem adjList_length_le {n : Dim} {c : Coord} : (adjList n c).length ≤ 4 := by
  unfold adjList
  exact List.length_filter_le _ _

/-- The neighbour indices of an index. -/
def nbrs (n : Dim) (i : Nat) : List Nat := (adjList n (ptOf n i)).map (twoTo1dim n.sz)

theorem neighborsIdx_ok {dbg : Bool} {g : Goban} {n : Dim} {i : Nat} (hs : g.size = n.sz) (hn : n.Good) (h : Ix n i) :
    g.neighborsIdx dbg i = .ok (nbrs n i) := by
  unfold Goban.neighborsIdx Goban.neighborsCoords
  rw [hs, oneTo2_ok hn h, ok_bind, validCoords_ok hn (ptOf_onBoard h)]
  rfl

theorem mem_nbrs {n : Dim} {i j : Nat} (hn : n.Good) (h : Ix n i) :
    j ∈ nbrs n i ↔ Ix n j ∧ Adj (ptOf n i) (ptOf n j) := by
  unfold nbrs
  rw [List.mem_map]
  constructor
  · rintro ⟨q, hq, rfl⟩
    rw [mem_adjList hn (ptOf_onBoard h)] at hq
    exact ⟨twoTo1_lt hn hq.1, by rw [ptOf_twoTo1 hn hq.1]; exact hq.2⟩
  · rintro ⟨hj, ha⟩
    exact ⟨ptOf n j, (mem_adjList hn (ptOf_onBoard h)).2 ⟨ptOf_onBoard hj, ha⟩, twoTo1_ptOf⟩

theorem adj_symm {p q : Coord} (h : Adj p q) : Adj q p := by
  unfold Adj at *; omega

theorem adj_irrefl {p : Coord} : ¬ Adj p p := by
  unfold Adj; omega

theorem nbrs_lt {n : Dim} {i j : Nat} (hn : n.Good) (h : Ix n i) (hj : j ∈ nbrs n i) : Ix n j :=
  ((mem_nbrs hn h).1 hj).1

theorem nbrs_symm {n : Dim} {i j : Nat} (hn : n.Good) (h : Ix n i) (hj : j ∈ nbrs n i) : i ∈ nbrs n j := by
  have := (mem_nbrs hn h).1 hj
  exact (mem_nbrs hn this.1).2 ⟨h, adj_symm this.2⟩

theorem nbrs_ne {n : Dim} {i j : Nat} (hn : n.Good) (h : Ix n i) (hj : j ∈ nbrs n i) : j ≠ i := by
  rintro rfl
  exact adj_irrefl ((mem_nbrs hn h).1 hj).2

theorem nbrs_nodup {n : Dim} {i : Nat} (hn : n.Good) (h : Ix n i) : (nbrs n i).Nodup := by
  unfold nbrs
  have h1 := adjList_nodup hn (ptOf_onBoard h)
  apply List.Pairwise.map _ _ (List.Pairwise.and_mem.1 h1)
  intro a b ⟨ha, hb, hne⟩ heq
  rw [mem_adjList hn (ptOf_onBoard h)] at ha hb
  exact hne (twoTo1_inj hn ha.1 hb.1 heq)

theorem nbrs_length_le {n : Dim} {i : Nat} : (nbrs n i).length ≤ 4 := by
  unfold nbrs; rw [List.length_map]; exact adjList_length_le

end Model
