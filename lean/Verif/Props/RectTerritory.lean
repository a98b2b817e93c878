import Verif.Props.RectMoves
import Verif.Props.KomiAll
/-!
# Territories and scores on boards that are not square: C92
-/

/-- What is gathered from `s`: the point itself, and the empty points joined through empty points to an empty neighbour of it. -/
def Spec.Gathered (n : Dim) (pos : Spec.Pos) (s p : Spec.Pt) : Prop :=
  p = s ∨ ∃ q, Spec.OnBoard n q ∧ Spec.Adj s q ∧ pos q = none ∧ Spec.Linked n pos q p

/-- A point gathered from `s` is next to a stone of colour `c`. -/
def Spec.Faces (n : Dim) (pos : Spec.Pos) (s : Spec.Pt) (c : Model.Color) : Prop :=
  ∃ p r, Spec.Gathered n pos s p ∧ Spec.Adj p r ∧ Spec.OnBoard n r ∧ pos r = some c

open Classical in
/-- How often `p` counts for `c` on a board with more rows than columns: once if it is territory of `c` and its region reaches the
first row, and once for every stone of the first `w` rows from which `p` is gathered, together with other points next to stones of
`c` only. -/
noncomputable def Spec.gains (n : Dim) (pos : Spec.Pos) (c : Model.Color) (p : Spec.Pt) : Nat :=
  (if Spec.Territory n pos c p ∧ ∃ y, Spec.OnBoard n (0, y) ∧ Spec.Linked n pos p (0, y) then 1 else 0) +
  ((Spec.points n).filter (fun s => decide (s.1 < n.w ∧ pos s ≠ none ∧ Spec.Gathered n pos s p ∧ Spec.Faces n pos s c ∧
    ¬ Spec.Faces n pos s c.opp))).length

/-- All that counts for `c`. -/
noncomputable def Spec.gained (n : Dim) (pos : Spec.Pos) (c : Model.Color) : Nat := ((Spec.points n).map (Spec.gains n pos c)).sum

namespace Model
open Spec (OnBoard Adj Linked Pos Gathered Faces)

variable {dbg : Bool} {n : Dim} {m : Nat} {g : Goban}

theorem inReg_none {s p : Coord} : InReg n g ⟨s, none⟩ ⟨p, none⟩ ↔ Gathered n g.view s p := by
  unfold InReg Gathered
  constructor
  · rintro (h | ⟨_, q, h1, h2, h3, h4⟩)
    · exact Or.inl (congrArg Point.coord h)
    · exact Or.inr ⟨q, h1, h2, h3, h4⟩
  · rintro (rfl | ⟨q, h1, h2, h3, h4⟩)
    · exact Or.inl rfl
    · refine Or.inr ⟨?_, q, h1, h2, h3, h4⟩
      show (⟨p, none⟩ : Point) = ⟨p, g.view p⟩
      rw [linked_view h4, h3]

/-- `R` is the group found from `s`, taken for empty. -/
def From (n : Dim) (g : Goban) (s : Coord) (R : List Point) : Prop := R.Nodup ∧ ∀ x, x ∈ R ↔ InReg n g ⟨s, none⟩ x

theorem From.mem {s : Coord} {R : List Point} (h : From n g s R) {p : Coord} : (⟨p, none⟩ : Point) ∈ R ↔ Gathered n g.view s p := by
  rw [h.2, inReg_none]

theorem any_from {ss : List Coord} {gs : List (List Point)} (h : List.Forall₂ (From n g) ss gs) (p : Coord) :
    gs.any (fun set => set.contains ⟨p, none⟩) = true ↔ ∃ s ∈ ss, Gathered n g.view s p := by
  induction h with
  | nil => simp
  | @cons s R ss gs h1 h2 ih =>
    rw [List.any_cons, Bool.or_eq_true, ih, List.contains_iff_mem, h1.mem]
    simp

/-- The groups found from the points of `l`: every point of `l` is gathered from one of the points `new` from which a search is
started, and such a point from none before it. -/
theorem chains_seeds (hI : Inv n g) : ∀ (l ss : List Coord) (gs : List (List Point)), (∀ s ∈ l, OnBoard n s) →
    List.Forall₂ (From n g) ss gs → ss.Pairwise (fun s t => ¬ Gathered n g.view s t) →
    ∃ new gs', (l.map (fun c => ({ coord := c, color := none } : Point))).foldlM (fun groups s => do
        if groups.any (fun set => set.contains s) then .ok groups
        else do
          let grp ← g.groupFromPoint dbg s
          .ok (groups ++ [grp])) gs = (.ok gs' : M _) ∧
      List.Forall₂ (From n g) (ss ++ new) gs' ∧ (ss ++ new).Pairwise (fun s t => ¬ Gathered n g.view s t) ∧
      (∀ p ∈ l, ∃ s ∈ ss ++ new, Gathered n g.view s p) ∧
      ∀ t ∈ new, ∃ A B, l = A ++ t :: B ∧ ∀ p ∈ A, ∃ s ∈ ss ++ new, Gathered n g.view s p ∧ ¬ Gathered n g.view s t
  | [], ss, gs, _, h, hp => ⟨[], gs, rfl, by simpa using h, by simpa using hp, by simp, by simp⟩
  | s :: l, ss, gs, hl, h, hp => by
    rw [List.map_cons, List.foldlM_cons]
    by_cases hin : gs.any (fun set => set.contains ⟨s, none⟩) = true
    · rw [if_pos hin]
      obtain ⟨s0, hs0, hg⟩ := (any_from h s).1 hin
      obtain ⟨new, gs', e, h1, h2, h3, h4⟩ := chains_seeds hI l ss gs (fun t ht => hl t (by simp [ht])) h hp
      refine ⟨new, gs', e, h1, h2, ?_, ?_⟩
      · intro p hp
        rcases List.mem_cons.1 hp with rfl | hp
        · exact ⟨s0, by simp [hs0], hg⟩
        · exact h3 p hp
      · intro t ht
        obtain ⟨A, B, e1, h5⟩ := h4 t ht
        refine ⟨s :: A, B, by rw [e1]; rfl, ?_⟩
        intro p hp
        rcases List.mem_cons.1 hp with rfl | hp
        · exact ⟨s0, by simp [hs0], hg, (List.pairwise_append.1 h2).2.2 s0 hs0 t ht⟩
        · exact h5 p hp
    · rw [if_neg hin]
      obtain ⟨R, e, hR⟩ := groupFromPoint_any (dbg := dbg) hI (s := ⟨s, none⟩) (hl s (by simp))
      rw [e]
      have hno : ∀ t ∈ ss, ¬ Gathered n g.view t s := fun t ht hc => hin ((any_from h s).2 ⟨t, ht, hc⟩)
      obtain ⟨new, gs', e', h1, h2, h3, h4⟩ := chains_seeds hI l (ss ++ [s]) (gs ++ [R]) (fun t ht => hl t (by simp [ht]))
        (List.rel_append h (.cons hR .nil)) (by
          rw [List.pairwise_append]
          refine ⟨hp, by simp, ?_⟩
          intro a ha b hb
          rw [List.mem_singleton] at hb
          rw [hb]; exact hno a ha)
      rw [List.append_assoc, List.singleton_append] at h1 h2 h3 h4
      refine ⟨s :: new, gs', e', h1, h2, ?_, ?_⟩
      · intro p hp
        rcases List.mem_cons.1 hp with rfl | hp
        · exact ⟨p, by simp, Or.inl rfl⟩
        · exact h3 p hp
      · intro t ht
        rcases List.mem_cons.1 ht with rfl | ht'
        · exact ⟨[], l, rfl, by simp⟩
        · obtain ⟨A, B, e1, h5⟩ := h4 t ht'
          refine ⟨s :: A, B, by rw [e1]; rfl, ?_⟩
          intro p hp
          rcases List.mem_cons.1 hp with rfl | hp
          · refine ⟨p, by simp, Or.inl rfl, ?_⟩
            have := (List.pairwise_append.1 h2).2.1
            exact (List.pairwise_cons.1 this).1 t ht'
          · exact h5 p hp

theorem nodup_count {α} [BEq α] [LawfulBEq α] {l : List α} (h : l.Nodup) {a : α} (ha : a ∈ l) : l.count a = 1 := by
  induction l with
  | nil => cases ha
  | cons b l ih =>
    rw [List.nodup_cons] at h
    rcases List.mem_cons.1 ha with rfl | ha
    · rw [List.count_cons_self, List.count_eq_zero_of_not_mem h.1]
    · have hne : b ≠ a := by rintro rfl; exact h.1 ha
      rw [List.count_cons_of_ne hne, ih h.2 ha]

/-- Only stones of `c` were found. -/
def single : Color → Bool → Bool → Bool
  | .black, B, W => B && !W
  | .white, B, W => W && !B

open Classical in
/-- What the loop over the groups adds. -/
theorem territory_seeds (hI : Inv n g) {ord : List Point → List Point} (hord : ∀ l, (ord l).Perm l) {ss : List Coord}
    {gs : List (List Point)} (h : List.Forall₂ (From n g) ss gs) (hs : ∀ s ∈ ss, OnBoard n s) (acc : List Point × List Point) :
    ∃ T : Color → List Point, gs.foldlM (g.territoryStep dbg ord) acc = .ok (acc.1 ++ T .black, acc.2 ++ T .white) ∧
      ∀ c, (∀ x ∈ T c, x.color = none ∧ OnBoard n x.coord) ∧ ∀ p, (T c).count ⟨p, none⟩ =
        (ss.filter (fun s => decide (Gathered n g.view s p ∧ Faces n g.view s c ∧ ¬ Faces n g.view s c.opp))).length := by
  induction h generalizing acc with
  | nil => exact ⟨fun _ => [], by simp, by simp⟩
  | @cons s R ss gs h1 h2 ih =>
    have hR : ∀ x ∈ R, x.color = none ∧ OnBoard n x.coord := fun x hx =>
      ⟨((h1.2 x).1 hx).color, ((h1.2 x).1 hx).onBoard (hs s (by simp))⟩
    obtain ⟨B, W, hB, hW, e⟩ := border_eq (dbg := dbg) hI (ord R) false false
      (fun p hp => (hR p ((hord R).mem_iff.1 hp)).2) rfl
    have face : ∀ c, (false = true ∨ ∃ p ∈ ord R, ∃ r, Adj p.coord r ∧ OnBoard n r ∧ g.view r = some c) ↔ Faces n g.view s c := by
      intro c
      constructor
      · rintro (h | ⟨x, hx, r, a, b, d⟩)
        · cases h
        · have hx := (hord R).mem_iff.1 hx
          have : x = ⟨x.coord, none⟩ := by rw [← (hR x hx).1]
          rw [this] at hx
          exact ⟨x.coord, r, h1.mem.1 hx, a, b, d⟩
      · rintro ⟨p, r, hp, a, b, d⟩
        exact Or.inr ⟨⟨p, none⟩, (hord R).mem_iff.2 (h1.mem.2 hp), r, a, b, d⟩
    rw [face] at hB hW
    have cnt : ∀ p, (ord R).count ⟨p, none⟩ = if Gathered n g.view s p then 1 else 0 := by
      intro p
      rw [(hord R).count_eq]
      split
      · rename_i hp
        exact nodup_count h1.1 (h1.mem.2 hp)
      · rename_i hp
        exact List.count_eq_zero_of_not_mem (fun h => hp (h1.mem.1 h))
    obtain ⟨T, eT, hT⟩ := ih (fun t ht => hs t (by simp [ht]))
      (acc.1 ++ (if single .black B W then ord R else []), acc.2 ++ (if single .white B W then ord R else []))
    refine ⟨fun c => (if single c B W then ord R else []) ++ T c, ?_, ?_⟩
    · rw [List.foldlM_cons]
      have e2 : g.territoryStep dbg ord acc R =
          .ok (acc.1 ++ (if single .black B W then ord R else []), acc.2 ++ (if single .white B W then ord R else [])) := by
        unfold Goban.territoryStep
        rw [e, ok_bind]
        cases B <;> cases W <;> simp [single]
      rw [e2]
      show List.foldlM _ _ gs = _
      rw [eT]
      simp only [List.append_assoc]
    · intro c
      obtain ⟨hT1, hT2⟩ := hT c
      have hBW : single c B W = true ↔ Faces n g.view s c ∧ ¬ Faces n g.view s c.opp := by
        cases c
        · show (B && !W) = true ↔ Faces n g.view s .black ∧ ¬ Faces n g.view s .white
          rw [← hB, ← hW]; simp
        · show (W && !B) = true ↔ Faces n g.view s .white ∧ ¬ Faces n g.view s .black
          rw [← hB, ← hW]; simp
      constructor
      · intro x hx
        rcases List.mem_append.1 hx with hx | hx
        · have : x ∈ ord R := by
            split at hx
            · exact hx
            · cases hx
          exact hR x ((hord R).mem_iff.1 this)
        · exact hT1 x hx
      · intro p
        rw [List.count_append, hT2, List.filter_cons]
        have hc : List.count ⟨p, none⟩ (if single c B W then ord R else []) =
            if Gathered n g.view s p ∧ Faces n g.view s c ∧ ¬ Faces n g.view s c.opp then 1 else 0 := by
          by_cases hb : single c B W = true
          · rw [if_pos hb, cnt]
            by_cases hG : Gathered n g.view s p
            · rw [if_pos hG, if_pos ⟨hG, hBW.1 hb⟩]
            · rw [if_neg hG, if_neg (fun h => hG h.1)]
          · rw [if_neg hb, if_neg (fun h => hb (hBW.2 h.2))]
            rfl
        rw [hc]
        by_cases hx : Gathered n g.view s p ∧ Faces n g.view s c ∧ ¬ Faces n g.view s c.opp
        · rw [if_pos hx, if_pos (decide_eq_true hx), List.length_cons, Nat.add_comm]
        · rw [if_neg hx, if_neg (by simpa using hx), Nat.zero_add]

/-! ## The order of the searches -/

/-- The listing begins with the empty points of the first row. It goes through the points of the first `w` rows, row by row. -/
theorem emptyCoords_split (h : Board dbg n m g) (hr : n.w < n.h) : ∃ E rest, g.getEmptyCoords = .ok (E ++ rest) ∧
    (∀ p, p ∈ E ↔ OnBoard n p ∧ p.1 = 0 ∧ g.view p = none) ∧ (E ++ rest).Pairwise (fun a b => a.1 ≤ b.1) ∧
    ∀ p, p ∈ E ++ rest ↔ OnBoard n p ∧ p.1 < n.w := by
  have hI := h.inv.1
  have e := C91_empty_coords h
  have hlist : ∀ p, p ∈ (List.range n.w).flatMap (fun x =>
      ((List.range n.h).filter (fun j => decide (n.w ≤ j ∨ g.getColor (x, j) = .ok none))).map (fun j => (x, j % n.w))) ↔
      OnBoard n p ∧ p.1 < n.w := by
    rintro ⟨x, y⟩
    rw [← mem_scan hI.good]
    unfold Spec.scan
    constructor
    · intro hp
      obtain ⟨a, ha, hp⟩ := List.mem_flatMap.1 hp
      obtain ⟨j, hj, e⟩ := List.mem_map.1 hp
      exact List.mem_flatMap.2 ⟨a, ha, List.mem_map.2 ⟨j, (List.mem_filter.1 hj).1, e⟩⟩
    · intro hp
      obtain ⟨a, ha, hp⟩ := List.mem_flatMap.1 hp
      obtain ⟨j, hj, e⟩ := List.mem_map.1 hp
      have ha := List.mem_range.1 ha
      have hj := List.mem_range.1 hj
      refine List.mem_flatMap.2 ⟨a, List.mem_range.2 ha, List.mem_map.2 ⟨n.w + j % n.w, List.mem_filter.2 ⟨?_, ?_⟩, ?_⟩⟩
      · rw [List.mem_range]
        obtain ⟨k, hk⟩ := hI.good.fits
        have hm := Nat.mod_lt j (show 0 < n.w by omega)
        have : 2 ≤ k := by
          rcases k with _ | _ | k
          · omega
          · omega
          · omega
        have := Nat.mul_le_mul_left n.w this
        omega
      · rw [decide_eq_true_eq]; exact Or.inl (by omega)
      · rw [Nat.add_mod_left, Nat.mod_mod]; exact e
  have hsort : ((List.range n.w).flatMap (fun x =>
      ((List.range n.h).filter (fun j => decide (n.w ≤ j ∨ g.getColor (x, j) = .ok none))).map (fun j => (x, j % n.w)))).Pairwise
      (fun a b => a.1 ≤ b.1) := by
    rw [List.pairwise_flatMap]
    constructor
    · intro a _
      rw [List.pairwise_map]
      exact List.Pairwise.imp (fun _ => Nat.le_refl a) List.pairwise_lt_range |>.sublist List.filter_sublist
    · refine List.Pairwise.imp ?_ List.pairwise_lt_range
      intro a b hab x hx y hy
      obtain ⟨j, _, rfl⟩ := List.mem_map.1 hx
      obtain ⟨j', _, rfl⟩ := List.mem_map.1 hy
      exact Nat.le_of_lt hab
  rcases Nat.eq_zero_or_pos n.w with hw | hw
  · refine ⟨[], [], by rw [e, hw]; rfl, ?_, by simp, ?_⟩
    · intro p
      refine iff_of_false (by simp) (fun h => ?_)
      have : p.2 < n.w := h.1.2
      omega
    · intro p
      exact iff_of_false (by simp) (fun h => by omega)
  · obtain ⟨w, hw'⟩ : ∃ w, n.w = w + 1 := ⟨n.w - 1, by omega⟩
    have hsplit : ∃ rest, (List.range n.w).flatMap (fun x =>
        ((List.range n.h).filter (fun j => decide (n.w ≤ j ∨ g.getColor (x, j) = .ok none))).map (fun j => (x, j % n.w))) =
        ((List.range n.w).filter (fun j => decide (n.w ≤ j ∨ g.getColor (0, j) = .ok none))).map (fun j => (0, j % n.w)) ++ rest := by
      have e1 : List.range n.w = 0 :: (List.range w).map Nat.succ := by rw [hw', List.range_succ_eq_map]
      have e2 : List.range n.h = List.range n.w ++ (List.range (n.h - n.w)).map (n.w + ·) := by
        rw [← List.range_add]; congr 1; omega
      have e3 : ∀ f : Nat → List Coord, (List.range n.w).flatMap f = f 0 ++ ((List.range w).map Nat.succ).flatMap f := by
        intro f; rw [e1, List.flatMap_cons]
      rw [e3, e2, List.filter_append, List.map_append, List.append_assoc]
      exact ⟨_, rfl⟩
    obtain ⟨rest, er⟩ := hsplit
    rw [er] at e hlist hsort
    refine ⟨_, rest, e, ?_, hsort, hlist⟩
    rintro ⟨x, y⟩
    rw [List.mem_map]
    constructor
    · rintro ⟨j, hj, e⟩
      obtain ⟨h1, h2⟩ := List.mem_filter.1 hj
      have h1 := List.mem_range.1 h1
      rw [Nat.mod_eq_of_lt h1, Prod.mk.injEq] at e
      obtain ⟨rfl, rfl⟩ := e
      have hO : OnBoard n (0, j) := ⟨by show 0 < n.h; omega, h1⟩
      rw [decide_eq_true_eq, hI.getColor_view hO] at h2
      rcases h2 with h2 | h2
      · omega
      · exact ⟨hO, rfl, Except.ok.inj h2⟩
    · rintro ⟨hO, h1, h2⟩
      have h1 : x = 0 := h1
      subst h1
      have hy : y < n.w := hO.2
      refine ⟨y, List.mem_filter.2 ⟨List.mem_range.2 hy, ?_⟩, by rw [Nat.mod_eq_of_lt hy]⟩
      rw [decide_eq_true_eq, hI.getColor_view hO, h2]
      exact Or.inr rfl

theorem linked_first {pos : Pos} {s p : Coord} (h : Linked n pos s p) :
    p = s ∨ ∃ q, OnBoard n q ∧ Adj s q ∧ pos q = pos s ∧ Linked n pos q p := by
  induction h with
  | refl => exact Or.inl rfl
  | @step q r hL hA hO hs ih =>
    right
    rcases ih with rfl | ⟨t, h1, h2, h3, h4⟩
    · exact ⟨r, hO, hA, hs, .refl _⟩
    · exact ⟨t, h1, h2, h3, .step h4 hA hO hs⟩

/-- From an empty point its region is gathered. -/
theorem gathered_empty {pos : Pos} {s p : Coord} (hs : pos s = none) : Gathered n pos s p ↔ Linked n pos s p := by
  constructor
  · rintro (rfl | ⟨q, h1, h2, h3, h4⟩)
    · exact .refl _
    · exact linked_trans (.step (.refl s) h2 h1 (by rw [h3, hs])) h4
  · intro h
    rcases linked_first h with rfl | ⟨q, h1, h2, h3, h4⟩
    · exact Or.inl rfl
    · exact Or.inr ⟨q, h1, h2, by rw [h3, hs], h4⟩

theorem faces_empty {pos : Pos} {s : Coord} {c : Color} (hs : pos s = none) : Faces n pos s c ↔ Spec.Touches n pos s c := by
  unfold Faces Spec.Touches
  simp only [gathered_empty hs]

/-- An empty neighbour of a gathered point is gathered. -/
theorem Gathered.next {pos : Pos} {s p q : Coord} (h : Gathered n pos s p) (ha : Adj p q) (hO : OnBoard n q) (hq : pos q = none) :
    Gathered n pos s q := by
  rcases h with rfl | ⟨r, h1, h2, h3, h4⟩
  · exact Or.inr ⟨q, hO, ha, hq, .refl _⟩
  · exact Or.inr ⟨r, h1, h2, h3, .step h4 ha hO (by rw [hq, linked_view h4, h3])⟩

/-- A stone is gathered from its own point only. -/
theorem Gathered.stone {pos : Pos} {s p : Coord} (h : Gathered n pos s p) (hp : pos p ≠ none) : s = p := by
  rcases h with rfl | ⟨r, h1, h2, h3, h4⟩
  · rfl
  · exact absurd (by rw [linked_view h4, h3]) hp

/-- The points from which searches are started: in the first row, one of every empty region that reaches it, and all the stones of
the first `w` rows. -/
theorem seeds_spec (h : Board dbg n m g) (hr : n.w < n.h) : ∃ es ss gs L, g.getEmptyCoords = .ok L ∧
    g.chainsFromStones dbg (L.map (fun c => { coord := c, color := none })) = .ok gs ∧
    List.Forall₂ (From n g) (es ++ ss) gs ∧ (es ++ ss).Nodup ∧
    (∀ s ∈ es, OnBoard n s ∧ s.1 = 0 ∧ g.view s = none) ∧
    (∀ p, OnBoard n p → p.1 = 0 → g.view p = none → ∃ s ∈ es, Linked n g.view s p) ∧
    (∀ s ∈ es, ∀ t ∈ es, Linked n g.view s t → s = t) ∧
    ∀ p, p ∈ ss ↔ OnBoard n p ∧ p.1 < n.w ∧ g.view p ≠ none := by
  have hI := h.inv.1
  obtain ⟨E, rest, e, hE, hsort, hmem⟩ := emptyCoords_split h hr
  have hEO : ∀ p ∈ E, OnBoard n p := fun p hp => ((hE p).1 hp).1
  have hrO : ∀ p ∈ rest, OnBoard n p := fun p hp => ((hmem p).1 (List.mem_append_right _ hp)).1
  obtain ⟨es, gs1, e1, f1, p1, c1, o1⟩ := chains_seeds (dbg := dbg) hI E [] [] hEO .nil .nil
  rw [List.nil_append] at f1 p1 c1 o1
  obtain ⟨ss, gs, e2, f2, p2, c2, o2⟩ := chains_seeds (dbg := dbg) hI rest es gs1 hrO f1 p1
  have hes : ∀ s ∈ es, s ∈ E := by
    intro s hs
    obtain ⟨A, B, e, _⟩ := o1 s hs
    rw [e]; simp
  have hss : ∀ s ∈ ss, s ∈ rest := by
    intro s hs
    obtain ⟨A, B, e, _⟩ := o2 s hs
    rw [e]; simp
  have hnd : (es ++ ss).Nodup := p2.imp (fun hst e => hst (Or.inl e.symm))
  refine ⟨es, ss, gs, E ++ rest, e, ?_, f2, hnd, fun s hs => (hE s).1 (hes s hs), ?_, ?_, ?_⟩
  · unfold Goban.chainsFromStones
    rw [List.map_append, List.foldlM_append, e1, ok_bind, e2]
  · intro p hO h0 hp
    obtain ⟨s, hs, hg⟩ := c1 p ((hE p).2 ⟨hO, h0, hp⟩)
    exact ⟨s, hs, (gathered_empty ((hE s).1 (hes s hs)).2.2).1 hg⟩
  · intro s hs t ht hl
    apply Classical.byContradiction
    intro hne
    have hst := (gathered_empty ((hE s).1 (hes s hs)).2.2).2 hl
    have hts := (gathered_empty ((hE t).1 (hes t ht)).2.2).2 (linked_symm ((hE s).1 (hes s hs)).1 hl)
    have key : ∀ l : List Coord, l.Pairwise (fun s t => ¬ Gathered n g.view s t) → s ∈ l → t ∈ l → False := by
      intro l
      induction l with
      | nil => intro _ h; cases h
      | cons a l ih =>
        intro hp h1 h2
        rw [List.pairwise_cons] at hp
        rcases List.mem_cons.1 h1 with h1 | h1
        · rcases List.mem_cons.1 h2 with h2 | h2
          · exact hne (h1.trans h2.symm)
          · exact (h1 ▸ hp.1 t h2) hst
        · rcases List.mem_cons.1 h2 with h2 | h2
          · exact (h2 ▸ hp.1 s h1) hts
          · exact ih hp.2 h1 h2
    exact key es p1 hs ht
  · rintro ⟨x, y⟩
    constructor
    · intro hp
      obtain ⟨hO, hx⟩ := (hmem (x, y)).1 (List.mem_append_right _ (hss _ hp))
      have hx : x < n.w := hx
      refine ⟨hO, hx, fun hemp => ?_⟩
      have hno : ∀ s ∈ es, ¬ Gathered n g.view s (x, y) := fun s hs => (List.pairwise_append.1 p2).2.2 s hs _ hp
      rcases x with _ | x
      · obtain ⟨s, hs, hg⟩ := c1 (0, y) ((hE (0, y)).2 ⟨hO, rfl, hemp⟩)
        exact hno s hs hg
      · have hO' : OnBoard n (x, y) := ⟨Nat.lt_of_succ_lt hO.1, hO.2⟩
        have hadj : Adj (x, y) (x + 1, y) := Or.inr ⟨rfl, Or.inl rfl⟩
        obtain ⟨A, B, eA, hA⟩ := o2 _ hp
        have hprev : (x, y) ∈ E ∨ (x, y) ∈ A := by
          have hin := (hmem (x, y)).2 ⟨hO', show x < n.w by omega⟩
          rcases List.mem_append.1 hin with hin | hin
          · exact Or.inl hin
          · rw [eA] at hin
            rcases List.mem_append.1 hin with hin | hin
            · exact Or.inr hin
            · exfalso
              have hs2 := (List.pairwise_append.1 hsort).2.1
              rw [eA] at hs2
              have hs3 := (List.pairwise_append.1 hs2).2.1
              rcases List.mem_cons.1 hin with hin | hin
              · rw [Prod.mk.injEq] at hin; omega
              · have := (List.pairwise_cons.1 hs3).1 _ hin
                have : x + 1 ≤ x := this
                omega
        rcases hprev with hprev | hprev
        · obtain ⟨s, hs, hg⟩ := c1 _ hprev
          exact hno s hs (Gathered.next hg hadj hO hemp)
        · obtain ⟨s, _, hg, hng⟩ := hA _ hprev
          exact hng (Gathered.next hg hadj hO hemp)
    · rintro ⟨hO, hx, hocc⟩
      have hin := (hmem (x, y)).2 ⟨hO, hx⟩
      rcases List.mem_append.1 hin with hin | hin
      · exact absurd ((hE _).1 hin).2.2 hocc
      · obtain ⟨s, hs, hg⟩ := c2 _ hin
        have := Gathered.stone hg hocc
        subst this
        rcases List.mem_append.1 hs with hs | hs
        · exact absurd ((hE _).1 (hes _ hs)).2.2 hocc
        · exact hs

/-! ## The territories -/

theorem filter_split {α} (l : List α) (P Q : α → Bool) :
    (l.filter P).length = (l.filter (fun a => P a && Q a)).length + (l.filter (fun a => P a && !Q a)).length := by
  induction l with
  | nil => rfl
  | cons a l ih =>
    simp only [List.filter_cons]
    cases P a <;> cases Q a <;> simp [ih] <;> omega

theorem filter_all_eq {α} {l : List α} {P : α → Bool} (hn : l.Nodup) {a : α} (ha : a ∈ l) (hP : P a = true)
    (h : ∀ b ∈ l, P b = true → b = a) : (l.filter P).length = 1 := by
  have : (l.filter P).Perm [a] := by
    rw [List.perm_ext_iff_of_nodup (hn.sublist List.filter_sublist) (by simp)]
    intro b
    rw [List.mem_filter, List.mem_singleton]
    exact ⟨fun hb => h b hb.1 hb.2, fun hb => hb ▸ ⟨ha, hP⟩⟩
  exact this.length_eq

/-- **C92**, `get_territories` on a board with more rows than columns: all the points listed are given as empty, and a point is
listed for a colour once if it is territory of that colour and its region reaches the first row, and once more for every stone of the
first `w` rows from which it is gathered together with points that are next to stones of this colour only. -/
theorem C92_territories (h : Board dbg n m g) (hr : n.w < n.h) {ord : List Point → List Point} (hord : ∀ l, (ord l).Perm l) :
    ∃ T : Color → List Point, g.territories dbg ord = .ok (T .black, T .white) ∧
      ∀ c, (∀ x ∈ T c, x.color = none ∧ OnBoard n x.coord) ∧
        ∀ p, OnBoard n p → (T c).count ⟨p, none⟩ = Spec.gains n g.view c p := by
  classical
  have hI := h.inv.1
  obtain ⟨es, ss, gs, L, e1, e2, hF, hnd, hes, hcov, hinj, hss⟩ := seeds_spec h hr
  have hO : ∀ s ∈ es ++ ss, OnBoard n s := by
    intro s hs
    rcases List.mem_append.1 hs with hs | hs
    · exact (hes s hs).1
    · exact ((hss s).1 hs).1
  obtain ⟨T, eT, hT⟩ := territory_seeds (dbg := dbg) hI hord hF hO ([], [])
  refine ⟨T, ?_, fun c => ⟨(hT c).1, fun p hp => ?_⟩⟩
  · unfold Goban.territories
    rw [e1, ok_bind, e2, ok_bind, eT]
    rfl
  · rw [(hT c).2 p, List.filter_append, List.length_append]
    unfold Spec.gains
    rw [List.nodup_append] at hnd
    congr 1
    · by_cases hc : Spec.Territory n g.view c p ∧ ∃ y, OnBoard n (0, y) ∧ Linked n g.view p (0, y)
      · rw [if_pos hc]
        obtain ⟨ht, y, hy, hl⟩ := hc
        obtain ⟨s, hs, hsl⟩ := hcov (0, y) hy rfl (by rw [linked_view hl]; exact ht.2.1)
        have hs0 := hes s hs
        have hsp : Linked n g.view s p := linked_trans hsl (linked_symm hp hl)
        refine filter_all_eq hnd.1 hs ?_ ?_
        · rw [decide_eq_true_eq, gathered_empty hs0.2.2, faces_empty hs0.2.2, faces_empty hs0.2.2]
          exact ⟨hsp, (territory_region hs0.1 hs0.2.2 hsp c).1 ht⟩
        · intro t ht' hP
          rw [decide_eq_true_eq, gathered_empty (hes t ht').2.2] at hP
          exact hinj t ht' s hs (linked_trans hP.1 (linked_symm hs0.1 hsp))
      · rw [if_neg hc, List.length_eq_zero_iff, List.filter_eq_nil_iff]
        intro s hs hP
        have hs0 := hes s hs
        rw [decide_eq_true_eq, gathered_empty hs0.2.2, faces_empty hs0.2.2, faces_empty hs0.2.2] at hP
        refine hc ⟨(territory_region hs0.1 hs0.2.2 hP.1 c).2 hP.2, s.2, ?_, ?_⟩
        · rw [← hs0.2.1]; exact hs0.1
        · have := linked_symm hs0.1 hP.1
          rw [← hs0.2.1]; exact this
    · refine List.Perm.length_eq ?_
      rw [List.perm_ext_iff_of_nodup (hnd.2.1.sublist List.filter_sublist) ((points_nodup n).sublist List.filter_sublist)]
      intro s
      rw [List.mem_filter, List.mem_filter, hss, mem_points, decide_eq_true_eq, decide_eq_true_eq]
      exact ⟨fun ⟨⟨a, b, c⟩, d⟩ => ⟨a, b, c, d⟩, fun ⟨a, b, c, d⟩ => ⟨⟨a, b, c⟩, d⟩⟩

theorem sum_add {α} (l : List α) (f k : α → Nat) : (l.map (fun a => f a + k a)).sum = (l.map f).sum + (l.map k).sum := by
  induction l with
  | nil => rfl
  | cons a l ih => simp only [List.map_cons, List.sum_cons, ih]; omega

theorem sum_unit {α} [DecidableEq α] {l : List α} (hn : l.Nodup) {a : α} (ha : a ∈ l) :
    (l.map (fun b => if a = b then 1 else 0)).sum = 1 := by
  induction l with
  | nil => cases ha
  | cons b l ih =>
    rw [List.nodup_cons] at hn
    rw [List.map_cons, List.sum_cons]
    by_cases hab : a = b
    · subst hab
      have : (l.map (fun b => if a = b then 1 else 0)).sum = 0 := by
        have hz : l.map (fun b => if a = b then 1 else 0) = l.map (fun _ => 0) := by
          apply List.map_congr_left
          intro c hc
          rw [if_neg (by rintro rfl; exact hn.1 hc)]
        rw [hz]
        clear hz hn ih ha
        induction l with
        | nil => rfl
        | cons _ _ ih => simp
      rw [if_pos rfl, this]
    · rw [if_neg hab, ih hn.2 ((List.mem_cons.1 ha).resolve_left hab)]

theorem length_counts {T : List Point} (h : ∀ x ∈ T, x.color = none ∧ OnBoard n x.coord) :
    T.length = ((Spec.points n).map (fun p => T.count ⟨p, none⟩)).sum := by
  induction T with
  | nil =>
    induction Spec.points n with
    | nil => rfl
    | cons _ _ ih => simp
  | cons x T ih =>
    obtain ⟨h1, h2⟩ := h x (by simp)
    have e : ∀ p : Coord, (x :: T).count ⟨p, none⟩ = T.count ⟨p, none⟩ + if x.coord = p then 1 else 0 := by
      intro p
      rw [List.count_cons]
      congr 1
      obtain ⟨q, c⟩ := x
      cases h1
      by_cases hq : q = p
      · subst hq; simp
      · rw [if_neg hq, if_neg (by simpa using hq)]
    rw [List.length_cons, ih (fun y hy => h y (by simp [hy]))]
    simp only [e]
    rw [sum_add, sum_unit (points_nodup n) (mem_points.2 h2)]

/-- **C92**, `calculate_territories`. -/
theorem C92_calculate_territories (h : Board dbg n m g) (hr : n.w < n.h) {ord : List Point → List Point}
    (hord : ∀ l, (ord l).Perm l) :
    g.calculateTerritories dbg ord = .ok (Spec.gained n g.view .black, Spec.gained n g.view .white) := by
  obtain ⟨T, e, hT⟩ := C92_territories h hr hord
  have len : ∀ c, (T c).length = Spec.gained n g.view c := by
    intro c
    rw [length_counts (hT c).1]
    unfold Spec.gained
    congr 1
    apply List.map_congr_left
    intro p hp
    exact (hT c).2 p (mem_points.1 hp)
  unfold Goban.calculateTerritories
  rw [e, ok_bind, len, len]

theorem gained_le (hn : n.Good) (pos : Pos) (c : Color) : Spec.gained n pos c ≤ 2 ^ 18 := by
  have h1 : ∀ l : List Coord, (l.map (Spec.gains n pos c)).sum ≤ l.length * 362 := by
    intro l
    induction l with
    | nil => simp
    | cons p l ih =>
      rw [List.map_cons, List.sum_cons, List.length_cons, Nat.succ_mul]
      have h3 : (Spec.points n).length = n.area := points_length n
      have h4 := hn.area_le
      have : Spec.gains n pos c p ≤ 1 + 361 := by
        unfold Spec.gains
        refine Nat.add_le_add ?_ (Nat.le_trans (List.length_filter_le _ _) (by omega))
        split <;> decide
      omega
  have h3 : (Spec.points n).length = n.area := points_length n
  have h4 := hn.area_le
  have := h1 (Spec.points n)
  unfold Spec.gained
  omega

/-! ## Scores and results -/

/-- **C92**, `calculate_score` with a finite komi, for any number of prisoners. -/
theorem C92_score {g : Game} {f : ScoreRules} {v : Rat} (h : Reach dbg n m g) (hr : n.w < n.h) (hk : g.rule.komi = .fin v)
    (hv : Spec.Single v) {ord : List Point → List Point} (hord : ∀ l, (ord l).Perm l) :
    ∃ pb pw b w : Rat, Spec.Rounded (g.prisoners.1 : Rat) pb ∧ Spec.Rounded (g.prisoners.2 : Rat) pw ∧
      g.calculateScoreBy dbg ord f = .ok (.fin b, .fin w) ∧
      Spec.RoundedSum (Spec.gained n g.goban.view .black) (extras f pb (Spec.count n g.goban.view (some .black))) b ∧
      Spec.RoundedSum (Spec.gained n g.goban.view .white)
        (extras f pw (Spec.count n g.goban.view (some .white)) ++ if f.komi then [v] else []) w :=
  score_of_finite h.tally hk hv (C92_calculate_territories h.spec.board hr hord) (gained_le h.inv.good _ _) (gained_le h.inv.good _ _)

/-- **C92**, `calculate_score` with a komi that counts and is infinite or not a number. -/
theorem C92_score_other {g : Game} {f : ScoreRules} (h : Reach dbg n m g) (hr : n.w < n.h) (hf : f.komi = true)
    (hk : ∀ v, g.rule.komi ≠ .fin v) {ord : List Point → List Point} (hord : ∀ l, (ord l).Perm l) :
    ∃ pb b : Rat, Spec.Rounded (g.prisoners.1 : Rat) pb ∧
      Spec.RoundedSum (Spec.gained n g.goban.view .black) (extras f pb (Spec.count n g.goban.view (some .black))) b ∧
      g.calculateScoreBy dbg ord f = .ok (.fin b, g.rule.komi) :=
  score_of_other h.tally hf hk (C92_calculate_territories h.spec.board hr hord) (gained_le h.inv.good _ _) (gained_le h.inv.good _ _)

/-- **C92**, the result of a game ended by two passes, for every komi, as on square boards (C86) but of these scores. -/
theorem C92_outcome {g : Game} (h : Reach dbg n m g) (hr : n.w < n.h) (ho : g.outcome = none) (h2 : 2 ≤ g.passes)
    {ord : List Point → List Point} (hord : ∀ l, (ord l).Perm l) :
    ((∀ v, g.rule.komi = .fin v → Spec.Single v) → (g.rule.flagScore.komi = true → ∃ v, g.rule.komi = .fin v) →
      ∃ b w : Rat, g.calculateScore dbg ord = .ok (.fin b, .fin w) ∧
      (Spec.dist b w < 2 ^ (-23 : Int) → g.getOutcome dbg ord = .ok (some .draw)) ∧
      (2 ^ (-23 : Int) ≤ Spec.dist b w → w < b →
        ∃ d, g.getOutcome dbg ord = .ok (some (.winnerByScore .black (.fin d))) ∧ Spec.Rounded (b - w) d) ∧
      (2 ^ (-23 : Int) ≤ Spec.dist b w → b < w →
        ∃ d, g.getOutcome dbg ord = .ok (some (.winnerByScore .white (.fin d))) ∧ Spec.Rounded (w - b) d)) ∧
    (g.rule.flagScore.komi = true → ∀ s, g.rule.komi = .inf s →
      g.getOutcome dbg ord = .ok (some (.winnerByScore (if s then .black else .white) (.inf false)))) ∧
    (g.rule.flagScore.komi = true → g.rule.komi = .nan → g.getOutcome dbg ord = .ok (some (.winnerByScore .white .nan))) :=
  outcome_of h.tally ho h2 (C92_calculate_territories h.spec.board hr hord) (gained_le h.inv.good _ _) (gained_le h.inv.good _ _)

/-! ## What that costs -/

/-- Black on the third row, White on the fourth. -/
def twoWalls : Pos := fun p => if p.1 = 2 then some .black else if p.1 = 3 then some .white else none

theorem twoWalls_below {p q : Coord} (hp : 4 ≤ p.1) (h : Linked ⟨6, 2⟩ twoWalls p q) : 4 ≤ q.1 := by
  induction h with
  | refl => exact hp
  | @step q r hL hA hO hs ih =>
    have hq : twoWalls q = none := by
      unfold twoWalls
      rw [if_neg (by omega), if_neg (by omega)]
    rw [hq] at hs
    have h3 : r.1 ≠ 3 := by
      intro h3
      unfold twoWalls at hs
      rw [h3] at hs
      exact absurd hs (by decide)
    unfold Adj at hA
    omega

theorem twoWalls_territory {p : Coord} (hp : 4 ≤ p.1) (hO : OnBoard ⟨6, 2⟩ p) : Spec.Territory ⟨6, 2⟩ twoWalls .white p := by
  have hno : ¬ Spec.Touches ⟨6, 2⟩ twoWalls p .black := by
    rintro ⟨q, r, hl, ha, _, hr⟩
    have := twoWalls_below hp hl
    unfold twoWalls at hr
    have : r.1 = 2 := by
      apply Classical.byContradiction
      intro h2
      rw [if_neg h2] at hr
      split at hr <;> cases hr
    unfold Adj at ha
    omega
  obtain ⟨x, y⟩ := p
  have hp : 4 ≤ x := hp
  have hx : x < 6 := hO.1
  have hy : y < 2 := hO.2
  have hemp : twoWalls (x, y) = none := by
    unfold twoWalls
    dsimp only
    rw [if_neg (by omega), if_neg (by omega)]
  refine ⟨hO, hemp, ⟨(4, y), (3, y), ?_, Or.inr ⟨rfl, Or.inr rfl⟩, ⟨by show 3 < 6; decide, hy⟩, rfl⟩, hno⟩
  rcases (show x = 4 ∨ x = 5 by omega) with rfl | rfl
  · exact .refl _
  · exact .step (.refl _) (Or.inr ⟨rfl, Or.inr rfl⟩) ⟨by show 4 < 6; decide, hy⟩ rfl

/-- **C92**, the wrong side can win: on the 6 × 2 board, with Black's wall on the third row, White's on the fourth, and half a point
of komi, each side has four points of territory, so White wins by half a point. White's territory does not reach the first row and is
not counted: Black is declared to win by three and a half. -/
theorem C92_wrong_winner (dbg : Bool) : ∃ g, Legal dbg ⟨6, 2⟩ 6 g ∧ Spec.SameOn ⟨6, 2⟩ g.goban.view twoWalls ∧
    g.rule.komi = .fin (1 / 2) ∧ (∀ p, OnBoard ⟨6, 2⟩ p → 4 ≤ p.1 → Spec.Territory ⟨6, 2⟩ twoWalls .white p) ∧
    g.calculateScore dbg id = .ok (.fin 4, .fin (1 / 2)) ∧
    g.getOutcome dbg id = .ok (some (.winnerByScore .black (.fin (7 / 2)))) := by
  have key : okAnd (mkGame dbg ⟨6, 2⟩ JAPANESE [.setKomi (.fin (1 / 2)), .try_ (.play 2 0), .try_ (.play 3 0), .try_ (.play 2 1),
      .try_ (.play 3 1), .try_ .pass, .try_ .pass]) (fun g =>
      (Spec.points ⟨6, 2⟩).all (fun p => decide (g.goban.view p = twoWalls p)) && (decide (g.rule.komi = .fin (1 / 2)) &&
      (decide (g.calculateScore dbg id = .ok (.fin 4, .fin (1 / 2))) &&
        decide (g.getOutcome dbg id = .ok (some (.winnerByScore .black (.fin (7 / 2)))))))) = true := by
    cases dbg <;> decide +kernel
  obtain ⟨g, hl, hg⟩ := mkGame_exists (by decide) key
  simp only [Bool.and_eq_true, decide_eq_true_eq, List.all_eq_true] at hg
  exact ⟨g, hl, fun p hp => hg.1 p (mem_points.2 hp), hg.2.1, fun p hp h4 => twoWalls_territory h4 hp, hg.2.2.1, hg.2.2.2⟩

/-- **C92**, and more points can be counted than there are: after one black stone on the 4 × 2 board Black's territory is 15. -/
theorem C92_overcount (dbg : Bool) : ∃ g, Legal dbg ⟨4, 2⟩ 1 g ∧ Spec.gained ⟨4, 2⟩ g.goban.view .black = 15 ∧
    ∃ T, g.goban.territories dbg id = .ok T ∧ ∀ p, OnBoard ⟨4, 2⟩ p → T.1.count ⟨p, none⟩ = if p = (0, 0) then 1 else 2 := by
  have key : okAnd (mkGame dbg ⟨4, 2⟩ JAPANESE [.try_ (.play 0 0)]) (fun g =>
      decide (g.goban.calculateTerritories dbg id = .ok (15, 0)) && okAnd (g.goban.territories dbg id) (fun T =>
        (Spec.points ⟨4, 2⟩).all (fun p => decide (T.1.count ⟨p, none⟩ = if p = (0, 0) then 1 else 2)))) = true := by
    cases dbg <;> decide +kernel
  obtain ⟨g, hl, hg⟩ := mkGame_exists (by decide) key
  simp only [Bool.and_eq_true, decide_eq_true_eq] at hg
  obtain ⟨T, eT, hT⟩ := okAnd_iff.1 hg.2
  obtain ⟨m', _, hr⟩ := hl.reach
  have := C92_calculate_territories (ord := id) hr.spec.board (by decide) (fun _ => .refl _)
  rw [hg.1] at this
  refine ⟨g, hl, ?_, T, eT, ?_⟩
  · have := Except.ok.inj this
    rw [Prod.mk.injEq] at this
    exact this.1.symm
  · intro p hp
    rw [List.all_eq_true] at hT
    exact of_decide_eq_true (hT p (mem_points.2 hp))

end Model
