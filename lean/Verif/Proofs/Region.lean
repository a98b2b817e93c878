import Verif.Proofs.Territory
/-!
# The search for connected regions from a point whose colour may be anything (src/pieces/territory.rs)
-/

namespace Model
open Spec (OnBoard Adj Linked SameOn Pos)

variable {dbg : Bool} {n : Dim} {g : Goban}

/-- What the search from `s` returns: `s` itself, and the points of its colour joined through that colour to a neighbour of `s`. -/
def InReg (n : Dim) (g : Goban) (s x : Point) : Prop :=
  x = s ∨ x = g.pt x.coord ∧ ∃ q, OnBoard n q ∧ Adj s.coord q ∧ g.view q = s.color ∧ Linked n g.view q x.coord

theorem InReg.color {s x : Point} (h : InReg n g s x) : x.color = s.color := by
  rcases h with rfl | ⟨e, q, _, _, h3, h4⟩
  · rfl
  · rw [congrArg Point.color e]
    show g.view x.coord = _
    rw [linked_view h4, h3]

theorem InReg.onBoard {s x : Point} (hs : OnBoard n s.coord) (h : InReg n g s x) : OnBoard n x.coord := by
  rcases h with rfl | ⟨_, q, h1, _, _, h4⟩
  · exact hs
  · cases h4 with
    | refl => exact h1
    | step _ _ h _ => exact h

theorem InReg.next {s x y : Point} (h : InReg n g s x) (hy : NextTo n g s.color x y) : InReg n g s y := by
  obtain ⟨a, b, c, d⟩ := hy
  have hv : g.view y.coord = s.color := by rw [← d]; exact (congrArg Point.color c).symm
  rcases h with rfl | ⟨e, q, h1, h2, h3, h4⟩
  · exact Or.inr ⟨c, y.coord, a, b, hv, .refl _⟩
  · exact Or.inr ⟨c, q, h1, h2, h3, .step h4 b a (by rw [hv, linked_view h4, h3])⟩

/-- The state of the search: `E` explored, `S` the stack with its top first. -/
structure Hunt (n : Dim) (g : Goban) (s0 : Point) (E S : List Point) : Prop where
  nd : E.Nodup
  start : s0 ∈ E
  reg : ∀ x, x ∈ E ∨ x ∈ S → OnBoard n x.coord ∧ InReg n g s0 x
  all : ∀ e ∈ E, ∀ x, NextTo n g s0.color e x → x ∉ E → x ∈ S
  stale : ∀ A s B, S = A ++ s :: B → s ∈ E → ∀ x, NextTo n g s0.color s x → x ∉ E → x ∈ A

theorem Hunt.length {s0 : Point} {E S : List Point} (h : Hunt n g s0 E S) : E.length ≤ n.area := by
  have h1 : (E.map Point.coord).Nodup := by
    refine List.Pairwise.map _ ?_ (List.Pairwise.and_mem.1 h.nd)
    rintro ⟨a, ca⟩ ⟨b, cb⟩ ⟨ha, hb, hne⟩ hab
    have e1 : ca = _ := (h.reg _ (Or.inl ha)).2.color
    have e2 : cb = _ := (h.reg _ (Or.inl hb)).2.color
    have e3 : a = b := hab
    exact hne (by rw [e1, e2, e3])
  have h2 : (E.map Point.coord).length ≤ (Spec.points n).length :=
    (List.subperm_of_subset h1 (fun p hp => by
      obtain ⟨x, hx, rfl⟩ := List.mem_map.1 hp
      exact mem_points.2 (h.reg x (Or.inl hx)).1)).length_le
  rw [List.length_map] at h2
  have h3 : (Spec.points n).length = n.area := points_length n
  omega

/-- One iteration keeps the invariant. -/
theorem Hunt.step (hI : Inv n g) {s0 : Point} {E S : List Point} {s : Point} (h : Hunt n g s0 E (s :: S)) :
    ∃ new, (do
      let ps : List Point ← g.connectedPoints dbg s.coord
      pure (ps.filter (fun (p : Point) => decide (p.color = s0.color) && !(Goban.insertP s E).contains p)) : M (List Point)) = .ok new ∧
      Hunt n g s0 (Goban.insertP s E) (new.reverse ++ S) ∧
      4 * (n.area - (Goban.insertP s E).length) + (new.reverse ++ S).length < 4 * (n.area - E.length) + (s :: S).length := by
  obtain ⟨hsO, hsR⟩ := h.reg s (Or.inr (by simp))
  rw [connectedPoints_ok hI hsO, ok_bind]
  refine ⟨_, rfl, ?_⟩
  have hmem := fun x => mem_new (c := s0.color) (E := Goban.insertP s E) (x := x) hI hsO
  generalize hnew : ((adjList n s.coord).map (fun q => ({ coord := q, color := g.view q } : Point))).filter
      (fun p => decide (p.color = s0.color) && !(Goban.insertP s E).contains p) = new at *
  have hlen : new.length ≤ 4 := by
    rw [← hnew]
    refine Nat.le_trans (List.length_filter_le _ _) ?_
    rw [List.length_map]; exact adjList_length_le
  have hS : Hunt n g s0 (Goban.insertP s E) (new.reverse ++ S) := by
    refine ⟨insertP_nodup h.nd, mem_insertP.2 (Or.inl h.start), ?_, ?_, ?_⟩
    · intro x hx
      rw [mem_insertP, List.mem_append, List.mem_reverse] at hx
      rcases hx with (hx | rfl) | hx | hx
      · exact h.reg x (Or.inl hx)
      · exact ⟨hsO, hsR⟩
      · exact ⟨((hmem x).1 hx).1.1, hsR.next ((hmem x).1 hx).1⟩
      · exact h.reg x (Or.inr (by simp [hx]))
    · intro e he x hx hn
      rw [List.mem_append, List.mem_reverse, hmem]
      rcases mem_insertP.1 he with he | rfl
      · have := h.all e he x hx (fun h' => hn (mem_insertP.2 (Or.inl h')))
        rcases List.mem_cons.1 this with rfl | this
        · exact absurd (mem_insertP.2 (Or.inr rfl)) hn
        · exact Or.inr this
      · exact Or.inl ⟨hx, hn⟩
    · intro A t B hAB ht x hx hn
      have htn : t ∉ new.reverse := by
        rw [List.mem_reverse, hmem]; exact fun h' => h'.2 ht
      obtain ⟨A2, hA, hS2⟩ : ∃ A2, A = new.reverse ++ A2 ∧ S = A2 ++ t :: B := by
        rcases List.append_eq_append_iff.1 hAB with ⟨a, h1, h2⟩ | ⟨a, h1, h2⟩
        · exact ⟨a, h1, h2⟩
        · cases a with
          | nil => exact ⟨[], by simpa using h1.symm, by simpa using h2.symm⟩
          | cons y a =>
            rw [List.cons_append, List.cons.injEq] at h2
            exact absurd (by rw [h1, h2.1]; simp) htn
      rw [hA, List.mem_append, List.mem_reverse, hmem]
      rcases mem_insertP.1 ht with ht | rfl
      · have := h.stale (s :: A2) t B (by rw [hS2]; rfl) ht x hx (fun h' => hn (mem_insertP.2 (Or.inl h')))
        rcases List.mem_cons.1 this with rfl | this
        · exact absurd (mem_insertP.2 (Or.inr rfl)) hn
        · exact Or.inr this
      · exact Or.inl ⟨hx, hn⟩
  refine ⟨hS, ?_⟩
  rw [List.length_append, List.length_reverse, List.length_cons]
  by_cases hs : s ∈ E
  · have hnil : new = [] := by
      rw [List.eq_nil_iff_forall_not_mem]
      intro x hx
      obtain ⟨h1, h2⟩ := (hmem x).1 hx
      have := h.stale [] s S rfl hs x h1 (fun h' => h2 (mem_insertP.2 (Or.inl h')))
      cases this
    rw [insertP_mem hs, hnil]
    simp
  · have h2 := hS.length
    rw [insertP_not_mem hs, List.length_append, List.length_singleton] at h2 ⊢
    omega

/-- The loop ends, with exactly the region explored. -/
theorem hunt_ok (hI : Inv n g) {s0 : Point} : ∀ (fuel : Nat) {E S : List Point}, Hunt n g s0 E S →
    4 * (n.area - E.length) + S.length < fuel →
    ∃ R, g.explore dbg s0.color fuel E S = .ok R ∧ R.Nodup ∧ ∀ x, x ∈ R ↔ InReg n g s0 x
  | 0, E, S, _, hf => by omega
  | fuel + 1, E, [], h, hf => by
    refine ⟨E, rfl, h.nd, ?_⟩
    intro x
    constructor
    · intro hx; exact (h.reg x (Or.inl hx)).2
    · rintro (rfl | ⟨h2, q, k1, k2, k3, k4⟩)
      · exact h.start
      rw [h2]
      clear h2
      generalize x.coord = r at k4
      have close : ∀ e ∈ E, ∀ y, NextTo n g s0.color e y → y ∈ E := by
        intro e he y hy
        apply Classical.byContradiction
        intro hn
        have := h.all e he y hy hn
        cases this
      induction k4 with
      | refl => exact close _ h.start _ ⟨k1, k2, rfl, k3⟩
      | @step q' r hL hA hO hs ih =>
        refine close _ ih (g.pt r) ⟨hO, hA, rfl, ?_⟩
        show g.view r = s0.color
        rw [hs, linked_view hL, k3]
  | fuel + 1, E, s :: S, h, hf => by
    obtain ⟨new, e, hS, hlt⟩ := h.step (dbg := dbg) hI
    obtain ⟨ps, e1, e2⟩ := bind_eq_ok e
    unfold Goban.explore
    dsimp only
    rw [e1, ok_bind]
    cases e2
    exact hunt_ok hI fuel hS (by omega)

/-- `get_group_from_point` of any point of the board, with any colour. -/
theorem groupFromPoint_any (hI : Inv n g) {s : Point} (hp : OnBoard n s.coord) :
    ∃ R, g.groupFromPoint dbg s = .ok R ∧ R.Nodup ∧ ∀ x, x ∈ R ↔ InReg n g s x := by
  unfold Goban.groupFromPoint
  rw [connectedPoints_ok hI hp, ok_bind]
  dsimp only
  have e0 : Goban.insertP s [] = [s] := rfl
  rw [e0]
  have hmem : ∀ x, x ∈ (((adjList n s.coord).map (fun q => ({ coord := q, color := g.view q } : Point))).filter
      (fun p => decide (p.color = s.color))).reverse ↔ NextTo n g s.color s x := by
    intro x
    rw [List.mem_reverse]
    have := mem_new (c := s.color) (E := []) (x := x) (s := s) hI hp
    simp only [List.contains_nil, Bool.not_false, Bool.and_true, List.not_mem_nil, not_false_eq_true, and_true] at this
    exact this
  apply hunt_ok hI
  · refine ⟨by simp, by simp, ?_, ?_, ?_⟩
    · intro x hx
      rcases hx with hx | hx
      · rw [List.mem_singleton] at hx; subst hx
        exact ⟨hp, Or.inl rfl⟩
      · exact ⟨((hmem x).1 hx).1, InReg.next (Or.inl rfl) ((hmem x).1 hx)⟩
    · intro e he x hx _
      rw [List.mem_singleton] at he; subst he
      exact (hmem x).2 hx
    · intro A t B hAB hs x _ _
      rw [List.mem_singleton] at hs; subst hs
      have : t ∈ A ++ t :: B := by simp
      rw [← hAB, hmem] at this
      exact absurd this.2.1 adj_irrefl
  · have h1 : (((adjList n s.coord).map (fun q => ({ coord := q, color := g.view q } : Point))).filter
      (fun p => decide (p.color = s.color))).reverse.length ≤ 4 := by
      rw [List.length_reverse]
      refine Nat.le_trans (List.length_filter_le _ _) ?_
      rw [List.length_map]; exact adjList_length_le
    have h2 := hI.good.area_le
    unfold Goban.exploreFuel BOARD_MAX_LENGTH
    simp only [List.length_singleton]
    omega

/-- `get_chains_from_stones` of any points of the board returns. -/
theorem chainsFromStones_any (hI : Inv n g) : ∀ (l : List Point) (gs : List (List Point)),
    (∀ s ∈ l, OnBoard n s.coord) → (∀ R ∈ gs, ∀ x ∈ R, OnBoard n x.coord) →
    ∃ gs', l.foldlM (fun groups s => do
        if groups.any (fun set => set.contains s) then .ok groups
        else do
          let grp ← g.groupFromPoint dbg s
          .ok (groups ++ [grp])) gs = (.ok gs' : M _) ∧ ∀ R ∈ gs', ∀ x ∈ R, OnBoard n x.coord
  | [], gs, _, h => ⟨gs, rfl, h⟩
  | s :: l, gs, hl, h => by
    rw [List.foldlM_cons]
    by_cases hin : gs.any (fun set => set.contains s) = true
    · rw [if_pos hin]
      exact chainsFromStones_any hI l gs (fun t ht => hl t (by simp [ht])) h
    · rw [if_neg hin]
      obtain ⟨R, e, hR⟩ := groupFromPoint_any (dbg := dbg) hI (hl s (by simp))
      rw [e]
      show ∃ gs', List.foldlM _ (gs ++ [R]) l = _ ∧ _
      refine chainsFromStones_any hI l (gs ++ [R]) (fun t ht => hl t (by simp [ht])) ?_
      intro Q hQ x hx
      rcases List.mem_append.1 hQ with hQ | hQ
      · exact h Q hQ x hx
      · rw [List.mem_singleton] at hQ; subst hQ
        exact ((hR.2 x).1 hx).onBoard (hl s (by simp))

end Model
