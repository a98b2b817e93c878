import Verif.Proofs.Refine
/-!
# The search for connected regions (src/pieces/territory.rs)
-/

namespace Model
open Spec (OnBoard Adj Linked SameOn Pos)

variable {dbg : Bool} {n : Dim} {g : Goban}

/-- The point of the board at `q`, with the colour it shows. -/
def Goban.pt (g : Goban) (q : Coord) : Point := { coord := q, color := g.view q }

/-- `x` is a point of the board with its colour `c`, next to `s`. -/
def NextTo (n : Dim) (g : Goban) (c : Option Color) (s x : Point) : Prop :=
  OnBoard n x.coord ∧ Adj s.coord x.coord ∧ x = g.pt x.coord ∧ x.color = c

/-- The state of the search: `E` explored, `S` the stack with its top first. -/
structure Search (n : Dim) (g : Goban) (p0 : Coord) (E S : List Point) : Prop where
  nd : E.Nodup
  start : g.pt p0 ∈ E
  reg : ∀ x, x ∈ E ∨ x ∈ S → OnBoard n x.coord ∧ x = g.pt x.coord ∧ Linked n g.view p0 x.coord
  all : ∀ e ∈ E, ∀ x, NextTo n g (g.view p0) e x → x ∉ E → x ∈ S
  stale : ∀ A s B, S = A ++ s :: B → s ∈ E → ∀ x, NextTo n g (g.view p0) s x → x ∉ E → x ∈ A

theorem linked_view {pos : Pos} {p q : Coord} (h : Linked n pos p q) : pos q = pos p := by
  induction h with
  | refl => rfl
  | step _ _ _ hs ih => rw [hs, ih]

theorem mem_insertP {p x : Point} {l : List Point} : x ∈ Goban.insertP p l ↔ x ∈ l ∨ x = p := by
  unfold Goban.insertP
  split
  · rename_i h
    constructor
    · exact Or.inl
    · rintro (h' | rfl)
      · exact h'
      · simpa using h
  · simp

theorem insertP_mem {p : Point} {l : List Point} (h : p ∈ l) : Goban.insertP p l = l := by
  unfold Goban.insertP; rw [if_pos (by simpa using h)]

theorem insertP_not_mem {p : Point} {l : List Point} (h : p ∉ l) : Goban.insertP p l = l ++ [p] := by
  unfold Goban.insertP; rw [if_neg (by simpa using h)]

theorem insertP_nodup {p : Point} {l : List Point} (h : l.Nodup) : (Goban.insertP p l).Nodup := by
  by_cases hp : p ∈ l
  · rw [insertP_mem hp]; exact h
  · rw [insertP_not_mem hp, List.nodup_append]
    exact ⟨h, by simp, by intro a ha b hb; rw [List.mem_singleton] at hb; subst hb; rintro rfl; exact hp ha⟩

/-- The points pushed from `s`. -/
theorem mem_new (h : Inv n g) {s : Point} (hs : OnBoard n s.coord) {c : Option Color} {E : List Point} {x : Point} :
    x ∈ ((adjList n s.coord).map (fun q => ({ coord := q, color := g.view q } : Point))).filter
      (fun p => decide (p.color = c) && !E.contains p) ↔ NextTo n g c s x ∧ x ∉ E := by
  rw [List.mem_filter, List.mem_map, Bool.and_eq_true, decide_eq_true_eq, Bool.not_eq_true', ← Bool.not_eq_true,
    List.contains_iff_mem]
  unfold NextTo
  constructor
  · rintro ⟨⟨q, hq, rfl⟩, h1, h2⟩
    obtain ⟨a, b⟩ := (mem_adjList h.good hs).1 hq
    exact ⟨⟨a, b, rfl, h1⟩, h2⟩
  · rintro ⟨⟨a, b, e, h1⟩, h2⟩
    exact ⟨⟨x.coord, (mem_adjList h.good hs).2 ⟨a, b⟩, e.symm⟩, h1, h2⟩

theorem Search.length {p0 : Coord} {E S : List Point} (h : Search n g p0 E S) : E.length ≤ n.area := by
  have h1 : (E.map Point.coord).Nodup := by
    refine List.Pairwise.map _ ?_ (List.Pairwise.and_mem.1 h.nd)
    rintro a b ⟨ha, hb, hne⟩ hab
    have e1 := (h.reg a (Or.inl ha)).2.1
    have e2 := (h.reg b (Or.inl hb)).2.1
    exact hne (by rw [e1, e2, hab])
  have h2 : (E.map Point.coord).length ≤ (Spec.points n).length :=
    (List.subperm_of_subset h1 (fun p hp => by
      obtain ⟨x, hx, rfl⟩ := List.mem_map.1 hp
      exact mem_points.2 (h.reg x (Or.inl hx)).1)).length_le
  rw [List.length_map] at h2
  have h3 : (Spec.points n).length = n.area := points_length n
  omega

/-- One iteration keeps the invariant. -/
theorem Search.step (hI : Inv n g) {p0 : Coord} {E S : List Point} {s : Point} (h : Search n g p0 E (s :: S)) :
    ∃ new, (do
      let ps : List Point ← g.connectedPoints dbg s.coord
      pure (ps.filter (fun (p : Point) => decide (p.color = g.view p0) && !(Goban.insertP s E).contains p)) : M (List Point)) = .ok new ∧
      Search n g p0 (Goban.insertP s E) (new.reverse ++ S) ∧
      4 * (n.area - (Goban.insertP s E).length) + (new.reverse ++ S).length < 4 * (n.area - E.length) + (s :: S).length := by
  obtain ⟨hsO, hse, hsL⟩ := h.reg s (Or.inr (by simp))
  rw [connectedPoints_ok hI hsO, ok_bind]
  refine ⟨_, rfl, ?_⟩
  have hmem := fun x => mem_new (c := g.view p0) (E := Goban.insertP s E) (x := x) hI hsO
  generalize hnew : ((adjList n s.coord).map (fun q => ({ coord := q, color := g.view q } : Point))).filter
      (fun p => decide (p.color = g.view p0) && !(Goban.insertP s E).contains p) = new at *
  have hlen : new.length ≤ 4 := by
    rw [← hnew]
    refine Nat.le_trans (List.length_filter_le _ _) ?_
    rw [List.length_map]; exact adjList_length_le
  have hS : Search n g p0 (Goban.insertP s E) (new.reverse ++ S) := by
    refine ⟨insertP_nodup h.nd, mem_insertP.2 (Or.inl h.start), ?_, ?_, ?_⟩
    · intro x hx
      rw [mem_insertP, List.mem_append, List.mem_reverse] at hx
      rcases hx with (hx | rfl) | hx | hx
      · exact h.reg x (Or.inl hx)
      · exact ⟨hsO, hse, hsL⟩
      · obtain ⟨⟨a, b, c, d⟩, _⟩ := (hmem x).1 hx
        refine ⟨a, c, .step hsL b a ?_⟩
        rw [linked_view hsL, ← d]
        exact (congrArg Point.color c).symm
      · exact h.reg x (Or.inr (by simp [hx]))
    · intro e he x hx hn
      rw [List.mem_append, List.mem_reverse, hmem]
      rcases mem_insertP.1 he with he | rfl
      · have := h.all e he x hx (fun h' => hn (mem_insertP.2 (Or.inl h')))
        rcases List.mem_cons.1 this with rfl | this
        · exact absurd (mem_insertP.2 (Or.inr rfl)) hn
        · exact Or.inr this
      · exact Or.inl ⟨hx, hn⟩
    · intro A t B hAB ht x hx hn
      have htn : t ∉ new.reverse := by
        rw [List.mem_reverse, hmem]; exact fun h' => h'.2 ht
      obtain ⟨A2, hA, hS2⟩ : ∃ A2, A = new.reverse ++ A2 ∧ S = A2 ++ t :: B := by
        rcases List.append_eq_append_iff.1 hAB with ⟨a, h1, h2⟩ | ⟨a, h1, h2⟩
        · exact ⟨a, h1, h2⟩
        · cases a with
          | nil => exact ⟨[], by simpa using h1.symm, by simpa using h2.symm⟩
          | cons y a =>
            rw [List.cons_append, List.cons.injEq] at h2
            exact absurd (by rw [h1, h2.1]; simp) htn
      rw [hA, List.mem_append, List.mem_reverse, hmem]
      rcases mem_insertP.1 ht with ht | rfl
      · have := h.stale (s :: A2) t B (by rw [hS2]; rfl) ht x hx (fun h' => hn (mem_insertP.2 (Or.inl h')))
        rcases List.mem_cons.1 this with rfl | this
        · exact absurd (mem_insertP.2 (Or.inr rfl)) hn
        · exact Or.inr this
      · exact Or.inl ⟨hx, hn⟩
  refine ⟨hS, ?_⟩
  rw [List.length_append, List.length_reverse, List.length_cons]
  by_cases hs : s ∈ E
  · have hnil : new = [] := by
      rw [List.eq_nil_iff_forall_not_mem]
      intro x hx
      obtain ⟨h1, h2⟩ := (hmem x).1 hx
      have := h.stale [] s S rfl hs x h1 (fun h' => h2 (mem_insertP.2 (Or.inl h')))
      cases this
    rw [insertP_mem hs, hnil]
    simp
  · have h2 := hS.length
    rw [insertP_not_mem hs, List.length_append, List.length_singleton] at h2 ⊢
    omega

/-- The loop ends, with exactly the region explored. -/
theorem explore_ok (hI : Inv n g) {p0 : Coord} : ∀ (fuel : Nat) {E S : List Point}, Search n g p0 E S →
    4 * (n.area - E.length) + S.length < fuel →
    ∃ R, g.explore dbg (g.view p0) fuel E S = .ok R ∧ R.Nodup ∧
      ∀ x, x ∈ R ↔ OnBoard n x.coord ∧ x = g.pt x.coord ∧ Linked n g.view p0 x.coord
  | 0, E, S, _, hf => by omega
  | fuel + 1, E, [], h, hf => by
    refine ⟨E, rfl, h.nd, ?_⟩
    intro x
    constructor
    · intro hx; exact h.reg x (Or.inl hx)
    · rintro ⟨h1, h2, h3⟩
      rw [h2]
      clear h1 h2
      generalize x.coord = q at h3
      induction h3 with
      | refl => exact h.start
      | @step q r hL hA hO hs ih =>
        apply Classical.byContradiction
        intro hn
        have := h.all _ ih (g.pt r) ⟨hO, hA, rfl, by
          show g.view r = g.view p0
          rw [hs, linked_view hL]⟩ hn
        cases this
  | fuel + 1, E, s :: S, h, hf => by
    obtain ⟨new, e, hS, hlt⟩ := h.step (dbg := dbg) hI
    obtain ⟨ps, e1, e2⟩ := bind_eq_ok e
    unfold Goban.explore
    dsimp only
    rw [e1, ok_bind]
    cases e2
    exact explore_ok hI fuel hS (by omega)

/-- `get_group_from_point` of a point of the board with its colour. -/
theorem groupFromPoint_ok (hI : Inv n g) {p0 : Coord} (hp : OnBoard n p0) :
    ∃ R, g.groupFromPoint dbg (g.pt p0) = .ok R ∧ R.Nodup ∧
      ∀ x, x ∈ R ↔ OnBoard n x.coord ∧ x = g.pt x.coord ∧ Linked n g.view p0 x.coord := by
  unfold Goban.groupFromPoint
  rw [show (g.pt p0).coord = p0 from rfl, connectedPoints_ok hI hp, ok_bind]
  dsimp only
  have e0 : Goban.insertP (g.pt p0) [] = [g.pt p0] := rfl
  rw [e0]
  have hmem : ∀ x, x ∈ (((adjList n p0).map (fun q => ({ coord := q, color := g.view q } : Point))).filter
      (fun p => decide (p.color = (g.pt p0).color))).reverse ↔ NextTo n g (g.view p0) (g.pt p0) x := by
    intro x
    rw [List.mem_reverse]
    have := mem_new (c := g.view p0) (E := []) (x := x) (s := g.pt p0) hI hp
    simp only [List.contains_nil, Bool.not_false, Bool.and_true, List.not_mem_nil, not_false_eq_true, and_true] at this
    exact this
  apply explore_ok hI
  · refine ⟨by simp, by simp, ?_, ?_, ?_⟩
    · intro x hx
      rcases hx with hx | hx
      · rw [List.mem_singleton] at hx; subst hx
        exact ⟨hp, rfl, .refl _⟩
      · obtain ⟨a, b, c, d⟩ := (hmem x).1 hx
        refine ⟨a, c, .step (.refl _) b a ?_⟩
        rw [← d]; exact (congrArg Point.color c).symm
    · intro e he x hx _
      rw [List.mem_singleton] at he; subst he
      exact (hmem x).2 hx
    · intro A s B hAB hs x _ _
      rw [List.mem_singleton] at hs; subst hs
      have : g.pt p0 ∈ A ++ g.pt p0 :: B := by simp
      rw [← hAB, hmem] at this
      exact absurd this.2.1 adj_irrefl
  · have h1 : (((adjList n p0).map (fun q => ({ coord := q, color := g.view q } : Point))).filter
      (fun p => decide (p.color = (g.pt p0).color))).reverse.length ≤ 4 := by
      rw [List.length_reverse]
      refine Nat.le_trans (List.length_filter_le _ _) ?_
      rw [List.length_map]; exact adjList_length_le
    have h2 : n.area ≤ 19 * 19 := Nat.mul_le_mul hI.good.h19 (Nat.le_trans (Nat.le_trans (hI.good.w_le (Nat.lt_of_le_of_lt (Nat.zero_le _) hp.1)) (Nat.le_refl _)) hI.good.h19)
    unfold Goban.exploreFuel BOARD_MAX_LENGTH
    simp only [List.length_singleton]
    omega

/-- `R` holds the region of `p`, each point once. -/
def Region (n : Dim) (g : Goban) (p : Coord) (R : List Point) : Prop :=
  R.Nodup ∧ ∀ x, x ∈ R ↔ OnBoard n x.coord ∧ x = g.pt x.coord ∧ Linked n g.view p x.coord

theorem chainsFromStones_from (hI : Inv n g) : ∀ (l done : List Point) (gs : List (List Point)),
    (∀ s ∈ l, OnBoard n s.coord ∧ s = g.pt s.coord) →
    (∀ R ∈ gs, ∃ p, OnBoard n p ∧ g.pt p ∈ done ∧ Region n g p R) →
    gs.Pairwise (fun a b => ∀ x, x ∈ a → x ∉ b) → (∀ s ∈ done, ∃ R ∈ gs, s ∈ R) →
    ∃ gs', l.foldlM (fun groups s => do
        if groups.any (fun set => set.contains s) then .ok groups
        else do
          let grp ← g.groupFromPoint dbg s
          .ok (groups ++ [grp])) gs = (.ok gs' : M _) ∧
      (∀ R ∈ gs', ∃ p, OnBoard n p ∧ g.pt p ∈ done ++ l ∧ Region n g p R) ∧
      gs'.Pairwise (fun a b => ∀ x, x ∈ a → x ∉ b) ∧ (∀ s ∈ done ++ l, ∃ R ∈ gs', s ∈ R)
  | [], done, gs, _, h1, h2, h3 => ⟨gs, rfl, by simpa using h1, h2, by simpa using h3⟩
  | s :: l, done, gs, hl, h1, h2, h3 => by
    obtain ⟨hO, hs⟩ := hl s (by simp)
    rw [List.foldlM_cons]
    have hassoc : done ++ s :: l = (done ++ [s]) ++ l := by simp
    rw [hassoc]
    by_cases hin : gs.any (fun set => set.contains s) = true
    · rw [if_pos hin]
      have hin' : ∃ R ∈ gs, s ∈ R := by simpa using hin
      exact chainsFromStones_from hI l (done ++ [s]) gs (fun t ht => hl t (by simp [ht]))
        (fun R hR => by obtain ⟨p, a, b, c⟩ := h1 R hR; exact ⟨p, a, by simp [b], c⟩) h2
        (fun t ht => by
          rcases List.mem_append.1 ht with ht | ht
          · exact h3 t ht
          · rw [List.mem_singleton] at ht; subst ht; exact hin')
    · rw [if_neg hin]
      have hin' : ∀ R ∈ gs, s ∉ R := by simpa using hin
      obtain ⟨R, e, hR⟩ := groupFromPoint_ok (dbg := dbg) hI hO
      rw [← hs] at e
      rw [e]
      show ∃ gs', List.foldlM _ (gs ++ [R]) l = _ ∧ _
      have hsR : s ∈ R := (hR.2 s).2 ⟨hO, hs, .refl _⟩
      refine chainsFromStones_from hI l (done ++ [s]) (gs ++ [R]) (fun t ht => hl t (by simp [ht])) ?_ ?_ ?_
      · intro Q hQ
        rcases List.mem_append.1 hQ with hQ | hQ
        · obtain ⟨p, a, b, c⟩ := h1 Q hQ; exact ⟨p, a, by simp [b], c⟩
        · rw [List.mem_singleton] at hQ; subst hQ
          exact ⟨s.coord, hO, by rw [← hs]; simp, hR⟩
      · rw [List.pairwise_append]
        refine ⟨h2, by simp, ?_⟩
        intro Q hQ R' hR' x hx hx'
        rw [List.mem_singleton] at hR'; subst hR'
        obtain ⟨p, a, _, c⟩ := h1 Q hQ
        refine hin' Q hQ ((c.2 s).2 ⟨hO, hs, ?_⟩)
        exact linked_trans ((c.2 x).1 hx).2.2 (linked_symm hO ((hR.2 x).1 hx').2.2)
      · intro t ht
        rcases List.mem_append.1 ht with ht | ht
        · obtain ⟨Q, a, b⟩ := h3 t ht; exact ⟨Q, by simp [a], b⟩
        · rw [List.mem_singleton] at ht; subst ht; exact ⟨R, by simp, hsR⟩

/-- `get_chains_from_stones` of points with their colour: their regions, each once. -/
theorem chainsFromStones_ok (hI : Inv n g) {l : List Point} (hl : ∀ s ∈ l, OnBoard n s.coord ∧ s = g.pt s.coord) :
    ∃ gs, g.chainsFromStones dbg l = .ok gs ∧
      (∀ R ∈ gs, ∃ p, OnBoard n p ∧ g.pt p ∈ l ∧ Region n g p R) ∧
      gs.Pairwise (fun a b => ∀ x, x ∈ a → x ∉ b) ∧ (∀ s ∈ l, ∃ R ∈ gs, s ∈ R) := by
  have := chainsFromStones_from (dbg := dbg) hI l [] [] hl (by simp) .nil (by simp)
  rw [List.nil_append] at this
  exact this

/-- Does some point of `l` show `c`? -/
def showsC (c : Color) (l : List Point) : Bool := l.any (fun p => decide (p.color = some c))

theorem borderPoints_eq : ∀ (l : List Point) (b w : Bool), (b && w) = false →
    Goban.borderPoints l (b, w) =
      if (b || showsC .black l) && (w || showsC .white l) then none
      else some (b || showsC .black l, w || showsC .white l)
  | [], b, w, h => by simp [Goban.borderPoints, showsC, h]
  | p :: l, b, w, h => by
    unfold Goban.borderPoints
    have ih := fun b w h => borderPoints_eq l b w h
    have e : ∀ c, showsC c (p :: l) = (decide (p.color = some c) || showsC c l) := fun c => by simp [showsC]
    rw [e, e]
    rcases hp : p.color with _ | _ | _ <;> cases b <;> cases w <;> simp_all

theorem border_eq (hI : Inv n g) : ∀ (l : List Point) (b w : Bool), (∀ p ∈ l, OnBoard n p.coord) → (b && w) = false →
    ∃ B W, (B = true ↔ b = true ∨ ∃ p ∈ l, ∃ r, Adj p.coord r ∧ OnBoard n r ∧ g.view r = some .black) ∧
      (W = true ↔ w = true ∨ ∃ p ∈ l, ∃ r, Adj p.coord r ∧ OnBoard n r ∧ g.view r = some .white) ∧
      g.border dbg l (b, w) = .ok (if B && W then none else some (B, W))
  | [], b, w, _, h => ⟨b, w, by simp, by simp, by simp [Goban.border, h]⟩
  | p :: l, b, w, hl, h => by
    have hO := hl p (by simp)
    unfold Goban.border
    rw [connectedPoints_ok hI hO, ok_bind, borderPoints_eq _ _ _ h]
    have hsh : ∀ c, showsC c ((adjList n p.coord).map (fun q => ({ coord := q, color := g.view q } : Point))) = true ↔
        ∃ r, Adj p.coord r ∧ OnBoard n r ∧ g.view r = some c := by
      intro c
      unfold showsC
      simp only [List.any_map, List.any_eq_true, Function.comp, decide_eq_true_eq]
      constructor
      · rintro ⟨q, hq, e⟩
        obtain ⟨a, b⟩ := (mem_adjList hI.good hO).1 hq
        exact ⟨q, b, a, e⟩
      · rintro ⟨q, a, b, e⟩
        exact ⟨q, (mem_adjList hI.good hO).2 ⟨b, a⟩, e⟩
    have hB := hsh .black
    have hW := hsh .white
    generalize showsC .black _ = X at *
    generalize showsC .white _ = Y at *
    by_cases hc : ((b || X) && (w || Y)) = true
    · rw [if_pos hc]
      rw [Bool.and_eq_true, Bool.or_eq_true, Bool.or_eq_true] at hc
      refine ⟨true, true, ?_, ?_, rfl⟩
      · refine iff_of_true rfl (hc.1.imp id fun h => ⟨p, by simp, hB.1 h⟩)
      · refine iff_of_true rfl (hc.2.imp id fun h => ⟨p, by simp, hW.1 h⟩)
    · rw [if_neg hc]
      obtain ⟨B, W, h1, h2, e⟩ := border_eq hI l (b || X) (w || Y) (fun q hq => hl q (by simp [hq]))
        (Bool.eq_false_iff.2 hc)
      refine ⟨B, W, ?_, ?_, e⟩
      · rw [h1, Bool.or_eq_true, hB, or_assoc]; simp only [List.mem_cons, exists_eq_or_imp]
      · rw [h2, Bool.or_eq_true, hW, or_assoc]; simp only [List.mem_cons, exists_eq_or_imp]

/-- A region of empty points is all territory of `c`, or holds none of it. -/
theorem territory_region {p q : Coord} (hp : OnBoard n p) (he : g.view p = none) (hl : Linked n g.view p q) (c : Color) :
    Spec.Territory n g.view c q ↔ Spec.Touches n g.view p c ∧ ¬ Spec.Touches n g.view p c.opp := by
  have hq := linked_onBoard hl hp
  have ht : ∀ c, Spec.Touches n g.view q c ↔ Spec.Touches n g.view p c := by
    intro c
    constructor
    · rintro ⟨a, b, h, r⟩; exact ⟨a, b, linked_trans hl h, r⟩
    · rintro ⟨a, b, h, r⟩; exact ⟨a, b, linked_trans (linked_symm hp hl) h, r⟩
  unfold Spec.Territory
  rw [ht, ht, linked_same hl]
  exact ⟨fun h => h.2.2, fun h => ⟨hq, he, h⟩⟩

/-- The points of `l` that satisfy `T` are exactly the elements of `t`, each once. -/
def Exactly (l : List (List Point)) (T : Coord → Prop) (t : List Point) : Prop :=
  t.Nodup ∧ ∀ x, x ∈ t ↔ (∃ R ∈ l, x ∈ R) ∧ T x.coord

theorem Exactly.add {gs : List (List Point)} {T : Coord → Prop} {t R R' : List Point} (h : Exactly gs T t) (hR : R'.Perm R)
    (nd : R.Nodup) (hd : ∀ Q ∈ gs, ∀ x, x ∈ Q → x ∉ R) (hT : ∀ x ∈ R, T x.coord) : Exactly (gs ++ [R]) T (t ++ R') := by
  constructor
  · rw [List.nodup_append]
    refine ⟨h.1, hR.nodup_iff.2 nd, ?_⟩
    rintro a ha b hb rfl
    obtain ⟨⟨Q, hQ, hx⟩, _⟩ := (h.2 a).1 ha
    exact hd Q hQ a hx (hR.mem_iff.1 hb)
  · intro x
    rw [List.mem_append, h.2, hR.mem_iff]
    constructor
    · rintro (⟨⟨Q, hQ, hx⟩, hT'⟩ | hx)
      · exact ⟨⟨Q, by simp [hQ], hx⟩, hT'⟩
      · exact ⟨⟨R, by simp, hx⟩, hT x hx⟩
    · rintro ⟨⟨Q, hQ, hx⟩, hT'⟩
      rcases List.mem_append.1 hQ with hQ | hQ
      · exact Or.inl ⟨⟨Q, hQ, hx⟩, hT'⟩
      · rw [List.mem_singleton] at hQ; subst hQ; exact Or.inr hx

theorem Exactly.skip {gs : List (List Point)} {T : Coord → Prop} {t R : List Point} (h : Exactly gs T t)
    (hT : ∀ x ∈ R, ¬ T x.coord) : Exactly (gs ++ [R]) T t := by
  refine ⟨h.1, ?_⟩
  intro x
  rw [h.2]
  constructor
  · rintro ⟨⟨Q, hQ, hx⟩, hT'⟩; exact ⟨⟨Q, by simp [hQ], hx⟩, hT'⟩
  · rintro ⟨⟨Q, hQ, hx⟩, hT'⟩
    rcases List.mem_append.1 hQ with hQ | hQ
    · exact ⟨⟨Q, hQ, hx⟩, hT'⟩
    · rw [List.mem_singleton] at hQ; subst hQ; exact absurd hT' (hT x hx)

theorem territoryStep_ok (hI : Inv n g) {ord : List Point → List Point} (hord : ∀ l, (ord l).Perm l)
    {gs : List (List Point)} {R : List Point} {p : Coord} {acc : List Point × List Point}
    (hp : OnBoard n p) (he : g.view p = none) (hR : Region n g p R) (hd : ∀ Q ∈ gs, ∀ x, x ∈ Q → x ∉ R)
    (h1 : Exactly gs (Spec.Territory n g.view .black) acc.1) (h2 : Exactly gs (Spec.Territory n g.view .white) acc.2) :
    ∃ acc', g.territoryStep dbg ord acc R = .ok acc' ∧
      Exactly (gs ++ [R]) (Spec.Territory n g.view .black) acc'.1 ∧
      Exactly (gs ++ [R]) (Spec.Territory n g.view .white) acc'.2 := by
  obtain ⟨B, W, hB, hW, e⟩ := border_eq (dbg := dbg) hI (ord R) false false
    (fun x hx => ((hR.2 x).1 ((hord R).mem_iff.1 hx)).1) rfl
  have ht : ∀ c, (∃ x ∈ ord R, ∃ r, Adj x.coord r ∧ OnBoard n r ∧ g.view r = some c) ↔ Spec.Touches n g.view p c := by
    intro c
    constructor
    · rintro ⟨x, hx, r, a, b, d⟩
      exact ⟨x.coord, r, ((hR.2 x).1 ((hord R).mem_iff.1 hx)).2.2, a, b, d⟩
    · rintro ⟨q, r, hl, a, b, d⟩
      exact ⟨g.pt q, (hord R).mem_iff.2 ((hR.2 _).2 ⟨linked_onBoard hl hp, rfl, hl⟩), r, a, b, d⟩
  rw [ht] at hB hW
  simp only [Bool.false_eq_true, false_or] at hB hW
  have hT := fun x (hx : x ∈ R) => territory_region hp he ((hR.2 x).1 hx).2.2
  unfold Goban.territoryStep
  rw [e, ok_bind]
  cases B <;> cases W <;> simp at hB hW ⊢
  · exact ⟨h1.skip (fun x hx h => hB ((hT x hx _).1 h).1), h2.skip (fun x hx h => hW ((hT x hx _).1 h).1)⟩
  · exact ⟨h1.skip (fun x hx h => hB ((hT x hx _).1 h).1),
      h2.add (hord R) hR.1 hd (fun x hx => (hT x hx _).2 ⟨hW, hB⟩)⟩
  · exact ⟨h1.add (hord R) hR.1 hd (fun x hx => (hT x hx _).2 ⟨hB, hW⟩),
      h2.skip (fun x hx h => hW ((hT x hx _).1 h).1)⟩
  · exact ⟨h1.skip (fun x hx h => ((hT x hx _).1 h).2 hW), h2.skip (fun x hx h => ((hT x hx _).1 h).2 hB)⟩

theorem territorySteps_ok (hI : Inv n g) {ord : List Point → List Point} (hord : ∀ l, (ord l).Perm l) :
    ∀ (l gs : List (List Point)) (acc : List Point × List Point),
    (∀ R ∈ l, ∃ p, OnBoard n p ∧ g.view p = none ∧ Region n g p R) →
    (gs ++ l).Pairwise (fun a b => ∀ x, x ∈ a → x ∉ b) →
    Exactly gs (Spec.Territory n g.view .black) acc.1 → Exactly gs (Spec.Territory n g.view .white) acc.2 →
    ∃ acc', l.foldlM (g.territoryStep dbg ord) acc = .ok acc' ∧
      Exactly (gs ++ l) (Spec.Territory n g.view .black) acc'.1 ∧
      Exactly (gs ++ l) (Spec.Territory n g.view .white) acc'.2
  | [], gs, acc, _, _, h1, h2 => ⟨acc, rfl, by simpa using h1, by simpa using h2⟩
  | R :: l, gs, acc, hl, hd, h1, h2 => by
    obtain ⟨p, a, b, c⟩ := hl R (by simp)
    obtain ⟨acc', e, h1', h2'⟩ := territoryStep_ok (dbg := dbg) hI hord a b c
      (fun Q hQ => (List.pairwise_append.1 hd).2.2 Q hQ R (by simp)) h1 h2
    have hassoc : gs ++ R :: l = (gs ++ [R]) ++ l := by simp
    rw [List.foldlM_cons, e, ok_bind, hassoc]
    exact territorySteps_ok hI hord l (gs ++ [R]) acc' (fun Q hQ => hl Q (by simp [hQ])) (by rw [← hassoc]; exact hd) h1' h2'

/-- `get_territories`: exactly the territory of each colour. -/
theorem territories_ok {n : Nat} (hI : Inv n g) {ord : List Point → List Point} (hord : ∀ l, (ord l).Perm l) :
    ∃ b w, g.territories dbg ord = .ok (b, w) ∧ b.Nodup ∧ w.Nodup ∧
      (∀ x, x ∈ b ↔ x.color = none ∧ Spec.Territory n g.view .black x.coord) ∧
      (∀ x, x ∈ w ↔ x.color = none ∧ Spec.Territory n g.view .white x.coord) := by
  unfold Goban.territories
  rw [emptyCoords_ok hI, ok_bind]
  have hes : ∀ s ∈ ((Spec.points n).filter (fun p => (g.view p).isNone)).map
      (fun c => ({ coord := c, color := none } : Point)), OnBoard n s.coord ∧ s = g.pt s.coord := by
    intro s hs
    obtain ⟨q, hq, rfl⟩ := List.mem_map.1 hs
    rw [List.mem_filter, mem_points, Option.isNone_iff_eq_none] at hq
    exact ⟨hq.1, by unfold Goban.pt; rw [hq.2]⟩
  obtain ⟨gs, e, h1, h2, h3⟩ := chainsFromStones_ok (dbg := dbg) hI hes
  rw [e, ok_bind]
  have hreg : ∀ R ∈ gs, ∃ p, OnBoard n p ∧ g.view p = none ∧ Region n g p R := by
    intro R hR
    obtain ⟨p, a, b, c⟩ := h1 R hR
    obtain ⟨q, _, hq⟩ := List.mem_map.1 b
    exact ⟨p, a, (congrArg Point.color hq).symm, c⟩
  obtain ⟨acc, e', hb, hw⟩ := territorySteps_ok (dbg := dbg) hI hord gs [] ([], []) hreg (by simpa using h2)
    ⟨by simp, by simp⟩ ⟨by simp, by simp⟩
  rw [List.nil_append] at hb hw
  have key : ∀ c (x : Point), ((∃ R ∈ gs, x ∈ R) ∧ Spec.Territory n g.view c x.coord) ↔
      x.color = none ∧ Spec.Territory n g.view c x.coord := by
    intro c x
    constructor
    · rintro ⟨⟨R, hR, hx⟩, hT⟩
      obtain ⟨p, _, _, hr⟩ := hreg R hR
      refine ⟨?_, hT⟩
      rw [congrArg Point.color ((hr.2 x).1 hx).2.1]; exact hT.2.1
    · rintro ⟨hx, hT⟩
      refine ⟨h3 x (List.mem_map.2 ⟨x.coord, ?_, ?_⟩), hT⟩
      · rw [List.mem_filter, mem_points, Option.isNone_iff_eq_none]; exact ⟨hT.1, hT.2.1⟩
      · rw [← hx]
  exact ⟨acc.1, acc.2, e', hb.1, hw.1, fun x => (hb.2 x).trans (key _ x), fun x => (hw.2 x).trans (key _ x)⟩

end Model
