import Verif.Props.RectTerritory
import Verif.Props.AnyLife
/-!
# Territories, scores and results on boards of every size: C100
-/

open Classical in
/-- The pairs of `l` from which a search is started, when searches have been started from `ss`: those that have not been gathered
before. -/
noncomputable def Spec.starts (n : Dim) (pos : Spec.Pos) : List Spec.Pt → List Spec.Pt → List Spec.Pt
  | _, [] => []
  | ss, p :: l => if ∃ s ∈ ss, Spec.Gathered n pos s p then Spec.starts n pos ss l else p :: Spec.starts n pos (ss ++ [p]) l

/-- The pairs listed for the empty ones among the first `height · width` cells. The row is that of the cell, the column is not when
the width is not the height. -/
def Spec.emptyPairs (s : Model.Size) (v : List Model.MaybeColor) : List Spec.Pt :=
  ((List.range (s.1 * s.2)).filter (fun i => decide (v[i]? = some none))).map (fun i => (i / s.1, i % s.2))

open Classical in
/-- How often `p` is listed for `c` when the searches are started from `ss`: once for every start from which `p` is gathered together
with pairs next to stones of `c` only. -/
noncomputable def Spec.timesListed (n : Dim) (pos : Spec.Pos) (ss : List Spec.Pt) (c : Model.Color) (p : Spec.Pt) : Nat :=
  (ss.filter (fun s => decide (Spec.Gathered n pos s p ∧ Spec.Faces n pos s c ∧ ¬ Spec.Faces n pos s c.opp))).length

namespace Model
open Spec (OnBoard Adj Linked Pos Gathered Faces)

variable {dbg : Bool} {n : Dim} {g : Goban}

/-- Both coordinates can be counted up. -/
def Small (p : Coord) : Prop := p.1 < 255 ∧ p.2 < 255

/-- A board of at most 19 rows and columns on which every pair in bounds has a colour. Two pairs may share a cell. -/
structure Seen (n : Dim) (g : Goban) : Prop where
  size : g.size = n.sz
  h19 : n.h ≤ 19
  w19 : n.w ≤ 19
  col : ∀ q, OnBoard n q → g.getColor q = .ok (g.view q)

theorem Seen.small (h : Seen n g) {p : Coord} (hp : OnBoard n p) : Small p := by
  have := h.h19; have := h.w19
  unfold OnBoard at hp
  unfold Small; omega

theorem Seen.area_le (h : Seen n g) : n.area ≤ 19 * 19 := Nat.mul_le_mul h.h19 h.w19

theorem Seen.mem_adjList (h : Seen n g) {c q : Coord} (hc : Small c) : q ∈ adjList n c ↔ OnBoard n q ∧ Adj c q := by
  have a := h.h19
  have b := h.w19
  obtain ⟨u, v⟩ := c
  obtain ⟨x, y⟩ := q
  unfold adjList
  rw [List.mem_filter, isCoordValid_iff]
  unfold Small at hc
  unfold OnBoard Adj wsub1 at *
  simp only [List.mem_cons, Prod.mk.injEq, List.not_mem_nil, or_false] at *
  omega

theorem Seen.connectedPoints (h : Seen n g) {p : Coord} (hp : Small p) :
    g.connectedPoints dbg p = .ok ((adjList n p).map (fun q => { coord := q, color := g.view q })) := by
  unfold Goban.connectedPoints Goban.neighborsCoords validCoords
  rw [h.size, neighborCoords_ok hp.1 hp.2, ok_bind]
  show List.mapM _ (adjList n p) = _
  apply mapM_ok
  intro q hq
  rw [h.col q ((h.mem_adjList hp).1 hq).1]
  rfl

theorem mem_new_shows (h : Seen n g) {s : Point} (hs : Small s.coord) {c : Option Color} {E : List Point} {x : Point} :
    x ∈ ((adjList n s.coord).map (fun q => ({ coord := q, color := g.view q } : Point))).filter
      (fun p => decide (p.color = c) && !E.contains p) ↔ NextTo n g c s x ∧ x ∉ E := by
  rw [List.mem_filter, List.mem_map, Bool.and_eq_true, decide_eq_true_eq, Bool.not_eq_true', ← Bool.not_eq_true,
    List.contains_iff_mem]
  unfold NextTo
  constructor
  · rintro ⟨⟨q, hq, rfl⟩, h1, h2⟩
    obtain ⟨a, b⟩ := (h.mem_adjList hs).1 hq
    exact ⟨⟨a, b, rfl, h1⟩, h2⟩
  · rintro ⟨⟨a, b, e, h1⟩, h2⟩
    exact ⟨⟨x.coord, (h.mem_adjList hs).2 ⟨a, b⟩, e.symm⟩, h1, h2⟩

theorem InReg.place {s x : Point} (h : InReg n g s x) : x = s ∨ OnBoard n x.coord := by
  rcases h with rfl | ⟨_, q, h1, _, _, h4⟩
  · exact Or.inl rfl
  · cases h4 with
    | refl => exact Or.inr h1
    | step _ _ h _ => exact Or.inr h

theorem InReg.small {s x : Point} (h : InReg n g s x) (hI : Seen n g) (hs : Small s.coord) : Small x.coord := by
  rcases h.place with rfl | h
  · exact hs
  · exact hI.small h

/-- The state of the search: `E` explored, `S` the stack with its top first. -/
structure Roam (n : Dim) (g : Goban) (s0 : Point) (E S : List Point) : Prop where
  nd : E.Nodup
  start : s0 ∈ E
  reg : ∀ x, x ∈ E ∨ x ∈ S → Small x.coord ∧ InReg n g s0 x
  all : ∀ e ∈ E, ∀ x, NextTo n g s0.color e x → x ∉ E → x ∈ S
  stale : ∀ A s B, S = A ++ s :: B → s ∈ E → ∀ x, NextTo n g s0.color s x → x ∉ E → x ∈ A

theorem Roam.length {s0 : Point} {E S : List Point} (h : Roam n g s0 E S) : E.length ≤ n.area + 1 := by
  have h1 : (E.map Point.coord).Nodup := by
    refine List.Pairwise.map _ ?_ (List.Pairwise.and_mem.1 h.nd)
    rintro ⟨a, ca⟩ ⟨b, cb⟩ ⟨ha, hb, hne⟩ hab
    have e1 : ca = _ := (h.reg _ (Or.inl ha)).2.color
    have e2 : cb = _ := (h.reg _ (Or.inl hb)).2.color
    have e3 : a = b := hab
    exact hne (by rw [e1, e2, e3])
  have h2 : (E.map Point.coord).length ≤ (s0.coord :: Spec.points n).length :=
    (List.subperm_of_subset h1 (fun p hp => by
      obtain ⟨x, hx, rfl⟩ := List.mem_map.1 hp
      rcases (h.reg x (Or.inl hx)).2.place with rfl | h'
      · exact List.mem_cons_self
      · exact List.mem_cons_of_mem _ (mem_points.2 h'))).length_le
  rw [List.length_map, List.length_cons] at h2
  have h3 : (Spec.points n).length = n.area := points_length n
  omega

/-- One iteration keeps the invariant. -/
theorem Roam.step (hI : Seen n g) {s0 : Point} {E S : List Point} {s : Point} (h : Roam n g s0 E (s :: S)) :
    ∃ new, (do
      let ps : List Point ← g.connectedPoints dbg s.coord
      pure (ps.filter (fun (p : Point) => decide (p.color = s0.color) && !(Goban.insertP s E).contains p)) : M (List Point)) = .ok new ∧
      Roam n g s0 (Goban.insertP s E) (new.reverse ++ S) ∧
      4 * (n.area + 1 - (Goban.insertP s E).length) + (new.reverse ++ S).length < 4 * (n.area + 1 - E.length) + (s :: S).length := by
  obtain ⟨hsO, hsR⟩ := h.reg s (Or.inr (by simp))
  rw [hI.connectedPoints hsO, ok_bind]
  refine ⟨_, rfl, ?_⟩
  have hmem := fun x => mem_new_shows (c := s0.color) (E := Goban.insertP s E) (x := x) hI hsO
  generalize hnew : ((adjList n s.coord).map (fun q => ({ coord := q, color := g.view q } : Point))).filter
      (fun p => decide (p.color = s0.color) && !(Goban.insertP s E).contains p) = new at *
  have hlen : new.length ≤ 4 := by
    rw [← hnew]
    refine Nat.le_trans (List.length_filter_le _ _) ?_
    rw [List.length_map]; exact adjList_length_le
  have hS : Roam n g s0 (Goban.insertP s E) (new.reverse ++ S) := by
    refine ⟨insertP_nodup h.nd, mem_insertP.2 (Or.inl h.start), ?_, ?_, ?_⟩
    · intro x hx
      rw [mem_insertP, List.mem_append, List.mem_reverse] at hx
      rcases hx with (hx | rfl) | hx | hx
      · exact h.reg x (Or.inl hx)
      · exact ⟨hsO, hsR⟩
      · exact ⟨hI.small ((hmem x).1 hx).1.1, hsR.next ((hmem x).1 hx).1⟩
      · exact h.reg x (Or.inr (by simp [hx]))
    · intro e he x hx hn
      rw [List.mem_append, List.mem_reverse, hmem]
      rcases mem_insertP.1 he with he | rfl
      · have := h.all e he x hx (fun h' => hn (mem_insertP.2 (Or.inl h')))
        rcases List.mem_cons.1 this with rfl | this
        · exact absurd (mem_insertP.2 (Or.inr rfl)) hn
        · exact Or.inr this
      · exact Or.inl ⟨hx, hn⟩
    · intro A t B hAB ht x hx hn
      have htn : t ∉ new.reverse := by
        rw [List.mem_reverse, hmem]; exact fun h' => h'.2 ht
      obtain ⟨A2, hA, hS2⟩ : ∃ A2, A = new.reverse ++ A2 ∧ S = A2 ++ t :: B := by
        rcases List.append_eq_append_iff.1 hAB with ⟨a, h1, h2⟩ | ⟨a, h1, h2⟩
        · exact ⟨a, h1, h2⟩
        · cases a with
          | nil => exact ⟨[], by simpa using h1.symm, by simpa using h2.symm⟩
          | cons y a =>
            rw [List.cons_append, List.cons.injEq] at h2
            exact absurd (by rw [h1, h2.1]; simp) htn
      rw [hA, List.mem_append, List.mem_reverse, hmem]
      rcases mem_insertP.1 ht with ht | rfl
      · have := h.stale (s :: A2) t B (by rw [hS2]; rfl) ht x hx (fun h' => hn (mem_insertP.2 (Or.inl h')))
        rcases List.mem_cons.1 this with rfl | this
        · exact absurd (mem_insertP.2 (Or.inr rfl)) hn
        · exact Or.inr this
      · exact Or.inl ⟨hx, hn⟩
  refine ⟨hS, ?_⟩
  rw [List.length_append, List.length_reverse, List.length_cons]
  by_cases hs : s ∈ E
  · have hnil : new = [] := by
      rw [List.eq_nil_iff_forall_not_mem]
      intro x hx
      obtain ⟨h1, h2⟩ := (hmem x).1 hx
      have := h.stale [] s S rfl hs x h1 (fun h' => h2 (mem_insertP.2 (Or.inl h')))
      cases this
    rw [insertP_mem hs, hnil]
    simp
  · have h2 := hS.length
    rw [insertP_not_mem hs, List.length_append, List.length_singleton] at h2 ⊢
    omega

/-- The loop ends, with exactly the region explored. -/
theorem roam_ok (hI : Seen n g) {s0 : Point} : ∀ (fuel : Nat) {E S : List Point}, Roam n g s0 E S →
    4 * (n.area + 1 - E.length) + S.length < fuel →
    ∃ R, g.explore dbg s0.color fuel E S = .ok R ∧ R.Nodup ∧ ∀ x, x ∈ R ↔ InReg n g s0 x
  | 0, E, S, _, hf => by omega
  | fuel + 1, E, [], h, hf => by
    refine ⟨E, rfl, h.nd, ?_⟩
    intro x
    constructor
    · intro hx; exact (h.reg x (Or.inl hx)).2
    · rintro (rfl | ⟨h2, q, k1, k2, k3, k4⟩)
      · exact h.start
      rw [h2]
      clear h2
      generalize x.coord = r at k4
      have close : ∀ e ∈ E, ∀ y, NextTo n g s0.color e y → y ∈ E := by
        intro e he y hy
        apply Classical.byContradiction
        intro hn
        have := h.all e he y hy hn
        cases this
      induction k4 with
      | refl => exact close _ h.start _ ⟨k1, k2, rfl, k3⟩
      | @step q' r hL hA hO hs ih =>
        refine close _ ih (g.pt r) ⟨hO, hA, rfl, ?_⟩
        show g.view r = s0.color
        rw [hs, linked_view hL, k3]
  | fuel + 1, E, s :: S, h, hf => by
    obtain ⟨new, e, hS, hlt⟩ := h.step (dbg := dbg) hI
    obtain ⟨ps, e1, e2⟩ := bind_eq_ok e
    unfold Goban.explore
    dsimp only
    rw [e1, ok_bind]
    cases e2
    exact roam_ok hI fuel hS (by omega)

/-- `get_group_from_point` of any pair of small bytes, with any colour. -/
theorem groupFromPoint_shows (hI : Seen n g) {s : Point} (hp : Small s.coord) :
    ∃ R, g.groupFromPoint dbg s = .ok R ∧ R.Nodup ∧ ∀ x, x ∈ R ↔ InReg n g s x := by
  unfold Goban.groupFromPoint
  rw [hI.connectedPoints hp, ok_bind]
  dsimp only
  have e0 : Goban.insertP s [] = [s] := rfl
  rw [e0]
  have hmem : ∀ x, x ∈ (((adjList n s.coord).map (fun q => ({ coord := q, color := g.view q } : Point))).filter
      (fun p => decide (p.color = s.color))).reverse ↔ NextTo n g s.color s x := by
    intro x
    rw [List.mem_reverse]
    have := mem_new_shows (c := s.color) (E := []) (x := x) (s := s) hI hp
    simp only [List.contains_nil, Bool.not_false, Bool.and_true, List.not_mem_nil, not_false_eq_true, and_true] at this
    exact this
  apply roam_ok hI
  · refine ⟨by simp, by simp, ?_, ?_, ?_⟩
    · intro x hx
      rcases hx with hx | hx
      · rw [List.mem_singleton] at hx; subst hx
        exact ⟨hp, Or.inl rfl⟩
      · exact ⟨hI.small ((hmem x).1 hx).1, InReg.next (Or.inl rfl) ((hmem x).1 hx)⟩
    · intro e he x hx _
      rw [List.mem_singleton] at he; subst he
      exact (hmem x).2 hx
    · intro A t B hAB hs x _ _
      rw [List.mem_singleton] at hs; subst hs
      have : t ∈ A ++ t :: B := by simp
      rw [← hAB, hmem] at this
      exact absurd this.2.1 adj_irrefl
  · have h1 : (((adjList n s.coord).map (fun q => ({ coord := q, color := g.view q } : Point))).filter
      (fun p => decide (p.color = s.color))).reverse.length ≤ 4 := by
      rw [List.length_reverse]
      refine Nat.le_trans (List.length_filter_le _ _) ?_
      rw [List.length_map]; exact adjList_length_le
    have h2 := hI.area_le
    unfold Goban.exploreFuel BOARD_MAX_LENGTH
    simp only [List.length_singleton]
    omega

/-- The groups found from the points of `l`. -/
theorem chains_shows (hI : Seen n g) : ∀ (l ss : List Coord) (gs : List (List Point)), (∀ s ∈ l, Small s) →
    List.Forall₂ (From n g) ss gs →
    ∃ gs', (l.map (fun c => ({ coord := c, color := none } : Point))).foldlM (fun groups s => do
        if groups.any (fun set => set.contains s) then .ok groups
        else do
          let grp ← g.groupFromPoint dbg s
          .ok (groups ++ [grp])) gs = (.ok gs' : M _) ∧
      List.Forall₂ (From n g) (ss ++ Spec.starts n g.view ss l) gs'
  | [], ss, gs, _, h => ⟨gs, rfl, by simpa [Spec.starts] using h⟩
  | s :: l, ss, gs, hl, h => by
    rw [List.map_cons, List.foldlM_cons]
    unfold Spec.starts
    by_cases hin : gs.any (fun set => set.contains ⟨s, none⟩) = true
    · rw [if_pos hin, if_pos ((any_from h s).1 hin)]
      exact chains_shows hI l ss gs (fun t ht => hl t (by simp [ht])) h
    · rw [if_neg hin, if_neg (fun h' => hin ((any_from h s).2 h'))]
      obtain ⟨R, e, hn, hR⟩ := groupFromPoint_shows (dbg := dbg) hI (s := ⟨s, none⟩) (hl s (by simp))
      rw [e]
      obtain ⟨gs', e', h'⟩ := chains_shows hI l (ss ++ [s]) (gs ++ [R]) (fun t ht => hl t (by simp [ht]))
        (List.rel_append h (.cons ⟨hn, hR⟩ .nil))
      refine ⟨gs', e', ?_⟩
      rw [List.append_assoc] at h'
      exact h'

theorem border_shows (hI : Seen n g) : ∀ (l : List Point) (b w : Bool), (∀ p ∈ l, Small p.coord) → (b && w) = false →
    ∃ B W, (B = true ↔ b = true ∨ ∃ p ∈ l, ∃ r, Adj p.coord r ∧ OnBoard n r ∧ g.view r = some .black) ∧
      (W = true ↔ w = true ∨ ∃ p ∈ l, ∃ r, Adj p.coord r ∧ OnBoard n r ∧ g.view r = some .white) ∧
      g.border dbg l (b, w) = .ok (if B && W then none else some (B, W))
  | [], b, w, _, h => ⟨b, w, by simp, by simp, by simp [Goban.border, h]⟩
  | p :: l, b, w, hl, h => by
    have hO := hl p (by simp)
    unfold Goban.border
    rw [hI.connectedPoints hO, ok_bind, borderPoints_eq _ _ _ h]
    have hsh : ∀ c, showsC c ((adjList n p.coord).map (fun q => ({ coord := q, color := g.view q } : Point))) = true ↔
        ∃ r, Adj p.coord r ∧ OnBoard n r ∧ g.view r = some c := by
      intro c
      unfold showsC
      simp only [List.any_map, List.any_eq_true, Function.comp, decide_eq_true_eq]
      constructor
      · rintro ⟨q, hq, e⟩
        obtain ⟨a, b⟩ := (hI.mem_adjList hO).1 hq
        exact ⟨q, b, a, e⟩
      · rintro ⟨q, a, b, e⟩
        exact ⟨q, (hI.mem_adjList hO).2 ⟨b, a⟩, e⟩
    have hB := hsh .black
    have hW := hsh .white
    generalize showsC .black _ = X at *
    generalize showsC .white _ = Y at *
    by_cases hc : ((b || X) && (w || Y)) = true
    · rw [if_pos hc]
      rw [Bool.and_eq_true, Bool.or_eq_true, Bool.or_eq_true] at hc
      refine ⟨true, true, ?_, ?_, rfl⟩
      · refine iff_of_true rfl (hc.1.imp id fun h => ⟨p, by simp, hB.1 h⟩)
      · refine iff_of_true rfl (hc.2.imp id fun h => ⟨p, by simp, hW.1 h⟩)
    · rw [if_neg hc]
      obtain ⟨B, W, h1, h2, e⟩ := border_shows hI l (b || X) (w || Y) (fun q hq => hl q (by simp [hq]))
        (Bool.eq_false_iff.2 hc)
      refine ⟨B, W, ?_, ?_, e⟩
      · rw [h1, Bool.or_eq_true, hB, or_assoc]; simp only [List.mem_cons, exists_eq_or_imp]
      · rw [h2, Bool.or_eq_true, hW, or_assoc]; simp only [List.mem_cons, exists_eq_or_imp]


open Classical in
/-- What the loop over the groups adds. -/
theorem territory_shows (hI : Seen n g) {ord : List Point → List Point} (hord : ∀ l, (ord l).Perm l) {ss : List Coord}
    {gs : List (List Point)} (h : List.Forall₂ (From n g) ss gs) (hs : ∀ s ∈ ss, Small s) (acc : List Point × List Point) :
    ∃ T : Color → List Point, gs.foldlM (g.territoryStep dbg ord) acc = .ok (acc.1 ++ T .black, acc.2 ++ T .white) ∧
      ∀ c, (∀ x ∈ T c, x.color = none ∧ Small x.coord) ∧ ∀ p, (T c).count ⟨p, none⟩ =
        (ss.filter (fun s => decide (Gathered n g.view s p ∧ Faces n g.view s c ∧ ¬ Faces n g.view s c.opp))).length := by
  induction h generalizing acc with
  | nil => exact ⟨fun _ => [], by simp, by simp⟩
  | @cons s R ss gs h1 h2 ih =>
    have hR : ∀ x ∈ R, x.color = none ∧ Small x.coord := fun x hx =>
      ⟨((h1.2 x).1 hx).color, ((h1.2 x).1 hx).small hI (hs s (by simp))⟩
    obtain ⟨B, W, hB, hW, e⟩ := border_shows (dbg := dbg) hI (ord R) false false
      (fun p hp => (hR p ((hord R).mem_iff.1 hp)).2) rfl
    have face : ∀ c, (false = true ∨ ∃ p ∈ ord R, ∃ r, Adj p.coord r ∧ OnBoard n r ∧ g.view r = some c) ↔ Faces n g.view s c := by
      intro c
      constructor
      · rintro (h | ⟨x, hx, r, a, b, d⟩)
        · cases h
        · have hx := (hord R).mem_iff.1 hx
          have : x = ⟨x.coord, none⟩ := by rw [← (hR x hx).1]
          rw [this] at hx
          exact ⟨x.coord, r, h1.mem.1 hx, a, b, d⟩
      · rintro ⟨p, r, hp, a, b, d⟩
        exact Or.inr ⟨⟨p, none⟩, (hord R).mem_iff.2 (h1.mem.2 hp), r, a, b, d⟩
    rw [face] at hB hW
    have cnt : ∀ p, (ord R).count ⟨p, none⟩ = if Gathered n g.view s p then 1 else 0 := by
      intro p
      rw [(hord R).count_eq]
      split
      · rename_i hp
        exact nodup_count h1.1 (h1.mem.2 hp)
      · rename_i hp
        exact List.count_eq_zero_of_not_mem (fun h => hp (h1.mem.1 h))
    obtain ⟨T, eT, hT⟩ := ih (fun t ht => hs t (by simp [ht]))
      (acc.1 ++ (if single .black B W then ord R else []), acc.2 ++ (if single .white B W then ord R else []))
    refine ⟨fun c => (if single c B W then ord R else []) ++ T c, ?_, ?_⟩
    · rw [List.foldlM_cons]
      have e2 : g.territoryStep dbg ord acc R =
          .ok (acc.1 ++ (if single .black B W then ord R else []), acc.2 ++ (if single .white B W then ord R else [])) := by
        unfold Goban.territoryStep
        rw [e, ok_bind]
        cases B <;> cases W <;> simp [single]
      rw [e2]
      show List.foldlM _ _ gs = _
      rw [eT]
      simp only [List.append_assoc]
    · intro c
      obtain ⟨hT1, hT2⟩ := hT c
      have hBW : single c B W = true ↔ Faces n g.view s c ∧ ¬ Faces n g.view s c.opp := by
        cases c
        · show (B && !W) = true ↔ Faces n g.view s .black ∧ ¬ Faces n g.view s .white
          rw [← hB, ← hW]; simp
        · show (W && !B) = true ↔ Faces n g.view s .white ∧ ¬ Faces n g.view s .black
          rw [← hB, ← hW]; simp
      constructor
      · intro x hx
        rcases List.mem_append.1 hx with hx | hx
        · have : x ∈ ord R := by
            split at hx
            · exact hx
            · cases hx
          exact hR x ((hord R).mem_iff.1 this)
        · exact hT1 x hx
      · intro p
        rw [List.count_append, hT2, List.filter_cons]
        have hc : List.count ⟨p, none⟩ (if single c B W then ord R else []) =
            if Gathered n g.view s p ∧ Faces n g.view s c ∧ ¬ Faces n g.view s c.opp then 1 else 0 := by
          by_cases hb : single c B W = true
          · rw [if_pos hb, cnt]
            by_cases hG : Gathered n g.view s p
            · rw [if_pos hG, if_pos ⟨hG, hBW.1 hb⟩]
            · rw [if_neg hG, if_neg (fun h => hG h.1)]
          · rw [if_neg hb, if_neg (fun h => hb (hBW.2 h.2))]
            rfl
        rw [hc]
        by_cases hx : Gathered n g.view s p ∧ Faces n g.view s c ∧ ¬ Faces n g.view s c.opp
        · rw [if_pos hx, if_pos (decide_eq_true hx), List.length_cons, Nat.add_comm]
        · rw [if_neg hx, if_neg (by simpa using hx), Nat.zero_add]


/-! ## From boards of every size -/

variable {s : Size} {m b w : Nat} {v : List MaybeColor}

theorem AnyBoard.small {g : Goban} (h : AnyBoard dbg s m g) : s.1 ≤ 19 ∧ s.2 ≤ 19 := by
  induction h with
  | new e => exact (new_any e).2.2.2.2.2
  | push _ _ _ ih => exact ih
  | remove _ _ _ ih => exact ih

theorem AnyGame.small {g : Game} (h : AnyGame dbg s b w g) : s.1 ≤ 19 ∧ s.2 ≤ 19 := by
  by_cases hz : s.1 = 0 ∨ s.2 = 0
  · exact (new_any (h.zero hz).1).2.2.2.2.2
  · obtain ⟨h1, h2, _⟩ := h.wgame (by omega) (by omega)
    have a := h1.weak.h19
    have b := h1.weak.w19
    rw [h2] at a b
    exact ⟨a, b⟩

theorem Rep.seen {g : Goban} (h : Rep g) (hs : g.size = s) (hl : s.1 ≤ 19 ∧ s.2 ≤ 19) : Seen ⟨s.1, s.2⟩ g := by
  refine ⟨hs, hl.1, hl.2, ?_⟩
  intro q hq
  have e : g.getColor q = .ok (g.col (twoTo1dim g.size q)) := by
    show g.getColorIdx _ = _
    refine h.getColorIdx (twoTo1_lt_any (by rw [hs]; exact hl.1) (by rw [hs]; exact hl.2) ?_)
    rw [hs]
    unfold isCoordValid
    rw [Bool.and_eq_true, decide_eq_true_iff, decide_eq_true_iff]
    exact hq
  unfold Goban.view
  rw [e]

/-- The coordinates `get_empty_coords` lists, exactly. -/
theorem Rep.emptyCoords {g : Goban} (h : Rep g) (hs : g.size = s) (hl : s.1 ≤ 19 ∧ s.2 ≤ 19) (hv : g.Cells v) :
    g.getEmptyCoords = .ok (Spec.emptyPairs s v) := by
  have harea : s.1 * s.2 ≤ 361 := Nat.mul_le_mul hl.1 hl.2
  have hev := h.cells_eq hv
  unfold Goban.getEmptyCoords assertM
  dsimp only
  rw [hs, if_pos (by simpa [h.blen] using harea), ok_bind]
  have key : ∀ (l : List (Option Nat)) (k : Nat), k + l.length ≤ s.1 * s.2 → (∀ j, j < l.length → l[j]? = some (g.bd (k + j))) →
      ((l.zipIdx k).mapM (fun (x : Option Nat × Nat) => match x.1 with
        | none => do let c ← oneTo2dim s x.2; (.ok (some c) : M (Option Coord))
        | some _ => .ok none)) >>= (fun r => (.ok (r.filterMap id) : M (List Coord))) =
      .ok (((List.range' k l.length).filter (fun i => decide (g.bd i = none))).map (fun i => (i / s.1, i % s.2))) := by
    intro l
    induction l with
    | nil => intro k _ _; rfl
    | cons o l ih =>
      intro k hk hb
      rw [List.length_cons] at hk
      have ih := ih (k + 1) (by omega) (fun j hj => by
        have := hb (j + 1) (by rw [List.length_cons]; omega)
        rw [List.getElem?_cons_succ] at this
        rw [this, show k + (j + 1) = k + 1 + j by omega])
      obtain ⟨r, er, e2⟩ := bind_eq_ok ih
      have hr := Except.ok.inj e2
      have h0 := hb 0 (by simp)
      rw [List.getElem?_cons_zero, Nat.add_zero] at h0
      have ho := Option.some.inj h0
      rw [List.zipIdx_cons, List.mapM_cons, List.length_cons, List.range'_succ, List.filter_cons]
      cases o with
      | some j =>
        dsimp only
        rw [ok_bind, er, if_neg (by rw [← ho]; simp), ← hr]
        rfl
      | none =>
        dsimp only
        have hw : 0 < s.2 := by
          rcases Nat.eq_zero_or_pos s.2 with h | h
          · rw [h] at hk; omega
          · exact h
        have hh : 0 < s.1 := by
          rcases Nat.eq_zero_or_pos s.1 with h | h
          · rw [h] at hk; omega
          · exact h
        have eo : oneTo2dim s k = .ok (k / s.1, k % s.2) := by
          unfold oneTo2dim u8
          rw [if_neg (by simp; omega)]
          have hm : k % s.2 < s.2 := Nat.mod_lt _ hw
          have hd : k / s.1 < s.2 := (Nat.div_lt_iff_lt_mul hh).2 (by rw [Nat.mul_comm]; omega)
          rw [Nat.mod_eq_of_lt (show k / s.1 < 256 by omega), Nat.mod_eq_of_lt (show k % s.2 < 256 by omega)]
        rw [eo, ok_bind, ok_bind, er, if_pos (by rw [← ho]; rfl), List.map_cons, ← hr]
        rfl
  have hk := key (g.board.take (s.1 * s.2)) 0 (by rw [List.length_take]; omega) (fun j hj => by
    rw [List.length_take] at hj
    rw [List.getElem?_take, if_pos (by omega), Nat.zero_add]
    unfold Goban.bd
    rw [List.getElem?_eq_getElem (by omega)]
    rfl)
  refine hk.trans ?_
  unfold Spec.emptyPairs
  rw [List.length_take, h.blen, Nat.min_eq_left harea, List.range_eq_range']
  congr 2
  apply List.filter_congr
  intro i hi
  rw [List.mem_range'_1] at hi
  rw [hev, cells_get (by omega)]
  simp [h.col_none_iff]

theorem emptyPairs_small (hl : s.1 ≤ 19 ∧ s.2 ≤ 19) : ∀ p ∈ Spec.emptyPairs s v, Small p := by
  intro p hp
  obtain ⟨i, hi, rfl⟩ := List.mem_map.1 hp
  have hi := List.mem_range.1 (List.mem_filter.1 hi).1
  have hw : 0 < s.2 := by
    rcases Nat.eq_zero_or_pos s.2 with h | h
    · rw [h] at hi; omega
    · exact h
  have hh : 0 < s.1 := by
    rcases Nat.eq_zero_or_pos s.1 with h | h
    · rw [h] at hi; omega
    · exact h
  have hm : i % s.2 < s.2 := Nat.mod_lt _ hw
  have hd : i / s.1 < s.2 := (Nat.div_lt_iff_lt_mul hh).2 (by rw [Nat.mul_comm]; omega)
  constructor
  · show i / s.1 < 255; omega
  · show i % s.2 < 255; omega

theorem starts_subset {n : Dim} {pos : Pos} : ∀ (l ss : List Coord), (Spec.starts n pos ss l).Sublist l
  | [], _ => .slnil
  | p :: l, ss => by
    unfold Spec.starts
    split
    · exact (starts_subset l ss).cons _
    · exact (starts_subset l _).cons_cons _

theorem step_length {ord : List Point → List Point} (hord : ∀ l, (ord l).Perm l) {acc r : List Point × List Point} {R : List Point}
    (h : g.territoryStep dbg ord acc R = .ok r) : r.1.length + r.2.length ≤ acc.1.length + acc.2.length + R.length := by
  unfold Goban.territoryStep at h
  obtain ⟨o, _, h⟩ := bind_eq_ok h
  have hl := (hord R).length_eq
  rcases o with _ | ⟨B, W⟩ <;> [skip; (cases B <;> cases W)] <;>
    (simp at h; subst h; simp; try omega)

theorem fold_length {ord : List Point → List Point} (hord : ∀ l, (ord l).Perm l) {K : Nat} : ∀ (gs : List (List Point))
    {acc r : List Point × List Point}, (∀ R ∈ gs, R.length ≤ K) → gs.foldlM (g.territoryStep dbg ord) acc = .ok r →
    r.1.length + r.2.length ≤ acc.1.length + acc.2.length + gs.length * K
  | [], acc, r, _, h => by cases h; simp
  | R :: gs, acc, r, hK, h => by
    rw [List.foldlM_cons] at h
    obtain ⟨a, h1, h2⟩ := bind_eq_ok h
    have := step_length hord h1
    have := fold_length hord gs (fun R hR => hK R (by simp [hR])) h2
    have := hK R (by simp)
    rw [List.length_cons, Nat.succ_mul]
    omega

theorem From.length {n : Dim} {p : Coord} {R : List Point} (h : From n g p R) : R.length ≤ n.area + 1 := by
  have h1 : (R.map Point.coord).Nodup := by
    refine List.Pairwise.map _ ?_ (List.Pairwise.and_mem.1 h.1)
    rintro ⟨a, ca⟩ ⟨b, cb⟩ ⟨ha, hb, hne⟩ hab
    have e1 : ca = _ := ((h.2 _).1 ha).color
    have e2 : cb = _ := ((h.2 _).1 hb).color
    have e3 : a = b := hab
    exact hne (by rw [e1, e2, e3])
  have h2 : (R.map Point.coord).length ≤ (p :: Spec.points n).length :=
    (List.subperm_of_subset h1 (fun q hq => by
      obtain ⟨x, hx, rfl⟩ := List.mem_map.1 hq
      rcases ((h.2 x).1 hx).place with rfl | h'
      · exact List.mem_cons_self
      · exact List.mem_cons_of_mem _ (mem_points.2 h'))).length_le
  rw [List.length_map, List.length_cons] at h2
  have h3 : (Spec.points n).length = n.area := points_length n
  omega

theorem forall₂_length {ss : List Coord} {gs : List (List Point)} {n : Dim} (h : List.Forall₂ (From n g) ss gs) :
    gs.length = ss.length ∧ ∀ R ∈ gs, R.length ≤ n.area + 1 := by
  induction h with
  | nil => exact ⟨rfl, fun R hR => by cases hR⟩
  | cons h1 _ ih =>
    refine ⟨by rw [List.length_cons, List.length_cons, ih.1], ?_⟩
    intro R hR
    rcases List.mem_cons.1 hR with rfl | hR
    · exact h1.length
    · exact ih.2 R hR

/-- `get_territories`, and how much it can list. -/
theorem Rep.territories {g : Goban} (h : Rep g) (hs : g.size = s) (hl : s.1 ≤ 19 ∧ s.2 ≤ 19) (hv : g.Cells v)
    {ord : List Point → List Point} (hord : ∀ l, (ord l).Perm l) :
    ∃ T : Color → List Point, g.territories dbg ord = .ok (T .black, T .white) ∧
      (∀ c, (∀ x ∈ T c, x.color = none) ∧ ∀ p, (T c).count ⟨p, none⟩ =
        Spec.timesListed ⟨s.1, s.2⟩ g.view (Spec.starts ⟨s.1, s.2⟩ g.view [] (Spec.emptyPairs s v)) c p) ∧
      ∀ c, (T c).length ≤ 2 ^ 18 := by
  classical
  have hI := h.seen hs hl
  obtain ⟨gs, e, hF⟩ := chains_shows (dbg := dbg) hI (Spec.emptyPairs s v) [] [] (emptyPairs_small hl) .nil
  rw [List.nil_append] at hF
  obtain ⟨T, eT, hT⟩ := territory_shows (dbg := dbg) hI hord hF
    (fun p hp => emptyPairs_small hl p ((starts_subset _ _).subset hp)) ([], [])
  have hlen := fold_length hord gs (forall₂_length hF).2 eT
  rw [(forall₂_length hF).1] at hlen
  have h1 : (Spec.starts ⟨s.1, s.2⟩ g.view [] (Spec.emptyPairs s v)).length ≤ 361 := by
    refine Nat.le_trans (starts_subset _ _).length_le ?_
    unfold Spec.emptyPairs
    rw [List.length_map]
    refine Nat.le_trans (List.length_filter_le _ _) ?_
    rw [List.length_range]
    exact Nat.mul_le_mul hl.1 hl.2
  have h2 := Nat.mul_le_mul h1 (Nat.succ_le_succ hI.area_le)
  simp only [List.nil_append, List.length_nil] at hlen eT
  have h3 : (T .black).length + (T .white).length ≤ 2 ^ 18 := by
    have : Nat.succ (Dim.area ⟨s.1, s.2⟩) = Dim.area ⟨s.1, s.2⟩ + 1 := rfl
    rw [this] at h2
    omega
  refine ⟨T, ?_, fun c => ⟨fun x hx => ((hT c).1 x hx).1, fun p => ?_⟩, fun c => by cases c <;> omega⟩
  · unfold Goban.territories
    rw [h.emptyCoords hs hl hv, ok_bind]
    unfold Goban.chainsFromStones
    rw [e, ok_bind, eT]
  · rw [(hT c).2 p]
    unfold Spec.timesListed
    congr 1

/-- **C100**, `get_empty_coords` on a board of every size: the pairs of the empty cells among the first `height · width`. -/
theorem C100_empty_coords {g : Goban} (h : AnyBoard dbg s m g) (hv : g.Cells v) : g.getEmptyCoords = .ok (Spec.emptyPairs s v) :=
  h.rep.1.emptyCoords h.rep.2.2 h.small hv

/-- **C100**, `get_territories` on a board of every size, in both builds: it returns, all that is listed is given as empty, and a pair is
listed for a colour once for every start from which it is gathered together with pairs next to stones of this colour only. A start is
a listed pair that has not been gathered before; it may be occupied or outside the board. -/
theorem C100_territories {g : Goban} (h : AnyBoard dbg s m g) (hv : g.Cells v) {ord : List Point → List Point}
    (hord : ∀ l, (ord l).Perm l) (dbg' : Bool) :
    ∃ T : Color → List Point, g.territories dbg' ord = .ok (T .black, T .white) ∧
      g.calculateTerritories dbg' ord = .ok ((T .black).length, (T .white).length) ∧
      ∀ c, (∀ x ∈ T c, x.color = none) ∧ ∀ p, (T c).count ⟨p, none⟩ =
        Spec.timesListed ⟨s.1, s.2⟩ g.view (Spec.starts ⟨s.1, s.2⟩ g.view [] (Spec.emptyPairs s v)) c p := by
  obtain ⟨T, e, hT, _⟩ := h.rep.1.territories (dbg := dbg') h.rep.2.2 h.small hv hord
  refine ⟨T, e, ?_, hT⟩
  unfold Goban.calculateTerritories
  rw [e]
  rfl

theorem AnyGame.tally {g : Game} (h : AnyGame dbg s b w g) (hv : g.goban.Cells v) :
    Tally g (v.count (some .black)) (v.count (some .white)) := by
  obtain ⟨h1, h2⟩ := C98_count h hv
  have hbw := C98_life h
  have e := h.rep.1.cells_eq hv
  have hl : v.length = 361 := hv.2
  have h3 := List.count_le_length (a := (some Color.black : MaybeColor)) (l := v)
  have h4 := List.count_le_length (a := (some Color.white : MaybeColor)) (l := v)
  refine ⟨?_, by omega, by omega, by omega, by omega⟩
  rw [h.rep.1.numberOfStones, e, count_cells, count_cells]

/-- **C100**, `calculate_score` and `outcome` return on a board of every size, for every komi, in both builds, whatever the number of
stones that have been put. There is a result iff one has been recorded or there were two passes in a row, and a recorded one is
returned. -/
theorem C100_returns {g : Game} (h : AnyGame dbg s b w g) {ord : List Point → List Point} (hord : ∀ l, (ord l).Perm l)
    (dbg' : Bool) (f : ScoreRules) :
    (∃ r, g.calculateScoreBy dbg' ord f = .ok r) ∧
    ∃ o, g.getOutcome dbg' ord = .ok o ∧ (o = none ↔ g.outcome = none ∧ g.passes < 2) ∧ (g.outcome ≠ none → o = g.outcome) := by
  have hv := h.rep.1.cells
  obtain ⟨T, e, _, _⟩ := h.rep.1.territories (dbg := dbg') h.rep.2 h.small hv hord
  have hsc : ∀ f, ∃ r, g.calculateScoreBy dbg' ord f = .ok r := by
    intro f
    unfold Game.calculateScoreBy Goban.calculateTerritories
    rw [e]
    exact ⟨_, rfl⟩
  refine ⟨hsc f, ?_⟩
  unfold Game.getOutcome Game.isOver
  cases ho : g.outcome with
  | some o => exact ⟨some o, by simp, by simp, by simp⟩
  | none =>
    by_cases hp : g.passes < 2
    · exact ⟨none, by simp [hp], by simp [hp], by simp⟩
    · obtain ⟨r, er⟩ := hsc g.rule.flagScore
      refine ⟨some (Game.decideByScore r), ?_, by simp [hp], by simp⟩
      have : g.calculateScore dbg' ord = .ok r := er
      simp [this, Nat.not_lt.1 hp]

/-- **C100**, `calculate_score` with a finite komi: what is listed as territory, the prisoners and the
stones on all the 361 cells, added in this order as the flags ask, then the komi for White, every sum being rounded. -/
theorem C100_score {g : Game} {f : ScoreRules} {k : Rat} (h : AnyGame dbg s b w g) (hv : g.goban.Cells v)
    (hk : g.rule.komi = .fin k) (hks : Spec.Single k) {ord : List Point → List Point} (hord : ∀ l, (ord l).Perm l) (dbg' : Bool) :
    ∃ tb tw, g.goban.calculateTerritories dbg' ord = .ok (tb, tw) ∧
    ∃ pb pw x y : Rat, Spec.Rounded (g.prisoners.1 : Rat) pb ∧ Spec.Rounded (g.prisoners.2 : Rat) pw ∧
      g.calculateScoreBy dbg' ord f = .ok (.fin x, .fin y) ∧
      Spec.RoundedSum tb (extras f pb (v.count (some .black))) x ∧
      Spec.RoundedSum tw (extras f pw (v.count (some .white)) ++ if f.komi then [k] else []) y := by
  obtain ⟨T, e, _, hT⟩ := h.rep.1.territories (dbg := dbg') h.rep.2 h.small hv hord
  have et : g.goban.calculateTerritories dbg' ord = .ok ((T .black).length, (T .white).length) := by
    unfold Goban.calculateTerritories
    rw [e]
    rfl
  exact ⟨_, _, et, score_of_finite (h.tally hv) hk hks et (hT _) (hT _)⟩

/-- **C100**, the result of a game ended by two passes on a board of every size, for every komi, as on square boards (C86) but of these
scores. -/
theorem C100_outcome {g : Game} (h : AnyGame dbg s b w g) (ho : g.outcome = none) (h2 : 2 ≤ g.passes)
    {ord : List Point → List Point} (hord : ∀ l, (ord l).Perm l) (dbg' : Bool) :
    ((∀ v, g.rule.komi = .fin v → Spec.Single v) → (g.rule.flagScore.komi = true → ∃ v, g.rule.komi = .fin v) →
      ∃ b w : Rat, g.calculateScore dbg' ord = .ok (.fin b, .fin w) ∧
      (Spec.dist b w < 2 ^ (-23 : Int) → g.getOutcome dbg' ord = .ok (some .draw)) ∧
      (2 ^ (-23 : Int) ≤ Spec.dist b w → w < b →
        ∃ d, g.getOutcome dbg' ord = .ok (some (.winnerByScore .black (.fin d))) ∧ Spec.Rounded (b - w) d) ∧
      (2 ^ (-23 : Int) ≤ Spec.dist b w → b < w →
        ∃ d, g.getOutcome dbg' ord = .ok (some (.winnerByScore .white (.fin d))) ∧ Spec.Rounded (w - b) d)) ∧
    (g.rule.flagScore.komi = true → ∀ s, g.rule.komi = .inf s →
      g.getOutcome dbg' ord = .ok (some (.winnerByScore (if s then .black else .white) (.inf false)))) ∧
    (g.rule.flagScore.komi = true → g.rule.komi = .nan → g.getOutcome dbg' ord = .ok (some (.winnerByScore .white .nan))) := by
  have hv := h.rep.1.cells
  obtain ⟨T, e, _, hT⟩ := h.rep.1.territories (dbg := dbg') h.rep.2 h.small hv hord
  have et : g.goban.calculateTerritories dbg' ord = .ok ((T .black).length, (T .white).length) := by
    unfold Goban.calculateTerritories
    rw [e]
    rfl
  exact outcome_of (h.tally hv) ho h2 et (hT _) (hT _)

/-- **C100**, territory outside the board: with height 2 and width 3, after one black stone on (0, 0) and two passes, the pairs (2, 1)
and (2, 2) of a third row are listed as black territory, 17 points are counted on 6 cells, and Black wins in spite of the komi. -/
theorem C100_outside (dbg : Bool) : ∃ b w g, AnyGame dbg (2, 3) b w g ∧ (
    g.goban.calculateTerritories dbg id = .ok (17, 0) ∧
    (g.goban.territories dbg id).map (fun T => (T.1.contains ⟨(2, 1), none⟩, T.1.contains ⟨(2, 2), none⟩)) = .ok (true, true) ∧
    g.getOutcome dbg id = .ok (some (.winnerByScore .black (.fin (21 / 2)))) : Bool) = true :=
  anyGame_exists (size := .custom 2 3) (rule := JAPANESE) (l := [.play 0 0, .pass, .pass]) (by cases dbg <;> decide +kernel)

/-- On boards whose width divides the height, too, what is counted is not much. -/
theorem Reach.counted {n : Dim} {g : Game} (h : Reach dbg n m g) {ord : List Point → List Point} (hord : ∀ l, (ord l).Perm l) :
    ∃ tb tw, g.goban.calculateTerritories dbg ord = .ok (tb, tw) ∧ tb ≤ 2 ^ 18 ∧ tw ≤ 2 ^ 18 := by
  have hI := h.inv
  obtain ⟨T, e, _, hT⟩ := hI.rep.territories (dbg := dbg) hI.size ⟨hI.good.h19, hI.good.w19⟩ hI.rep.cells hord
  refine ⟨_, _, ?_, hT .black, hT .white⟩
  unfold Goban.calculateTerritories
  rw [e]
  rfl

/-- **C92**, exact results: with a komi that is a multiple of a half below 2^20 and fewer than 2^20 prisoners the result of a game ended
by two passes is a draw iff the scores are equal, otherwise a win of the larger by the exact difference, on every board whose width
divides the height. -/
theorem C92_two_passes {n : Dim} {g : Game} {K : Int} (h : Reach dbg n m g) (ho : g.outcome = none) (hp : 2 ≤ g.passes)
    (hx : Exact g g.rule.flagScore K) {ord : List Point → List Point} (hord : ∀ l, (ord l).Perm l) :
    ∃ b w : Rat, g.calculateScore dbg ord = .ok (.fin b, .fin w) ∧
      (b = w → g.getOutcome dbg ord = .ok (some .draw)) ∧
      (w < b → g.getOutcome dbg ord = .ok (some (.winnerByScore .black (.fin (b - w))))) ∧
      (b < w → g.getOutcome dbg ord = .ok (some (.winnerByScore .white (.fin (w - b))))) := by
  obtain ⟨tb, tw, et, hb, hw⟩ := h.counted hord
  have ht := h.tally
  exact passes_of ho hp et ht.stones hx hb hw ht.black ht.white

/-- **C100**, exact scores: with a komi `K / 2` below 2^20 and fewer than 2^20 prisoners nothing is rounded. -/
theorem C100_exact_score {g : Game} {f : ScoreRules} {K : Int} (h : AnyGame dbg s b w g) (hv : g.goban.Cells v)
    (hx : Exact g f K) {ord : List Point → List Point} (hord : ∀ l, (ord l).Perm l) (dbg' : Bool) :
    ∃ tb tw, g.goban.calculateTerritories dbg' ord = .ok (tb, tw) ∧ g.calculateScoreBy dbg' ord f = .ok
      (.fin ((tb + (if f.prisonners then g.prisoners.1 else 0) + (if f.stones then v.count (some .black) else 0) : Nat) : Rat),
      .fin (((tw + (if f.prisonners then g.prisoners.2 else 0) + (if f.stones then v.count (some .white) else 0) : Nat) : Rat) +
        (if f.komi then (K : Rat) / 2 else 0))) := by
  obtain ⟨T, e, _, hT⟩ := h.rep.1.territories (dbg := dbg') h.rep.2 h.small hv hord
  have et : g.goban.calculateTerritories dbg' ord = .ok ((T .black).length, (T .white).length) := by
    unfold Goban.calculateTerritories
    rw [e]
    rfl
  refine ⟨_, _, et, ?_⟩
  have ht := h.tally hv
  rw [half_of et ht.stones hx (hT _) (hT _) ht.black ht.white]
  unfold F32.half
  have e : ∀ k : Nat, ((2 * (k : Int) : Int) : Rat) = 2 * (k : Rat) := by
    intro k; rw [Rat.intCast_mul, Rat.intCast_natCast]; rfl
  congr 2
  · rw [e]; congr 1; grind
  · congr 1
    rw [Rat.intCast_add, e]
    cases f.komi
    · simp only [Bool.false_eq_true, if_false]; grind
    · simp only [if_true]; grind

/-- **C100**, exact results: in that range the result of a game ended by two passes is a draw iff the scores are equal, otherwise a win
of the larger by the exact difference. -/
theorem C100_two_passes {g : Game} {K : Int} (h : AnyGame dbg s b w g) (ho : g.outcome = none)
    (hp : 2 ≤ g.passes) (hx : Exact g g.rule.flagScore K) {ord : List Point → List Point} (hord : ∀ l, (ord l).Perm l) (dbg' : Bool) :
    ∃ b w : Rat, g.calculateScore dbg' ord = .ok (.fin b, .fin w) ∧
      (b = w → g.getOutcome dbg' ord = .ok (some .draw)) ∧
      (w < b → g.getOutcome dbg' ord = .ok (some (.winnerByScore .black (.fin (b - w))))) ∧
      (b < w → g.getOutcome dbg' ord = .ok (some (.winnerByScore .white (.fin (w - b))))) := by
  have hv := h.rep.1.cells
  obtain ⟨T, e, _, hT⟩ := h.rep.1.territories (dbg := dbg') h.rep.2 h.small hv hord
  have et : g.goban.calculateTerritories dbg' ord = .ok ((T .black).length, (T .white).length) := by
    unfold Goban.calculateTerritories
    rw [e]
    rfl
  have ht := h.tally hv
  exact passes_of ho hp et ht.stones hx (hT _) (hT _) ht.black ht.white

/-- **C55**, every komi and every size: after two passes, if the komi is finite or does not count, the winner named is the side whose
score is larger by 2^-23 at least, and there is none iff the scores are nearer than that; with an infinite komi that counts the
winner is the side it favours, with one that is not a number it is White. -/
theorem C55_winner_any {g : Game} (h : AnyGame dbg s b w g) (ho : g.outcome = none) (h2 : 2 ≤ g.passes)
    (hks : ∀ v, g.rule.komi = .fin v → Spec.Single v) {ord : List Point → List Point} (hord : ∀ l, (ord l).Perm l) (dbg' : Bool) :
    ((g.rule.flagScore.komi = true → ∃ v, g.rule.komi = .fin v) →
      ∃ (x y : Rat) (e : EndGame), g.calculateScore dbg' ord = .ok (.fin x, .fin y) ∧ g.getOutcome dbg' ord = .ok (some e) ∧
      (e.getWinner = some .black ↔ 2 ^ (-23 : Int) ≤ x - y) ∧ (e.getWinner = some .white ↔ 2 ^ (-23 : Int) ≤ y - x) ∧
      (e.getWinner = none ↔ Spec.dist x y < 2 ^ (-23 : Int))) ∧
    (g.rule.flagScore.komi = true → (∀ v, g.rule.komi ≠ .fin v) → ∃ e : EndGame, g.getOutcome dbg' ord = .ok (some e) ∧
      e.getWinner = some (if g.rule.komi = .inf true then .black else .white)) := by
  obtain ⟨h1, hi, hn⟩ := C100_outcome h ho h2 hord dbg'
  constructor
  · intro hk
    obtain ⟨x, y, hs, hd, hb, hw⟩ := h1 hks hk
    have hpos : (0 : Rat) < 2 ^ (-23 : Int) := by decide +kernel
    clear h1 hi hn
    generalize (2 : Rat) ^ (-23 : Int) = ε at *
    unfold Spec.dist at hd hb hw ⊢
    by_cases hxy : x ≤ y
    · rw [if_pos hxy] at hd hb hw
      by_cases hlt : y - x < ε
      · refine ⟨x, y, _, hs, hd hlt, ?_, ?_, ?_⟩ <;> simp [EndGame.getWinner] <;> grind
      · obtain ⟨d, he, _⟩ := hw (by grind) (by grind)
        refine ⟨x, y, _, hs, he, ?_, ?_, ?_⟩ <;> simp [EndGame.getWinner] <;> grind
    · rw [if_neg hxy] at hd hb hw
      by_cases hlt : x - y < ε
      · refine ⟨x, y, _, hs, hd hlt, ?_, ?_, ?_⟩ <;> simp [EndGame.getWinner] <;> grind
      · obtain ⟨d, he, _⟩ := hb (by grind) (by grind)
        refine ⟨x, y, _, hs, he, ?_, ?_, ?_⟩ <;> simp [EndGame.getWinner] <;> grind
  · intro hf hk
    match e : g.rule.komi with
    | .fin v => exact absurd e (hk v)
    | .inf t => exact ⟨_, hi hf t e, by cases t <;> rfl⟩
    | .nan => exact ⟨_, hn hf e, rfl⟩

end Model
