import Verif.Proofs.Stones
/-!
# The functions that list the board
-/

namespace Model
open Spec (OnBoard Adj Linked HasLiberty NoDead place SameOn Pos)

theorem col_bind {g : Goban} {i : Nat} (h : Rep g) : (match g.bd i with
    | none => (.ok none : M MaybeColor)
    | some k => do let ch ← g.chains.chainAt k; .ok (some ch.color)) = .ok (g.col i) := by
  cases hb : g.bd i with
  | none => rw [col_none hb]
  | some k =>
    obtain ⟨grp, hg⟩ := h.live i k hb
    rw [col_of_bd hb hg]
    dsimp only
    rw [Goban.chainAt_ok hg, ok_bind]

theorem toVec_ok {n : Dim} {g : Goban} (h : Inv n g) : g.toVec = .ok ((List.range 361).map g.col) := by
  unfold Goban.toVec
  rw [h.board_eq, List.mapM_map]
  apply mapM_ok
  intro i _
  exact col_bind h.rep

/-- Colours of all points, row by row. -/
theorem col_range {n : Nat} {g : Goban} (h : Inv n g) : (List.range (n * n)).map g.col = (Spec.points n).map g.view := by
  rw [points_eq, List.map_map]
  apply List.map_congr_left
  intro i hi
  exact (h.view_ptOf (ix_square.2 (List.mem_range.1 hi))).symm

theorem sq_le {n : Nat} (hn : (n : Dim).Good) : n * n ≤ 361 := Nat.mul_le_mul hn.h19 hn.h19

theorem range361 {n : Nat} (hn : (n : Dim).Good) :
    List.range 361 = List.range (n * n) ++ (List.range (361 - n * n)).map (fun x => n * n + x) := by
  have hle := sq_le hn
  rw [← List.range_add]; congr 1; omega

theorem toVec_view {n : Nat} {g : Goban} (h : Inv n g) :
    g.toVec = .ok ((Spec.points n).map g.view ++ List.replicate (361 - n * n) none) := by
  rw [toVec_ok h, range361 h.good, List.map_append, col_range h]
  congr 2
  rw [List.map_map]
  apply List.ext_getElem?
  intro i
  rw [List.getElem?_map, List.getElem?_replicate]
  by_cases hi : i < 361 - n * n
  · rw [List.getElem?_range hi, if_pos hi]
    show some (g.col (n * n + i)) = _
    rw [h.col_off (by rw [ix_square]; omega)]
  · rw [if_neg hi, List.getElem?_eq_none (by rw [List.length_range]; omega)]; rfl

theorem getStones_ok {n : Dim} {g : Goban} (h : Inv n g) :
    g.getStones = .ok ((Spec.points n).filterMap (fun p => (g.view p).map (fun c => { coord := p, color := c }))) := by
  unfold Goban.getStones
  rw [h.board_eq, zipIdx_map_range, List.mapM_map]
  rw [mapM_ok (h := fun i => (g.col i).map (fun c => ({ coord := ptOf n i, color := c } : Stone)))]
  · rw [ok_bind, filterMap_map_id, points_filter h.good, List.filterMap_map, List.filterMap_filter]
    congr 1
    apply List.filterMap_congr
    intro i _
    by_cases hi : Ix n i
    · rw [if_pos (decide_eq_true hi)]
      show _ = (g.view (ptOf n i)).map _
      rw [h.view_ptOf hi]
    · rw [if_neg (by simpa using hi), h.col_off hi]; rfl
  · intro i _
    show (match g.bd i with
      | none => _
      | some k => _) = _
    cases hb : g.bd i with
    | none => rw [col_none hb]; rfl
    | some k =>
      obtain ⟨grp, hg⟩ := h.rep.live i k hb
      rw [col_of_bd hb hg]
      dsimp only
      rw [h.size, oneTo2_ok h.good (h.off _ _ hb), ok_bind, Goban.chainAt_ok hg, ok_bind]
      rfl

theorem filterMap_range_filter {P : Nat → Bool} {f : Nat → Option Nat} (hf : ∀ i, f i = if P i then some i else none) (m : Nat) :
    (List.range m).filterMap f = (List.range m).filter P := by
  rw [show f = fun i => if P i then some (id i) else none from funext hf, filterMap_if]
  simp

theorem getEmptyIdx_ok {n : Dim} {g : Goban} (h : Inv n g) :
    g.getEmptyIdx = (List.range 361).filter (fun i => (g.col i).isSome) := by
  unfold Goban.getEmptyIdx
  rw [h.board_eq, zipIdx_map_range, List.filterMap_map]
  rw [show ((fun x : Option Nat × Nat => match x with | (o, i) => o.map (fun _ => i)) ∘ fun i => (g.bd i, i)) =
    fun i => if (g.col i).isSome then some i else none from ?_]
  · rw [filterMap_range_filter (fun _ => rfl)]
  · funext i
    show (g.bd i).map (fun _ => i) = _
    cases hb : g.bd i with
    | none => rw [col_none hb]; rfl
    | some k =>
      obtain ⟨grp, hg⟩ := h.rep.live i k hb
      rw [col_of_bd hb hg]; rfl

theorem mulU8_small {dbg : Bool} {a b : Nat} (h : a * b < 256) : mulU8 dbg a b = .ok (a * b) := by
  unfold mulU8; rw [if_pos h]

theorem mulU8_big {a b : Nat} (h : ¬ a * b < 256) : mulU8 true a b = panic := by
  unfold mulU8; rw [if_neg h]; rfl

theorem mulU8_release {a b : Nat} : mulU8 false a b = .ok (a * b % 256) := by
  unfold mulU8
  split
  · rw [Nat.mod_eq_of_lt ‹_›]
  · rfl

/-- What `get_coords_by_color` computes once the product is known. -/
theorem coordsByColor_ok {dbg : Bool} {n bound : Nat} {g : Goban} {c : Color} (h : Inv n g) (hb : mulU8 dbg n n = .ok bound)
    (hle : bound ≤ n * n) :
    g.getCoordsByColor dbg (some c) = .ok (((Spec.points n).take bound).filter (fun p => decide (g.view p = some c))) := by
  unfold Goban.getCoordsByColor
  rw [h.size]
  dsimp only [Dim.sz]
  rw [hb, ok_bind]
  rw [mapM_ok (h := fun i => if decide (g.view (ptOf n i) = some c) then some (ptOf n i) else none)]
  · rw [ok_bind, filterMap_map_id, filterMap_if, points_eq, ← List.map_take, List.take_range, Nat.min_eq_left hle,
      filter_map_comm]
    rfl
  · intro i hi
    have hi := List.mem_range.1 hi
    have hiN : Ix n i := ix_square.2 (by omega)
    rw [Goban.boardAt_ok (by rw [h.rep.blen]; exact h.lt361 hiN), ok_bind, h.view_ptOf hiN]
    cases hbd : g.bd i with
    | none => rw [col_none hbd]; rfl
    | some k =>
      obtain ⟨grp, hg⟩ := h.rep.live i k hbd
      rw [col_of_bd hbd hg]
      dsimp only
      rw [Goban.chainAt_ok hg, ok_bind, show oneTo2dim (n, n) i = _ from oneTo2_ok h.good hiN]
      by_cases hc : grp.color = c <;> simp [hc]

theorem coordsByColor_empty {dbg : Bool} {n bound : Nat} {g : Goban} (h : Inv n g) (hb : mulU8 dbg n n = .ok bound)
    (hle : bound ≤ n * n) : g.getCoordsByColor dbg none = .ok ((Spec.points n).take bound) := by
  unfold Goban.getCoordsByColor
  rw [h.size]
  dsimp only [Dim.sz]
  rw [hb, ok_bind]
  rw [mapM_ok (h := fun i => some (ptOf n i))]
  · rw [ok_bind, filterMap_map_id, points_eq, ← List.map_take, List.take_range, Nat.min_eq_left hle]
    congr 1
    exact congrFun List.filterMap_eq_map' _
  · intro i hi
    have hi := List.mem_range.1 hi
    rw [show oneTo2dim (n, n) i = _ from oneTo2_ok h.good (ix_square.2 (by omega))]; rfl

theorem pseudoLegalsVec_ok {dbg : Bool} {n : Dim} {g : Game} (h : Inv n g.goban) :
    g.pseudoLegalsVec dbg = (do
      let _ ← mulU8 dbg n.h n.w
      .ok ((Spec.points n).filter (fun p => (g.goban.view p).isNone))) := by
  unfold Game.pseudoLegalsVec
  dsimp only
  rw [h.size]
  congr 1
  funext _
  rw [allCoords_eq, mapM_ok (h := fun p => if (g.goban.view p).isNone then some p else none)]
  · rw [ok_bind, filterMap_map_id]
    have := filterMap_if (fun p => (g.goban.view p).isNone) id (Spec.points n)
    rw [List.map_id] at this
    rw [← this]; rfl
  · intro p hp
    have hp := mem_points.1 hp
    rw [Goban.boardAt_ok (by rw [h.rep.blen]; exact h.lt361 (twoTo1_lt h.good hp)), ok_bind]
    cases hb : g.goban.bd (twoTo1dim n.sz p) with
    | none => rw [(h.view_none_iff hp).2 hb]; rfl
    | some k =>
      cases hv : g.goban.view p with
      | none => rw [(h.view_none_iff hp).1 hv] at hb; cases hb
      | some c => rfl

/-! ### matrix -/

theorem chunksExact_eq {α} (k : Nat) (hk : 0 < k) : ∀ (fuel : Nat) (l : List α), l.length ≤ fuel →
    Goban.chunksExact k fuel l = (List.range (l.length / k)).map (fun r => (l.drop (r * k)).take k)
  | 0, l, h => by
    have : l.length = 0 := by omega
    rw [this]; simp [Goban.chunksExact]
  | fuel + 1, l, h => by
    unfold Goban.chunksExact
    by_cases hl : l.length < k
    · rw [if_pos hl, Nat.div_eq_of_lt hl]; rfl
    · rw [if_neg hl, chunksExact_eq k hk fuel (l.drop k) (by rw [List.length_drop]; omega), List.length_drop]
      have hdiv : l.length / k = (l.length - k) / k + 1 := by
        rw [Nat.div_eq_sub_div hk (by omega)]
      rw [hdiv, List.range_succ_eq_map, List.map_cons, List.map_map]
      congr 1
      · simp
      · apply List.map_congr_left
        intro r _
        show ((l.drop k).drop (r * k)).take k = (l.drop ((r + 1) * k)).take k
        rw [List.drop_drop]
        congr 2
        rw [Nat.add_mul]; omega

theorem matrix_ok {n : Nat} {g : Goban} (h : Inv n g) (hn : 0 < n) :
    g.matrix = .ok ((List.range (361 / n)).map (fun r => (List.range n).map (fun c => g.col (r * n + c)))) := by
  unfold Goban.matrix
  rw [h.size]
  have h0 : assertM (((n : Dim).sz).2 != 0) = .ok () := by
    unfold assertM; rw [if_pos (by simp [Dim.sz]; omega)]
  rw [h0, ok_bind]
  dsimp only [Dim.sz]
  rw [chunksExact_eq n hn _ _ (Nat.le_refl _), h.rep.blen, List.mapM_map]
  apply mapM_ok
  intro r hr
  have hr := List.mem_range.1 hr
  have hle : r * n + n ≤ 361 := by
    have h1 : (r + 1) * n ≤ 361 / n * n := Nat.mul_le_mul_right n hr
    have h2 := Nat.div_mul_le_self 361 n
    rw [Nat.add_mul] at h1; omega
  have hrow : (g.board.drop (r * n)).take n = (List.range n).map (fun c => g.bd (r * n + c)) := by
    apply List.ext_getElem?
    intro i
    rw [List.getElem?_take, List.getElem?_map]
    by_cases hi : i < n
    · rw [if_pos hi, List.getElem?_drop, List.getElem?_range hi, h.getElem?_board (by omega)]; rfl
    · rw [if_neg hi, List.getElem?_eq_none (by rw [List.length_range]; omega)]; rfl
  show ((g.board.drop (r * n)).take n).mapM _ = _
  rw [hrow, List.mapM_map]
  apply mapM_ok
  intro c _
  exact col_bind h.rep

/-! ### pretty_string -/

theorem prettyString_ok {n : Dim} {g : Goban} (h : Inv n g) :
    g.prettyString = .ok (((List.range n.h).map (fun i =>
      (List.range n.w).map (fun j => Goban.glyph n.sz i j (g.view (i, j))) ++ ['\n'])).flatten) := by
  unfold Goban.prettyString
  rw [h.size]
  rw [mapM_ok (h := fun i => (List.range n.w).map (fun j => Goban.glyph n.sz i j (g.view (i, j))) ++ ['\n'])]
  · rfl
  · intro i hi
    rw [mapM_ok (h := fun j => Goban.glyph n.sz i j (g.view (i, j)))]
    · rfl
    · intro j hj
      rw [h.getColor_view ⟨List.mem_range.1 hi, List.mem_range.1 hj⟩]
      rfl

theorem glyph_cases (s : Size) (i j : Nat) (o : MaybeColor) :
    (Goban.glyph s i j o = '●' ↔ o = some .black) ∧ (Goban.glyph s i j o = '○' ↔ o = some .white) := by
  cases o with
  | none =>
    unfold Goban.glyph
    cases i == 0 <;> cases i == s.1 - 1 <;> cases j == 0 <;> cases j == s.2 - 1 <;> decide
  | some c => cases c <;> simp [Goban.glyph]

theorem glyph_inj {s : Size} {i j : Nat} {a b : MaybeColor} (h : Goban.glyph s i j a = Goban.glyph s i j b) : a = b := by
  have ha := glyph_cases s i j a
  have hb := glyph_cases s i j b
  rw [h] at ha
  cases a with
  | none =>
    cases b with
    | none => rfl
    | some c =>
      cases c with
      | black => exact (ha.1.1 (hb.1.2 rfl))
      | white => exact (ha.2.1 (hb.2.2 rfl))
  | some c =>
    cases c with
    | black => exact (hb.1.1 (ha.1.2 rfl)).symm
    | white => exact (hb.2.1 (ha.2.2 rfl)).symm

theorem flatten_inj {α} {k : Nat} : ∀ {l l' : List (List α)}, (∀ x ∈ l, x.length = k) → (∀ x ∈ l', x.length = k) →
    l.length = l'.length → l.flatten = l'.flatten → l = l'
  | [], [], _, _, _, _ => rfl
  | [], _ :: _, _, _, h, _ => by simp at h
  | _ :: _, [], _, _, h, _ => by simp at h
  | a :: l, b :: l', h1, h2, h3, h4 => by
    rw [List.flatten_cons, List.flatten_cons] at h4
    have := List.append_inj h4 (by rw [h1 a (by simp), h2 b (by simp)])
    rw [this.1, flatten_inj (fun x hx => h1 x (by simp [hx])) (fun x hx => h2 x (by simp [hx])) (by simpa using h3) this.2]

theorem prettyString_inj {n : Dim} {a b : Goban} (ha : Inv n a) (hb : Inv n b) :
    a.prettyString = b.prettyString ↔ SameOn n a.view b.view := by
  rw [prettyString_ok ha, prettyString_ok hb]
  constructor
  · intro h
    have h := Except.ok.inj h
    have := flatten_inj (k := n.w + 1) (by
      intro x hx; obtain ⟨i, _, rfl⟩ := List.mem_map.1 hx; simp) (by
      intro x hx; obtain ⟨i, _, rfl⟩ := List.mem_map.1 hx; simp) (by simp) h
    intro p hp
    have h1 := List.map_inj_left.1 this p.1 (List.mem_range.2 hp.1)
    have h2 := (List.append_inj h1 (by simp)).1
    exact glyph_inj (List.map_inj_left.1 h2 p.2 (List.mem_range.2 hp.2))
  · intro h
    congr 2
    apply List.map_congr_left
    intro i hi
    congr 1
    apply List.map_congr_left
    intro j hj
    rw [h (i, j) ⟨List.mem_range.1 hi, List.mem_range.1 hj⟩]

/-! ### From a slice -/

theorem isqrt_spec (m : Nat) : Goban.isqrt m * Goban.isqrt m ≤ m ∧ m < (Goban.isqrt m + 1) * (Goban.isqrt m + 1) := by
  induction m with
  | zero => simp [Goban.isqrt]
  | succ m ih =>
    unfold Goban.isqrt
    dsimp only
    split
    · refine ⟨by assumption, ?_⟩
      have : (Goban.isqrt m + 1 + 1) * (Goban.isqrt m + 1 + 1) =
        (Goban.isqrt m + 1) * (Goban.isqrt m + 1) + 2 * (Goban.isqrt m + 1) + 1 := by
        rw [Nat.mul_add, Nat.add_mul]; omega
      omega
    · omega

theorem isqrt_sq (n : Nat) : Goban.isqrt (n * n) = n := by
  have ⟨h1, h2⟩ := isqrt_spec (n * n)
  have a : Goban.isqrt (n * n) ≤ n := Nat.mul_self_le_mul_self_iff.1 h1
  have b : n < Goban.isqrt (n * n) + 1 := Nat.mul_self_lt_mul_self_iff.1 h2
  omega

theorem ofSlice_fold {dbg : Bool} {n : Nat} : ∀ (l : List MaybeColor) (k m : Nat) (g : Goban), k + l.length = n * n → Board dbg n m g →
    m ≤ k → (∀ i, k ≤ i → g.col i = none) →
    ∃ g' m', (l.zipIdx k).foldlM (Goban.ofSliceStep dbg n) g = .ok g' ∧ Board dbg n m' g' ∧ m' ≤ k + l.length ∧
      ∀ i, g'.col i = if i < k then g.col i else (l[i - k]?).join
  | [], k, m, g, hk, hb, hm, he => by
    refine ⟨g, m, rfl, hb, by simpa using hm, ?_⟩
    intro i
    split
    · rfl
    · rw [he i (by omega)]; simp
  | mc :: l, k, m, g, hk, hb, hm, he => by
    rw [List.zipIdx_cons, List.foldlM_cons]
    rw [List.length_cons] at hk
    have hI := hb.inv.1
    have hkN : Ix n k := ix_square.2 (by omega)
    have hstep : ∃ g1 m1, Goban.ofSliceStep dbg n g (mc, k) = .ok g1 ∧ Board dbg n m1 g1 ∧ m1 ≤ k + 1 ∧
        ∀ i, g1.col i = if i = k then mc else g.col i := by
      unfold Goban.ofSliceStep
      rw [show oneTo2dim (n, n) (mc, k).2 = _ from oneTo2_ok hI.good hkN, ok_bind]
      cases mc with
      | none =>
        refine ⟨g, m, rfl, hb, by omega, ?_⟩
        intro i
        split
        · subst i; exact he k (Nat.le_refl _)
        · rfl
      | some c =>
        have hv : g.view (ptOf n k) = none := by rw [hI.view_ptOf hkN]; exact he k (Nat.le_refl _)
        have h361 := hI.lt361 hkN
        rcases hI.push_total (dbg := dbg) (c := c) (ptOf_onBoard hkN) hv with ⟨g', e, _, _, hc⟩ | ⟨_, h'⟩
        · refine ⟨g', m + 1, e, .push hb (ptOf_onBoard hkN) ((getColor_none hI (ptOf_onBoard hkN)).2 hv) e, by omega, ?_⟩
          intro i; rw [hc, twoTo1_ptOf]
        · have := hb.inv.2; omega
    obtain ⟨g1, m1, e1, hb1, hm1, hc1⟩ := hstep
    rw [e1, ok_bind]
    obtain ⟨g', m', e, hb', hm', hc⟩ := ofSlice_fold l (k + 1) m1 g1 (by omega) hb1 hm1 (by
      intro i hi; rw [hc1, if_neg (by omega)]; exact he i (by omega))
    refine ⟨g', m', e, hb', by rw [List.length_cons]; omega, ?_⟩
    intro i
    rw [hc, hc1]
    by_cases h1 : i < k
    · rw [if_pos (by omega), if_neg (by omega), if_pos h1]
    · rw [if_neg h1]
      by_cases h2 : i = k
      · subst h2; simp
      · rw [if_neg (by omega), show i - k = (i - (k + 1)) + 1 by omega, List.getElem?_cons_succ]

/-- `Goban::from` on `n * n` cells shows exactly these cells. -/
theorem ofSlice_ok {dbg : Bool} {n : Nat} (hn : (n : Dim).Good) {l : List MaybeColor} (hl : l.length = n * n) :
    ∃ g m, Goban.ofSlice dbg l = .ok g ∧ Board dbg n m g ∧ m ≤ 361 ∧
      ∀ p, OnBoard n p → g.view p = (l[twoTo1dim (n, n) p]?).join := by
  have hle := sq_le hn
  have h19 : n ≤ 19 := hn.h19
  have hnew : ∃ g0, Goban.new (n, n) = .ok g0 := by
    unfold Goban.new assertM
    rw [if_pos (by simpa using hn.h19)]
    exact ⟨_, rfl⟩
  obtain ⟨g0, e0⟩ := hnew
  obtain ⟨g, m, e, hb, hm, hc⟩ := ofSlice_fold (dbg := dbg) (n := n) l 0 0 g0 (by omega) (.new hn.fits e0) (Nat.le_refl _)
    (fun i _ => (new_inv (n := (n : Dim)) hn.fits e0).2.2 i)
  refine ⟨g, m, ?_, hb, by omega, ?_⟩
  · unfold Goban.ofSlice
    dsimp only
    rw [hl, isqrt_sq, Nat.min_eq_left (by omega), e0, ok_bind]
    exact e
  · intro p hp
    rw [hb.inv.1.view hp, hc, if_neg (by omega), Nat.sub_zero]; rfl

end Model
