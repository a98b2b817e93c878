import Verif.Proofs.Groups
import Verif.Props.Support
/-!
# Data representations: C25 (liberty bitset), C26 (coordinates), C48 (Zobrist keys)
-/

namespace Model
open Spec (OnBoard Adj Linked)

/-! ## C25 -/

/-- **C25**. The array every group starts from has 46 bytes, so that the other parts of the claim apply to it, and no
member. -/
theorem C25_empty : EMPTY_LIBERTIES.length = 46 ∧ ∀ i, i < 368 → Bits.get i EMPTY_LIBERTIES = .ok false := by
  refine ⟨Bits.empty_length, fun i hi => ?_⟩
  rw [Bits.get_ok (by rw [Bits.empty_length]; omega), Bits.has_empty]

/-- **C25**. Reading a bit returns for the 368 indices of the array and panics for all others. -/
theorem C25_get {lib : Liberties} (h : lib.length = 46) (i : Nat) :
    (i < 368 → ∃ b, Bits.get i lib = .ok b) ∧ (368 ≤ i → Bits.get i lib = panic) :=
  ⟨fun hi => ⟨_, Bits.get_ok (by omega)⟩, fun hi => Bits.get_panic (by omega)⟩

/-- **C25**. `set::<v>(i)` makes the membership of `i` equal `v` and changes no other; out of range it panics. -/
theorem C25_set {lib : Liberties} (h : lib.length = 46) (v : Bool) (i : Nat) :
    (i < 368 → ∃ lib', Bits.set v i lib = .ok lib' ∧ lib'.length = 46 ∧ Bits.get i lib' = .ok v ∧
      ∀ j, j ≠ i → Bits.get j lib' = Bits.get j lib) ∧
    (368 ≤ i → Bits.set v i lib = panic) := by
  constructor
  · intro hi
    obtain ⟨l', e, hl, hh⟩ := Bits.set_ok (v := v) (x := i) (lib := lib) (by omega)
    refine ⟨l', e, by omega, ?_, ?_⟩
    · rw [Bits.get_ok (by omega), hh, if_pos rfl]
    · intro j hj
      by_cases hj' : j < 368
      · rw [Bits.get_ok (by omega), Bits.get_ok (by omega), hh, if_neg hj]
      · rw [Bits.get_panic (by omega), Bits.get_panic (by omega)]
  · intro hi
    exact Bits.set_panic (by omega)

/-- **C25**. `merge` is union. -/
theorem C25_merge {a b : Liberties} (ha : a.length = 46) (hb : b.length = 46) :
    (Bits.merge a b).length = 46 ∧
    ∀ i, Bits.get i (Bits.merge a b) = .ok true ↔ Bits.get i a = .ok true ∨ Bits.get i b = .ok true := by
  have hl := Bits.merge_length (a := a) (b := b) (by omega)
  refine ⟨by omega, ?_⟩
  intro i
  by_cases hi : i < 368
  · rw [Bits.get_ok (by omega), Bits.get_ok (by omega), Bits.get_ok (by omega), Bits.merge_has (by omega)]
    simp
  · rw [Bits.get_panic (by omega), Bits.get_panic (by omega), Bits.get_panic (by omega)]
    simp [panic]

theorem get_iff_has {lib : Liberties} (i : Nat) : Bits.get i lib = .ok true ↔ Bits.has i lib = true := by
  by_cases hi : i < 8 * lib.length
  · rw [Bits.get_ok hi]; simp
  · rw [Bits.get_panic (by omega)]
    constructor
    · intro h; cases h
    · intro h; exact absurd (Bits.has_lt h) hi

/-- **C25**. `iter_ones` lists the members in strictly increasing order, `count_ones` is their number and `any` tells
whether there is one. -/
theorem C25_iter_ones {lib : Liberties} :
    (Bits.iterOnes lib).Pairwise (· < ·) ∧ (∀ i, i ∈ Bits.iterOnes lib ↔ Bits.get i lib = .ok true) ∧
      Bits.countOnes lib = (Bits.iterOnes lib).length ∧
      (Bits.any lib = true ↔ ∃ i, Bits.get i lib = .ok true) := by
  refine ⟨?_, ?_, ?_, ?_⟩
  · rw [Bits.iterOnes_eq]; exact Bits.members_sorted lib
  · intro i; rw [Bits.iterOnes_eq, Bits.mem_members, get_iff_has]
  · rw [Bits.iterOnes_eq, Bits.countOnes_eq]
  · simp only [get_iff_has]; exact Bits.any_eq_true

/-- **C25**. The array is determined by its members. -/
theorem C25_ext {a b : Liberties} (ha : a.length = 46) (hb : b.length = 46)
    (h : ∀ i, Bits.get i a = .ok true ↔ Bits.get i b = .ok true) : a = b := by
  apply List.ext_getElem (by omega)
  intro k h1 h2
  apply BitVec.eq_of_getLsbD_eq
  intro j hj
  have := h (8 * k + j)
  rw [get_iff_has, get_iff_has] at this
  unfold Bits.has at this
  rw [show (8 * k + j) / 8 = k by omega, show (8 * k + j) % 8 = j by omega] at this
  simp only [List.getD_eq_getElem?_getD, List.getElem?_eq_getElem h1, List.getElem?_eq_getElem h2,
    Option.getD_some] at this
  exact Bool.eq_iff_iff.2 this

/-- Non-vacuity of C25: bits of different chunks, set, reset and merged. -/
example : okAnd (do
    let a ← Bits.set true 7 EMPTY_LIBERTIES
    let a ← Bits.set true 8 a
    let a ← Bits.set true 360 a
    let b ← Bits.set true 3 EMPTY_LIBERTIES
    let a ← Bits.set false 8 a
    .ok (a, b)) (fun r => r.1.length == 46 && r.2.length == 46 && Bits.iterOnes (Bits.merge r.1 r.2) == [3, 7, 360] &&
      Bits.countOnes r.1 == 2 && !Bits.any EMPTY_LIBERTIES) = true := by decide +kernel

/-! ## C26 -/

/-- On the board of height `s.1` and width `s.2`. -/
def OnRect (s : Size) (p : Coord) : Prop := p.1 < s.1 ∧ p.2 < s.2

/-- C26 as first stated: for every supported size. -/
def C26Full : Prop := ∀ h w, 1 ≤ h → h ≤ 19 → 1 ≤ w → w ≤ 19 →
  (∀ p q, OnRect (h, w) p → OnRect (h, w) q → twoTo1dim (h, w) p = twoTo1dim (h, w) q → p = q) ∧
  (∀ p, OnRect (h, w) p → oneTo2dim (h, w) (twoTo1dim (h, w) p) = .ok p)

/-- **C26**, the part that holds for every size: the index is inside the board array. -/
theorem C26_in_range_partial {h w : Nat} {p : Coord} (hh : h ≤ 19) (hw : w ≤ 19) (hp : OnRect (h, w) p) :
    twoTo1dim (h, w) p < 361 := by
  obtain ⟨h1, h2⟩ := hp
  dsimp only at h1 h2
  unfold twoTo1dim
  dsimp only
  have := Nat.mul_le_mul (show p.1 ≤ 18 by omega) hh
  omega

/-- **C26**, exactly when indices are unambiguous: the width is at most the height, or there is one row. -/
theorem C26_injective_iff_partial {h w : Nat} (hh : 1 ≤ h) (hw : 1 ≤ w) :
    (∀ p q, OnRect (h, w) p → OnRect (h, w) q → twoTo1dim (h, w) p = twoTo1dim (h, w) q → p = q) ↔ w ≤ h ∨ h = 1 := by
  constructor
  · intro hi
    apply Classical.byContradiction
    intro hn
    have := hi (0, h) (1, 0) ⟨by dsimp only; omega, by dsimp only; omega⟩ ⟨by dsimp only; omega, by dsimp only; omega⟩
      (by unfold twoTo1dim; simp)
    rw [Prod.mk.injEq] at this
    omega
  · rintro hc ⟨x, y⟩ ⟨x', y'⟩ ⟨h1, h2⟩ ⟨h3, h4⟩ e
    unfold twoTo1dim at e
    dsimp only at h1 h2 h3 h4 e
    rcases hc with hc | rfl
    · have a : (x * h + y) / h = x := by
        rw [Nat.mul_comm, Nat.mul_add_div (by omega), Nat.div_eq_of_lt (by omega), Nat.add_zero]
      have b : (x' * h + y') / h = x' := by
        rw [Nat.mul_comm, Nat.mul_add_div (by omega), Nat.div_eq_of_lt (by omega), Nat.add_zero]
      rw [e, b] at a
      subst a
      rw [Nat.add_left_cancel e]
    · rw [show x = 0 by omega, show x' = 0 by omega] at e ⊢
      rw [show y = y' by omega]

/-- **C26**, exactly when `one_to_2dim` inverts `two_to_1dim`: the width divides the height. -/
theorem C26_inverse_iff_partial {h w : Nat} (hh : 1 ≤ h) (hh' : h ≤ 19) (hw : 1 ≤ w) (hw' : w ≤ 19) :
    (∀ p, OnRect (h, w) p → oneTo2dim (h, w) (twoTo1dim (h, w) p) = .ok p) ↔ w ∣ h := by
  have key : ∀ p, OnRect (h, w) p → oneTo2dim (h, w) (twoTo1dim (h, w) p) =
      .ok (u8 ((p.1 * h + p.2) / h), u8 ((p.1 * h + p.2) % w)) := by
    intro p _
    unfold oneTo2dim twoTo1dim
    rw [if_neg (by dsimp only; omega)]
  constructor
  · intro hi
    by_cases hwh : w ≤ h
    · by_cases h1 : h = 1
      · rw [show w = h by omega]; exact Nat.dvd_refl _
      · have hp : OnRect (h, w) (1, 0) := ⟨by dsimp only; omega, by dsimp only; omega⟩
        have := hi _ hp
        rw [key _ hp] at this
        have := congrArg Prod.snd (Except.ok.inj this)
        dsimp only at this
        have hlt : (1 * h + 0) % w < w := Nat.mod_lt _ (by omega)
        unfold u8 at this
        rw [Nat.mod_eq_of_lt (by omega)] at this
        exact Nat.dvd_of_mod_eq_zero (by simpa using this)
    · have hp : OnRect (h, w) (0, h) := ⟨by dsimp only; omega, by dsimp only; omega⟩
      have := hi _ hp
      rw [key _ hp] at this
      have := congrArg Prod.fst (Except.ok.inj this)
      dsimp only at this
      rw [show 0 * h + h = h by omega, Nat.div_self (by omega)] at this
      cases this
  · rintro ⟨k, rfl⟩ p hp
    rw [key p hp]
    obtain ⟨x, y⟩ := p
    obtain ⟨h1, h2⟩ := hp
    dsimp only at h1 h2 ⊢
    have hle : w ≤ w * k := by
      rcases k with _ | k
      · omega
      · exact Nat.le_mul_of_pos_right w (by omega)
    have a : (x * (w * k) + y) / (w * k) = x := by
      rw [Nat.mul_comm, Nat.mul_add_div (by omega), Nat.div_eq_of_lt (by omega), Nat.add_zero]
    have b : (x * (w * k) + y) % w = y := by
      rw [show x * (w * k) = w * (x * k) by rw [Nat.mul_left_comm], Nat.mul_add_mod, Nat.mod_eq_of_lt h2]
    rw [a, b]
    unfold u8
    rw [Nat.mod_eq_of_lt (by omega), Nat.mod_eq_of_lt (by omega)]

/-- **C26** for the square boards: two inverse bijections between the points of the board and the numbers below `n²`. -/
theorem C26_square_partial {n : Nat} (hn : n ≤ 19) :
    (∀ p, OnBoard n p → twoTo1dim (n, n) p < n * n ∧ oneTo2dim (n, n) (twoTo1dim (n, n) p) = .ok p) ∧
    ∀ i, i < n * n → ∃ p, OnBoard n p ∧ oneTo2dim (n, n) i = .ok p ∧ twoTo1dim (n, n) p = i := by
  have hg : (n : Dim).Good := good_sq hn
  constructor
  · intro p hp
    have h := twoTo1_lt hg hp
    refine ⟨ix_square.1 h, ?_⟩
    have e := oneTo2_ok hg h
    rw [ptOf_twoTo1 hg hp] at e
    exact e
  · intro i hi
    have h : Ix n i := ix_square.2 hi
    exact ⟨ptOf n i, ptOf_onBoard h, oneTo2_ok hg h, twoTo1_ptOf (n := (n : Dim))⟩

/-- C26 is false: on a 4 × 5 board two points share an index, on a 5 × 4 board the conversion is not inverted. -/
theorem C26_false : ¬ C26Full := by
  intro h
  have := (C26_injective_iff_partial (h := 4) (w := 5) (by decide) (by decide)).1
    (h 4 5 (by decide) (by decide) (by decide) (by decide)).1
  omega

/-- What it means for a user: on an empty 4 × 5 board a stone put on (0, 4) also shows on (1, 0). -/
theorem C26_false_board (dbg : Bool) : ∃ g g', Goban.new (4, 5) = .ok g ∧ g.getColor (1, 0) = .ok none ∧
    g.push dbg (0, 4) .black = .ok g' ∧ g'.getColor (1, 0) = .ok (some .black) := by
  have : okAnd (do
      let g ← Goban.new (4, 5)
      let g' ← g.push dbg (0, 4) .black
      .ok (g, g')) (fun r => decide (r.1.getColor (1, 0) = .ok none ∧ r.2.getColor (1, 0) = .ok (some .black))) = true := by
    cases dbg <;> decide +kernel
  obtain ⟨r, e, hr⟩ := okAnd_iff.1 this
  obtain ⟨g, e1, e⟩ := bind_eq_ok e
  obtain ⟨g', e2, e⟩ := bind_eq_ok e
  cases e
  simp only [decide_eq_true_eq] at hr
  exact ⟨g, g', e1, hr.1, e2, hr.2⟩

/-- Non-vacuity of the two equivalences: both sides occur on both truth values, on non-square boards. -/
example : (3 ≤ 6 ∨ 6 = 1) ∧ 3 ∣ 6 ∧ (4 ≤ 5 ∨ 5 = 1) ∧ ¬ 4 ∣ 5 ∧ ¬ (5 ≤ 4 ∨ 4 = 1) ∧ OnRect (6, 3) (5, 2) := by
  refine ⟨by decide, by decide, by decide, by decide, by decide, ?_⟩
  unfold OnRect; decide

/-! ## C48 -/

/-- A check of `Nodup` the kernel evaluates quickly. -/
def allDistinct : List Nat → Bool
  | [] => true
  | x :: l => l.all (fun y => !(Nat.beq x y)) && allDistinct l

theorem nodup_of_allDistinct : ∀ {l : List Nat}, allDistinct l = true → l.Nodup
  | [], _ => .nil
  | x :: l, h => by
    unfold allDistinct at h
    rw [Bool.and_eq_true, List.all_eq_true] at h
    refine List.nodup_cons.2 ⟨fun hx => ?_, nodup_of_allDistinct h.2⟩
    have := h.1 x hx
    simp at this

theorem zobrist_nodup : ZOBRIST.Nodup := nodup_of_allDistinct (by decide +kernel)
theorem zobrist_range : ∀ v ∈ ZOBRIST, v ≠ 0 ∧ v < 2 ^ 64 := by decide +kernel

/-- **C48**. Every key is defined and not zero. -/
theorem C48_defined {i : Nat} (h : i < 361) (c : Color) : ∃ v, indexZobrist i c = .ok v ∧ v ≠ 0 := by
  have hi : i + BOARD_SIZE * (c.toNat - 1) < ZOBRIST.length := by
    rw [zobrist_length]; unfold BOARD_SIZE; cases c <;> simp [Color.toNat] <;> omega
  unfold indexZobrist
  rw [List.getElem?_eq_getElem hi]
  refine ⟨_, rfl, ?_⟩
  obtain ⟨h1, h2⟩ := zobrist_range _ (List.getElem_mem hi)
  intro h0
  have := congrArg BitVec.toNat h0
  rw [BitVec.toNat_ofNat, Nat.mod_eq_of_lt h2] at this
  exact h1 this

/-- **C48**. Different point or different colour, different key. -/
theorem C48_distinct {i j : Nat} {c d : Color} (hi : i < 361) (hj : j < 361) (h : indexZobrist i c = indexZobrist j d) :
    i = j ∧ c = d := by
  have hi' : i + BOARD_SIZE * (c.toNat - 1) < ZOBRIST.length := by
    rw [zobrist_length]; unfold BOARD_SIZE; cases c <;> simp [Color.toNat] <;> omega
  have hj' : j + BOARD_SIZE * (d.toNat - 1) < ZOBRIST.length := by
    rw [zobrist_length]; unfold BOARD_SIZE; cases d <;> simp [Color.toNat] <;> omega
  unfold indexZobrist at h
  rw [List.getElem?_eq_getElem hi', List.getElem?_eq_getElem hj'] at h
  have h := congrArg BitVec.toNat (Except.ok.inj h)
  rw [BitVec.toNat_ofNat, BitVec.toNat_ofNat, Nat.mod_eq_of_lt (zobrist_range _ (List.getElem_mem hi')).2,
    Nat.mod_eq_of_lt (zobrist_range _ (List.getElem_mem hj')).2] at h
  have := (List.getElem_inj zobrist_nodup).1 h
  unfold BOARD_SIZE at this
  cases c <;> cases d <;> simp [Color.toNat] at this ⊢ <;> omega

/-- What one point adds to the hash. -/
def keyAt (n : Dim) (pos : Spec.Pos) (p : Coord) : BitVec 64 := match pos p with
  | none => 0
  | some c => match indexZobrist (twoTo1dim n.sz p) c with
    | .ok z => z
    | .error _ => 0

theorem fold_xor_diff {f f' : Coord → BitVec 64} {p : Coord} : ∀ (l : List Coord) (a b : BitVec 64), l.Nodup →
    (∀ q ∈ l, q ≠ p → f q = f' q) →
    l.foldl (fun h q => h ^^^ f q) a ^^^ l.foldl (fun h q => h ^^^ f' q) b =
      a ^^^ b ^^^ (if p ∈ l then f p ^^^ f' p else 0)
  | [], a, b, _, _ => by simp
  | q :: l, a, b, hnd, h => by
    rw [List.foldl_cons, List.foldl_cons, fold_xor_diff l _ _ (List.nodup_cons.1 hnd).2 (fun r hr => h r (by simp [hr]))]
    have hq := (List.nodup_cons.1 hnd).1
    by_cases hqp : q = p
    · subst hqp
      rw [if_neg hq, if_pos (by simp)]
      apply BitVec.eq_of_getLsbD_eq
      intro i hi
      rw [show (0 : BitVec 64) = 0#64 from rfl]
      simp only [BitVec.getLsbD_xor, BitVec.getLsbD_zero]
      cases a.getLsbD i <;> cases b.getLsbD i <;> cases (f q).getLsbD i <;> cases (f' q).getLsbD i <;> rfl
    · rw [h q (by simp) hqp]
      have e : (p ∈ q :: l) = (p ∈ l) := by
        rw [List.mem_cons]; exact propext ⟨fun h => h.resolve_left (fun h => hqp h.symm), Or.inr⟩
      simp only [e]
      generalize (if p ∈ l then f p ^^^ f' p else 0) = X
      apply BitVec.eq_of_getLsbD_eq
      intro i hi
      simp only [BitVec.getLsbD_xor]
      cases a.getLsbD i <;> cases b.getLsbD i <;> cases (f' q).getLsbD i <;> cases X.getLsbD i <;> rfl

/-- **C48**. Boards that differ in exactly one intersection have different hashes. -/
theorem C48_one_difference {dbg dbg' : Bool} {n : Dim} {m m' : Nat} {a b : Goban} (ha : Board dbg n m a) (hb : Board dbg' n m' b)
    {p : Coord} (hp : OnBoard n p) (hd : a.getColor p ≠ b.getColor p)
    (h : ∀ q, OnBoard n q → q ≠ p → a.getColor q = b.getColor q) : a.zobristHash ≠ b.zobristHash := by
  intro e
  have hA := ha.inv.1
  have hB := hb.inv.1
  rw [hash_ok hA, hash_ok hB] at e
  have hx := fold_xor_diff (f := keyAt n a.view) (f' := keyAt n b.view) (p := p) (Spec.points n) 0 0 (points_nodup n)
    (fun q hq hne => by
      have hq := mem_points.1 hq
      have := h q hq hne
      rw [hA.getColor_view hq, hB.getColor_view hq] at this
      unfold keyAt
      rw [Except.ok.inj this])
  have e1 : zobristOf n a.view = (Spec.points n).foldl (fun h q => h ^^^ keyAt n a.view q) 0 := rfl
  have e2 : zobristOf n b.view = (Spec.points n).foldl (fun h q => h ^^^ keyAt n b.view q) 0 := rfl
  rw [← e1, ← e2, e, if_pos (mem_points.2 hp)] at hx
  have hk : keyAt n a.view p = keyAt n b.view p := by
    have : keyAt n a.view p ^^^ keyAt n b.view p = 0 := by
      rw [BitVec.xor_self] at hx
      simpa using hx.symm
    have h2 := congrArg (· ^^^ keyAt n b.view p) this
    simpa [BitVec.xor_assoc] using h2
  have hi : twoTo1dim n.sz p < 361 := hA.lt361 (twoTo1_lt hA.good hp)
  rw [hA.getColor_view hp, hB.getColor_view hp] at hd
  unfold keyAt at hk
  cases h1 : a.view p with
  | none =>
    cases h2 : b.view p with
    | none => exact hd (by rw [h1, h2])
    | some d =>
      obtain ⟨v, ev, hv⟩ := C48_defined hi d
      rw [h1, h2] at hk
      dsimp only at hk
      rw [ev] at hk
      exact hv hk.symm
  | some c =>
    obtain ⟨u, eu, hu⟩ := C48_defined hi c
    cases h2 : b.view p with
    | none =>
      rw [h1, h2] at hk
      dsimp only at hk
      rw [eu] at hk
      exact hu hk
    | some d =>
      obtain ⟨v, ev, hv⟩ := C48_defined hi d
      rw [h1, h2] at hk
      dsimp only at hk
      rw [eu, ev] at hk
      dsimp only at hk
      have := C48_distinct hi hi (show indexZobrist _ c = indexZobrist _ d by rw [eu, ev, hk])
      exact hd (by rw [h1, h2, this.2])

/-- Points whose black keys cancel each other. -/
def collision : List Nat := [0, 2, 4, 6, 12, 15, 16, 17, 18, 19, 20, 21, 24, 27, 28, 29, 32, 33, 35, 37, 38, 39, 41, 44, 46, 47,
  48, 49, 50, 54, 55, 56, 57, 58, 61, 62, 64]

/-- **C48**. The hash does not determine the position: 37 black stones on a 19 × 19 board hash like the empty board. The
boards are nevertheless not `==`. -/
theorem C48_collision (dbg : Bool) : ∃ a b, Board dbg 19 0 a ∧ Board dbg 19 37 b ∧ a.zobristHash = b.zobristHash ∧
    a.numberOfStones = (0, 0) ∧ b.numberOfStones = (37, 0) ∧ a.beq b = .ok false := by
  obtain ⟨b, hb, h⟩ := mkBoard_exists (dbg := dbg) (n := 19) (l := collision.map (fun i => .push (i / 19) (i % 19) .black))
    (f := fun b => okAnd (mkBoard dbg 19 []) (fun a => decide (a.zobristHash = b.zobristHash ∧
      a.numberOfStones = (0, 0) ∧ b.numberOfStones = (37, 0) ∧ a.beq b = .ok false))) (by cases dbg <;> decide +kernel)
  obtain ⟨a, ea, h⟩ := okAnd_iff.1 h
  simp only [decide_eq_true_eq] at h
  exact ⟨a, b, mkBoard_board ea, hb, h⟩

/-- Non-vacuity of `C48_one_difference`: two boards that differ at (1, 1) only, by a colour. -/
example : ∃ a b, Board true 3 2 a ∧ Board true 3 2 b ∧ (a.getColor (1, 1) ≠ b.getColor (1, 1) ∧
    (∀ q ∈ Spec.points 3, q ≠ (1, 1) → a.getColor q = b.getColor q)) := by
  obtain ⟨a, ha, h⟩ := mkBoard_exists (dbg := true) (n := 3) (l := [.push 0 1 .black, .push 1 1 .white]) (f := fun a =>
    okAnd (mkBoard true 3 [.push 1 1 .black, .push 0 1 .black]) (fun b => decide (a.getColor (1, 1) ≠ b.getColor (1, 1) ∧
      ∀ q ∈ Spec.points 3, q ≠ (1, 1) → a.getColor q = b.getColor q))) (by decide +kernel)
  obtain ⟨b, eb, h⟩ := okAnd_iff.1 h
  simp only [decide_eq_true_eq] at h
  exact ⟨a, b, ha, mkBoard_board eb, h⟩

end Model
