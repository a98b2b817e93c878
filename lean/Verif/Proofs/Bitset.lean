import Verif.Model.Bitset
/-!
# The liberty bitset refines a set of indices
-/

namespace Model
namespace Bits

/-- Membership of an index, as a total function (specification side). -/
def has (x : Nat) (lib : Liberties) : Bool := (lib.getD (x / 8) 0#8).getLsbD (x % 8)

theorem and_mask (b : BitVec 8) (i : Fin 8) : ((b &&& (1#8 <<< i.val)) != 0#8) = b.getLsbD i.val := by
  revert b i; decide +kernel

theorem set_true_bit (b : BitVec 8) (i j : Fin 8) :
    (b ||| (1#8 <<< i.val)).getLsbD j.val = (if j = i then true else b.getLsbD j.val) := by
  revert b i j; decide +kernel

theorem set_false_bit (b : BitVec 8) (i j : Fin 8) :
    (b &&& ~~~(1#8 <<< i.val)).getLsbD j.val = (if j = i then false else b.getLsbD j.val) := by
  revert b i j; decide +kernel

theorem get_ok {x : Nat} {lib : Liberties} (h : x < 8 * lib.length) : get x lib = .ok (has x lib) := by
  have hc : x / 8 < lib.length := by omega
  unfold get has
  rw [List.getElem?_eq_getElem hc]
  simp only [List.getD_eq_getElem?_getD, List.getElem?_eq_getElem hc, Option.getD_some]
  rw [and_mask _ ⟨x % 8, by omega⟩]

theorem get_panic {x : Nat} {lib : Liberties} (h : 8 * lib.length ≤ x) : get x lib = panic := by
  have hc : lib.length ≤ x / 8 := by omega
  unfold get
  rw [List.getElem?_eq_none hc]

theorem set_panic {v : Bool} {x : Nat} {lib : Liberties} (h : 8 * lib.length ≤ x) : set v x lib = panic := by
  have hc : lib.length ≤ x / 8 := by omega
  unfold set
  dsimp only
  rw [List.getElem?_eq_none hc]

theorem set_ok {v : Bool} {x : Nat} {lib : Liberties} (h : x < 8 * lib.length) :
    ∃ l', set v x lib = .ok l' ∧ l'.length = lib.length ∧ ∀ y, has y l' = if y = x then v else has y lib := by
  have hc : x / 8 < lib.length := by omega
  unfold set
  dsimp only
  rw [List.getElem?_eq_getElem hc]
  refine ⟨_, rfl, by simp, ?_⟩
  intro y
  unfold has
  simp only [List.getD_eq_getElem?_getD, List.getElem?_set]
  by_cases hy : x / 8 = y / 8
  · rw [if_pos hy, if_pos hc, ← hy, List.getElem?_eq_getElem hc]
    simp only [Option.getD_some]
    have hb : y = x ↔ (⟨y % 8, by omega⟩ : Fin 8) = ⟨x % 8, by omega⟩ := by
      rw [Fin.mk.injEq]; omega
    cases v
    · have := set_false_bit lib[x / 8] ⟨x % 8, by omega⟩ ⟨y % 8, by omega⟩
      simp only [Bool.false_eq_true, if_false] at this ⊢
      rw [this]; simp only [hb]
    · have := set_true_bit lib[x / 8] ⟨x % 8, by omega⟩ ⟨y % 8, by omega⟩
      simp only [if_true] at this ⊢
      rw [this]; simp only [hb]
  · rw [if_neg hy]
    have : y ≠ x := by rintro rfl; exact hy rfl
    rw [if_neg this]

theorem merge_length {a b : Liberties} (h : a.length = b.length) : (merge a b).length = a.length := by
  unfold merge; simp [h]

theorem merge_has {a b : Liberties} (h : a.length = b.length) (x : Nat) :
    has x (merge a b) = (has x a || has x b) := by
  unfold merge has
  simp only [List.getD_eq_getElem?_getD, List.getElem?_zipWith]
  by_cases hx : x / 8 < a.length
  · rw [List.getElem?_eq_getElem hx, List.getElem?_eq_getElem (h ▸ hx)]
    simp
  · rw [List.getElem?_eq_none (by omega), List.getElem?_eq_none (by omega)]
    simp

theorem has_lt {x : Nat} {lib : Liberties} (h : has x lib = true) : x < 8 * lib.length := by
  apply Classical.byContradiction
  intro hx
  unfold has at h
  rw [List.getD_eq_getElem?_getD, List.getElem?_eq_none (by omega)] at h
  simp at h

/-- The members in increasing order. -/
def members (lib : Liberties) : List Nat := (List.range (8 * lib.length)).filter (fun x => has x lib)

theorem mem_members {x : Nat} {lib : Liberties} : x ∈ members lib ↔ has x lib = true := by
  unfold members
  simp only [List.mem_filter, List.mem_range]
  exact ⟨fun h => h.2, fun h => ⟨has_lt h, h⟩⟩

theorem iterChunk_eq0 : ∀ b : BitVec 8, iterChunk 0 8 b 0 = (List.range 8).filter (fun i => b.getLsbD i) := by
  decide +kernel

theorem iterChunk_ix (ix : Nat) : ∀ (fuel : Nat) (b : BitVec 8) (idx : Nat),
    iterChunk ix fuel b idx = (iterChunk 0 fuel b idx).map (· + 8 * ix) := by
  intro fuel
  induction fuel with
  | zero => intros; rfl
  | succ f ih =>
    intro b idx
    unfold iterChunk
    split
    · rfl
    · simp only [List.map_cons, Nat.mul_zero, Nat.add_zero, ← ih]

theorem iterOnesFrom_eq (lib : Liberties) : ∀ ix, iterOnesFrom ix lib = (members lib).map (· + 8 * ix) := by
  induction lib with
  | nil => intro ix; rfl
  | cons b bs ih =>
    intro ix
    have hm : members (b :: bs) = (List.range 8).filter (fun i => b.getLsbD i) ++ (members bs).map (· + 8) := by
      unfold members
      have : 8 * (b :: bs).length = 8 + 8 * bs.length := by simp; omega
      rw [this, List.range_add, List.filter_append, List.filter_map]
      have h1 : (List.range 8).filter (fun x => has x (b :: bs)) = (List.range 8).filter (fun i => b.getLsbD i) := by
        apply List.filter_congr
        intro x hx
        have : x < 8 := by simpa using hx
        unfold has
        rw [show x / 8 = 0 by omega, show x % 8 = x by omega]; rfl
      have h2 : (List.range (8 * bs.length)).filter ((fun x => has x (b :: bs)) ∘ fun x => 8 + x) =
          (List.range (8 * bs.length)).filter (fun x => has x bs) := by
        apply List.filter_congr
        intro x _
        simp only [Function.comp]
        unfold has
        rw [show (8 + x) / 8 = x / 8 + 1 by omega, show (8 + x) % 8 = x % 8 by omega]
        rfl
      rw [h1, h2, show (fun x => x + 8) = (fun x => 8 + x) by funext x; omega]
    rw [iterOnesFrom, ih, hm, iterChunk_ix, iterChunk_eq0, List.map_append, List.map_map]
    congr 1
    apply List.map_congr_left
    intro x _
    simp only [Function.comp]; omega

theorem iterOnes_eq (lib : Liberties) : iterOnes lib = members lib := by
  unfold iterOnes
  rw [iterOnesFrom_eq]; simp

theorem members_sorted (lib : Liberties) : (members lib).Pairwise (· < ·) := by
  unfold members
  exact List.Pairwise.filter _ List.pairwise_lt_range

theorem members_nodup (lib : Liberties) : (members lib).Nodup := by
  exact (members_sorted lib).imp (fun h => Nat.ne_of_lt h)

theorem countOnes_eq (lib : Liberties) : countOnes lib = (members lib).length := by
  have h := iterOnesFrom_eq lib
  unfold countOnes
  have key : ∀ (l : Liberties) ix, (iterOnesFrom ix l).length = (l.map popcount).sum := by
    intro l
    induction l with
    | nil => intro ix; rfl
    | cons b bs ih =>
      intro ix
      rw [iterOnesFrom, List.length_append, ih, iterChunk_ix, List.length_map, iterChunk_eq0]
      rfl
  rw [← key lib 0, h]; simp

theorem any_eq_true {lib : Liberties} : any lib = true ↔ ∃ x, has x lib = true := by
  unfold any
  rw [List.any_eq_true]
  constructor
  · rintro ⟨b, hb, hne⟩
    obtain ⟨i, hi, rfl⟩ := List.getElem_of_mem hb
    have hz : lib[i] ≠ 0#8 := by simpa using hne
    have : ∃ j : Fin 8, lib[i].getLsbD j.val = true := by
      apply Classical.byContradiction
      intro hno
      apply hz
      apply BitVec.eq_of_getLsbD_eq
      intro j hj
      have := fun h => hno ⟨⟨j, hj⟩, h⟩
      simpa using this
    obtain ⟨j, hj⟩ := this
    refine ⟨8 * i + j.val, ?_⟩
    unfold has
    rw [show (8 * i + j.val) / 8 = i by omega, show (8 * i + j.val) % 8 = j.val by omega]
    simpa [List.getD_eq_getElem?_getD, List.getElem?_eq_getElem hi] using hj
  · rintro ⟨x, hx⟩
    have hlt := has_lt hx
    have hc : x / 8 < lib.length := by omega
    refine ⟨lib[x / 8], List.getElem_mem hc, ?_⟩
    unfold has at hx
    rw [List.getD_eq_getElem?_getD, List.getElem?_eq_getElem hc] at hx
    simp only [Option.getD_some] at hx
    simp only [bne_iff_ne]
    intro h0
    rw [h0] at hx
    simp at hx

theorem has_empty (x : Nat) : has x EMPTY_LIBERTIES = false := by
  unfold has EMPTY_LIBERTIES
  simp only [List.getD_eq_getElem?_getD, List.getElem?_replicate]
  split <;> simp

theorem empty_length : EMPTY_LIBERTIES.length = 46 := by decide

end Bits
end Model
