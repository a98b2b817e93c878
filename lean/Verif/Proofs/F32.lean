import Verif.Model.F32
/-!
# Exactness of `f32` arithmetic on small multiples of a power of two
-/

namespace Model
namespace F32

theorem two_ne : (2 : Rat) ≠ 0 := by decide

theorem pow2_pos (e : Int) : (0 : Rat) < 2 ^ e := Rat.zpow_pos (by decide)

theorem pow2_add (a b : Int) : (2 : Rat) ^ (a + b) = 2 ^ a * 2 ^ b := Rat.zpow_add two_ne a b

theorem pow2_nat (k : Nat) : (2 : Rat) ^ (k : Int) = ((2 ^ k : Nat) : Rat) := by
  rw [Rat.zpow_natCast]; exact (Rat.natCast_pow 2 k).symm

theorem one_le_pow2 (k : Nat) : (1 : Rat) ≤ 2 ^ (k : Int) := by
  rw [pow2_nat]
  have : 1 ≤ 2 ^ k := Nat.one_le_two_pow
  have h := Rat.natCast_le_natCast.2 this
  simpa using h

theorem pow2_le {a b : Int} (h : a ≤ b) : (2 : Rat) ^ a ≤ 2 ^ b := by
  obtain ⟨k, hk⟩ := Int.eq_ofNat_of_zero_le (Int.sub_nonneg.2 h)
  have e : b = a + (k : Int) := by omega
  rw [e, pow2_add]
  have h1 := one_le_pow2 k
  have h2 := pow2_pos a
  have := Rat.mul_le_mul_of_nonneg_left h1 (Rat.le_of_lt h2)
  rwa [Rat.mul_one] at this

theorem pow2_lt_of {a b : Int} (h : (2 : Rat) ^ a < 2 ^ b) : a < b := by
  apply Classical.byContradiction
  intro hn
  have := pow2_le (show b ≤ a by omega)
  exact absurd h (Rat.not_lt.2 this)

theorem floorLog2_le {q : Rat} (hq : 0 < q) : (2 : Rat) ^ floorLog2 q ≤ q := by
  unfold floorLog2
  dsimp only
  split
  · rename_i h
    have hnum : 0 < q.num := by
      have h1 : 0 ≤ q.num := Rat.num_nonneg.2 (Rat.le_of_lt hq)
      have h2 : q.num ≠ 0 := fun h' => Rat.ne_of_lt hq (Rat.num_eq_zero.1 h').symm
      omega
    have h1 : 2 ^ Nat.log2 q.num.natAbs ≤ q.num.natAbs := Nat.log2_self_le (by omega)
    have h2 : q.den < 2 ^ (Nat.log2 q.den + 1) := Nat.lt_log2_self
    have h3 : (q.num.natAbs : Int) = q.num := by omega
    have e1 : q * (q.den : Rat) = ((q.num.natAbs : Nat) : Rat) := by
      have hd : ((q.den : Nat) : Rat) ≠ 0 := by
        have := q.den_nz
        exact_mod_cast this
      rw [← Rat.intCast_natCast q.num.natAbs, h3]
      have := Rat.mkRat_self q
      rw [Rat.mkRat_eq_div] at this
      calc q * (q.den : Rat) = ((q.num : Rat) / (q.den : Rat)) * (q.den : Rat) := by rw [this]
        _ = q.num := Rat.div_mul_cancel hd
    have h4 : ((2 ^ Nat.log2 q.num.natAbs : Nat) : Rat) ≤ (q.num.natAbs : Rat) := Rat.natCast_le_natCast.2 h1
    have h5 : ((q.den : Nat) : Rat) ≤ ((2 ^ (Nat.log2 q.den + 1) : Nat) : Rat) := Rat.natCast_le_natCast.2 (by omega)
    rw [← pow2_nat] at h4 h5
    have h6 : (2 : Rat) ^ (Nat.log2 q.num.natAbs : Int) ≤ q * 2 ^ ((Nat.log2 q.den + 1 : Nat) : Int) := by
      refine Rat.le_trans h4 ?_
      rw [← e1]
      exact Rat.mul_le_mul_of_nonneg_left h5 (Rat.le_of_lt hq)
    have e2 : (Nat.log2 q.num.natAbs : Int) =
        ((Nat.log2 q.num.natAbs : Int) - (Nat.log2 q.den : Int) - 1) + ((Nat.log2 q.den + 1 : Nat) : Int) := by omega
    rw [e2, pow2_add] at h6
    exact Rat.le_of_mul_le_mul_right h6 (pow2_pos _)
  · rename_i h
    exact Rat.not_lt.1 h

theorem roundInt_int (k : Int) : roundInt (k : Rat) = k := by
  unfold roundInt
  dsimp only
  rw [Rat.floor_intCast, Rat.sub_self, if_pos (by decide +kernel)]

theorem rabs_mul_pow2 (k : Int) (t : Int) : rabs ((k : Rat) * 2 ^ t) = (k.natAbs : Rat) * 2 ^ t := by
  unfold rabs
  have h := pow2_pos t
  by_cases hk : k < 0
  · have h1 : (k : Rat) < 0 := by exact_mod_cast hk
    rw [if_pos (by grind [Rat.mul_lt_mul_of_pos_right h1 h])]
    have : (k.natAbs : Rat) = -(k : Rat) := by
      rw [← Rat.intCast_natCast, show ((k.natAbs : Nat) : Int) = -k by omega, Rat.intCast_neg]
    rw [this, Rat.neg_mul]
  · have h1 : (0 : Rat) ≤ (k : Rat) := by exact_mod_cast (Int.not_lt.1 hk)
    rw [if_neg (Rat.not_lt.2 (Rat.mul_nonneg h1 (Rat.le_of_lt h)))]
    have : (k.natAbs : Rat) = (k : Rat) := by
      rw [← Rat.intCast_natCast, show ((k.natAbs : Nat) : Int) = k by omega]
    rw [this]

/-- A multiple of `2^t` with fewer than 24 bits is rounded to itself. -/
theorem round_exact {k t : Int} (hk : k.natAbs < 2 ^ 24) (ht : -149 ≤ t) (ht' : t ≤ 104) :
    round ((k : Rat) * 2 ^ t) = .fin ((k : Rat) * 2 ^ t) := by
  unfold round
  split
  · rename_i h; rw [h]
  rename_i h
  have hk0 : k ≠ 0 := by rintro rfl; exact h (by rw [show ((0 : Int) : Rat) = 0 from rfl, Rat.zero_mul])
  have habs := rabs_mul_pow2 k t
  have hlt : rabs ((k : Rat) * 2 ^ t) < 2 ^ (24 + t) := by
    rw [habs, pow2_add]
    refine Rat.mul_lt_mul_of_pos_right ?_ (pow2_pos t)
    rw [show (24 : Int) = ((24 : Nat) : Int) from rfl, pow2_nat]
    exact Rat.natCast_lt_natCast.2 hk
  have hpos : 0 < rabs ((k : Rat) * 2 ^ t) := by
    rw [habs]
    refine Rat.mul_pos ?_ (pow2_pos t)
    have : 0 < k.natAbs := by omega
    exact_mod_cast this
  have he : floorLog2 (rabs ((k : Rat) * 2 ^ t)) < 24 + t :=
    pow2_lt_of (Std.lt_of_le_of_lt (floorLog2_le hpos) hlt)
  dsimp only
  generalize hue : (if floorLog2 (rabs ((k : Rat) * 2 ^ t)) - 23 < -149 then (-149 : Int)
    else floorLog2 (rabs ((k : Rat) * 2 ^ t)) - 23) = ue
  have hle : ue ≤ t := by rw [← hue]; split <;> omega
  obtain ⟨d, hd⟩ := Int.eq_ofNat_of_zero_le (Int.sub_nonneg.2 hle)
  have e : (k : Rat) * 2 ^ t = ((k * (2 ^ d : Nat) : Int) : Rat) * 2 ^ ue := by
    rw [show t = (d : Int) + ue by omega, pow2_add, pow2_nat, Rat.intCast_mul, Rat.intCast_natCast, Rat.mul_assoc]
  have ev : ((roundInt ((k : Rat) * 2 ^ t / 2 ^ ue) : Int) : Rat) * 2 ^ ue = (k : Rat) * 2 ^ t := by
    rw [e, Rat.mul_div_cancel (Ne.symm (Rat.ne_of_lt (pow2_pos ue))), roundInt_int]
  rw [ev, if_neg]
  rw [Rat.not_le]
  exact Std.lt_of_lt_of_le hlt (pow2_le (by omega))

end F32
end Model

namespace Model
namespace F32

/-- `k / 2` as an `f32`. -/
def half (k : Int) : F32 := .fin ((k : Rat) / 2)

theorem half_eq (k : Int) : ((k : Rat) / 2) = (k : Rat) * 2 ^ (-1 : Int) := by
  rw [Rat.div_def]; rfl

theorem half_add {k l : Int} (h : (k + l).natAbs < 2 ^ 24) : (half k).add (half l) = half (k + l) := by
  unfold half add
  dsimp only
  rw [half_eq, half_eq, half_eq, ← Rat.add_mul, ← Rat.intCast_add, round_exact h (by decide) (by decide)]

theorem half_neg (k : Int) : (half k).neg = half (-k) := by
  unfold half neg
  dsimp only
  rw [Rat.intCast_neg, half_eq, Rat.div_def, Rat.neg_mul]
  rfl

theorem half_sub {k l : Int} (h : (k - l).natAbs < 2 ^ 24) : (half k).sub (half l) = half (k - l) := by
  unfold sub
  rw [half_neg, half_add (by rwa [← Int.sub_eq_add_neg]), ← Int.sub_eq_add_neg]

theorem ofNat_half {a : Nat} (h : a < 2 ^ 23) : ofNat a = half (2 * a) := by
  have e : (a : Rat) = ((2 * a : Int) : Rat) * 2 ^ (-1 : Int) := by
    rw [← half_eq, Rat.intCast_mul, Rat.intCast_natCast]
    show (a : Rat) = 2 * (a : Rat) / 2
    grind
  unfold ofNat half
  rw [e, round_exact (by omega) (by decide) (by decide), half_eq]

theorem half_lt (k l : Int) : lt (half k) (half l) = decide (k < l) := by
  unfold lt half
  dsimp only
  congr 1
  apply propext
  have : (k : Rat) < (l : Rat) ↔ k < l := Rat.intCast_lt_intCast
  rw [← this]
  constructor <;> intro h <;> grind

theorem half_abs_lt_eps (k : Int) : lt (abs (half k)) EPSILON = decide (k = 0) := by
  unfold half abs
  dsimp only
  rw [half_eq, rabs_mul_pow2]
  unfold lt EPSILON
  dsimp only
  congr 1
  apply propext
  constructor
  · intro h
    apply Classical.byContradiction
    intro hk
    have h1 : (1 : Rat) ≤ (k.natAbs : Rat) := by
      have := Rat.natCast_le_natCast.2 (show 1 ≤ k.natAbs by omega)
      simpa using this
    have h2 := Rat.mul_le_mul_of_nonneg_right h1 (Rat.le_of_lt (pow2_pos (-1)))
    rw [Rat.one_mul] at h2
    have h3 := pow2_lt_of (Std.lt_of_le_of_lt h2 h)
    omega
  · rintro rfl
    rw [show ((Int.natAbs 0 : Nat) : Rat) = 0 from rfl, Rat.zero_mul]
    exact pow2_pos _

theorem half_inj {k l : Int} : half k = half l ↔ k = l := by
  constructor
  · intro h
    have h1 := half_lt k l
    have h2 := half_lt l k
    rw [h] at h1 h2
    rw [half_lt] at h1 h2
    simp at h1 h2
    omega
  · rintro rfl; rfl

end F32
end Model
