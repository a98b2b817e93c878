import Verif.Model.Single
import Verif.Proofs.Float
/-!
# The words of `f32` and the numbers they stand for
-/

set_option exponentiation.threshold 300

namespace Model
namespace F32
open Spec (Single Rounded dist overflow)

theorem roundInt_unique {x : Rat} {i : Int} (h1 : x - 1 / 2 ≤ (i : Rat)) (h2 : (i : Rat) ≤ x + 1 / 2)
    (h3 : x - 1 / 2 = (i : Rat) ∨ (i : Rat) = x + 1 / 2 → i % 2 = 0) : roundInt x = i := by
  obtain ⟨a1, a2, a3⟩ := roundInt_spec x
  rcases Int.lt_trichotomy (roundInt x) i with h | h | h
  · have h4 := int_lt_succ h
    have e1 : x - 1 / 2 = (roundInt x : Rat) := by grind
    have e2 : (i : Rat) = x + 1 / 2 := by grind
    have e3 : (i : Rat) = ((roundInt x + 1 : Int) : Rat) := by rw [Rat.intCast_add, ← e1, e2]; grind
    have e4 := Rat.intCast_inj.1 e3
    have := a3 (.inl e1)
    have := h3 (.inr e2)
    omega
  · exact h
  · have h4 := int_lt_succ h
    have e1 : x - 1 / 2 = (i : Rat) := by grind
    have e2 : (roundInt x : Rat) = x + 1 / 2 := by grind
    have e3 : (roundInt x : Rat) = ((i + 1 : Int) : Rat) := by rw [Rat.intCast_add, ← e1, e2]; grind
    have e4 := Rat.intCast_inj.1 e3
    have := a3 (.inr e2)
    have := h3 (.inl e1)
    omega

theorem roundInt_neg (x : Rat) : roundInt (-x) = -roundInt x := by
  obtain ⟨a1, a2, a3⟩ := roundInt_spec x
  refine roundInt_unique ?_ ?_ ?_
  · rw [Rat.intCast_neg]; grind
  · rw [Rat.intCast_neg]; grind
  · rw [Rat.intCast_neg]
    intro h
    have := a3 (by grind)
    omega

theorem rabs_neg (x : Rat) : rabs (-x) = rabs x := by unfold rabs; grind

theorem round_neg (q : Rat) : round (-q) = (round q).neg := by
  by_cases h : q = 0
  · subst h; decide +kernel
  · unfold round
    rw [if_neg h, if_neg (by grind)]
    dsimp only
    rw [rabs_neg, show ∀ u : Rat, -q / u = -(q / u) from fun u => by rw [Rat.div_def, Rat.div_def, Rat.neg_mul], roundInt_neg, Rat.intCast_neg, Rat.neg_mul, rabs_neg]
    have hu := pow2_pos (if floorLog2 (rabs q) - 23 < -149 then -149 else floorLog2 (rabs q) - 23)
    generalize (2 : Rat) ^ (if floorLog2 (rabs q) - 23 < -149 then (-149 : Int) else floorLog2 (rabs q) - 23) = u at *
    split
    · rename_i h1
      unfold neg
      have hz : ((roundInt (q / u) : Rat) * u) ≠ 0 := by
        intro e
        rw [e] at h1
        revert h1
        decide +kernel
      by_cases hn : (roundInt (q / u) : Rat) * u < 0
      · have : ¬ -((roundInt (q / u) : Rat) * u) < 0 := by grind
        simp [hn, this]
      · have : -((roundInt (q / u) : Rat) * u) < 0 := by grind
        simp [hn, this]
    · rfl

/-- Rounding a fraction of whole numbers. -/
theorem roundInt_div (S D : Nat) (hD : 0 < D) : roundInt ((S : Rat) / (D : Rat)) =
    ((if D < 2 * (S % D) ∨ (2 * (S % D) = D ∧ S / D % 2 = 1) then S / D + 1 else S / D : Nat) : Int) := by
  have hd : (0 : Rat) < (D : Rat) := by exact_mod_cast hD
  have e : (S : Rat) = (D : Rat) * ((S / D : Nat) : Rat) + ((S % D : Nat) : Rat) := by
    have := Nat.div_add_mod S D
    conv => lhs; rw [← this]
    push_cast
    rfl
  have hx : (S : Rat) / (D : Rat) * (D : Rat) = (S : Rat) := Rat.div_mul_cancel (by grind)
  generalize (S : Rat) / (D : Rat) = x at *
  have hr : S % D < D := Nat.mod_lt _ hD
  have hr' : ((S % D : Nat) : Rat) < (D : Rat) := by exact_mod_cast hr
  have hr0 : (0 : Rat) ≤ ((S % D : Nat) : Rat) := by exact_mod_cast Nat.zero_le _
  have c1 : D < 2 * (S % D) ↔ (D : Rat) < 2 * ((S % D : Nat) : Rat) := by
    constructor
    · intro h; exact_mod_cast h
    · intro h; exact_mod_cast h
  have c2 : 2 * (S % D) = D ↔ 2 * ((S % D : Nat) : Rat) = (D : Rat) := by
    constructor
    · intro h; exact_mod_cast h
    · intro h; exact_mod_cast h
  generalize hq : S / D = q at *
  generalize S % D = r at *
  generalize (D : Rat) = d at *
  have k1 : ∀ i : Rat, x - 1 / 2 ≤ i ↔ (S : Rat) - d / 2 ≤ i * d := by
    intro i
    constructor
    · intro h
      have := Rat.mul_le_mul_of_nonneg_right h (Rat.le_of_lt hd)
      grind
    · intro h
      refine Rat.le_of_mul_le_mul_right (c := d) ?_ hd
      grind
  have k2 : ∀ i : Rat, i ≤ x + 1 / 2 ↔ i * d ≤ (S : Rat) + d / 2 := by
    intro i
    constructor
    · intro h
      have := Rat.mul_le_mul_of_nonneg_right h (Rat.le_of_lt hd)
      grind
    · intro h
      refine Rat.le_of_mul_le_mul_right (c := d) ?_ hd
      grind
  split
  · rename_i h
    rw [c1, c2] at h
    refine roundInt_unique ((k1 _).2 ?_) ((k2 _).2 ?_) ?_
    · push_cast; grind
    · push_cast; grind
    · intro hh
      push_cast at hh
      have : 2 * (r : Rat) = d := by
        rcases hh with hh | hh
        · have : (x - 1 / 2) * d = ((q : Rat) + 1) * d := by rw [hh]
          grind
        · have : (x + 1 / 2) * d = ((q : Rat) + 1) * d := by rw [hh]
          grind
      rcases h with h | h
      · grind
      · have := h.2
        omega
  · rename_i h
    rw [c1, c2] at h
    refine roundInt_unique ((k1 _).2 ?_) ((k2 _).2 ?_) ?_
    · push_cast; grind
    · push_cast; grind
    · intro hh
      push_cast at hh
      have : 2 * (r : Rat) = d := by
        rcases hh with hh | hh
        · have : (x - 1 / 2) * d = (q : Rat) * d := by rw [hh]
          grind
        · have : (x + 1 / 2) * d = (q : Rat) * d := by rw [hh]
          grind
      have h5 : ¬ q % 2 = 1 := fun h' => h (.inr ⟨this, h'⟩)
      omega

theorem floorLog2_units {S : Nat} (hS : S ≠ 0) : floorLog2 ((S : Rat) * 2 ^ (-149 : Int)) = (Nat.log2 S : Int) - 149 := by
  have hp : (0 : Rat) < (S : Rat) * 2 ^ (-149 : Int) := Rat.mul_pos (by exact_mod_cast Nat.pos_of_ne_zero hS) (pow2_pos _)
  have h1 : 2 ^ Nat.log2 S ≤ S := Nat.log2_self_le hS
  have h2 : S < 2 ^ (Nat.log2 S + 1) := Nat.lt_log2_self
  have h3 : (2 : Rat) ^ ((Nat.log2 S : Int) + -149) ≤ (S : Rat) * 2 ^ (-149 : Int) := by
    rw [pow2_add, pow2_nat]
    exact Rat.mul_le_mul_of_nonneg_right (Rat.natCast_le_natCast.2 h1) (Rat.le_of_lt (pow2_pos _))
  have h4 : (S : Rat) * 2 ^ (-149 : Int) < (2 : Rat) ^ (((Nat.log2 S + 1 : Nat) : Int) + -149) := by
    rw [pow2_add, pow2_nat]
    exact Rat.mul_lt_mul_of_pos_right (Rat.natCast_lt_natCast.2 h2) (pow2_pos _)
  have h5 := pow2_lt_of (Std.lt_of_le_of_lt h3 (lt_floorLog2 hp))
  have h6 := pow2_lt_of (Std.lt_of_le_of_lt (floorLog2_le hp) h4)
  omega

/-- The multiple of `2 ^ k` units that `S` is rounded to. -/
def roundedUnits (S : Nat) : Nat :=
  if 2 ^ (Nat.log2 S - 23) < 2 * (S % 2 ^ (Nat.log2 S - 23)) ∨
      (2 * (S % 2 ^ (Nat.log2 S - 23)) = 2 ^ (Nat.log2 S - 23) ∧ S / 2 ^ (Nat.log2 S - 23) % 2 = 1)
    then S / 2 ^ (Nat.log2 S - 23) + 1 else S / 2 ^ (Nat.log2 S - 23)

theorem round_units {S : Nat} (hS : S ≠ 0) : round ((S : Rat) * 2 ^ (-149 : Int)) =
    if 2 ^ 277 ≤ roundedUnits S * 2 ^ (Nat.log2 S - 23) then .inf false
    else .fin (((roundedUnits S * 2 ^ (Nat.log2 S - 23) : Nat) : Rat) * 2 ^ (-149 : Int)) := by
  have hp : (0 : Rat) < (S : Rat) * 2 ^ (-149 : Int) := Rat.mul_pos (by exact_mod_cast Nat.pos_of_ne_zero hS) (pow2_pos _)
  have hab : rabs ((S : Rat) * 2 ^ (-149 : Int)) = (S : Rat) * 2 ^ (-149 : Int) := by unfold rabs; grind
  have hue : (if (Nat.log2 S : Int) - 149 - 23 < -149 then (-149 : Int) else (Nat.log2 S : Int) - 149 - 23)
      = ((Nat.log2 S - 23 : Nat) : Int) + -149 := by split <;> omega
  unfold round
  rw [if_neg (by grind)]
  dsimp only
  rw [hab, floorLog2_units hS, hue, pow2_add, pow2_nat]
  have hx : (S : Rat) * 2 ^ (-149 : Int) / (((2 ^ (Nat.log2 S - 23) : Nat) : Rat) * 2 ^ (-149 : Int)) =
      (S : Rat) / ((2 ^ (Nat.log2 S - 23) : Nat) : Rat) := by
    have hd : ((2 ^ (Nat.log2 S - 23) : Nat) : Rat) ≠ 0 := by exact_mod_cast Nat.ne_of_gt (Nat.two_pow_pos _)
    have h2 := pow2_pos (-149)
    generalize ((2 ^ (Nat.log2 S - 23) : Nat) : Rat) = d at *
    generalize (2 : Rat) ^ (-149 : Int) = u at *
    grind
  rw [hx, roundInt_div _ _ (Nat.two_pow_pos _)]
  change (if _ ≤ rabs (((roundedUnits S : Int) : Rat) * _) then F32.inf (decide (((roundedUnits S : Int) : Rat) * _ < 0)) else F32.fin (((roundedUnits S : Int) : Rat) * _)) = _
  rw [Rat.intCast_natCast, ← Rat.mul_assoc, ← Rat.natCast_mul]
  generalize roundedUnits S * 2 ^ (Nat.log2 S - 23) = V
  have hV : (0 : Rat) ≤ (V : Rat) * 2 ^ (-149 : Int) :=
    Rat.mul_nonneg (by exact_mod_cast Nat.zero_le _) (Rat.le_of_lt (pow2_pos _))
  have hn : ¬ (V : Rat) * 2 ^ (-149 : Int) < 0 := Rat.not_lt.2 hV
  have hrv : rabs ((V : Rat) * 2 ^ (-149 : Int)) = (V : Rat) * 2 ^ (-149 : Int) := by unfold rabs; rw [if_neg hn]
  rw [hrv]
  have hc : (2 : Rat) ^ (128 : Int) ≤ (V : Rat) * 2 ^ (-149 : Int) ↔ 2 ^ 277 ≤ V := by
    have e : (2 : Rat) ^ (128 : Int) = ((2 ^ 277 : Nat) : Rat) * 2 ^ (-149 : Int) := by
      rw [← pow2_nat, ← pow2_add]; rfl
    rw [e]
    constructor
    · intro h
      exact Rat.natCast_le_natCast.1 (Rat.le_of_mul_le_mul_right h (pow2_pos _))
    · intro h
      exact Rat.mul_le_mul_of_nonneg_right (Rat.natCast_le_natCast.2 h) (Rat.le_of_lt (pow2_pos _))
  simp only [hc, hn, decide_false]

theorem roundedUnits_le {S : Nat} : roundedUnits S ≤ 2 ^ 24 := by
  have h2 : S < 2 ^ (Nat.log2 S + 1) := Nat.lt_log2_self
  have h3 : S / 2 ^ (Nat.log2 S - 23) < 2 ^ 24 := by
    rw [Nat.div_lt_iff_lt_mul (Nat.two_pow_pos _), ← Nat.pow_add]
    exact Nat.lt_of_lt_of_le h2 (Nat.pow_le_pow_right (by decide) (by omega))
  unfold roundedUnits
  split <;> omega

theorem roundedUnits_ge {S : Nat} (h : 0 < Nat.log2 S - 23) : 2 ^ 23 ≤ roundedUnits S := by
  have hS : S ≠ 0 := by rintro rfl; revert h; decide
  have h1 : 2 ^ Nat.log2 S ≤ S := Nat.log2_self_le hS
  have h3 : 2 ^ 23 ≤ S / 2 ^ (Nat.log2 S - 23) := by
    rw [Nat.le_div_iff_mul_le (Nat.two_pow_pos _), ← Nat.pow_add]
    exact Nat.le_trans (Nat.pow_le_pow_right (by decide) (by omega)) h1
  unfold roundedUnits
  split <;> omega

end F32

namespace Word32

theorem nearest_eq (S : Nat) : nearest S = min ((Nat.log2 S - 23) * 2 ^ 23 + F32.roundedUnits S) INF := rfl

theorem nearest_le (S : Nat) : nearest S ≤ INF := by rw [nearest_eq]; omega

/-- The magnitude of a rounded number, in units. -/
theorem units_nearest (S : Nat) : if 2 ^ 277 ≤ F32.roundedUnits S * 2 ^ (Nat.log2 S - 23) then nearest S = INF
    else nearest S < INF ∧ units (nearest S) = F32.roundedUnits S * 2 ^ (Nat.log2 S - 23) := by
  have hle := F32.roundedUnits_le (S := S)
  have hge := F32.roundedUnits_ge (S := S)
  rw [nearest_eq]
  generalize F32.roundedUnits S = q at *
  generalize hk : Nat.log2 S - 23 = k at *
  clear hk
  have hI : INF = 255 * 2 ^ 23 := rfl
  by_cases h : INF ≤ k * 2 ^ 23 + q
  · rw [if_pos]
    · omega
    · rcases Nat.lt_or_ge k 254 with h1 | h1
      · have : k = 253 := by omega
        subst this
        have : q = 2 ^ 24 := by omega
        subst this
        decide
      · have h2 := hge (by omega)
        calc 2 ^ 277 = 2 ^ 23 * 2 ^ 254 := by decide
          _ ≤ q * 2 ^ k := Nat.mul_le_mul h2 (Nat.pow_le_pow_right (by decide) h1)
  · have hk : k ≤ 253 := by
      apply Nat.le_of_not_lt
      intro h1
      have := hge (by omega)
      omega
    have hlt : q * 2 ^ k < 2 ^ 277 := by
      rcases Nat.lt_or_ge k 253 with h1 | h1
      · calc q * 2 ^ k ≤ 2 ^ 24 * 2 ^ 252 := Nat.mul_le_mul hle (Nat.pow_le_pow_right (by decide) (by omega))
          _ < 2 ^ 277 := by decide
      · have : k = 253 := by omega
        subst this
        have : q < 2 ^ 24 := by omega
        calc q * 2 ^ 253 < 2 ^ 24 * 2 ^ 253 := Nat.mul_lt_mul_of_pos_right this (by decide)
          _ = 2 ^ 277 := by decide
    rw [if_neg (by omega), Nat.min_eq_left (by omega)]
    refine ⟨by omega, ?_⟩
    unfold units
    rcases Nat.eq_zero_or_pos k with h0 | h0
    · subst h0
      rw [Nat.zero_mul, Nat.zero_add, Nat.pow_zero, Nat.mul_one]
      split
      · rfl
      · rename_i h1
        rcases Nat.lt_or_ge q (2 ^ 24) with h2 | h2
        · rw [show q / 2 ^ 23 = 1 by omega]
          omega
        · have : q = 2 ^ 24 := by omega
          subst this
          decide
    · have h2 := hge h0
      rcases Nat.lt_or_ge q (2 ^ 24) with h3 | h3
      · rw [if_neg (by omega), show (k * 2 ^ 23 + q) / 2 ^ 23 - 1 = k by omega,
          show 2 ^ 23 + (k * 2 ^ 23 + q) % 2 ^ 23 = q by omega]
      · have : q = 2 ^ 24 := by omega
        subst this
        rw [if_neg (by omega), show (k * 2 ^ 23 + 2 ^ 24) / 2 ^ 23 - 1 = k + 1 by omega,
          show 2 ^ 23 + (k * 2 ^ 23 + 2 ^ 24) % 2 ^ 23 = 2 ^ 23 by omega, Nat.pow_succ 2 k,
          show (2 : Nat) ^ 24 = 2 ^ 23 * 2 from rfl]
        generalize (2 : Nat) ^ k = z
        omega

theorem pack_sign {s : Bool} {b : Nat} (h : b < 2 ^ 31) : (pack s b).sign = s := by
  unfold pack sign
  rw [BitVec.toNat_ofNat]
  cases s
  · rw [decide_eq_false_iff_not, if_neg (by decide), Nat.mod_eq_of_lt (by omega)]; omega
  · rw [decide_eq_true_iff, if_pos rfl, Nat.mod_eq_of_lt (by omega)]; omega

theorem pack_mag {s : Bool} {b : Nat} (h : b < 2 ^ 31) : (pack s b).mag = b := by
  unfold pack mag
  rw [BitVec.toNat_ofNat]
  cases s
  · rw [if_neg (by decide)]; omega
  · rw [if_pos rfl]; omega

theorem mag_lt (x : Word32) : x.mag < 2 ^ 31 := Nat.mod_lt _ (by decide)

theorem sign_mag_ext {x y : Word32} (h1 : x.sign = y.sign) (h2 : x.mag = y.mag) : x = y := by
  apply BitVec.eq_of_toNat_eq
  unfold sign at h1
  unfold mag at h2
  have hx := x.isLt
  have hy := y.isLt
  have : (2 ^ 31 ≤ x.toNat) ↔ (2 ^ 31 ≤ y.toNat) := by simpa using h1
  omega

theorem pack_self (x : Word32) : pack x.sign x.mag = x := sign_mag_ext (pack_sign x.mag_lt) (pack_mag x.mag_lt)

/-- The number that the word made of sign and rounded magnitude stands for. -/
theorem value_nearest (s : Bool) (S : Nat) : (pack s (nearest S)).value =
    F32.round (if s then -((S : Rat) * 2 ^ (-149 : Int)) else (S : Rat) * 2 ^ (-149 : Int)) := by
  have hI : INF = 255 * 2 ^ 23 := rfl
  have hle := nearest_le S
  have hlt : nearest S < 2 ^ 31 := by omega
  by_cases hS : S = 0
  · subst hS
    cases s <;> decide +kernel
  have hneg : F32.round (if s then -((S : Rat) * 2 ^ (-149 : Int)) else (S : Rat) * 2 ^ (-149 : Int)) =
      if s then (F32.round ((S : Rat) * 2 ^ (-149 : Int))).neg else F32.round ((S : Rat) * 2 ^ (-149 : Int)) := by
    cases s
    · rfl
    · exact F32.round_neg _
  rw [hneg, F32.round_units hS]
  have hu := units_nearest S
  unfold value isNaN
  rw [pack_mag hlt, pack_sign hlt, if_neg (by simpa using hle)]
  split at hu
  · rename_i h
    rw [if_pos hu, if_pos h]
    cases s <;> rfl
  · rename_i h
    rw [if_neg (Nat.ne_of_lt hu.1), if_neg h]
    unfold toInt
    rw [pack_mag hlt, pack_sign hlt, hu.2]
    generalize F32.roundedUnits S * 2 ^ (S.log2 - 23) = V
    cases s
    · simp only [Bool.false_eq_true, if_false, Rat.intCast_natCast]
    · simp only [if_true, F32.neg, Rat.intCast_neg, Rat.intCast_natCast, Rat.neg_mul]

theorem value_ofNat (n : Nat) : (ofNat n).value = F32.ofNat n := by
  unfold ofNat F32.ofNat
  rw [value_nearest, if_neg (by decide)]
  congr 1
  rw [Rat.natCast_mul, ← F32.pow2_nat, Rat.mul_assoc, ← F32.pow2_add]
  exact Rat.mul_one _

theorem value_neg (x : Word32) : x.neg.value = x.value.neg := by
  unfold value isNaN neg
  rw [pack_mag x.mag_lt]
  split
  · rfl
  · rw [pack_sign x.mag_lt]
    split
    · rfl
    · unfold toInt F32.neg
      rw [pack_mag x.mag_lt, pack_sign x.mag_lt]
      cases x.sign <;> simp [Rat.intCast_neg, Rat.neg_mul, Rat.neg_neg]

theorem isNaN_value {x : Word32} : x.isNaN = true ↔ x.value = .nan := by
  unfold value
  split
  · simp [*]
  · split <;> simp [*]

theorem value_abs (x : Word32) : x.abs.value = x.value.abs := by
  unfold value isNaN abs
  rw [pack_mag x.mag_lt]
  split
  · rfl
  · rw [pack_sign x.mag_lt]
    split
    · rfl
    · unfold F32.abs
      dsimp only
      rw [F32.rabs_mul_pow2]
      unfold toInt
      rw [pack_mag x.mag_lt, pack_sign x.mag_lt, if_neg (by decide), Rat.intCast_natCast]
      congr 3
      split <;> omega

theorem value_add {nan : Word32 → Word32 → Word32} (hn : ∀ x y, (nan x y).isNaN = true) (x y : Word32) :
    (x.add nan y).value = x.value.add y.value := by
  have hn' := fun x y => isNaN_value.1 (hn x y)
  unfold add
  by_cases hx : x.isNaN = true
  · rw [hx, Bool.true_or, if_pos rfl, hn', isNaN_value.1 hx]
    cases y.value <;> rfl
  by_cases hy : y.isNaN = true
  · rw [hy, Bool.or_true, if_pos rfl, hn', isNaN_value.1 hy]
    cases x.value <;> rfl
  rw [Bool.not_eq_true] at hx hy
  rw [hx, hy, Bool.or_self, if_neg (by decide)]
  by_cases hxi : x.mag = INF
  · have vx : x.value = .inf x.sign := by unfold value; rw [hx, if_neg (by decide), if_pos hxi]
    rw [if_pos hxi]
    by_cases hyi : y.mag = INF
    · have vy : y.value = .inf y.sign := by unfold value; rw [hy, if_neg (by decide), if_pos hyi]
      rw [vy]
      by_cases hs : x.sign = y.sign
      · rw [if_neg (fun h => h.2 hs), vx]
        unfold F32.add
        dsimp only
        rw [if_pos hs]
      · rw [if_pos ⟨hyi, hs⟩, hn', vx]
        unfold F32.add
        dsimp only
        rw [if_neg hs]
    · rw [if_neg (fun h => hyi h.1), vx]
      unfold value
      rw [hy, if_neg (by decide), if_neg hyi]
      rfl
  · rw [if_neg hxi]
    have vx : x.value = .fin ((x.toInt : Rat) * 2 ^ (-149 : Int)) := by unfold value; rw [hx, if_neg (by decide), if_neg hxi]
    rw [vx]
    by_cases hyi : y.mag = INF
    · have vy : y.value = .inf y.sign := by unfold value; rw [hy, if_neg (by decide), if_pos hyi]
      rw [if_pos hyi, vy]
      rfl
    · have vy : y.value = .fin ((y.toInt : Rat) * 2 ^ (-149 : Int)) := by unfold value; rw [hy, if_neg (by decide), if_neg hyi]
      rw [if_neg hyi, vy]
      dsimp only
      rw [value_nearest]
      unfold F32.add
      dsimp only
      rw [← Rat.add_mul, ← Rat.intCast_add]
      generalize x.toInt + y.toInt = s
      congr 1
      rcases Int.lt_trichotomy s 0 with h | h | h
      · rw [if_neg (show ¬ s = 0 by omega), decide_eq_true h, if_pos rfl, ← Rat.neg_mul]
        congr 1
        rw [← Rat.intCast_natCast, ← Rat.intCast_neg]
        congr 1
        omega
      · subst h
        rw [if_pos rfl]
        split <;> simp
      · rw [if_neg (show ¬ s = 0 by omega), decide_eq_false (by omega), if_neg (by decide)]
        congr 1
        rw [← Rat.intCast_natCast]
        congr 1
        omega

theorem value_sub {nan : Word32 → Word32 → Word32} (hn : ∀ x y, (nan x y).isNaN = true) (x y : Word32) :
    (x.sub nan y).value = x.value.sub y.value := by
  unfold sub F32.sub
  rw [value_add hn, value_neg]

/-- More exponent and fraction, a larger number. -/
theorem units_lt {a b : Nat} (h : a < b) : units a < units b := by
  have hc : ∀ c : Nat, units c < units (c + 1) := by
    intro c
    unfold units
    by_cases h1 : (c + 1) / 2 ^ 23 = 0
    · rw [if_pos h1, if_pos (by omega)]; omega
    · rw [if_neg h1]
      by_cases h0 : c / 2 ^ 23 = 0
      · rw [if_pos h0, show (c + 1) / 2 ^ 23 - 1 = 0 by omega]; omega
      · rw [if_neg h0]
        by_cases hm : c % 2 ^ 23 + 1 = 2 ^ 23
        · rw [show (c + 1) / 2 ^ 23 - 1 = (c / 2 ^ 23 - 1) + 1 by omega, show (c + 1) % 2 ^ 23 = 0 by omega, Nat.pow_succ 2 (c / 2 ^ 23 - 1)]
          have := Nat.two_pow_pos (c / 2 ^ 23 - 1)
          generalize 2 ^ (c / 2 ^ 23 - 1) = z at *
          rw [show c % 2 ^ 23 = 2 ^ 23 - 1 by omega]
          omega
        · rw [show (c + 1) / 2 ^ 23 - 1 = c / 2 ^ 23 - 1 by omega, show (c + 1) % 2 ^ 23 = c % 2 ^ 23 + 1 by omega]
          exact Nat.mul_lt_mul_of_pos_right (by omega) (Nat.two_pow_pos _)
  obtain ⟨d, rfl⟩ := Nat.exists_eq_add_of_lt h
  clear h
  induction d with
  | zero => exact hc a
  | succ d ih => exact Nat.lt_trans ih (hc _)

theorem units_lt_iff {a b : Nat} : units a < units b ↔ a < b := by
  constructor
  · intro h
    rcases Nat.lt_trichotomy a b with h1 | h1 | h1
    · exact h1
    · subst h1; exact absurd h (Nat.lt_irrefl _)
    · exact absurd (units_lt h1) (by omega)
  · exact units_lt

theorem units_zero {a : Nat} : units a = 0 ↔ a = 0 := by
  constructor
  · intro h
    rcases Nat.eq_zero_or_pos a with h0 | h0
    · exact h0
    · have := units_lt h0
      omega
  · rintro rfl; decide

theorem value_inf {x : Word32} (h : x.mag = INF) : x.value = .inf x.sign := by
  unfold value isNaN
  rw [h, if_neg (by simp), if_pos rfl]

theorem value_fin {x : Word32} (h : x.mag < INF) : x.value = .fin ((x.toInt : Rat) * 2 ^ (-149 : Int)) := by
  unfold value isNaN
  rw [if_neg (by simp; omega), if_neg (by omega)]

theorem value_lt (x y : Word32) : x.lt y = x.value.lt y.value := by
  unfold lt
  by_cases hx : x.isNaN = true
  · rw [hx, Bool.true_or, if_pos rfl, isNaN_value.1 hx]
    cases y.value <;> rfl
  by_cases hy : y.isNaN = true
  · rw [hy, Bool.or_true, if_pos rfl, isNaN_value.1 hy]
    cases x.value with
    | nan => rfl
    | inf s => cases s <;> rfl
    | fin v => rfl
  rw [Bool.not_eq_true] at hx hy
  have hx' : ¬ INF < x.mag := by unfold isNaN at hx; simpa using hx
  have hy' : ¬ INF < y.mag := by unfold isNaN at hy; simpa using hy
  rw [hx, hy, Bool.or_self, if_neg (by decide)]
  have hI : INF = 255 * 2 ^ 23 := rfl
  by_cases hxi : x.mag = INF
  · rw [value_inf hxi, if_neg (by omega)]
    by_cases hyi : y.mag = INF
    · rw [value_inf hyi, hxi, hyi]
      cases x.sign <;> cases y.sign <;> simp [F32.lt]
    · rw [value_fin (by omega)]
      unfold F32.lt
      cases x.sign <;> cases y.sign <;> simp [hxi] <;> omega
  · rw [value_fin (x := x) (by omega)]
    by_cases hyi : y.mag = INF
    · rw [value_inf hyi, if_neg (by omega)]
      unfold F32.lt
      cases x.sign <;> cases y.sign <;> simp [hyi] <;> omega
    · rw [value_fin (by omega)]
      unfold F32.lt
      dsimp only
      have hc : (x.toInt : Rat) * 2 ^ (-149 : Int) < (y.toInt : Rat) * 2 ^ (-149 : Int) ↔ x.toInt < y.toInt := by
        constructor
        · intro h
          exact Rat.intCast_lt_intCast.1 (Rat.lt_of_mul_lt_mul_right h (Rat.le_of_lt (F32.pow2_pos _)))
        · intro h
          exact Rat.mul_lt_mul_of_pos_right (Rat.intCast_lt_intCast.2 h) (F32.pow2_pos _)
      simp only [hc]
      unfold toInt
      have zx := units_zero (a := x.mag)
      have zy := units_zero (a := y.mag)
      have l1 := units_lt_iff (a := x.mag) (b := y.mag)
      have l2 := units_lt_iff (a := y.mag) (b := x.mag)
      by_cases hz : x.mag = 0 ∧ y.mag = 0
      · rw [if_pos hz, hz.1, hz.2]
        symm
        rw [decide_eq_false_iff_not, show units 0 = 0 from by decide]
        cases x.sign <;> cases y.sign <;> simp
      · rw [if_neg hz]
        cases x.sign <;> cases y.sign <;> simp <;> omega

theorem value_epsilon : EPSILON.value = F32.EPSILON := by decide +kernel

end Word32
end Model
