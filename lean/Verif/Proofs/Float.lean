import Verif.Spec.Float
import Verif.Proofs.F32
/-!
# The model of `f32` rounds as IEEE 754 asks
-/

namespace Model
namespace F32
open Spec (Single Rounded dist overflow)

theorem dist_mul {a b u : Rat} (hu : 0 < u) : dist (a * u) (b * u) = dist a b * u := by
  unfold dist
  by_cases h : a ≤ b
  · rw [if_pos h, if_pos (Rat.mul_le_mul_of_nonneg_right h (Rat.le_of_lt hu))]; grind
  · have h' := Rat.not_le.1 h
    rw [if_neg h, if_neg (Rat.not_le.2 (Rat.mul_lt_mul_of_pos_right h' hu))]; grind

theorem dist_nonneg (a b : Rat) : 0 ≤ dist a b := by unfold dist; grind

theorem roundInt_spec (x : Rat) : x - 1 / 2 ≤ (roundInt x : Rat) ∧ (roundInt x : Rat) ≤ x + 1 / 2 ∧
    (x - 1 / 2 = (roundInt x : Rat) ∨ (roundInt x : Rat) = x + 1 / 2 → roundInt x % 2 = 0) := by
  have h1 := Rat.floor_le x
  have h2 := @Rat.lt_floor x
  unfold roundInt
  dsimp only
  have e : ((x.floor + 1 : Int) : Rat) = (x.floor : Rat) + 1 := by rw [Rat.intCast_add]; rfl
  split
  · rename_i h3
    exact ⟨by grind, by grind, fun h => by grind⟩
  · split
    · rw [e]
      exact ⟨by grind, by grind, fun h => by grind⟩
    · split
      · exact ⟨by grind, by grind, fun h => by assumption⟩
      · rw [e]
        exact ⟨by grind, by grind, fun h => by omega⟩

theorem int_lt_succ {i j : Int} (h : i < j) : (i : Rat) + 1 ≤ (j : Rat) := by
  have := Rat.intCast_le_intCast.2 (show i + 1 ≤ j by omega)
  rw [Rat.intCast_add] at this
  exact this

theorem roundInt_nearest (x : Rat) (j : Int) : dist x (roundInt x) ≤ dist x j := by
  obtain ⟨h1, h2, _⟩ := roundInt_spec x
  rcases Int.lt_trichotomy j (roundInt x) with h | h | h
  · have := int_lt_succ h
    unfold dist; grind
  · rw [h]; exact Rat.le_refl
  · have := int_lt_succ h
    unfold dist; grind

theorem roundInt_tie (x : Rat) {j : Int} (hj : j ≠ roundInt x) (h : dist x (roundInt x) = dist x j) :
    roundInt x % 2 = 0 ∧ dist (roundInt x) j = 1 := by
  obtain ⟨h1, h2, h3⟩ := roundInt_spec x
  have key : (x - 1 / 2 = (roundInt x : Rat) ∨ (roundInt x : Rat) = x + 1 / 2) ∧ dist (roundInt x) j = 1 := by
    rcases Int.lt_trichotomy j (roundInt x) with hl | hl | hl
    · have := int_lt_succ hl
      unfold dist at h ⊢; grind
    · exact absurd hl hj
    · have := int_lt_succ hl
      unfold dist at h ⊢; grind
  exact ⟨h3 key.1, key.2⟩

theorem lt_floorLog2 {q : Rat} (hq : 0 < q) : q < (2 : Rat) ^ (floorLog2 q + 1) := by
  have hnum : 0 < q.num := by
    have h1 : 0 ≤ q.num := Rat.num_nonneg.2 (Rat.le_of_lt hq)
    have h2 : q.num ≠ 0 := fun h' => Rat.ne_of_lt hq (Rat.num_eq_zero.1 h').symm
    omega
  unfold floorLog2
  dsimp only
  split
  · rename_i h
    rwa [Int.sub_add_cancel]
  · have h1 : q.num.natAbs < 2 ^ (Nat.log2 q.num.natAbs + 1) := Nat.lt_log2_self
    have h2 : 2 ^ Nat.log2 q.den ≤ q.den := Nat.log2_self_le q.den_nz
    have h3 : (q.num.natAbs : Int) = q.num := by omega
    have e1 : q * (q.den : Rat) = ((q.num.natAbs : Nat) : Rat) := by
      have hd : ((q.den : Nat) : Rat) ≠ 0 := by
        have := q.den_nz
        exact_mod_cast this
      rw [← Rat.intCast_natCast q.num.natAbs, h3]
      have := Rat.mkRat_self q
      rw [Rat.mkRat_eq_div] at this
      calc q * (q.den : Rat) = ((q.num : Rat) / (q.den : Rat)) * (q.den : Rat) := by rw [this]
        _ = q.num := Rat.div_mul_cancel hd
    have h4 : ((2 ^ Nat.log2 q.den : Nat) : Rat) ≤ (q.den : Rat) := Rat.natCast_le_natCast.2 h2
    have h5 : ((q.num.natAbs : Nat) : Rat) < ((2 ^ (Nat.log2 q.num.natAbs + 1) : Nat) : Rat) := Rat.natCast_lt_natCast.2 h1
    rw [← pow2_nat] at h4 h5
    have h6 : q * 2 ^ (Nat.log2 q.den : Int) < 2 ^ ((Nat.log2 q.num.natAbs + 1 : Nat) : Int) := by
      refine Std.lt_of_le_of_lt (Rat.mul_le_mul_of_nonneg_left h4 (Rat.le_of_lt hq)) ?_
      rw [e1]; exact h5
    have e2 : ((Nat.log2 q.num.natAbs + 1 : Nat) : Int) =
        ((Nat.log2 q.num.natAbs : Int) - (Nat.log2 q.den : Int) + 1) + (Nat.log2 q.den : Int) := by omega
    rw [e2, pow2_add] at h6
    exact Rat.lt_of_mul_lt_mul_right h6 (Rat.le_of_lt (pow2_pos _))

theorem rabs_nonneg (x : Rat) : 0 ≤ rabs x := by unfold rabs; grind

theorem rabs_mul {x u : Rat} (hu : 0 < u) : rabs (x * u) = rabs x * u := by
  unfold rabs
  by_cases h : x < 0
  · have := Rat.mul_lt_mul_of_pos_right h hu
    rw [if_pos h, if_pos (by grind)]; grind
  · have := Rat.mul_le_mul_of_nonneg_right (Rat.not_lt.1 h) (Rat.le_of_lt hu)
    rw [if_neg h, if_neg (by grind)]

theorem rabs_int (k : Int) : rabs (k : Rat) = (k.natAbs : Rat) := by
  have := rabs_mul_pow2 k 0
  rwa [Rat.zpow_zero, Rat.mul_one, Rat.mul_one] at this

theorem roundInt_abs (x : Rat) : rabs x - 1 / 2 ≤ ((roundInt x).natAbs : Rat) ∧ ((roundInt x).natAbs : Rat) ≤ rabs x + 1 / 2 ∧
    (rabs x - 1 / 2 = ((roundInt x).natAbs : Rat) → (roundInt x).natAbs % 2 = 0) := by
  obtain ⟨h1, h2, h3⟩ := roundInt_spec x
  rw [← rabs_int]
  have ev : roundInt x % 2 = 0 → (roundInt x).natAbs % 2 = 0 := by omega
  refine ⟨by unfold rabs; grind, by unfold rabs; grind, fun h => ev (h3 ?_)⟩
  unfold rabs at h
  by_cases hx : x < 0 <;> by_cases hr : (roundInt x : Rat) < 0
  · rw [if_pos hx, if_pos hr] at h; right; grind
  · rw [if_pos hx, if_neg hr] at h; right; grind
  · rw [if_neg hx, if_pos hr] at h; left; grind
  · rw [if_neg hx, if_neg hr] at h; left; grind

/-- The pieces of the rounding of a nonzero number. -/
structure Pieces (q : Rat) (e ue : Int) (x : Rat) : Prop where
  low : (2 : Rat) ^ e ≤ rabs q
  high : rabs q < (2 : Rat) ^ (e + 1)
  ue149 : -149 ≤ ue
  uee : e - 23 ≤ ue
  norm : -149 < ue → ue = e - 23
  eq : q = x * 2 ^ ue
  res : round q = if (2 : Rat) ^ (128 : Int) ≤ rabs ((roundInt x : Rat) * 2 ^ ue) then .inf (decide ((roundInt x : Rat) * 2 ^ ue < 0))
    else .fin ((roundInt x : Rat) * 2 ^ ue)

theorem pieces {q : Rat} (hq : q ≠ 0) : ∃ e ue x, Pieces q e ue x := by
  have hpos : 0 < rabs q := by unfold rabs; grind
  refine ⟨floorLog2 (rabs q), if floorLog2 (rabs q) - 23 < -149 then -149 else floorLog2 (rabs q) - 23,
    q / 2 ^ (if floorLog2 (rabs q) - 23 < -149 then -149 else floorLog2 (rabs q) - 23),
    floorLog2_le hpos, lt_floorLog2 hpos, ?_, ?_, ?_, ?_, ?_⟩
  · split <;> omega
  · split <;> omega
  · split <;> omega
  · exact (Rat.div_mul_cancel (Ne.symm (Rat.ne_of_lt (pow2_pos _)))).symm
  · unfold round
    rw [if_neg hq]

namespace Pieces
variable {q : Rat} {e ue : Int} {x : Rat}

theorem p24 (ue : Int) : (2 : Rat) ^ (24 + ue) = 16777216 * 2 ^ ue := by
  rw [pow2_add]
  rw [show (24 : Int) = ((24 : Nat) : Int) from rfl, pow2_nat]
  rfl

theorem p23 (ue : Int) : (2 : Rat) ^ (23 + ue) = 8388608 * 2 ^ ue := by
  rw [pow2_add]
  rw [show (23 : Int) = ((23 : Nat) : Int) from rfl, pow2_nat]
  rfl

theorem absx (h : Pieces q e ue x) : rabs q = rabs x * 2 ^ ue := by
  conv => lhs; rw [h.eq]
  exact rabs_mul (pow2_pos _)

theorem x_lt (h : Pieces q e ue x) : rabs x < 16777216 := by
  have h1 := h.high
  have h2 : (2 : Rat) ^ (e + 1) ≤ 2 ^ (24 + ue) := pow2_le (by have := h.uee; omega)
  rw [h.absx] at h1
  rw [p24] at h2
  exact Rat.lt_of_mul_lt_mul_right (Std.lt_of_lt_of_le h1 h2) (Rat.le_of_lt (pow2_pos ue))

theorem x_ge (h : Pieces q e ue x) (hu : -149 < ue) : 8388608 ≤ rabs x := by
  have h1 := h.low
  rw [show e = 23 + ue by have := h.norm hu; omega, p23, h.absx] at h1
  exact Rat.le_of_mul_le_mul_right h1 (pow2_pos ue)

theorem r_le (h : Pieces q e ue x) : (roundInt x).natAbs ≤ 16777216 := by
  have h1 := (roundInt_abs x).2.1
  have h2 := h.x_lt
  have h3 : ((roundInt x).natAbs : Rat) < ((16777217 : Nat) : Rat) := by
    have : ((16777217 : Nat) : Rat) = 16777217 := rfl
    rw [this]; grind
  have := Rat.natCast_lt_natCast.1 h3
  omega

theorem r_ge (h : Pieces q e ue x) (hu : -149 < ue) : 8388608 ≤ (roundInt x).natAbs := by
  have h1 := (roundInt_abs x).1
  have h2 := h.x_ge hu
  have h3 : ((8388607 : Nat) : Rat) < ((roundInt x).natAbs : Rat) := by
    have : ((8388607 : Nat) : Rat) = 8388607 := rfl
    rw [this]; grind
  have := Rat.natCast_lt_natCast.1 h3
  omega

theorem absv (_ : Pieces q e ue x) : rabs ((roundInt x : Rat) * 2 ^ ue) = ((roundInt x).natAbs : Rat) * 2 ^ ue := rabs_mul_pow2 _ _

theorem near (h : Pieces q e ue x) {v' : Rat} (hv : Single v') :
    dist q ((roundInt x : Rat) * 2 ^ ue) ≤ dist q v' ∧
      (dist q ((roundInt x : Rat) * 2 ^ ue) = dist q v' → ∃ j : Int, v' = (j : Rat) * 2 ^ ue) := by
  have hup := pow2_pos ue
  have grid : ∀ j : Int, dist q ((roundInt x : Rat) * 2 ^ ue) ≤ dist q ((j : Rat) * 2 ^ ue) := by
    intro j
    rw [h.eq, dist_mul hup, dist_mul hup]
    exact Rat.mul_le_mul_of_nonneg_right (roundInt_nearest x j) (Rat.le_of_lt hup)
  obtain ⟨k, t, hk, ht, ht', rfl⟩ := hv
  by_cases htu : ue ≤ t
  · obtain ⟨d, hd⟩ := Int.eq_ofNat_of_zero_le (Int.sub_nonneg.2 htu)
    have e1 : (k : Rat) * 2 ^ t = ((k * (2 ^ d : Nat) : Int) : Rat) * 2 ^ ue := by
      rw [show t = (d : Int) + ue by omega, pow2_add, pow2_nat, Rat.intCast_mul, Rat.intCast_natCast, Rat.mul_assoc]
    rw [e1]
    exact ⟨grid _, fun _ => ⟨_, rfl⟩⟩
  · have hue : ue = e - 23 := h.norm (by omega)
    have hlt : rabs ((k : Rat) * 2 ^ t) < 2 ^ e := by
      rw [rabs_mul_pow2]
      refine Std.lt_of_lt_of_le ?_ (pow2_le (show 24 + t ≤ e by omega))
      rw [pow2_add]
      refine Rat.mul_lt_mul_of_pos_right ?_ (pow2_pos t)
      rw [show (24 : Int) = ((24 : Nat) : Int) from rfl, pow2_nat]
      exact Rat.natCast_lt_natCast.2 hk
    have hlow := h.low
    have e2 : (2 : Rat) ^ e = ((8388608 : Int) : Rat) * 2 ^ ue := by
      rw [show e = 23 + ue by omega, p23]; rfl
    have e3 : -(2 : Rat) ^ e = ((-8388608 : Int) : Rat) * 2 ^ ue := by
      rw [e2, ← Rat.neg_mul]; rfl
    have g1 := grid 8388608
    have g2 := grid (-8388608)
    rw [← e2] at g1
    rw [← e3] at g2
    have strict : dist q ((roundInt x : Rat) * 2 ^ ue) < dist q ((k : Rat) * 2 ^ t) := by
      generalize dist q ((roundInt x : Rat) * 2 ^ ue) = D at *
      generalize (k : Rat) * 2 ^ t = w at *
      have := pow2_pos e
      generalize (2 : Rat) ^ e = B at *
      unfold dist at *
      unfold rabs at *
      by_cases hq : q < 0
      · rw [if_pos hq] at hlow
        clear g1
        have : -B < w := by grind
        grind
      · rw [if_neg hq] at hlow
        clear g2
        have : w < B := by grind
        grind
    exact ⟨Rat.le_of_lt strict, fun he => absurd he (Rat.ne_of_lt strict)⟩

theorem single (h : Pieces q e ue x) (hv : rabs ((roundInt x : Rat) * 2 ^ ue) < 2 ^ (128 : Int)) :
    Single ((roundInt x : Rat) * 2 ^ ue) := by
  rw [h.absv] at hv
  have h149 := h.ue149
  have hle := h.r_le
  by_cases hr : (roundInt x).natAbs = 16777216
  · rw [hr, show ((16777216 : Nat) : Rat) = 16777216 from rfl, ← p24] at hv
    have := pow2_lt_of hv
    have hp : ∀ m : Rat, (16777216 * m) * 2 ^ ue = (8388608 * m) * 2 ^ (ue + 1) := by
      intro m
      rw [Int.add_comm ue 1, pow2_add, show (2 : Rat) ^ (1 : Int) = 2 from rfl]; grind
    rcases Int.natAbs_eq (roundInt x) with hs | hs
    · refine ⟨8388608, ue + 1, by decide, by omega, by omega, ?_⟩
      have := hp 1
      rw [hs, hr]
      rw [Rat.mul_one, Rat.mul_one] at this
      exact this
    · refine ⟨-8388608, ue + 1, by decide, by omega, by omega, ?_⟩
      have := hp (-1)
      rw [hs, hr, show ((-((16777216 : Nat) : Int) : Int) : Rat) = 16777216 * -1 by decide +kernel,
        show ((-8388608 : Int) : Rat) = 8388608 * -1 by decide +kernel]
      exact this
  · refine ⟨roundInt x, ue, by omega, h149, ?_, rfl⟩
    by_cases hu : -149 < ue
    · have hge := Rat.natCast_le_natCast.2 (h.r_ge hu)
      have h2 := Rat.mul_le_mul_of_nonneg_right hge (Rat.le_of_lt (pow2_pos ue))
      rw [show ((8388608 : Nat) : Rat) = 8388608 from rfl, ← p23] at h2
      have := pow2_lt_of (Std.lt_of_le_of_lt h2 hv)
      omega
    · omega

theorem rounded (h : Pieces q e ue x) (hv : rabs ((roundInt x : Rat) * 2 ^ ue) < 2 ^ (128 : Int)) :
    Rounded q ((roundInt x : Rat) * 2 ^ ue) := by
  refine ⟨h.single hv, fun v' hs => (h.near hs).1, fun v' hs hne he => ?_⟩
  obtain ⟨j, rfl⟩ := (h.near hs).2 he
  have hup := pow2_pos ue
  rw [h.eq, dist_mul hup, dist_mul hup] at he
  have he' : dist x (roundInt x) = dist x j := by
    apply Rat.le_antisymm
    · exact Rat.le_of_mul_le_mul_right (by rw [he]; exact Rat.le_refl) hup
    · exact Rat.le_of_mul_le_mul_right (by rw [he]; exact Rat.le_refl) hup
  obtain ⟨t1, t2⟩ := roundInt_tie x (fun hj => hne (by rw [hj])) he'
  refine ⟨roundInt x / 2, ?_⟩
  rw [dist_mul hup, t2, Rat.one_mul, show 2 * (roundInt x / 2) = roundInt x by omega]

theorem fits (h : Pieces q e ue x) : rabs ((roundInt x : Rat) * 2 ^ ue) < 2 ^ (128 : Int) ↔ rabs q < overflow := by
  rw [h.absv]
  have hup := pow2_pos ue
  have h104 : (2 : Rat) ^ (128 : Int) = 16777216 * 2 ^ (104 : Int) := p24 104
  have hov : overflow = (16777216 - 1 / 2) * 2 ^ (104 : Int) := by unfold overflow; decide +kernel
  constructor
  · intro hv
    apply Rat.not_le.1
    intro hq
    have he : 127 < e + 1 := by
      apply pow2_lt_of
      refine Std.lt_of_le_of_lt ?_ h.high
      refine Rat.le_trans ?_ hq
      rw [hov]; decide +kernel
    have hue := h.uee
    have hur : ue = e - 23 := h.norm (by omega)
    by_cases h105 : 105 ≤ ue
    · have hge := Rat.natCast_le_natCast.2 (h.r_ge (by omega))
      have h2 := Rat.mul_le_mul_of_nonneg_right hge (Rat.le_of_lt hup)
      rw [show ((8388608 : Nat) : Rat) = 8388608 from rfl, ← p23] at h2
      have := pow2_lt_of (Std.lt_of_le_of_lt h2 hv)
      omega
    · have : ue = 104 := by omega
      subst this
      rw [hov, h.absx] at hq
      have hx := Rat.le_of_mul_le_mul_right hq hup
      rw [h104] at hv
      have hr := Rat.lt_of_mul_lt_mul_right hv (Rat.le_of_lt hup)
      have hr' : (roundInt x).natAbs < 16777216 := Rat.natCast_lt_natCast.1 hr
      obtain ⟨a1, _, a3⟩ := roundInt_abs x
      have hr2 : ((roundInt x).natAbs : Rat) ≤ ((16777215 : Nat) : Rat) := Rat.natCast_le_natCast.2 (by omega)
      rw [show ((16777215 : Nat) : Rat) = 16777215 from rfl] at hr2
      have ev := a3 (by grind)
      have hr3 : ((16777215 : Nat) : Rat) ≤ ((roundInt x).natAbs : Rat) := by
        rw [show ((16777215 : Nat) : Rat) = 16777215 from rfl]; grind
      have := Rat.natCast_le_natCast.1 hr3
      omega
  · intro hq
    apply Rat.not_le.1
    intro hv
    have he : e < 128 := by
      apply pow2_lt_of
      refine Std.lt_of_le_of_lt h.low (Std.lt_of_lt_of_le hq ?_)
      rw [hov]; decide +kernel
    have hle := Rat.natCast_le_natCast.2 h.r_le
    have h2 := Rat.mul_le_mul_of_nonneg_right hle (Rat.le_of_lt hup)
    rw [show ((16777216 : Nat) : Rat) = 16777216 from rfl, ← p24] at h2
    have h3 : ¬ ue < 104 := by
      intro hlt
      have h4 : (2 : Rat) ^ (24 + ue) ≤ 2 ^ (127 : Int) := pow2_le (by omega)
      have h5 := Rat.le_trans hv (Rat.le_trans h2 h4)
      exact absurd h5 (by decide +kernel)
    have : ue = 104 := by have := h.norm (by omega); omega
    subst this
    rw [hov, h.absx] at hq
    have hx := Rat.lt_of_mul_lt_mul_right hq (Rat.le_of_lt hup)
    rw [h104] at hv
    have hr := Rat.le_of_mul_le_mul_right hv hup
    obtain ⟨_, a2, _⟩ := roundInt_abs x
    grind

end Pieces

theorem rounded_zero : Rounded 0 0 := by
  refine ⟨⟨0, 0, by decide, by decide, by decide, by decide +kernel⟩, fun v' _ => ?_, fun v' _ hne he => ?_⟩
  · unfold dist; grind
  · exact ⟨0, by rw [show ((2 * 0 : Int) : Rat) = 0 from rfl, Rat.zero_mul]⟩

/-- Numbers short of the overflow threshold are rounded to nearest, ties to even. -/
theorem round_spec {q : Rat} (h : rabs q < overflow) : ∃ v, round q = .fin v ∧ Rounded q v := by
  by_cases hq : q = 0
  · subst hq; exact ⟨0, by unfold round; rw [if_pos rfl], rounded_zero⟩
  · obtain ⟨e, ue, x, hp⟩ := pieces hq
    have hv := hp.fits.2 h
    exact ⟨_, by rw [hp.res, if_neg (Rat.not_le.2 hv)], hp.rounded hv⟩

/-- Numbers from the overflow threshold on are rounded to infinity. -/
theorem round_overflow {q : Rat} (h : overflow ≤ rabs q) : round q = .inf (decide (q < 0)) := by
  by_cases hq : q = 0
  · subst hq; exact absurd h (by decide +kernel)
  · obtain ⟨e, ue, x, hp⟩ := pieces hq
    have hv : (2 : Rat) ^ (128 : Int) ≤ rabs ((roundInt x : Rat) * 2 ^ ue) := by
      apply Rat.not_lt.1
      intro hlt
      exact absurd (hp.fits.1 hlt) (Rat.not_lt.2 h)
    rw [hp.res, if_pos hv]
    congr 1
    have hup := pow2_pos ue
    have hx0 : rabs ((roundInt x : Rat)) ≠ 0 := by
      intro h0
      rw [rabs_mul hup, h0, Rat.zero_mul] at hv
      exact absurd hv (by decide +kernel)
    have hr : (1 : Rat) ≤ rabs (roundInt x : Rat) := by
      rw [rabs_int] at hx0 ⊢
      have : 1 ≤ (roundInt x).natAbs := by
        apply Classical.byContradiction
        intro hc
        exact hx0 (by rw [show (roundInt x).natAbs = 0 by omega]; rfl)
      have := Rat.natCast_le_natCast.2 this
      simpa using this
    obtain ⟨s1, s2, _⟩ := roundInt_spec x
    have key : ((roundInt x : Rat) < 0) ↔ x < 0 := by unfold rabs at hr; grind
    have m1 : ∀ y : Rat, y * 2 ^ ue < 0 ↔ y < 0 := by
      intro y
      constructor
      · intro hy
        apply Rat.not_le.1
        intro hc
        exact absurd hy (Rat.not_lt.2 (Rat.mul_nonneg hc (Rat.le_of_lt hup)))
      · intro hy
        have := Rat.mul_lt_mul_of_pos_right hy hup
        rwa [Rat.zero_mul] at this
    congr 1
    apply propext
    rw [m1, key]
    conv => rhs; rw [hp.eq]
    exact (m1 x).symm

theorem rsub_mul (a b c : Rat) : (a - b) * c = a * c - b * c := by grind

theorem dist_self (a : Rat) : dist a a = 0 := by unfold dist; grind

theorem dist_zero {a b : Rat} (h : dist a b = 0) : a = b := by unfold dist at h; grind

theorem dist_comm (a b : Rat) : dist a b = dist b a := by unfold dist; grind

/-- There is only one way to round. -/
theorem _root_.Spec.Rounded.unique {x v w : Rat} (hv : Rounded x v) (hw : Rounded x w) : v = w := by
  apply Classical.byContradiction
  intro hne
  have he : dist x v = dist x w := Rat.le_antisymm (hv.nearest w hw.single) (hw.nearest v hv.single)
  obtain ⟨k, hk⟩ := hv.even w hw.single (Ne.symm hne) he
  obtain ⟨l, hl⟩ := hw.even v hv.single hne he.symm
  rw [dist_comm] at hl
  have hd : 0 < dist v w := by
    have h0 : dist v w ≠ 0 := fun h => hne (dist_zero h)
    have := dist_nonneg v w
    grind
  have hsub : v - w = dist v w ∨ w - v = dist v w := by unfold dist; grind
  have h1 : (((2 * k - 2 * l : Int)) : Rat) * dist v w = v - w := by
    rw [Rat.intCast_sub, rsub_mul, ← hk, ← hl]
  have key : ∀ i : Int, (i : Rat) * dist v w = dist v w → i = 1 := by
    intro i hi
    have h3 : (i : Rat) * dist v w = ((1 : Int) : Rat) * dist v w := by
      rw [hi, show ((1 : Int) : Rat) = 1 from rfl, Rat.one_mul]
    have h4 : (i : Rat) ≤ ((1 : Int) : Rat) := Rat.le_of_mul_le_mul_right (by rw [h3]; exact Rat.le_refl) hd
    have h5 : ((1 : Int) : Rat) ≤ (i : Rat) := Rat.le_of_mul_le_mul_right (by rw [h3]; exact Rat.le_refl) hd
    have := Rat.intCast_le_intCast.1 h4
    have := Rat.intCast_le_intCast.1 h5
    omega
  rcases hsub with h | h
  · have := key _ (h1.trans h)
    omega
  · have h2 : (((2 * l - 2 * k : Int)) : Rat) * dist v w = w - v := by
      rw [Rat.intCast_sub, rsub_mul, ← hk, ← hl]
    have := key _ (h2.trans h)
    omega

theorem _root_.Spec.Rounded.self {v : Rat} (h : Single v) : Rounded v v := by
  refine ⟨h, fun v' _ => by rw [dist_self]; exact dist_nonneg _ _, fun v' _ hne he => ?_⟩
  rw [dist_self] at he
  exact absurd (dist_zero he.symm).symm hne

theorem _root_.Spec.Rounded.exact {x v : Rat} (h : Rounded x v) (hx : Single x) : v = x := h.unique (Rounded.self hx)

theorem _root_.Spec.Single.le {v : Rat} (h : Single v) : rabs v ≤ 2 ^ (128 : Int) - 2 ^ (104 : Int) := by
  obtain ⟨k, t, hk, _, ht, rfl⟩ := h
  rw [rabs_mul_pow2]
  have h1 : (k.natAbs : Rat) ≤ ((16777215 : Nat) : Rat) := Rat.natCast_le_natCast.2 (by omega)
  have h2 := Rat.mul_le_mul_of_nonneg_right h1 (Rat.le_of_lt (pow2_pos t))
  have h3 := Rat.mul_le_mul_of_nonneg_left (pow2_le ht) (show (0 : Rat) ≤ ((16777215 : Nat) : Rat) by decide)
  refine Rat.le_trans h2 (Rat.le_trans h3 ?_)
  decide +kernel

theorem _root_.Spec.Single.neg {v : Rat} (h : Single v) : Single (-v) := by
  obtain ⟨k, t, hk, h1, h2, rfl⟩ := h
  exact ⟨-k, t, by omega, h1, h2, by rw [Rat.intCast_neg, Rat.neg_mul]⟩

theorem _root_.Spec.Single.int {k : Int} (h : k.natAbs < 2 ^ 24) : Single (k : Rat) :=
  ⟨k, 0, h, by decide, by decide, by rw [Rat.zpow_zero, Rat.mul_one]⟩

theorem _root_.Spec.Single.nat {k : Nat} (h : k < 2 ^ 24) : Single (k : Rat) := by
  have := Single.int (k := k) (by omega)
  rwa [Rat.intCast_natCast] at this

/-- Adding a small number to a finite value does not overflow. -/
theorem sum_small {a : Int} {v : Rat} (ha : a.natAbs < 2 ^ 24) (hv : Single v) : rabs ((a : Rat) + v) < overflow := by
  have h1 := hv.le
  have h2 : rabs (a : Rat) < 16777216 := by
    rw [rabs_int]; exact Rat.natCast_lt_natCast.2 (show a.natAbs < 16777216 from ha)
  have h3 : 2 ^ (128 : Int) - 2 ^ (104 : Int) + 16777216 < overflow := by decide +kernel
  generalize (2 : Rat) ^ (128 : Int) - 2 ^ (104 : Int) = A at *
  generalize overflow = B at *
  unfold rabs at *
  grind

/-- A finite value at a distance less than 2^-23 from a natural number: the difference is itself a finite value. -/
theorem near_nat {b : Nat} {r : Rat} (hr : Single r) (h : rabs ((b : Rat) - r) < 2 ^ (-23 : Int)) : Single ((b : Rat) - r) := by
  by_cases hb : b = 0
  · subst hb
    rw [show ((0 : Nat) : Rat) - r = -r by show (0 : Rat) - r = -r; grind]
    exact hr.neg
  · have h1 : (1 : Rat) ≤ (b : Rat) := by
      have := Rat.natCast_le_natCast.2 (show 1 ≤ b by omega)
      simpa using this
    have h23 : (2 : Rat) ^ (-23 : Int) < 1 / 2 := by decide +kernel
    have hhalf : (1 / 2 : Rat) < rabs r := by
      generalize (2 : Rat) ^ (-23 : Int) = E at *
      unfold rabs at *; grind
    obtain ⟨k, t, hk, ht, ht', rfl⟩ := hr
    have htl : -24 ≤ t := by
      apply Classical.byContradiction
      intro hc
      rw [rabs_mul_pow2] at hhalf
      have h2 : (k.natAbs : Rat) * 2 ^ t ≤ 2 ^ (24 + t) := by
        rw [pow2_add]
        refine Rat.mul_le_mul_of_nonneg_right ?_ (Rat.le_of_lt (pow2_pos t))
        rw [show (24 : Int) = ((24 : Nat) : Int) from rfl, pow2_nat]
        exact Rat.natCast_le_natCast.2 (by omega)
      have h3 : (2 : Rat) ^ (24 + t) ≤ 2 ^ (-1 : Int) := pow2_le (by omega)
      have h4 := Std.lt_of_lt_of_le hhalf (Rat.le_trans h2 h3)
      exact absurd h4 (by decide +kernel)
    obtain ⟨d, hd⟩ := Int.eq_ofNat_of_zero_le (show 0 ≤ t + 24 by omega)
    have e1 : (k : Rat) * 2 ^ t = ((k * (2 ^ d : Nat) : Int) : Rat) * 2 ^ (-24 : Int) := by
      rw [show t = (d : Int) + -24 by omega, pow2_add, pow2_nat, Rat.intCast_mul, Rat.intCast_natCast, Rat.mul_assoc]
    have e2 : (b : Rat) = ((b * 16777216 : Int) : Rat) * 2 ^ (-24 : Int) := by
      rw [Rat.intCast_mul, Rat.intCast_natCast, Rat.mul_assoc,
        show ((16777216 : Int) : Rat) * 2 ^ (-24 : Int) = 1 by decide +kernel, Rat.mul_one]
    have e3 : (b : Rat) - (k : Rat) * 2 ^ t =
        ((b * 16777216 - k * (2 ^ d : Nat) : Int) : Rat) * 2 ^ (-24 : Int) := by
      rw [e1, Rat.intCast_sub, rsub_mul, ← e2]
    rw [e3] at h ⊢
    refine ⟨_, -24, ?_, by decide, by decide, rfl⟩
    rw [rabs_mul_pow2, show (2 : Rat) ^ (-23 : Int) = 2 * 2 ^ (-24 : Int) by decide +kernel] at h
    have h2 := Rat.lt_of_mul_lt_mul_right h (Rat.le_of_lt (pow2_pos _))
    have h3 := Rat.natCast_lt_natCast.1 (show _ < ((2 : Nat) : Rat) from h2)
    omega

/-- Rounding keeps a number that is not smaller in size than a finite value so. -/
theorem _root_.Spec.Rounded.rabs_ge {x v u : Rat} (h : Rounded x v) (hu : Single u) (h0 : 0 ≤ u) (hx : u ≤ rabs x) : u ≤ rabs v := by
  apply Rat.not_lt.1
  intro hlt
  have h1 := h.nearest u hu
  have h2 := h.nearest (-u) hu.neg
  unfold dist rabs at *
  by_cases hx0 : x < 0
  · rw [if_pos hx0] at hx
    clear h1
    have : -u < v := by grind
    grind
  · rw [if_neg hx0] at hx
    clear h2
    have : v < u := by grind
    grind

theorem single_eps : Single ((2 : Rat) ^ (-23 : Int)) :=
  ⟨1, -23, by decide, by decide, by decide, by rw [show ((1 : Int) : Rat) = 1 from rfl, Rat.one_mul]⟩

end F32
end Model
