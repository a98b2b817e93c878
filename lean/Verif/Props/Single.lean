import Verif.Proofs.Single
import Verif.Proofs.Lists
import Verif.Props.Score
/-!
# C96: scores on the words of `f32`
-/

set_option exponentiation.threshold 700

namespace Model
open Spec (Single Rounded overflow)

namespace Word32

theorem units_exact {K t : Nat} (hK : K < 2 ^ 24) (ht : t ≤ 253) : nearest (K * 2 ^ t) < INF ∧ units (nearest (K * 2 ^ t)) = K * 2 ^ t := by
  have h1 := value_nearest false (K * 2 ^ t)
  have e : ((K * 2 ^ t : Nat) : Rat) * 2 ^ (-149 : Int) = ((K : Int) : Rat) * 2 ^ ((t : Int) + -149) := by
    rw [F32.pow2_add, F32.pow2_nat, Rat.natCast_mul, Rat.mul_assoc, Rat.intCast_natCast]
  rw [if_neg (by decide), e, F32.round_exact (by simpa using hK) (by omega) (by omega), ← e] at h1
  have hle := nearest_le (K * 2 ^ t)
  have hI : INF = 255 * 2 ^ 23 := rfl
  have hb : nearest (K * 2 ^ t) < 2 ^ 31 := by omega
  have hlt : nearest (K * 2 ^ t) < INF := by
    apply Nat.lt_of_le_of_ne hle
    intro hc
    rw [value_inf (by rw [pack_mag hb, hc])] at h1
    cases h1
  refine ⟨hlt, ?_⟩
  rw [value_fin (by rw [pack_mag hb]; exact hlt)] at h1
  injection h1 with h2
  have h3 : (((pack false (nearest (K * 2 ^ t))).toInt : Int) : Rat) = ((K * 2 ^ t : Nat) : Rat) := by
    have hp := F32.pow2_pos (-149)
    exact Rat.le_antisymm (Rat.le_of_mul_le_mul_right (by rw [h2]; exact Rat.le_refl) hp)
      (Rat.le_of_mul_le_mul_right (by rw [h2]; exact Rat.le_refl) hp)
  rw [← Rat.intCast_natCast] at h3
  have h4 := Rat.intCast_inj.1 h3
  unfold toInt at h4
  rw [pack_mag hb, pack_sign hb, if_neg (by decide)] at h4
  omega

theorem nearest_mono {S T : Nat} (h : S ≤ T) : nearest S ≤ nearest T := by
  rw [nearest_eq, nearest_eq]
  have hle := F32.roundedUnits_le (S := S)
  have hge := F32.roundedUnits_ge (S := T)
  have hk : Nat.log2 S ≤ Nat.log2 T := by
    rcases Nat.eq_zero_or_pos S with h0 | h0
    · subst h0
      rw [show Nat.log2 0 = 0 from by decide]
      exact Nat.zero_le _
    · have h1 := Nat.log2_self_le (n := S) (by omega)
      have h2 : T < 2 ^ (Nat.log2 T + 1) := Nat.lt_log2_self
      have h3 := (Nat.pow_lt_pow_iff_right (a := 2) (by decide)).1 (Nat.lt_of_le_of_lt h1 (Nat.lt_of_le_of_lt h h2))
      omega
  rcases Nat.lt_or_ge (Nat.log2 S - 23) (Nat.log2 T - 23) with hlt | hge'
  · have := hge (by omega)
    omega
  · have he : Nat.log2 T - 23 = Nat.log2 S - 23 := by omega
    have hr : F32.roundedUnits S ≤ F32.roundedUnits T := by
      unfold F32.roundedUnits
      rw [he]
      have hp := Nat.two_pow_pos (Nat.log2 S - 23)
      generalize 2 ^ (Nat.log2 S - 23) = D at *
      have hq : S / D ≤ T / D := Nat.div_le_div_right h
      rcases Nat.lt_or_ge (S / D) (T / D) with hl | hl
      · split <;> split <;> omega
      · have hqe : S / D = T / D := by omega
        have e1 := Nat.div_add_mod S D
        have e2 := Nat.div_add_mod T D
        have hm : S % D ≤ T % D := by rw [hqe] at e1; omega
        rw [hqe]
        split <;> split <;> omega
    rw [he]
    omega

theorem root_le {A q : Nat} : q ≤ (if q * q = A then q else q / 2 * 2 + 1) ∧ (if q * q = A then q else q / 2 * 2 + 1) ≤ q + 1 := by
  split <;> omega

end Word32

/-- **C96**. The numbers that words stand for are the numbers of single precision, the infinities and NaN: no number is missing from
the model of `f32` by its values, and it has no others. -/
theorem C96_values (x : F32) : (∃ w : Word32, w.value = x) ↔ x = .nan ∨ (∃ s, x = .inf s) ∨ ∃ v, Single v ∧ x = .fin v := by
  have hI : Word32.INF = 255 * 2 ^ 23 := rfl
  constructor
  · rintro ⟨w, rfl⟩
    rcases Nat.lt_trichotomy w.mag Word32.INF with h | h | h
    · right; right
      refine ⟨_, ?_, Word32.value_fin h⟩
      by_cases he : w.mag / 2 ^ 23 = 0
      · refine ⟨w.toInt, -149, ?_, by decide, by decide, rfl⟩
        unfold Word32.toInt Word32.units
        rw [if_pos he]
        split <;> omega
      · refine ⟨if w.sign then -((2 ^ 23 + w.mag % 2 ^ 23 : Nat) : Int) else ((2 ^ 23 + w.mag % 2 ^ 23 : Nat) : Int),
          ((w.mag / 2 ^ 23 - 1 : Nat) : Int) + -149, ?_, by omega, by omega, ?_⟩
        · split <;> omega
        · rw [F32.pow2_add, ← Rat.mul_assoc]
          congr 1
          unfold Word32.toInt Word32.units
          rw [if_neg he, F32.pow2_nat]
          split
          · rw [Rat.intCast_neg, Rat.intCast_neg, Rat.intCast_natCast, Rat.intCast_natCast, Rat.natCast_mul, Rat.neg_mul]
          · rw [Rat.intCast_natCast, Rat.intCast_natCast, Rat.natCast_mul]
    · exact .inr (.inl ⟨_, Word32.value_inf h⟩)
    · exact .inl (Word32.isNaN_value.1 (by unfold Word32.isNaN; simpa using h))
  · rintro (rfl | ⟨s, rfl⟩ | ⟨v, ⟨k, t, hk, ht, ht', rfl⟩, rfl⟩)
    · exact ⟨0x7fc00000, by decide +kernel⟩
    · cases s
      · exact ⟨0x7f800000, by decide +kernel⟩
      · exact ⟨0xff800000, by decide +kernel⟩
    · refine ⟨Word32.pack (decide (k < 0)) (Word32.nearest (k.natAbs * 2 ^ (t + 149).toNat)), ?_⟩
      rw [Word32.value_nearest, ← F32.round_exact hk ht ht']
      congr 1
      have e : ((k.natAbs * 2 ^ (t + 149).toNat : Nat) : Rat) * 2 ^ (-149 : Int) = (k.natAbs : Rat) * 2 ^ t := by
        rw [Rat.natCast_mul, ← F32.pow2_nat, Rat.mul_assoc, ← F32.pow2_add]
        congr 2
        omega
      rw [e, ← Rat.intCast_natCast]
      split
      · rename_i h
        rw [← Rat.neg_mul, ← Rat.intCast_neg]
        congr 2
        have := of_decide_eq_true h
        omega
      · rename_i h
        congr 2
        have := of_decide_eq_false (Bool.not_eq_true _ ▸ h)
        omega

/-- **C96**. A sum of two finite words stands for the nearest number to the exact sum, ties to even; from the overflow bound on it is an
infinity. -/
theorem C96_add {nan : Word32 → Word32 → Word32} (hn : ∀ x y, (nan x y).isNaN = true) {x y : Word32} {a b : Rat}
    (hx : x.value = .fin a) (hy : y.value = .fin b) :
    (F32.rabs (a + b) < overflow → ∃ v, (x.add nan y).value = .fin v ∧ Rounded (a + b) v) ∧
    (overflow ≤ F32.rabs (a + b) → (x.add nan y).value = .inf (decide (a + b < 0))) := by
  rw [Word32.value_add hn, hx, hy]
  exact ⟨fun h => F32.round_spec h, fun h => F32.round_overflow h⟩

/-- The word of `-0.0`. -/
def negZero : Word32 := 0x80000000

/-- **C96**. A sum is `-0.0` only if both terms are. -/
theorem C96_zero_sign {nan : Word32 → Word32 → Word32} (hn : ∀ x y, (nan x y).isNaN = true) (x y : Word32) :
    x.add nan y = negZero ↔ x = negZero ∧ y = negZero := by
  constructor
  · intro h
    unfold Word32.add at h
    split at h
    · exact absurd (hn x y) (by rw [h]; decide)
    · split at h
      · rename_i h1
        split at h
        · exact absurd (hn x y) (by rw [h]; decide)
        · rw [h] at h1; exact absurd h1 (by decide)
      · split at h
        · rename_i h1
          rw [h] at h1; exact absurd h1 (by decide)
        · dsimp only at h
          have hI : Word32.INF = 255 * 2 ^ 23 := rfl
          have hb : Word32.nearest (x.toInt + y.toInt).natAbs < 2 ^ 31 := by
            have := Word32.nearest_le (x.toInt + y.toInt).natAbs
            omega
          have h1 := congrArg Word32.mag h
          rw [Word32.pack_mag hb, show negZero.mag = 0 from by decide] at h1
          have h0 : x.toInt + y.toInt = 0 := by
            apply Int.natAbs_eq_zero.1
            apply Nat.eq_zero_of_not_pos
            intro hp
            have := Word32.nearest_mono hp
            rw [h1, show Word32.nearest (Nat.succ 0) = 1 from by decide +kernel] at this
            omega
          have h2 := congrArg Word32.sign h
          rw [Word32.pack_sign hb, if_pos h0, show negZero.sign = true from by decide, Bool.and_eq_true] at h2
          unfold Word32.toInt at h0
          rw [if_pos h2.1, if_pos h2.2] at h0
          have zx := Word32.units_zero.1 (show Word32.units x.mag = 0 by omega)
          have zy := Word32.units_zero.1 (show Word32.units y.mag = 0 by omega)
          exact ⟨Word32.sign_mag_ext (by rw [h2.1]; decide) (by rw [zx]; decide),
            Word32.sign_mag_ext (by rw [h2.2]; decide) (by rw [zy]; decide)⟩
  · rintro ⟨rfl, rfl⟩
    unfold Word32.add
    rw [if_neg (by decide), if_neg (by decide), if_neg (by decide)]
    decide +kernel

/-- **C96**. The scores computed on words stand for the scores of the model. -/
theorem C96_score (dbg : Bool) {nan : Word32 → Word32 → Word32} (hn : ∀ x y, (nan x y).isNaN = true) (ord : List Point → List Point)
    (g : Game) (komi : Word32) (hk : komi.value = g.rule.komi) (r : ScoreRules) :
    (fun s : Word32 × Word32 => (s.1.value, s.2.value)) <$> g.calculateScoreByF dbg nan ord komi r = g.calculateScoreBy dbg ord r := by
  unfold Game.calculateScoreByF Game.calculateScoreBy
  cases g.goban.calculateTerritories dbg ord with
  | error e => rfl
  | ok t =>
    rw [ok_bind, ok_bind]
    obtain ⟨a, b, c⟩ := r
    cases a <;> cases b <;> cases c <;> simp [Functor.map, Except.map, Word32.value_add hn, Word32.value_ofNat, hk]

/-- **C96**. The result decided on words stands for the result of the model. -/
theorem C96_result {nan : Word32 → Word32 → Word32} (hn : ∀ x y, (nan x y).isNaN = true) (s : Word32 × Word32) :
    (Game.decideByScoreF nan s).value = Game.decideByScore (s.1.value, s.2.value) := by
  unfold Game.decideByScoreF Game.decideByScore
  rw [Word32.value_lt, Word32.value_lt, Word32.value_abs, Word32.value_sub hn, Word32.value_epsilon]
  split
  · rfl
  · split
    · simp [EndGameF.value, Word32.value_sub hn]
    · simp [EndGameF.value, Word32.value_sub hn]

/-- No sign bit and not NaN. -/
def Word32.Plain (x : Word32) : Prop := x.sign = false ∧ x.mag ≤ Word32.INF

theorem Word32.Plain.not_nan {x : Word32} (h : x.Plain) : x.isNaN = false := by
  unfold Word32.isNaN
  have := h.2
  simpa using this

theorem Word32.plain_pack {S : Nat} : (Word32.pack false (Word32.nearest S)).Plain := by
  have hI : Word32.INF = 255 * 2 ^ 23 := rfl
  have h := Word32.nearest_le S
  exact ⟨Word32.pack_sign (by omega), by rw [Word32.pack_mag (by omega)]; exact h⟩

theorem Word32.Plain.ne {x : Word32} (h : x.Plain) : x ≠ negZero := by
  rintro rfl
  exact absurd h.1 (by decide)

theorem Word32.Plain.add {nan : Word32 → Word32 → Word32} {x y : Word32} (hx : x.Plain) (hy : y.Plain) : (x.add nan y).Plain := by
  unfold Word32.add
  rw [hx.not_nan, hy.not_nan, Bool.or_self, if_neg (by decide)]
  split
  · rw [if_neg (fun h => h.2 (by rw [hx.1, hy.1]))]; exact hx
  · split
    · exact hy
    · dsimp only
      have e : (if x.toInt + y.toInt = 0 then x.sign && y.sign else decide (x.toInt + y.toInt < 0)) = false := by
        rw [hx.1, Bool.false_and]
        split
        · rfl
        · apply decide_eq_false
          unfold Word32.toInt
          rw [hx.1, hy.1, if_neg (by decide), if_neg (by decide)]
          omega
      rw [e]
      exact Word32.plain_pack

theorem Word32.plain_ofNat (n : Nat) : (Word32.ofNat n).Plain := Word32.plain_pack

/-- Adding a zero to a number without sign bit: which zero makes no difference. -/
theorem Word32.Plain.add_zero {nan : Word32 → Word32 → Word32} {x y z : Word32} (hx : x.Plain) (hy : y.mag = 0) (hz : z.mag = 0) :
    x.add nan y = x.add nan z := by
  have h0 : ∀ w : Word32, w.mag = 0 → w.isNaN = false ∧ ¬ w.mag = Word32.INF ∧ w.toInt = 0 := by
    intro w hw
    unfold Word32.isNaN Word32.toInt
    rw [hw]
    refine ⟨by decide, by decide, ?_⟩
    rw [show Word32.units 0 = 0 from by decide]
    split <;> rfl
  obtain ⟨y1, y2, y3⟩ := h0 y hy
  obtain ⟨z1, z2, z3⟩ := h0 z hz
  unfold Word32.add
  simp only [hx.not_nan, y1, z1, y2, y3, z2, z3, hx.1, Bool.or_self, Bool.false_and, Bool.false_eq_true, false_and, if_false]

theorem Word32.value_inj {x y : Word32} (h : x.value = y.value) (hn : y.isNaN = false) : x = y ∨ (x.mag = 0 ∧ y.mag = 0) := by
  have hx : x.isNaN = false := by
    rw [← Bool.not_eq_true, Word32.isNaN_value, h, ← Word32.isNaN_value, hn]
    decide
  have hx' : ¬ Word32.INF < x.mag := by unfold Word32.isNaN at hx; simpa using hx
  have hy' : ¬ Word32.INF < y.mag := by unfold Word32.isNaN at hn; simpa using hn
  by_cases hxi : x.mag = Word32.INF
  · rw [Word32.value_inf hxi] at h
    by_cases hyi : y.mag = Word32.INF
    · rw [Word32.value_inf hyi] at h
      injection h with h
      exact .inl (Word32.sign_mag_ext h (by rw [hxi, hyi]))
    · rw [Word32.value_fin (by omega)] at h
      cases h
  · rw [Word32.value_fin (by omega)] at h
    by_cases hyi : y.mag = Word32.INF
    · rw [Word32.value_inf hyi] at h
      cases h
    · rw [Word32.value_fin (by omega)] at h
      injection h with h2
      have hp := F32.pow2_pos (-149)
      have h3 : (x.toInt : Rat) = (y.toInt : Rat) := Rat.le_antisymm
        (Rat.le_of_mul_le_mul_right (by rw [h2]; exact Rat.le_refl) hp)
        (Rat.le_of_mul_le_mul_right (by rw [h2]; exact Rat.le_refl) hp)
      have h4 := Rat.intCast_inj.1 h3
      unfold Word32.toInt at h4
      have zx := Word32.units_zero (a := x.mag)
      have zy := Word32.units_zero (a := y.mag)
      have l1 := Word32.units_lt_iff (a := x.mag) (b := y.mag)
      have l2 := Word32.units_lt_iff (a := y.mag) (b := x.mag)
      by_cases hs : x.sign = y.sign
      · left
        refine Word32.sign_mag_ext hs ?_
        rw [hs] at h4
        split at h4 <;> omega
      · right
        cases e1 : x.sign <;> cases e2 : y.sign <;> rw [e1, e2] at hs h4 <;> simp at hs h4 <;> omega

/-- The scores before the komi have no sign bit and are not NaN. -/
theorem score_plain (dbg : Bool) (nan : Word32 → Word32 → Word32) (ord : List Point → List Point) (g : Game) (r : ScoreRules) :
    (∃ e, ∀ komi, g.calculateScoreByF dbg nan ord komi r = .error e) ∨
    ∃ b w : Word32, b.Plain ∧ w.Plain ∧ ∀ komi, g.calculateScoreByF dbg nan ord komi r =
      .ok (b, if r.komi then w.add nan komi else w) := by
  unfold Game.calculateScoreByF
  cases g.goban.calculateTerritories dbg ord with
  | error e => exact .inl ⟨e, fun _ => rfl⟩
  | ok t =>
    right
    simp only [ok_bind]
    have hp := Word32.plain_ofNat
    obtain ⟨a, b, c⟩ := r
    cases c <;> cases a <;> refine ⟨_, _, ?_, ?_, fun komi => rfl⟩ <;> dsimp only <;>
      simp only [Bool.false_eq_true, if_false, if_true, hp, Word32.Plain.add]

/-- **C96**. The words of the scores depend on the value of the komi only, unless that is NaN: with the komi `-0.0` they are bit for bit
those with `0.0`; and no score is `-0.0`. -/
theorem C96_negative_zero (dbg : Bool) {nan : Word32 → Word32 → Word32} (hn : ∀ x y, (nan x y).isNaN = true)
    (ord : List Point → List Point) (g : Game) (r : ScoreRules) (komi : Word32) :
    (∀ komi' : Word32, komi'.value = komi.value → komi.isNaN = false →
      g.calculateScoreByF dbg nan ord komi' r = g.calculateScoreByF dbg nan ord komi r) ∧
    ∀ s, g.calculateScoreByF dbg nan ord komi r = .ok s → s.1 ≠ negZero ∧ s.2 ≠ negZero := by
  rcases score_plain dbg nan ord g r with ⟨e, h⟩ | ⟨b, w, hb, hw, h⟩
  · refine ⟨fun komi' _ _ => by rw [h, h], fun s hs => ?_⟩
    rw [h] at hs
    cases hs
  · constructor
    · intro komi' hv hk
      rw [h, h]
      rcases Word32.value_inj hv hk with rfl | ⟨h1, h2⟩
      · rfl
      · rw [hw.add_zero h1 h2]
    · intro s hs
      rw [h] at hs
      injection hs with hs
      subst hs
      refine ⟨hb.ne, ?_⟩
      dsimp only
      split
      · exact fun hc => hw.ne ((C96_zero_sign hn _ _).1 hc).1
      · exact hw.ne

/-- **C96**. The side of the board for a slice of stones, computed with `f32`, is the whole square root, at most 255. -/
theorem C96_side (nan : Word32 → Word32) (len : Nat) : sideOfSlice nan len = min (Goban.isqrt len) 255 := by
  have hI : Word32.INF = 255 * 2 ^ 23 := rfl
  obtain ⟨q1, q2⟩ := isqrt_spec len
  have hle := Word32.nearest_le (len * 2 ^ 149)
  have hmag : (Word32.ofNat len).mag = Word32.nearest (len * 2 ^ 149) := Word32.pack_mag (by omega)
  have hpl := Word32.plain_ofNat len
  have hu8 : ∀ S, (Word32.pack false (Word32.nearest S)).toU8 =
      if Word32.nearest S = Word32.INF then 255 else min (Word32.units (Word32.nearest S) / 2 ^ 149) 255 := by
    intro S
    have h := Word32.nearest_le S
    unfold Word32.toU8
    rw [Word32.plain_pack.not_nan, if_neg (by decide), Word32.plain_pack.1, if_neg (by decide), Word32.pack_mag (by omega)]
  unfold sideOfSlice Word32.sqrt
  rw [hpl.not_nan, if_neg (by decide), hmag, hpl.1, if_neg (show ¬ false = true by decide)]
  rcases Nat.lt_or_ge len 65536 with hlt | hge
  · obtain ⟨x1, x2⟩ := Word32.units_exact (K := len) (t := 149) (by omega) (by decide)
    rcases Nat.eq_zero_or_pos len with h0 | h0
    · subst h0
      rw [if_pos (by decide +kernel)]
      decide +kernel
    · have hz : Word32.nearest (len * 2 ^ 149) ≠ 0 := by
        intro hc
        rw [hc, show Word32.units 0 = 0 from by decide] at x2
        have := Nat.mul_pos h0 (Nat.two_pow_pos 149)
        omega
      rw [if_neg hz, if_neg (by omega), x2]
      dsimp only
      have hm : Goban.isqrt len ≤ 255 := by
        apply Nat.le_of_lt_succ
        apply Nat.mul_self_lt_mul_self_iff.1
        omega
      generalize Goban.isqrt len = m at *
      have s1 := Nat.sqrt_le (len * 2 ^ 149 * 2 ^ 149)
      have s2 := Nat.lt_succ_sqrt (len * 2 ^ 149 * 2 ^ 149)
      have hlo : m * 2 ^ 149 ≤ Nat.sqrt (len * 2 ^ 149 * 2 ^ 149) := by
        apply Nat.le_of_lt_succ
        apply Nat.mul_self_lt_mul_self_iff.1
        refine Nat.lt_of_le_of_lt ?_ s2
        rw [Nat.mul_mul_mul_comm, Nat.mul_assoc len]
        exact Nat.mul_le_mul_right _ q1
      have hhi : Nat.sqrt (len * 2 ^ 149 * 2 ^ 149) < ((m + 1) * 512 - 1) * 2 ^ 140 := by
        apply Nat.mul_self_lt_mul_self_iff.1
        refine Nat.lt_of_le_of_lt s1 ?_
        rw [Nat.mul_mul_mul_comm, Nat.mul_assoc len, show (2 : Nat) ^ 149 * 2 ^ 149 = 2 ^ 18 * (2 ^ 140 * 2 ^ 140) from by decide,
          ← Nat.mul_assoc]
        refine Nat.mul_lt_mul_of_pos_right ?_ (by decide)
        obtain ⟨c, hc⟩ : ∃ c, (m + 1) * 512 - 1 = c := ⟨_, rfl⟩
        have hc' : c + 1 = (m + 1) * 512 := by omega
        have e1 : (c + 1) * (c + 1) = (m + 1) * (m + 1) * 262144 := by rw [hc', Nat.mul_mul_mul_comm]
        have e2 : (c + 1) * (c + 1) = c * c + 2 * c + 1 := by rw [Nat.add_mul, Nat.mul_add]; omega
        rw [hc]
        clear s1 s2 hlo hle hmag x1 x2 hz hpl hu8
        omega
      obtain ⟨q, hq⟩ : ∃ q, Nat.sqrt (len * 2 ^ 149 * 2 ^ 149) = q := ⟨_, rfl⟩
      rw [hq] at hlo hhi ⊢
      have hr := Word32.root_le (A := len * 2 ^ 149 * 2 ^ 149) (q := q)
      rw [hu8]
      generalize (if q * q = len * 2 ^ 149 * 2 ^ 149 then q else q / 2 * 2 + 1) = S at *
      obtain ⟨l1, l2⟩ := Word32.units_exact (K := m) (t := 149) (by omega) (by decide)
      obtain ⟨u1, u2⟩ := Word32.units_exact (K := (m + 1) * 512 - 1) (t := 140) (by omega) (by decide)
      have n1 := Word32.nearest_mono (Nat.le_trans hlo hr.1)
      have n2 := Word32.nearest_mono (show S ≤ ((m + 1) * 512 - 1) * 2 ^ 140 by omega)
      rw [if_neg (by omega)]
      have v1 := Nat.not_lt.1 (fun h => Nat.not_lt.2 n1 (Word32.units_lt_iff.1 h))
      have v2 := Nat.not_lt.1 (fun h => Nat.not_lt.2 n2 (Word32.units_lt_iff.1 h))
      rw [l2] at v1
      rw [u2] at v2
      congr 1
      omega
  · have hm : 256 ≤ Goban.isqrt len := by
      apply Nat.le_of_lt_succ
      apply Nat.mul_self_lt_mul_self_iff.1
      simp only [Nat.succ_eq_add_one]
      omega
    rw [Nat.min_eq_right (by omega)]
    obtain ⟨x1, x2⟩ := Word32.units_exact (K := 1) (t := 165) (by decide) (by decide)
    have n1 := Word32.nearest_mono (show 1 * 2 ^ 165 ≤ len * 2 ^ 149 by omega)
    have v1 := Nat.not_lt.1 (fun h => Nat.not_lt.2 n1 (Word32.units_lt_iff.1 h))
    rw [x2] at v1
    clear n1 x1 x2
    generalize Word32.nearest (len * 2 ^ 149) = b at *
    have hz : b ≠ 0 := by
      rintro rfl
      rw [show Word32.units 0 = 0 from by decide] at v1
      omega
    rw [if_neg hz]
    split
    · rename_i hinf
      unfold Word32.toU8
      rw [hpl.not_nan, if_neg (by decide), hpl.1, if_neg (by decide), hmag, if_pos hinf]
    · dsimp only
      rw [hu8]
      have hlo : 1 * 2 ^ 157 ≤ Nat.sqrt (Word32.units b * 2 ^ 149) := by
        apply Nat.le_of_lt_succ
        apply Nat.mul_self_lt_mul_self_iff.1
        refine Nat.lt_of_le_of_lt ?_ (Nat.lt_succ_sqrt _)
        omega
      generalize Nat.sqrt (Word32.units b * 2 ^ 149) = q at *
      have hr := Word32.root_le (A := Word32.units b * 2 ^ 149) (q := q)
      generalize (if q * q = Word32.units b * 2 ^ 149 then q else q / 2 * 2 + 1) = S at *
      obtain ⟨l1, l2⟩ := Word32.units_exact (K := 1) (t := 157) (by decide) (by decide)
      have n1 := Word32.nearest_mono (Nat.le_trans hlo hr.1)
      have v2 := Nat.not_lt.1 (fun h => Nat.not_lt.2 n1 (Word32.units_lt_iff.1 h))
      rw [l2, show 1 * 2 ^ 157 = 256 * 2 ^ 149 from by decide] at v2
      split
      · rfl
      · have h256 := (Nat.le_div_iff_mul_le (show 0 < 2 ^ 149 by decide)).2 v2
        exact Nat.min_eq_right (Nat.le_trans (by decide) h256)

/-- **C96**. So is the board made from a slice. -/
theorem C96_slice (dbg : Bool) (nan : Word32 → Word32) (stones : List MaybeColor) :
    Goban.ofSliceF dbg nan stones = Goban.ofSlice dbg stones := by
  unfold Goban.ofSliceF Goban.ofSlice
  simp only [C96_side]

/-- **C96**. The outcome computed on words stands for the outcome of the model. -/
theorem C96_outcome (dbg : Bool) {nan : Word32 → Word32 → Word32} (hn : ∀ x y, (nan x y).isNaN = true)
    (ord : List Point → List Point) (g : Game) (komi : Word32) (hk : komi.value = g.rule.komi) :
    (Option.map (Sum.elim id EndGameF.value)) <$> g.getOutcomeF dbg nan ord komi = g.getOutcome dbg ord := by
  unfold Game.getOutcomeF Game.getOutcome Game.calculateScore
  split
  · rfl
  · cases g.outcome with
    | some e => rfl
    | none =>
      dsimp only
      rw [← C96_score dbg hn ord g komi hk]
      cases g.calculateScoreByF dbg nan ord komi g.rule.flagScore with
      | error e => rfl
      | ok s =>
        show Except.ok (some (Game.decideByScoreF nan s).value) = Except.ok (some (Game.decideByScore (s.1.value, s.2.value)))
        rw [C96_result hn]

/-- The hypothesis of these theorems: an operation that returns the usual NaN. -/
def quietNaN (_ _ : Word32) : Word32 := 0x7fc00000

example : ∀ x y, (quietNaN x y).isNaN = true := fun _ _ => by unfold quietNaN; decide

/-- The rounding of sums: 2^24 + 1 is a tie and goes to the even side, 2^24 + 3 too; the largest number plus half its last place is
infinite; `0.0 + -0.0` is `0.0`; infinities of opposite signs give NaN. -/
example : (Word32.ofNat 16777216).add quietNaN (Word32.ofNat 1) = Word32.ofNat 16777216 ∧
    (Word32.ofNat 16777216).add quietNaN (Word32.ofNat 3) = Word32.ofNat 16777220 ∧
    Word32.add quietNaN 0x7f7fffff 0x73000000 = 0x7f800000 ∧ Word32.add quietNaN 0x7f7fffff 0x72ffffff = 0x7f7fffff ∧
    Word32.add quietNaN 0 negZero = 0 ∧ Word32.add quietNaN 0x7f800000 0xff800000 = 0x7fc00000 := by decide +kernel

/-- The hypotheses of `C96_add` on both sides of the overflow bound. -/
example : Word32.value 0x7f7fffff = .fin ((2 ^ 24 - 1) * 2 ^ 104) ∧ Word32.value 0x73000000 = .fin (2 ^ 103) ∧
    overflow ≤ F32.rabs ((2 ^ 24 - 1) * 2 ^ 104 + 2 ^ 103) ∧
    F32.rabs ((2 ^ 24 - 1) * 2 ^ 104 + 2 ^ 102) < overflow := by decide +kernel

/-- The two words of zero stand for one number, and so the hypothesis of `C96_negative_zero` holds of `-0.0` and `0.0`; so does that
of `C96_score` of the word of 7.5 and the Chinese rule. -/
example : negZero.value = Word32.value 0 ∧ negZero ≠ (0 : Word32) ∧ Word32.isNaN 0 = false ∧
    Word32.value 0x40f00000 = CHINESE.komi := by decide +kernel

/-- On a finished game under the Chinese rule the words are those of 9 and 7.5, and Black wins by 1.5. -/
theorem C96_example (dbg : Bool) : ∃ g, Legal dbg 3 3 g ∧ g.rule.komi = Word32.value 0x40f00000 ∧
    g.calculateScoreByF dbg quietNaN id 0x40f00000 g.rule.flagScore = .ok (0x41100000, 0x40f00000) ∧
    g.getOutcomeF dbg quietNaN id 0x40f00000 = .ok (some (.inr (.winnerByScore .black 0x3fc00000))) := by
  obtain ⟨g, h, e⟩ := mkGame_exists (dbg := dbg) (n := 3) (rule := CHINESE) (l := [.try_ (.play 1 1), .try_ .pass, .try_ .pass])
    (f := fun g => decide (g.rule.komi = Word32.value 0x40f00000 ∧
      g.calculateScoreByF dbg quietNaN id 0x40f00000 g.rule.flagScore = .ok (0x41100000, 0x40f00000) ∧
      g.getOutcomeF dbg quietNaN id 0x40f00000 = .ok (some (.inr (.winnerByScore .black 0x3fc00000)))))
    (by decide) (by cases dbg <;> decide +kernel)
  exact ⟨g, h, by simpa using e⟩

/-- Slices of 361, 360 and 70000 stones. -/
example : sideOfSlice id 361 = 19 ∧ sideOfSlice id 360 = 18 ∧ sideOfSlice id 70000 = 255 := by decide +kernel

end Model
