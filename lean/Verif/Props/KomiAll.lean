import Verif.Props.Komi
import Verif.Props.Machine
/-!
# C86 without a bound on the prisoners
-/

namespace Model
open Spec (Single Rounded RoundedSum dist)

variable {dbg : Bool} {m n : Nat}

/-! ## Rounding whole numbers -/

/-- A whole number is rounded to a whole number, at most twice as large. -/
theorem rounded_nat {k : Nat} {v : Rat} (h : Rounded (k : Rat) v) : ∃ k' : Nat, v = (k' : Rat) ∧ k' ≤ 2 * k := by
  by_cases hk : k < 2 ^ 24
  · exact ⟨k, h.exact (Single.nat hk), by omega⟩
  · have hs : Single ((16777216 : Nat) : Rat) := ⟨1, 24, by decide, by decide, by decide, by decide +kernel⟩
    have hk' : ((16777216 : Nat) : Rat) ≤ (k : Rat) := Rat.natCast_le_natCast.2 (by omega)
    have h1 := h.nearest _ hs
    have hlo : ((16777216 : Nat) : Rat) ≤ v := by unfold dist at h1; grind
    have h0 := h.nearest 0 (by have := Single.nat (k := 0) (by decide); exact this)
    have hhi : v ≤ 2 * (k : Rat) := by unfold dist at h0; grind
    obtain ⟨a, t, ha, _, _, rfl⟩ := h.single
    have ht : 0 ≤ t := by
      apply Classical.byContradiction
      intro ht
      have h3 : (a : Rat) ≤ ((16777216 : Nat) : Rat) := by
        have : a ≤ (16777216 : Int) := by omega
        have := Rat.intCast_le_intCast.2 this
        exact this
      have hp := F32.pow2_pos t
      have h4 := F32.pow2_le (show t ≤ -1 by omega)
      have h5 : (2 : Rat) ^ (-1 : Int) = 1 / 2 := by decide +kernel
      rw [h5] at h4
      have h6 : (a : Rat) * 2 ^ t ≤ ((16777216 : Nat) : Rat) * (1 / 2) :=
        Rat.le_trans (Rat.mul_le_mul_of_nonneg_right h3 (Rat.le_of_lt hp))
          (Rat.mul_le_mul_of_nonneg_left h4 (by decide))
      have h7 : ((16777216 : Nat) : Rat) * (1 / 2) < ((16777216 : Nat) : Rat) := by decide +kernel
      grind
    obtain ⟨s, rfl⟩ := Int.eq_ofNat_of_zero_le ht
    have hv : (a : Rat) * 2 ^ ((s : Nat) : Int) = ((a * 2 ^ s : Int) : Rat) := by
      rw [Rat.intCast_mul, Rat.zpow_natCast, Rat.intCast_pow]
      rfl
    rw [hv] at hlo hhi ⊢
    have hpos : 0 ≤ a * 2 ^ s := by
      have : ((0 : Int) : Rat) ≤ ((a * 2 ^ s : Int) : Rat) := Rat.le_trans (by decide +kernel) hlo
      exact Rat.intCast_le_intCast.1 this
    obtain ⟨q, hq⟩ := Int.eq_ofNat_of_zero_le hpos
    rw [hq] at hhi ⊢
    refine ⟨q, Rat.intCast_natCast q, ?_⟩
    rw [Rat.intCast_natCast] at hhi
    have : (q : Rat) ≤ ((2 * k : Nat) : Rat) := by rw [Rat.natCast_mul]; exact hhi
    exact Rat.natCast_le_natCast.1 this

theorem rabs_nat (k : Nat) : F32.rabs (k : Rat) = (k : Rat) := by
  have := F32.rabs_int (k : Int)
  rwa [Rat.intCast_natCast, Int.natAbs_natCast] at this

theorem nat_small {k : Nat} (h : k < 2 ^ 31) : F32.rabs (k : Rat) < Spec.overflow := by
  rw [rabs_nat]
  have h1 : (k : Rat) < ((2147483648 : Nat) : Rat) := Rat.natCast_lt_natCast.2 h
  have h2 : ((2147483648 : Nat) : Rat) < Spec.overflow := by decide +kernel
  grind

/-- `u32 as f32`. -/
theorem ofNat_rounded {k : Nat} (h : k < 2 ^ 31) : ∃ k' : Nat, F32.ofNat k = .fin k' ∧ Rounded (k : Rat) k' ∧ k' ≤ 2 * k := by
  obtain ⟨v, e, hv⟩ := F32.round_spec (nat_small h)
  obtain ⟨k', rfl, hk⟩ := rounded_nat hv
  exact ⟨k', e, hv, hk⟩

theorem add_rounded {a b : Nat} (h : a + b < 2 ^ 31) : ∃ c : Nat, F32.add (.fin a) (.fin b) = .fin c ∧
    Rounded ((a : Rat) + (b : Rat)) c ∧ c ≤ 2 * (a + b) := by
  obtain ⟨v, e, hv⟩ := F32.round_spec (nat_small h)
  obtain ⟨c, rfl, hc⟩ := rounded_nat hv
  rw [Rat.natCast_add] at e hv
  exact ⟨c, e, hv, hc⟩

/-- Adding a whole number that is not huge to a finite value does not overflow. -/
theorem sum_rounded {a : Nat} (ha : a < 2 ^ 31) {v : Rat} (hv : Single v) : ∃ w, F32.add (.fin a) (.fin v) = .fin w ∧
    Rounded ((a : Rat) + v) w := by
  have h1 := hv.le
  have h2 : F32.rabs (a : Rat) < 2147483648 := by
    rw [rabs_nat]; exact Rat.natCast_lt_natCast.2 (show a < 2147483648 from ha)
  have h3 : 2 ^ (128 : Int) - 2 ^ (104 : Int) + 2147483648 < Spec.overflow := by decide +kernel
  obtain ⟨w, e, hw⟩ := F32.round_spec (q := (a : Rat) + v) (by
    generalize (2 : Rat) ^ (128 : Int) - 2 ^ (104 : Int) = A at *
    generalize Spec.overflow = B at *
    unfold F32.rabs at *
    grind)
  exact ⟨w, e, hw⟩

theorem exact_nat {k : Nat} (h : k < 2 ^ 24) : F32.ofNat k = .fin k := by
  obtain ⟨k', e, hk, _⟩ := ofNat_rounded (show k < 2 ^ 31 by omega)
  rw [e, hk.exact (Single.nat h)]

/-! ## Scores -/

/-- What is added to the territory, in this order: prisoners (rounded to `p`) and stones, as the flags ask. -/
def extras (f : ScoreRules) (p : Rat) (s : Nat) : List Rat := (if f.prisonners then [p] else []) ++ (if f.stones then [(s : Rat)] else [])

theorem side_sum {t p s : Nat} (ht : t ≤ 2 ^ 18) (hp : p < 2 ^ 26) (hs : s ≤ 361) (f : ScoreRules) :
    ∃ p' b : Nat, Rounded (p : Rat) p' ∧ RoundedSum t (extras f p' s) b ∧ b < 2 ^ 30 ∧
    (if f.stones then (if f.prisonners then (F32.ofNat t).add (.ofNat p) else F32.ofNat t).add (.ofNat s)
      else if f.prisonners then (F32.ofNat t).add (.ofNat p) else F32.ofNat t) = .fin b := by
  obtain ⟨p', ep, hp', hle⟩ := ofNat_rounded (show p < 2 ^ 31 by omega)
  rw [exact_nat (show t < 2 ^ 24 by omega), exact_nat (show s < 2 ^ 24 by omega), ep]
  obtain ⟨c, ec, hc, hcl⟩ := add_rounded (a := t) (b := p') (by omega)
  obtain ⟨d, ed, hd, hdl⟩ := add_rounded (a := t) (b := s) (by omega)
  obtain ⟨x, ex, hx, hxl⟩ := add_rounded (a := c) (b := s) (by omega)
  refine ⟨p', ?_⟩
  unfold extras
  cases f.prisonners <;> cases f.stones <;> simp only [Bool.false_eq_true, if_true, if_false, List.nil_append, List.append_nil]
  · exact ⟨t, hp', rfl, by omega, rfl⟩
  · exact ⟨d, hp', ⟨_, hd, rfl⟩, by omega, ed⟩
  · exact ⟨c, hp', ⟨_, hc, rfl⟩, by omega, ec⟩
  · exact ⟨x, hp', ⟨_, hc, _, hx, rfl⟩, by omega, by rw [ec, ex]⟩

theorem Reach.few {n : Dim} {g : Game} (h : Reach dbg n m g) : g.prisoners.1 + g.prisoners.2 ≤ lifeOf n + n.area := by
  obtain ⟨m0, g0, b, w, hf, h⟩ := h.plays
  obtain ⟨h1, h2⟩ := C11_conservation hf h
  have h3 := C57_stones_played hf h
  have hI := Reach.inv (.fresh hf)
  rw [numberOfStones_ok hI] at h1 h2
  dsimp only at h1 h2
  have h4 := colours_le n g0.goban.view
  omega

/-- What the scores need to know of a game: the numbers of stones that are counted, and that the prisoners are not too many. -/
structure Tally (g : Game) (sb sw : Nat) : Prop where
  stones : g.goban.numberOfStones = (sb, sw)
  black : sb ≤ 361
  white : sw ≤ 361
  byBlack : g.prisoners.1 < 2 ^ 26
  byWhite : g.prisoners.2 < 2 ^ 26

theorem Reach.tally {n : Dim} {g : Game} (h : Reach dbg n m g) :
    Tally g (Spec.count n g.goban.view (some .black)) (Spec.count n g.goban.view (some .white)) := by
  have hI := h.inv
  have h2 : n.area ≤ 19 * 19 := hI.good.area_le
  have hl : lifeOf n ≤ 131070 * 362 + 361 := by unfold lifeOf; omega
  have hfew := h.few
  have s1 := count_le_size (n := n) g.goban.view (some .black)
  have s2 := count_le_size (n := n) g.goban.view (some .white)
  exact ⟨numberOfStones_ok hI, by omega, by omega, by omega, by omega⟩

/-- The scores, for any number of points of territory. -/
theorem score_of {g : Game} {sb sw : Nat} {f : ScoreRules} (h : Tally g sb sw) {ord : List Point → List Point} {tb tw : Nat}
    (et : g.goban.calculateTerritories dbg ord = .ok (tb, tw)) (hb : tb ≤ 2 ^ 18) (hw : tw ≤ 2 ^ 18) :
    ∃ pb pw b w : Nat, Rounded (g.prisoners.1 : Rat) pb ∧ Rounded (g.prisoners.2 : Rat) pw ∧
      RoundedSum tb (extras f pb sb) b ∧ RoundedSum tw (extras f pw sw) w ∧
      b < 2 ^ 30 ∧ w < 2 ^ 30 ∧
      g.calculateScoreBy dbg ord f = .ok (.fin b, if f.komi then (F32.fin w).add g.rule.komi else .fin w) := by
  obtain ⟨pb, b, hpb, hb, hbl, eb⟩ := side_sum hb h.byBlack h.black f
  obtain ⟨pw, w, hpw, hw, hwl, ew⟩ := side_sum hw h.byWhite h.white f
  refine ⟨pb, pw, b, w, hpb, hpw, hb, hw, hbl, hwl, ?_⟩
  unfold Game.calculateScoreBy
  rw [et, ok_bind, h.stones]
  dsimp only
  rw [← eb, ← ew]
  cases f.prisonners <;> cases f.stones <;> cases f.komi <;> rfl

theorem score_every {g : Game} {f : ScoreRules} (h : Reach dbg n m g) {ord : List Point → List Point} (hord : ∀ l, (ord l).Perm l) :
    ∃ pb pw b w : Nat, Rounded (g.prisoners.1 : Rat) pb ∧ Rounded (g.prisoners.2 : Rat) pw ∧
      RoundedSum (Spec.territorySize n g.goban.view .black) (extras f pb (Spec.count n g.goban.view (some .black))) b ∧
      RoundedSum (Spec.territorySize n g.goban.view .white) (extras f pw (Spec.count n g.goban.view (some .white))) w ∧
      b < 2 ^ 30 ∧ w < 2 ^ 30 ∧
      g.calculateScoreBy dbg ord f = .ok (.fin b, if f.komi then (F32.fin w).add g.rule.komi else .fin w) := by
  have h2 : (n : Dim).area ≤ 19 * 19 := h.inv.good.area_le
  have t1 := territorySize_le (n := n) g.goban.view .black
  have t2 := territorySize_le (n := n) g.goban.view .white
  exact score_of h.tally (calculateTerritories_ok h.inv hord) (by omega) (by omega)

theorem RoundedSum.append {a : Rat} {xs : List Rat} {b y : Rat} {c : Rat} (h : RoundedSum a xs b) (hc : Rounded (b + y) c) :
    RoundedSum a (xs ++ [y]) c := by
  induction xs generalizing a with
  | nil => cases h; exact ⟨c, hc, rfl⟩
  | cons x xs ih =>
    obtain ⟨d, hd, h⟩ := h
    exact ⟨d, hd, ih h⟩

theorem score_of_finite {g : Game} {sb sw : Nat} {f : ScoreRules} {v : Rat} (h : Tally g sb sw) (hk : g.rule.komi = .fin v)
    (hv : Single v) {ord : List Point → List Point} {tb tw : Nat}
    (et : g.goban.calculateTerritories dbg ord = .ok (tb, tw)) (htb : tb ≤ 2 ^ 18) (htw : tw ≤ 2 ^ 18) :
    ∃ pb pw b w : Rat, Rounded (g.prisoners.1 : Rat) pb ∧ Rounded (g.prisoners.2 : Rat) pw ∧
      g.calculateScoreBy dbg ord f = .ok (.fin b, .fin w) ∧
      RoundedSum tb (extras f pb sb) b ∧
      RoundedSum tw (extras f pw sw ++ if f.komi then [v] else []) w := by
  obtain ⟨pb, pw, b, w, hpb, hpw, hb, hw, hbl, hwl, e⟩ := score_of (f := f) h et htb htw
  rw [e, hk]
  cases f.komi with
  | false =>
    refine ⟨pb, pw, b, w, hpb, hpw, rfl, hb, ?_⟩
    simpa using hw
  | true =>
    obtain ⟨w', e', hw'⟩ := sum_rounded (a := w) (by omega) hv
    refine ⟨pb, pw, b, w', hpb, hpw, by simp only [if_true, e'], hb, ?_⟩
    simp only [if_true]
    exact RoundedSum.append hw hw'

theorem score_of_other {g : Game} {sb sw : Nat} {f : ScoreRules} (h : Tally g sb sw) (hf : f.komi = true)
    (hk : ∀ v, g.rule.komi ≠ .fin v) {ord : List Point → List Point} {tb tw : Nat}
    (et : g.goban.calculateTerritories dbg ord = .ok (tb, tw)) (htb : tb ≤ 2 ^ 18) (htw : tw ≤ 2 ^ 18) :
    ∃ pb b : Rat, Rounded (g.prisoners.1 : Rat) pb ∧
      RoundedSum tb (extras f pb sb) b ∧
      g.calculateScoreBy dbg ord f = .ok (.fin b, g.rule.komi) := by
  obtain ⟨pb, pw, b, w, hpb, hpw, hb, hw, hbl, hwl, e⟩ := score_of (f := f) h et htb htw
  refine ⟨pb, b, hpb, hb, ?_⟩
  rw [e, hf, if_pos rfl]
  cases hc : g.rule.komi with
  | nan => rfl
  | inf s => rfl
  | fin v => exact absurd hc (hk v)

/-- **C86**, without any bound: every finite komi, any number of prisoners. The scores are the territory plus the prisoners (as a
binary number of single precision) plus the stones plus the komi, as the flags ask, added in this order, every sum being rounded. -/
theorem C86_every_score {g : Game} {f : ScoreRules} {v : Rat} (h : Reach dbg n m g) (hk : g.rule.komi = .fin v) (hv : Single v)
    {ord : List Point → List Point} (hord : ∀ l, (ord l).Perm l) :
    ∃ pb pw b w : Rat, Rounded (g.prisoners.1 : Rat) pb ∧ Rounded (g.prisoners.2 : Rat) pw ∧
      g.calculateScoreBy dbg ord f = .ok (.fin b, .fin w) ∧
      RoundedSum (Spec.territorySize n g.goban.view .black) (extras f pb (Spec.count n g.goban.view (some .black))) b ∧
      RoundedSum (Spec.territorySize n g.goban.view .white)
        (extras f pw (Spec.count n g.goban.view (some .white)) ++ if f.komi then [v] else []) w := by
  have h2 : (n : Dim).area ≤ 19 * 19 := h.inv.good.area_le
  have t1 := territorySize_le (n := n) g.goban.view .black
  have t2 := territorySize_le (n := n) g.goban.view .white
  exact score_of_finite h.tally hk hv (calculateTerritories_ok h.inv hord) (by omega) (by omega)

/-- **C86**, without any bound: a komi that counts and is infinite or not a number. -/
theorem C86_every_score_other {g : Game} {f : ScoreRules} (h : Reach dbg n m g) (hf : f.komi = true)
    (hk : ∀ v, g.rule.komi ≠ .fin v) {ord : List Point → List Point} (hord : ∀ l, (ord l).Perm l) :
    ∃ pb b : Rat, Rounded (g.prisoners.1 : Rat) pb ∧
      RoundedSum (Spec.territorySize n g.goban.view .black) (extras f pb (Spec.count n g.goban.view (some .black))) b ∧
      g.calculateScoreBy dbg ord f = .ok (.fin b, g.rule.komi) := by
  have h2 : (n : Dim).area ≤ 19 * 19 := h.inv.good.area_le
  have t1 := territorySize_le (n := n) g.goban.view .black
  have t2 := territorySize_le (n := n) g.goban.view .white
  exact score_of_other h.tally hf hk (calculateTerritories_ok h.inv hord) (by omega) (by omega)

/-- The comparison of the scores. -/
theorem decide_spec {B : Nat} (hB : B < 2 ^ 31) {w : Rat} (hsw : Single w) :
    (dist (B : Rat) w < 2 ^ (-23 : Int) → Game.decideByScore (.fin B, .fin w) = .draw) ∧
    (2 ^ (-23 : Int) ≤ dist (B : Rat) w → w < B →
      ∃ d, Game.decideByScore (.fin B, .fin w) = .winnerByScore .black (.fin d) ∧ Rounded ((B : Rat) - w) d) ∧
    (2 ^ (-23 : Int) ≤ dist (B : Rat) w → (B : Rat) < w →
      ∃ d, Game.decideByScore (.fin B, .fin w) = .winnerByScore .white (.fin d) ∧ Rounded (w - B) d) := by
  obtain ⟨d1, e1, r1⟩ := sum_rounded hB hsw.neg
  rw [← Rat.sub_eq_add_neg] at r1
  have o2 : F32.rabs (w - (B : Rat)) < Spec.overflow := by
    have h1 := hsw.le
    have h2 : F32.rabs (B : Rat) < 2147483648 := by
      rw [rabs_nat]; exact Rat.natCast_lt_natCast.2 (show B < 2147483648 from hB)
    have h3 : 2 ^ (128 : Int) - 2 ^ (104 : Int) + 2147483648 < Spec.overflow := by decide +kernel
    generalize (2 : Rat) ^ (128 : Int) - 2 ^ (104 : Int) = A at *
    generalize Spec.overflow = O at *
    unfold F32.rabs at *
    grind
  obtain ⟨d2, e2, r2⟩ := F32.round_spec o2
  have s1 : F32.sub (.fin (B : Rat)) (.fin w) = .fin d1 := e1
  have s2 : F32.sub (.fin w) (.fin (B : Rat)) = .fin d2 := by
    unfold F32.sub F32.neg F32.add
    dsimp only
    rw [← Rat.sub_eq_add_neg, e2]
  have hdist : dist (B : Rat) w = F32.rabs ((B : Rat) - w) := by unfold dist F32.rabs; grind
  rw [hdist]
  unfold Game.decideByScore
  dsimp only
  rw [s1, s2]
  have habs : F32.lt (F32.abs (.fin d1)) F32.EPSILON = decide (F32.rabs d1 < 2 ^ (-23 : Int)) := rfl
  have hlt : F32.lt (.fin w) (.fin (B : Rat)) = decide (w < (B : Rat)) := rfl
  rw [habs, hlt]
  refine ⟨fun hd => ?_, fun hd hwb => ⟨d1, ?_, r1⟩, fun hd hwb => ⟨d2, ?_, r2⟩⟩
  · rw [r1.exact (F32.near_nat hsw hd), if_pos (by simpa using hd)]
  · have := r1.rabs_ge F32.single_eps (Rat.le_of_lt (F32.pow2_pos _)) hd
    rw [if_neg (by simpa using Rat.not_lt.2 this), if_pos (by simpa using hwb)]
  · have := r1.rabs_ge F32.single_eps (Rat.le_of_lt (F32.pow2_pos _)) hd
    rw [if_neg (by simpa using Rat.not_lt.2 this), if_neg (by simpa using Rat.not_lt.2 (Rat.le_of_lt hwb))]

theorem outcome_of {g : Game} {sb sw : Nat} (h : Tally g sb sw) (ho : g.outcome = none) (h2 : 2 ≤ g.passes)
    {ord : List Point → List Point} {tb tw : Nat}
    (et : g.goban.calculateTerritories dbg ord = .ok (tb, tw)) (htb : tb ≤ 2 ^ 18) (htw : tw ≤ 2 ^ 18) :
    ((∀ v, g.rule.komi = .fin v → Single v) → (g.rule.flagScore.komi = true → ∃ v, g.rule.komi = .fin v) →
      ∃ b w : Rat, g.calculateScore dbg ord = .ok (.fin b, .fin w) ∧
      (dist b w < 2 ^ (-23 : Int) → g.getOutcome dbg ord = .ok (some .draw)) ∧
      (2 ^ (-23 : Int) ≤ dist b w → w < b →
        ∃ d, g.getOutcome dbg ord = .ok (some (.winnerByScore .black (.fin d))) ∧ Rounded (b - w) d) ∧
      (2 ^ (-23 : Int) ≤ dist b w → b < w →
        ∃ d, g.getOutcome dbg ord = .ok (some (.winnerByScore .white (.fin d))) ∧ Rounded (w - b) d)) ∧
    (g.rule.flagScore.komi = true → ∀ s, g.rule.komi = .inf s →
      g.getOutcome dbg ord = .ok (some (.winnerByScore (if s then .black else .white) (.inf false)))) ∧
    (g.rule.flagScore.komi = true → g.rule.komi = .nan → g.getOutcome dbg ord = .ok (some (.winnerByScore .white .nan))) := by
  obtain ⟨pb, pw, b, w, hpb, hpw, hb, hw, hbl, hwl, e⟩ := score_of (f := g.rule.flagScore) h et htb htw
  have e0 : g.calculateScore dbg ord = .ok (.fin b, if g.rule.flagScore.komi then (F32.fin w).add g.rule.komi else .fin w) := e
  refine ⟨fun hs hk => ?_, fun hf s hk => ?_, fun hf hk => ?_⟩
  · obtain ⟨w', ew, hw'⟩ : ∃ w', (if g.rule.flagScore.komi then (F32.fin w).add g.rule.komi else .fin w) = .fin w' ∧ Single w' := by
      cases hf : g.rule.flagScore.komi with
      | false =>
        refine ⟨w, rfl, ?_⟩
        cases hx : (extras g.rule.flagScore pw sw).reverse with
        | nil =>
          rw [List.reverse_eq_nil_iff] at hx
          rw [hx] at hw
          have hw : (w : Rat) = (tw : Rat) := hw
          have : w = tw := Rat.natCast_inj.1 hw
          exact Single.nat (by omega)
        | cons y ys =>
          have key : ∀ (l : List Rat) (a r : Rat), l ≠ [] → RoundedSum a l r → Single r := by
            intro l
            induction l with
            | nil => intro a r h; exact absurd rfl h
            | cons x xs ih =>
              intro a r _ hr
              obtain ⟨c, hc, hr⟩ := hr
              cases xs with
              | nil => cases hr; exact hc.single
              | cons => exact ih _ _ (by simp) hr
          exact key _ _ _ (by intro hnil; rw [hnil] at hx; cases hx) hw
      | true =>
        obtain ⟨v, hv⟩ := hk hf
        obtain ⟨w', e', hw'⟩ := sum_rounded (a := w) (by omega) (hs v hv)
        exact ⟨w', by rw [hv]; exact e', hw'.single⟩
    rw [ew] at e0
    refine ⟨b, w', e0, ?_⟩
    rw [outcome_eq ho h2 e0]
    obtain ⟨h1, h3, h4⟩ := decide_spec (B := b) (by omega) hw'
    refine ⟨fun hd => by rw [h1 hd], fun hd hl => ?_, fun hd hl => ?_⟩
    · obtain ⟨d, e1, r⟩ := h3 hd hl
      exact ⟨d, by rw [e1], r⟩
    · obtain ⟨d, e1, r⟩ := h4 hd hl
      exact ⟨d, by rw [e1], r⟩
  · rw [hf, hk] at e0
    rw [outcome_eq ho h2 e0]
    cases s <;> rfl
  · rw [hf, hk] at e0
    rw [outcome_eq ho h2 e0]
    rfl

/-- **C86**, without any bound: the result of a game ended by two passes, for every komi. With a finite komi it is a draw iff the two
scores differ by less than 2^-23, otherwise a win of the larger, the margin being the exact difference rounded once. With an infinite
komi that counts it is a win by infinity, with one that is not a number a win of White by what is not a number. -/
theorem C86_every_outcome {g : Game} (h : Reach dbg n m g) (ho : g.outcome = none) (h2 : 2 ≤ g.passes)
    {ord : List Point → List Point} (hord : ∀ l, (ord l).Perm l) :
    ((∀ v, g.rule.komi = .fin v → Single v) → (g.rule.flagScore.komi = true → ∃ v, g.rule.komi = .fin v) →
      ∃ b w : Rat, g.calculateScore dbg ord = .ok (.fin b, .fin w) ∧
      (dist b w < 2 ^ (-23 : Int) → g.getOutcome dbg ord = .ok (some .draw)) ∧
      (2 ^ (-23 : Int) ≤ dist b w → w < b →
        ∃ d, g.getOutcome dbg ord = .ok (some (.winnerByScore .black (.fin d))) ∧ Rounded (b - w) d) ∧
      (2 ^ (-23 : Int) ≤ dist b w → b < w →
        ∃ d, g.getOutcome dbg ord = .ok (some (.winnerByScore .white (.fin d))) ∧ Rounded (w - b) d)) ∧
    (g.rule.flagScore.komi = true → ∀ s, g.rule.komi = .inf s →
      g.getOutcome dbg ord = .ok (some (.winnerByScore (if s then .black else .white) (.inf false)))) ∧
    (g.rule.flagScore.komi = true → g.rule.komi = .nan → g.getOutcome dbg ord = .ok (some (.winnerByScore .white .nan))) := by
  have h2' : (n : Dim).area ≤ 19 * 19 := h.inv.good.area_le
  have t1 := territorySize_le (n := n) g.goban.view .black
  have t2 := territorySize_le (n := n) g.goban.view .white
  exact outcome_of h.tally ho h2 (calculateTerritories_ok h.inv hord) (by omega) (by omega)

/-- Rounding loses nothing as long as the sum stays below 2^24. -/
theorem RoundedSum.exact {f : ScoreRules} {t p s : Nat} {p' b : Rat} (hp : Rounded (p : Rat) p') (h : RoundedSum t (extras f p' s) b)
    (hs : t + (if f.prisonners then p else 0) + (if f.stones then s else 0) < 2 ^ 24) :
    b = ((t + (if f.prisonners then p else 0) + (if f.stones then s else 0) : Nat) : Rat) := by
  unfold extras at h
  cases h1 : f.prisonners <;> cases h2 : f.stones <;>
    simp only [h1, h2, Bool.false_eq_true, if_true, if_false, List.nil_append, List.append_nil, List.cons_append] at h hs ⊢
  · exact h
  · obtain ⟨_, hc, rfl⟩ := h
    rw [← Rat.natCast_add] at hc
    exact hc.exact (Single.nat (by omega))
  · obtain ⟨_, hc, rfl⟩ := h
    rw [hp.exact (Single.nat (by omega)), ← Rat.natCast_add] at hc
    exact hc.exact (Single.nat (by omega))
  · obtain ⟨_, hc, _, hd, rfl⟩ := h
    rw [hp.exact (Single.nat (by omega)), ← Rat.natCast_add] at hc
    rw [hc.exact (Single.nat (by omega)), ← Rat.natCast_add] at hd
    exact hd.exact (Single.nat (by omega))

/-- **C86**: on boards of up to 11 × 11 points no game is long enough for rounding to be lost before the komi: whatever the number of
prisoners, Black's score is exact and White's is the exact sum, rounded once. -/
theorem C86_small_boards {g : Game} {f : ScoreRules} {v : Rat} (hn : n ≤ 11) (h : Reach dbg n m g)
    (hk : g.rule.komi = .fin v) (hv : Single v) {ord : List Point → List Point} (hord : ∀ l, (ord l).Perm l) :
    ∃ w, g.calculateScoreBy dbg ord f = .ok (.fin (blackPoints n g f), .fin w) ∧
      Rounded ((whitePoints n g f : Rat) + (if f.komi then v else 0)) w := by
  obtain ⟨pb, pw, b, w, hpb, hpw, hb, hw, hbl, hwl, e⟩ := score_every (f := f) h hord
  have h2 : (n : Dim).area ≤ 11 * 11 := Nat.mul_le_mul hn hn
  have hl : lifeOf n ≤ 131070 * 122 + 121 := by unfold lifeOf; omega
  have hfew := h.few
  have t1 := territorySize_le (n := n) g.goban.view .black
  have t2 := territorySize_le (n := n) g.goban.view .white
  have s1 := count_le_size (n := n) g.goban.view (some .black)
  have s2 := count_le_size (n := n) g.goban.view (some .white)
  have eb := RoundedSum.exact hpb hb (by split <;> split <;> omega)
  have ew := RoundedSum.exact hpw hw (by split <;> split <;> omega)
  have ew' : (w : Rat) = (whitePoints n g f : Rat) := ew
  have hw24 : w < 2 ^ 24 := by
    have := Rat.natCast_inj.1 ew
    rw [this]
    split <;> split <;> omega
  rw [e, hk, eb, ← ew']
  cases f.komi with
  | false =>
    refine ⟨w, rfl, ?_⟩
    simp only [Bool.false_eq_true, if_false, Rat.add_zero]
    exact Rounded.self (Single.nat hw24)
  | true =>
    obtain ⟨w', e', hw'⟩ := sum_rounded (a := w) (by omega) hv
    exact ⟨w', by simp only [if_true, e']; rfl, hw'⟩

/-- Where rounding begins: 2^24 + 1 prisoners would count for 2^24, and 2^24 + 3 for 2^24 + 4. -/
example : Rounded ((16777217 : Nat) : Rat) 16777216 ∧ Rounded ((16777219 : Nat) : Rat) 16777220 := by
  obtain ⟨v, e, h⟩ := ofNat_rounded (k := 16777217) (by decide)
  obtain ⟨w, e', h'⟩ := ofNat_rounded (k := 16777219) (by decide)
  have e1 : F32.ofNat 16777217 = .fin 16777216 := by decide +kernel
  have e2 : F32.ofNat 16777219 = .fin 16777220 := by decide +kernel
  rw [e1, F32.fin.injEq] at e
  rw [e2, F32.fin.injEq] at e'
  rw [← e] at h
  rw [← e'] at h'
  exact ⟨h.1, h'.1⟩

/-- Non-vacuity: a game with territory, stones and a komi that is rounded away in part, to which the theorems above apply. -/
example : ∃ m g, Reach true 3 m g ∧ g.outcome = none ∧ 2 ≤ g.passes ∧ g.rule.komi = .fin (3 / 2097152) ∧
    g.calculateScore true id = .ok (.fin 0, .fin (9 + 1 / 524288)) := by
  obtain ⟨g, h, e⟩ := mkGame_exists (dbg := true) (n := 3) (rule := CHINESE) (l := exWhite ++ [.setKomi (.fin (3 / 2097152))])
    (f := fun g => decide (g.outcome = none ∧ 2 ≤ g.passes ∧ g.rule.komi = .fin (3 / 2097152)) &&
      okAnd (g.calculateScore true id) (fun s => decide (s = (.fin 0, .fin (9 + 1 / 524288))))) (by decide) (by decide +kernel)
  rw [Bool.and_eq_true, decide_eq_true_eq] at e
  obtain ⟨s, e1, e2⟩ := okAnd_iff.1 e.2
  rw [of_decide_eq_true e2] at e1
  obtain ⟨m, _, hr⟩ := h.reach
  exact ⟨m, g, hr, e.1.1, e.1.2.1, e.1.2.2, e1⟩

end Model
