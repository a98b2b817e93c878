import Verif.Proofs.Float
import Verif.Props.Score
/-!
# Scores and results for every komi: C86
-/

namespace Model
open Spec (Single Rounded dist)

variable {dbg : Bool} {m n : Nat}

/-- Prisoners are fewer than 2^20 (asked only when they count). -/
structure FewPrisoners (g : Game) (f : ScoreRules) : Prop where
  black : f.prisonners = true → g.prisoners.1 < 2 ^ 20
  white : f.prisonners = true → g.prisoners.2 < 2 ^ 20

/-- The score before the komi is added. -/
theorem score_add {g : Game} {f : ScoreRules} (hI : Inv n g.goban) (hp : FewPrisoners g f)
    {ord : List Point → List Point} (hord : ∀ l, (ord l).Perm l) :
    g.calculateScoreBy dbg ord f = .ok (.fin (blackPoints n g f),
      if f.komi then (F32.fin (whitePoints n g f)).add g.rule.komi else .fin (whitePoints n g f)) := by
  have h2 : (n : Dim).area ≤ 19 * 19 := Nat.mul_le_mul hI.good.h19 hI.good.h19
  have hb := sum_ok (f1 := f.prisonners) (f2 := f.stones) (show Spec.territorySize n g.goban.view .black < 2 ^ 20 from
    by have := territorySize_le (n := n) g.goban.view .black; omega) hp.black
    (show Spec.count n g.goban.view (some .black) < 2 ^ 20 from
      by have := count_le_size (n := n) g.goban.view (some .black); omega)
  have hw := sum_ok (f1 := f.prisonners) (f2 := f.stones) (show Spec.territorySize n g.goban.view .white < 2 ^ 20 from
    by have := territorySize_le (n := n) g.goban.view .white; omega) hp.white
    (show Spec.count n g.goban.view (some .white) < 2 ^ 20 from
      by have := count_le_size (n := n) g.goban.view (some .white); omega)
  have e : ∀ k : Nat, F32.half (2 * (k : Int)) = .fin (k : Rat) := by
    intro k; unfold F32.half; rw [Rat.intCast_mul, Rat.intCast_natCast]
    congr 1
    show 2 * (k : Rat) / 2 = k
    grind
  rw [e] at hb hw
  unfold Game.calculateScoreBy
  rw [calculateTerritories_ok hI hord, ok_bind, numberOfStones_ok hI]
  dsimp only
  unfold blackPoints whitePoints
  rw [← hb, ← hw]
  cases f.prisonners <;> cases f.stones <;> cases f.komi <;> rfl

theorem black_lt {g : Game} {f : ScoreRules} (hI : Inv n g.goban) (hp : FewPrisoners g f) : blackPoints n g f < 2 ^ 21 := by
  have := points_lt (f2 := f.stones) hI.good.h19 (territorySize_le (n := n) g.goban.view .black)
    (count_le_size (n := n) g.goban.view (some .black)) hp.black
  unfold blackPoints
  omega

theorem white_lt {g : Game} {f : ScoreRules} (hI : Inv n g.goban) (hp : FewPrisoners g f) : whitePoints n g f < 2 ^ 21 := by
  have := points_lt (f2 := f.stones) hI.good.h19 (territorySize_le (n := n) g.goban.view .white)
    (count_le_size (n := n) g.goban.view (some .white)) hp.white
  unfold whitePoints
  omega

/-- **C86**. Any finite komi: Black's score is exact and White's is the exact sum, rounded once as IEEE 754 asks. -/
theorem C86_score {g : Game} {f : ScoreRules} {v : Rat} (h : Reach dbg n m g) (hp : FewPrisoners g f)
    (hk : g.rule.komi = .fin v) (hv : Single v) {ord : List Point → List Point} (hord : ∀ l, (ord l).Perm l) :
    ∃ w, g.calculateScoreBy dbg ord f = .ok (.fin (blackPoints n g f), .fin w) ∧
      Rounded ((whitePoints n g f : Rat) + (if f.komi then v else 0)) w := by
  rw [score_add h.inv hp hord]
  have hwl := white_lt h.inv hp
  cases f.komi
  · refine ⟨(whitePoints n g f : Rat), rfl, ?_⟩
    simp only [Bool.false_eq_true, if_false, Rat.add_zero]
    exact Rounded.self (Single.nat (by omega))
  · simp only [if_true, hk]
    have hs := F32.sum_small (a := (whitePoints n g f : Int)) (by omega) hv
    rw [Rat.intCast_natCast] at hs
    obtain ⟨w, e, hw⟩ := F32.round_spec hs
    refine ⟨w, ?_, hw⟩
    rw [← e]
    rfl

/-- **C86**. A komi that is infinite or not a number makes White's score so. -/
theorem C86_score_other {g : Game} {f : ScoreRules} (h : Reach dbg n m g) (hp : FewPrisoners g f) (hf : f.komi = true)
    (hk : ∀ v, g.rule.komi ≠ .fin v) {ord : List Point → List Point} (hord : ∀ l, (ord l).Perm l) :
    g.calculateScoreBy dbg ord f = .ok (.fin (blackPoints n g f), g.rule.komi) := by
  rw [score_add h.inv hp hord, hf, if_pos rfl]
  cases hc : g.rule.komi with
  | nan => rfl
  | inf s => rfl
  | fin v => exact absurd hc (hk v)

theorem outcome_eq {g : Game} {s : F32 × F32} {ord : List Point → List Point} (ho : g.outcome = none) (hp : 2 ≤ g.passes)
    (hs : g.calculateScore dbg ord = .ok s) : g.getOutcome dbg ord = .ok (some (Game.decideByScore s)) := by
  unfold Game.getOutcome Game.isOver
  rw [ho, hs]
  simp [hp, ok_bind]

/-- **C86**. The result of a game ended by two passes, for any finite komi, in terms of the two scores it computes: a draw iff they
differ by less than 2^-23, otherwise a win of the larger, the margin being the exact difference rounded once. -/
theorem C86_outcome {g : Game} {v : Rat} (h : Reach dbg n m g) (ho : g.outcome = none) (h2 : 2 ≤ g.passes)
    (hp : FewPrisoners g g.rule.flagScore) (hk : g.rule.komi = .fin v) (hv : Single v)
    {ord : List Point → List Point} (hord : ∀ l, (ord l).Perm l) :
    ∃ b w : Rat, g.calculateScore dbg ord = .ok (.fin b, .fin w) ∧
      (dist b w < 2 ^ (-23 : Int) → g.getOutcome dbg ord = .ok (some .draw)) ∧
      (2 ^ (-23 : Int) ≤ dist b w → w < b →
        ∃ d, g.getOutcome dbg ord = .ok (some (.winnerByScore .black (.fin d))) ∧ Rounded (b - w) d) ∧
      (2 ^ (-23 : Int) ≤ dist b w → b < w →
        ∃ d, g.getOutcome dbg ord = .ok (some (.winnerByScore .white (.fin d))) ∧ Rounded (w - b) d) := by
  obtain ⟨w, e, hw⟩ := C86_score (f := g.rule.flagScore) h hp hk hv hord
  have e0 : g.calculateScore dbg ord = .ok (.fin (blackPoints n g g.rule.flagScore), .fin w) := e
  refine ⟨(blackPoints n g g.rule.flagScore : Rat), w, e0, ?_⟩
  rw [outcome_eq ho h2 e0]
  have hb := black_lt h.inv hp
  generalize blackPoints n g g.rule.flagScore = B at *
  have hsw := hw.single
  have o1 : F32.rabs ((B : Rat) - w) < Spec.overflow := by
    have := F32.sum_small (a := (B : Int)) (by omega) hsw.neg
    rwa [Rat.intCast_natCast, ← Rat.sub_eq_add_neg] at this
  have o2 : F32.rabs (w - (B : Rat)) < Spec.overflow := by
    have : F32.rabs (w - (B : Rat)) = F32.rabs ((B : Rat) - w) := by unfold F32.rabs; grind
    rwa [this]
  obtain ⟨d1, e1, r1⟩ := F32.round_spec o1
  obtain ⟨d2, e2, r2⟩ := F32.round_spec o2
  have s1 : F32.sub (.fin (B : Rat)) (.fin w) = .fin d1 := by
    unfold F32.sub F32.neg F32.add
    dsimp only
    rw [← Rat.sub_eq_add_neg, e1]
  have s2 : F32.sub (.fin w) (.fin (B : Rat)) = .fin d2 := by
    unfold F32.sub F32.neg F32.add
    dsimp only
    rw [← Rat.sub_eq_add_neg, e2]
  have hdist : dist (B : Rat) w = F32.rabs ((B : Rat) - w) := by unfold dist F32.rabs; grind
  rw [hdist]
  unfold Game.decideByScore
  dsimp only
  rw [s1, s2]
  have habs : F32.lt (F32.abs (.fin d1)) F32.EPSILON = decide (F32.rabs d1 < 2 ^ (-23 : Int)) := rfl
  have hlt : F32.lt (.fin w) (.fin (B : Rat)) = decide (w < (B : Rat)) := rfl
  rw [habs, hlt]
  refine ⟨fun hd => ?_, fun hd hwb => ⟨d1, ?_, r1⟩, fun hd hwb => ⟨d2, ?_, r2⟩⟩
  · rw [r1.exact (F32.near_nat hsw hd), if_pos (by simpa using hd)]
  · have := r1.rabs_ge F32.single_eps (Rat.le_of_lt (F32.pow2_pos _)) hd
    rw [if_neg (by simpa using Rat.not_lt.2 this), if_pos (by simpa using hwb)]
  · have := r1.rabs_ge F32.single_eps (Rat.le_of_lt (F32.pow2_pos _)) hd
    rw [if_neg (by simpa using Rat.not_lt.2 this), if_neg (by simpa using Rat.not_lt.2 (Rat.le_of_lt hwb))]

/-- **C86**. A komi that is not a number: White wins, by a margin that is not a number. -/
theorem C86_outcome_nan {g : Game} (h : Reach dbg n m g) (ho : g.outcome = none) (h2 : 2 ≤ g.passes)
    (hp : FewPrisoners g g.rule.flagScore) (hf : g.rule.flagScore.komi = true) (hk : g.rule.komi = .nan)
    {ord : List Point → List Point} (hord : ∀ l, (ord l).Perm l) :
    g.getOutcome dbg ord = .ok (some (.winnerByScore .white .nan)) := by
  have e := C86_score_other (f := g.rule.flagScore) h hp hf (by simp [hk]) hord
  rw [outcome_eq ho h2 e, hk]
  rfl

/-- **C86**. An infinite komi: White wins by infinity if it is positive, Black if it is negative. -/
theorem C86_outcome_infinite {g : Game} {s : Bool} (h : Reach dbg n m g) (ho : g.outcome = none) (h2 : 2 ≤ g.passes)
    (hp : FewPrisoners g g.rule.flagScore) (hf : g.rule.flagScore.komi = true) (hk : g.rule.komi = .inf s)
    {ord : List Point → List Point} (hord : ∀ l, (ord l).Perm l) :
    g.getOutcome dbg ord = .ok (some (.winnerByScore (if s then .black else .white) (.inf false))) := by
  have e := C86_score_other (f := g.rule.flagScore) h hp hf (by simp [hk]) hord
  rw [outcome_eq ho h2 e, hk]
  cases s <;> rfl

/-- **C86**. The rounding is well defined: there is one rounded value. -/
theorem C86_one_rounding {x v w : Rat} (hv : Rounded x v) (hw : Rounded x w) : v = w := hv.unique hw

/-- The game used below: White has the board. -/
def exWhite : List GOp := [.try_ .pass, .try_ (.play 1 1), .try_ .pass, .try_ .pass]

/-- Non-vacuity of C86: nine points and a komi of 2^-21 or 3·2^-21, each halfway between two values (one rounded down, one up), a komi of
the largest finite size, an infinite one. -/
example : (∃ g, Legal true 3 4 g ∧ (okAnd (g.calculateScore true id) (fun s => s == (.fin 0, .fin 9)) &&
      okAnd (g.getOutcome true id) (fun o => o == some (.winnerByScore .white (.fin 9)))) = true) ∧
    (∃ g, Legal true 3 4 g ∧ okAnd (g.calculateScore true id)
      (fun s => s == (.fin 0, .fin (9 + 1 / 524288))) = true) ∧
    (∃ g, Legal true 3 4 g ∧ okAnd (g.getOutcome true id)
      (fun o => o == some (.winnerByScore .white (.fin (2 ^ (128 : Int) - 2 ^ (104 : Int))))) = true) ∧
    (∃ g, Legal true 3 4 g ∧ okAnd (g.getOutcome true id) (fun o => o == some (.winnerByScore .black (.inf false))) = true) :=
  ⟨mkGame_exists (rule := CHINESE) (l := exWhite ++ [.setKomi (.fin (1 / 2097152))]) (by decide) (by decide +kernel),
   mkGame_exists (rule := CHINESE) (l := exWhite ++ [.setKomi (.fin (3 / 2097152))]) (by decide) (by decide +kernel),
   mkGame_exists (rule := CHINESE) (l := exWhite ++ [.setKomi (.fin (2 ^ (128 : Int) - 2 ^ (104 : Int)))]) (by decide) (by decide +kernel),
   mkGame_exists (rule := CHINESE) (l := exWhite ++ [.setKomi (.inf true)]) (by decide) (by decide +kernel)⟩

end Model
