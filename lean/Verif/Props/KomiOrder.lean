import Verif.Props.AnyCounting
import Verif.Props.Strategy
/-!
# A larger komi never helps Black: C117
-/

namespace Model
open Spec (Single Rounded dist)

variable {dbg : Bool} {s : Size} {b w : Nat} {g : Game}

/-- Order of the values of `f32` (what is not a number is not comparable). -/
def F32.Le : F32 → F32 → Prop
  | .fin a, .fin c => a ≤ c
  | .inf true, .nan => False
  | .inf true, _ => True
  | .nan, _ => False
  | _, .inf false => True
  | _, _ => False

/-- A value of `f32`: if it is finite it is one of the representable numbers. -/
def F32.Value (k : F32) : Prop := ∀ v, k = .fin v → Single v

/-- Rounding keeps the order. -/
theorem _root_.Spec.Rounded.mono {x y v w : Rat} (hxy : x ≤ y) (hv : Rounded x v) (hw : Rounded y w) : v ≤ w := by
  apply Rat.not_lt.1
  intro hlt
  have h1 := hv.nearest w hw.single
  have h2 := hw.nearest v hv.single
  by_cases hxe : x = y
  · subst hxe
    have := hv.unique hw
    grind
  · unfold dist at h1 h2
    grind

theorem F32.Le.refl {k : F32} (h : k ≠ .nan) : F32.Le k k := by
  cases k with
  | nan => exact absurd rfl h
  | inf t => cases t <;> trivial
  | fin v => exact Rat.le_refl

theorem F32.Le.left {k k' : F32} (h : F32.Le k k') : k ≠ .nan := by
  rintro rfl; cases k' with
  | nan => exact h
  | inf t => exact h
  | fin v => exact h

theorem F32.Le.right {k k' : F32} (h : F32.Le k k') : k' ≠ .nan := by
  rintro rfl; cases k with
  | nan => exact h
  | inf t => cases t <;> exact h
  | fin v => exact h

/-- Adding a komi to a number of points. -/
theorem add_komi {y : Nat} (hy : y < 2 ^ 31) {k : F32} (hk : k.Value) (hn : k ≠ .nan) :
    ((F32.fin y).add k) ≠ .nan ∧ ((F32.fin y).add k).Value := by
  cases k with
  | nan => exact absurd rfl hn
  | inf t => exact ⟨fun h => (nomatch h), fun v h => (nomatch h)⟩
  | fin v =>
    obtain ⟨q, e, hq⟩ := sum_rounded hy (hk v rfl)
    rw [e]
    exact ⟨fun h => (nomatch h), fun v h => by cases h; exact hq.single⟩

theorem add_komi_mono {y : Nat} (hy : y < 2 ^ 31) {k k' : F32} (hk : k.Value) (hk' : k'.Value) (hle : F32.Le k k') :
    F32.Le ((F32.fin y).add k) ((F32.fin y).add k') := by
  cases k with
  | nan => exact absurd rfl hle.left
  | inf t =>
    cases t with
    | false =>
      cases k' with
      | nan => exact absurd rfl hle.right
      | inf t' => cases t' <;> trivial
      | fin v' => exact hle.elim
    | true =>
      cases k' with
      | nan => exact absurd rfl hle.right
      | inf t' => cases t' <;> trivial
      | fin v' =>
        obtain ⟨q, e, hq⟩ := sum_rounded hy (hk' v' rfl)
        rw [e]; trivial
  | fin v =>
    obtain ⟨q, e, hq⟩ := sum_rounded hy (hk v rfl)
    cases k' with
    | nan => exact absurd rfl hle.right
    | inf t' =>
      cases t' with
      | true => exact hle.elim
      | false => rw [e]; trivial
    | fin v' =>
      obtain ⟨q', e', hq'⟩ := sum_rounded hy (hk' v' rfl)
      rw [e, e']
      have hle : v ≤ v' := hle
      exact hq.mono (by grind) hq'

/-- The scores under two kinds of komi. -/
theorem tally_scores {f : ScoreRules} {k k' : F32} {sb sw : Nat} (ht : Tally g sb sw) (hk : k.Value) (hk' : k'.Value) (hle : F32.Le k k')
    {ord : List Point → List Point} {tb tw : Nat} (et : g.goban.calculateTerritories dbg ord = .ok (tb, tw)) (hb : tb ≤ 2 ^ 18)
    (hw : tw ≤ 2 ^ 18) :
    ∃ (x : Nat) (z z' : F32), x < 2 ^ 30 ∧ (g.setKomi k).calculateScoreBy dbg ord f = .ok (.fin x, z) ∧
      (g.setKomi k').calculateScoreBy dbg ord f = .ok (.fin x, z') ∧ F32.Le z z' ∧ z.Value ∧ z'.Value ∧ (f.komi = false → z = z') := by
  obtain ⟨pb, x, hpb, _, hxl, ex⟩ := side_sum hb ht.byBlack ht.black f
  obtain ⟨pw, y, hpw, hys, hyl, ey⟩ := side_sum hw ht.byWhite ht.white f
  have e2 : ∀ k, (g.setKomi k).calculateScoreBy dbg ord f = .ok (.fin x, if f.komi then (F32.fin y).add k else .fin y) := by
    intro k
    unfold Game.calculateScoreBy
    show (g.goban.calculateTerritories dbg ord >>= _) = _
    rw [et, ok_bind]
    have : (g.setKomi k).goban.numberOfStones = _ := ht.stones
    rw [this]
    dsimp only
    rw [← ex, ← ey]
    cases f.prisonners <;> cases f.stones <;> cases f.komi <;> rfl
  refine ⟨x, _, _, hxl, e2 k, e2 k', ?_⟩
  cases f.komi with
  | true =>
    exact ⟨add_komi_mono (by omega) hk hk' hle, (add_komi (by omega) hk hle.left).2, (add_komi (by omega) hk' hle.right).2, by simp⟩
  | false =>
    have hs : Single (y : Rat) := roundedSum_single (Single.nat (by omega)) hys
    have hv : (F32.fin (y : Rat)).Value := fun v e => by cases e; exact hs
    exact ⟨Rat.le_refl, hv, hv, fun _ => rfl⟩

theorem komi_scores {f : ScoreRules} {k k' : F32} (h : AnyGame dbg s b w g) (hk : k.Value) (hk' : k'.Value) (hle : F32.Le k k')
    {ord : List Point → List Point} (hord : ∀ l, (ord l).Perm l) (dbg' : Bool) :
    ∃ (x : Nat) (z z' : F32), x < 2 ^ 30 ∧ (g.setKomi k).calculateScoreBy dbg' ord f = .ok (.fin x, z) ∧
      (g.setKomi k').calculateScoreBy dbg' ord f = .ok (.fin x, z') ∧ F32.Le z z' ∧ z.Value ∧ z'.Value ∧ (f.komi = false → z = z') := by
  obtain ⟨tb, tw, hb, hw, hu⟩ := h.counted
  exact tally_scores (h.tally h.rep.1.cells) hk hk' hle (hu hord dbg') hb hw

theorem dist_white {x y : Rat} (h : 2 ^ (-23 : Int) ≤ dist x y) : x < y ∨ y < x := by
  have h0 : (0 : Rat) < 2 ^ (-23 : Int) := F32.pow2_pos _
  generalize (2 : Rat) ^ (-23 : Int) = E at *
  unfold dist at h
  grind

/-- The comparison of the scores, when White's grows. -/
theorem decide_mono {B : Nat} (hB : B < 2 ^ 31) {z z' : F32} (hz : z.Value) (hz' : z'.Value) (hle : F32.Le z z') :
    (∀ d, Game.decideByScore (.fin B, z) = .winnerByScore .white d →
      ∃ d', Game.decideByScore (.fin B, z') = .winnerByScore .white d' ∧ F32.Le d d') ∧
    (∀ d', Game.decideByScore (.fin B, z') = .winnerByScore .black d' →
      ∃ d, Game.decideByScore (.fin B, z) = .winnerByScore .black d ∧ F32.Le d' d) := by
  have winf : Game.decideByScore (.fin B, .inf false) = .winnerByScore .white (.inf false) := rfl
  have binf : Game.decideByScore (.fin B, .inf true) = .winnerByScore .black (.inf false) := rfl
  have hmax : ∀ {d : F32}, d ≠ .nan → F32.Le d (.inf false) := by
    intro d hd
    cases d with
    | nan => exact absurd rfl hd
    | inf t => cases t <;> trivial
    | fin v => trivial
  cases z with
  | nan => exact absurd rfl hle.left
  | inf t =>
    cases t with
    | false =>
      have : z' = .inf false := by
        cases z' with
        | nan => exact absurd rfl hle.right
        | inf t' => cases t' with
          | false => rfl
          | true => exact hle.elim
        | fin v => exact hle.elim
      subst this
      exact ⟨fun d e => ⟨d, e, by rw [winf] at e; cases e; trivial⟩, fun d e => by rw [winf] at e; cases e⟩
    | true =>
      refine ⟨fun d e => (by rw [binf] at e; cases e), fun d' e => ⟨_, binf, hmax ?_⟩⟩
      rintro rfl
      cases z' with
      | nan => exact hle.right rfl
      | inf t' => cases t' <;> cases e
      | fin v =>
        obtain ⟨h1, h2, h3⟩ := decide_spec hB (hz' v rfl)
        by_cases hd : dist (B : Rat) v < 2 ^ (-23 : Int)
        · rw [h1 hd] at e; cases e
        · rcases dist_white (Rat.not_lt.1 hd) with hl | hl
          · obtain ⟨d, e', _⟩ := h3 (Rat.not_lt.1 hd) hl; rw [e'] at e; cases e
          · obtain ⟨d, e', _⟩ := h2 (Rat.not_lt.1 hd) hl; rw [e'] at e; cases e
  | fin v =>
    obtain ⟨h1, h2, h3⟩ := decide_spec hB (hz v rfl)
    cases z' with
    | nan => exact absurd rfl hle.right
    | inf t' =>
      cases t' with
      | true => exact hle.elim
      | false =>
        refine ⟨fun d e => ⟨_, winf, hmax ?_⟩, fun d e => by rw [winf] at e; cases e⟩
        rintro rfl
        by_cases hd : dist (B : Rat) v < 2 ^ (-23 : Int)
        · rw [h1 hd] at e; cases e
        · rcases dist_white (Rat.not_lt.1 hd) with hl | hl
          · obtain ⟨d, e', _⟩ := h3 (Rat.not_lt.1 hd) hl; rw [e'] at e; cases e
          · obtain ⟨d, e', _⟩ := h2 (Rat.not_lt.1 hd) hl; rw [e'] at e; cases e
    | fin v' =>
      obtain ⟨k1, k2, k3⟩ := decide_spec hB (hz' v' rfl)
      have hle : v ≤ v' := hle
      have h0 : (0 : Rat) < 2 ^ (-23 : Int) := F32.pow2_pos _
      constructor
      · intro d e
        by_cases hd : dist (B : Rat) v < 2 ^ (-23 : Int)
        · rw [h1 hd] at e; cases e
        have hd := Rat.not_lt.1 hd
        rcases dist_white hd with hl | hl
        · obtain ⟨d1, e', r⟩ := h3 hd hl
          rw [e'] at e; cases e
          obtain ⟨d2, e2, r2⟩ := k3 (by
            generalize (2 : Rat) ^ (-23 : Int) = E at *
            unfold dist at hd ⊢; grind) (by grind)
          exact ⟨_, e2, r.mono (show v - (B : Rat) ≤ v' - (B : Rat) by grind) r2⟩
        · obtain ⟨d1, e', _⟩ := h2 hd hl; rw [e'] at e; cases e
      · intro d e
        by_cases hd : dist (B : Rat) v' < 2 ^ (-23 : Int)
        · rw [k1 hd] at e; cases e
        have hd := Rat.not_lt.1 hd
        rcases dist_white hd with hl | hl
        · obtain ⟨d1, e', _⟩ := k3 hd hl; rw [e'] at e; cases e
        · obtain ⟨d1, e', r⟩ := k2 hd hl
          rw [e'] at e; cases e
          obtain ⟨d2, e2, r2⟩ := h2 (by
            generalize (2 : Rat) ^ (-23 : Int) = E at *
            unfold dist at hd ⊢; grind) (by grind)
          exact ⟨_, e2, r.mono (show (B : Rat) - v' ≤ (B : Rat) - v by grind) r2⟩

/-- **C117**. A larger komi does not change Black's score and does not make White's smaller. -/
theorem C117_score {f : ScoreRules} {k k' : F32} (h : AnyGame dbg s b w g) (hk : k.Value) (hk' : k'.Value) (hle : F32.Le k k')
    {ord : List Point → List Point} (hord : ∀ l, (ord l).Perm l) (dbg' : Bool) :
    ∃ x z z', (g.setKomi k).calculateScoreBy dbg' ord f = .ok (x, z) ∧ (g.setKomi k').calculateScoreBy dbg' ord f = .ok (x, z') ∧
      F32.Le z z' ∧ (f.komi = false → z = z') := by
  obtain ⟨x, z, z', _, h1, h2, h3, _, _, h4⟩ := komi_scores (f := f) h hk hk' hle hord dbg'
  exact ⟨_, z, z', h1, h2, h3, h4⟩

/-- **C117**. After two passes a larger komi never helps Black: if White wins, White still wins, by at least as much; if Black wins with
the larger komi, Black wins with the smaller, by at least as much. -/
theorem C117_winner {k k' : F32} (h : AnyGame dbg s b w g) (ho : g.outcome = none) (h2 : 2 ≤ g.passes) (hk : k.Value) (hk' : k'.Value)
    (hle : F32.Le k k') {ord : List Point → List Point} (hord : ∀ l, (ord l).Perm l) (dbg' : Bool) :
    (∀ d, (g.setKomi k).getOutcome dbg' ord = .ok (some (.winnerByScore .white d)) →
      ∃ d', (g.setKomi k').getOutcome dbg' ord = .ok (some (.winnerByScore .white d')) ∧ F32.Le d d') ∧
    (∀ d', (g.setKomi k').getOutcome dbg' ord = .ok (some (.winnerByScore .black d')) →
      ∃ d, (g.setKomi k).getOutcome dbg' ord = .ok (some (.winnerByScore .black d)) ∧ F32.Le d' d) := by
  obtain ⟨x, z, z', hx, e1, e2, h3, hz, hz', _⟩ := komi_scores (f := g.rule.flagScore) h hk hk' hle hord dbg'
  have e1 : (g.setKomi k).calculateScore dbg' ord = .ok (.fin x, z) := e1
  have e2 : (g.setKomi k').calculateScore dbg' ord = .ok (.fin x, z') := e2
  rw [outcome_eq (g := g.setKomi k) ho h2 e1, outcome_eq (g := g.setKomi k') ho h2 e2]
  obtain ⟨a, c⟩ := decide_mono (B := x) (by omega) hz hz' h3
  constructor
  · intro d e
    obtain ⟨d', e', hd⟩ := a d (Option.some.inj (Except.ok.inj e))
    exact ⟨d', by rw [e'], hd⟩
  · intro d e
    obtain ⟨d', e', hd⟩ := c d (Option.some.inj (Except.ok.inj e))
    exact ⟨d', by rw [e'], hd⟩

/-- **C117**. There is one fair komi, Black's lead counted without komi: with less Black wins, with more White, by exactly the
difference. (For multiples of a half below 2^20 and fewer than 2^20 prisoners, if they count.) -/
theorem C117_fair (h : AnyGame dbg s b w g) (ho : g.outcome = none) (h2 : 2 ≤ g.passes) (hf : g.rule.flagScore.komi = true)
    (hp : g.rule.flagScore.prisonners = true → g.prisoners.1 < 2 ^ 20 ∧ g.prisoners.2 < 2 ^ 20)
    {ord : List Point → List Point} (hord : ∀ l, (ord l).Perm l) (dbg' : Bool) :
    ∃ x y : Nat, g.calculateScoreBy dbg' ord { g.rule.flagScore with komi := false } = .ok (.fin x, .fin y) ∧
      ∀ K : Int, K.natAbs < 2 ^ 21 → ∀ d : Rat, d = (x : Rat) - y - (K : Rat) / 2 →
        (g.setKomi (.fin ((K : Rat) / 2))).getOutcome dbg' ord = .ok (some (
          if 0 < d then .winnerByScore .black (.fin d) else if d < 0 then .winnerByScore .white (.fin (-d)) else .draw)) := by
  obtain ⟨x, y, e1, _⟩ := C64_any_size_exact (K := 0) h hf (by decide) hp hord dbg' rfl
  refine ⟨x, y, e1, fun K hK d hd => ?_⟩
  obtain ⟨x', y', e1', e2⟩ := C64_any_size_exact (K := K) h hf hK hp hord dbg' rfl
  rw [e1] at e1'
  have hx : x = x' ∧ y = y' := by
    have := Except.ok.inj e1'
    injection this with a c
    injection a with a
    injection c with c
    exact ⟨Rat.natCast_inj.1 a, Rat.natCast_inj.1 c⟩
  obtain ⟨rfl, rfl⟩ := hx
  have hx : Exact (g.setKomi (.fin ((K : Rat) / 2))) g.rule.flagScore K := ⟨fun _ => rfl, hK, fun h => (hp h).1, fun h => (hp h).2⟩
  obtain ⟨p, q, e3, r1, r2, r3⟩ := C100_two_passes (g := g.setKomi (.fin ((K : Rat) / 2))) (.setKomi h) ho h2 hx hord dbg'
  have e2 : (g.setKomi (.fin ((K : Rat) / 2))).calculateScore dbg' ord = _ := e2
  rw [e2] at e3
  cases e3
  by_cases h1 : 0 < d
  · rw [if_pos h1, r2 (by grind)]; congr 3; congr 1; grind
  · by_cases h3 : d < 0
    · rw [if_neg h1, if_pos h3, r3 (by grind)]; congr 3; congr 1; grind
    · rw [if_neg h1, if_neg h3, r1 (by grind)]

/-- **C117**. With half a point in the komi there is no draw. -/
theorem C117_half (h : AnyGame dbg s b w g) (ho : g.outcome = none) (h2 : 2 ≤ g.passes) (hf : g.rule.flagScore.komi = true)
    (hp : g.rule.flagScore.prisonners = true → g.prisoners.1 < 2 ^ 20 ∧ g.prisoners.2 < 2 ^ 20) {K : Int} (hK : K.natAbs < 2 ^ 21)
    (hodd : K % 2 = 1) (hk : g.rule.komi = .fin ((K : Rat) / 2)) {ord : List Point → List Point} (hord : ∀ l, (ord l).Perm l) (dbg' : Bool) :
    ∃ c d, g.getOutcome dbg' ord = .ok (some (.winnerByScore c d)) := by
  obtain ⟨x, y, _, hall⟩ := C117_fair h ho h2 hf hp hord dbg'
  have e := hall K hK _ rfl
  have hg : g.setKomi (.fin ((K : Rat) / 2)) = g := by
    unfold Game.setKomi
    rw [← hk]
  rw [hg] at e
  split at e
  · exact ⟨_, _, e⟩
  · split at e
    · exact ⟨_, _, e⟩
    · exfalso
      have h0 : (x : Rat) - y - (K : Rat) / 2 = 0 := by grind
      have h1 : (K : Rat) = ((2 * ((x : Int) - (y : Int)) : Int) : Rat) := by
        rw [Rat.intCast_mul, Rat.intCast_sub, Rat.intCast_natCast, Rat.intCast_natCast]
        show (K : Rat) = 2 * _
        grind
      have := Rat.intCast_inj.1 h1
      omega

/-- Non-vacuity of C117: one board won by Black at komi 15/2, drawn at 9 and won by White at 19/2 and at infinity. -/
example : (∃ b w g, AnyGame true (3, 3) b w g ∧ decide (g.outcome = none ∧ 2 ≤ g.passes ∧ g.rule.flagScore.komi = true ∧
      g.rule.komi = .fin ((15 : Int) / 2) ∧ g.prisoners = (0, 0) ∧
      (g.getOutcome true id) = .ok (some (.winnerByScore .black (.fin (3 / 2)))) ∧
      ((g.setKomi (.fin 9)).getOutcome true id) = .ok (some .draw) ∧
      ((g.setKomi (.fin (19 / 2))).getOutcome true id) = .ok (some (.winnerByScore .white (.fin (1 / 2)))) ∧
      ((g.setKomi (.inf false)).getOutcome true id) = .ok (some (.winnerByScore .white (.inf false)))) = true) :=
  anyGame_exists (size := .custom 3 3) (rule := CHINESE) (l := [.play 1 1, .pass, .pass]) (by decide +kernel)

end Model
