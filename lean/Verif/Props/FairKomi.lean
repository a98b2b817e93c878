import Verif.Props.KomiOrder
import Verif.Props.Scoring
/-!
# What the players can force under different komi: C118
-/

namespace Model
open Spec (OnBoard Single Rounded dist)

variable {dbg : Bool} {n : Dim} {m : Nat} {g g' : Game} {ord : List Point → List Point}

theorem samePlay_setKomi (g : Game) (k : F32) : SamePlay g (g.setKomi k) := ⟨⟨rfl, rfl, rfl, rfl, rfl, rfl, rfl, rfl, rfl⟩, rfl⟩

theorem setKomi_self (g : Game) : g.setKomi g.rule.komi = g := rfl

/-- The answer does not depend on the komi. -/
theorem tryPlay_setKomi {mv : Move} {e : Option PlayError} (k : F32) (h : g.tryPlay dbg mv = .ok (e, g')) :
    (g.setKomi k).tryPlay dbg mv = .ok (e, g'.setKomi k) := by
  obtain ⟨h1, h2⟩ := C108_try_play (dbg := dbg) (samePlay_setKomi g k) mv
  have h3 := (C108_try_play (dbg := dbg) (g := g.setKomi k) (h := g) ⟨⟨rfl, rfl, rfl, rfl, rfl, rfl, rfl, rfl, rfl⟩, rfl⟩ mv).2
  have hr := h2 _ h
  rw [h] at h1
  generalize hb : (g.setKomi k).tryPlay dbg mv = b at h1 h3
  cases h1 with
  | @ok _ _ h' s =>
    have := h3 _ rfl
    rw [s.toSameBoard.eq]
    have hr : g'.rule = g.rule := hr
    have this : h'.rule = (g.setKomi k).rule := this
    rw [this]
    unfold Game.setKomi
    dsimp only
    rw [hr]

theorem accepted_outcome {mv : Move} (hmv : mv.Ordinary n) (h : Reach dbg n m g) (e : g.tryPlay dbg mv = .ok (none, g')) :
    g'.outcome = g.outcome ∧ g'.rule = g.rule := by
  refine ⟨?_, (C108_try_play (dbg := dbg) (samePlay_setKomi g g.rule.komi) mv).2 _ e⟩
  have p := C13_accepted_is_play e
  cases mv with
  | play x y => exact ((h.play_spec hmv (accepted_stone e).1).of_ok p).choose_spec.2.2.2.2.2.1
  | pass =>
    unfold Game.play at p
    obtain ⟨_, _, p⟩ := bind_eq_ok p
    cases p
    rfl
  | resign c => exact hmv.elim

/-- What can be forced with one komi can be forced with another, if it follows for the results. -/
theorem Reaches.komi {c : Color} {W W' : Option Color → Prop} {k' : F32} {r : Rule}
    (hW : ∀ m g1, Reach dbg n m g1 → g1.outcome = none → 2 ≤ g1.passes → g1.rule = r → ∀ e, g1.getOutcome dbg ord = .ok (some e) →
      W e.getWinner → ∃ e', (g1.setKomi k').getOutcome dbg ord = .ok (some e') ∧ W' e'.getWinner)
    (hR : Reaches dbg ord n c W g) : ∀ {m : Nat}, Reach dbg n m g → g.outcome = none → g.rule = r →
      Reaches dbg ord n c W' (g.setKomi k') := by
  induction hR with
  | @over g e h1 h2 h3 =>
    intro m hr ho hrule
    have hp : 2 ≤ g.passes := by
      unfold Game.isOver at h1
      rw [ho] at h1
      simpa using h1
    obtain ⟨e', h4, h5⟩ := hW m g hr ho hp hrule e h2 h3
    exact .over (g := g.setKomi k') h1 h4 h5
  | @own g mv g' h1 h2 h3 h4 _ ih =>
    intro m hr ho hrule
    obtain ⟨m', hr'⟩ := accepted_reach h3 hr h4
    obtain ⟨a, b⟩ := accepted_outcome h3 hr h4
    exact .own (g := g.setKomi k') h1 h2 h3 (tryPlay_setKomi k' h4) (ih hr' (a.trans ho) (b.trans hrule))
  | @other g h1 h2 _ ih =>
    intro m hr ho hrule
    refine .other (g := g.setKomi k') h1 h2 (fun mv g' h3 h4 => ?_)
    have h5 : g.tryPlay dbg mv = .ok (none, g'.setKomi g.rule.komi) := tryPlay_setKomi (g := g.setKomi k') g.rule.komi h4
    obtain ⟨m', hr'⟩ := accepted_reach h3 hr h5
    obtain ⟨a, b⟩ := accepted_outcome h3 hr h5
    have hk : g'.rule = (g.setKomi k').rule := (accepted_outcome h3 (.setKomi hr) h4).2
    have := ih mv _ h3 h5 hr' (a.trans ho) (b.trans hrule)
    have e : (g'.setKomi g.rule.komi).setKomi k' = g' := by
      unfold Game.setKomi at hk ⊢
      have : g'.rule.komi = k' := by rw [hk]
      dsimp only
      rw [← this]
    rw [e] at this
    exact this

/-- Nobody can force what no result satisfies. -/
theorem reaches_false {c : Color} (hR : Reaches dbg ord n c (fun _ => False) g) : False := by
  induction hR with
  | over _ _ h => exact h
  | own _ _ _ _ _ ih => exact ih
  | @other g h1 _ _ ih =>
    have hp := not_over_passes h1
    refine ih .pass { g with turn := g.turn.opp, koPoint := none, passes := g.passes + 1 } trivial ?_
    unfold Game.tryPlay Game.play
    rw [if_neg (by omega)]
    dsimp only
    rw [show decide (g.passes < 2) = true by simpa using hp]
    rfl

/-- The winners under two kinds of komi. -/
theorem winner_mono {k k' : F32} (h : Reach dbg n m g) (ho : g.outcome = none) (h2 : 2 ≤ g.passes) (hk : k.Value) (hk' : k'.Value)
    (hle : F32.Le k k') (hord : ∀ l, (ord l).Perm l) :
    ∃ e e', (g.setKomi k).getOutcome dbg ord = .ok (some e) ∧ (g.setKomi k').getOutcome dbg ord = .ok (some e') ∧
      (e.getWinner = some .white → e'.getWinner = some .white) ∧ (e'.getWinner = some .black → e.getWinner = some .black) := by
  obtain ⟨x, z, z', hx, e1, e2, h3, hz, hz', _⟩ := tally_scores (f := g.rule.flagScore) h.tally hk hk' hle
    (calculateTerritories_every h hord) (credited_le h .black) (credited_le h .white)
  have e1 : (g.setKomi k).calculateScore dbg ord = .ok (.fin x, z) := e1
  have e2 : (g.setKomi k').calculateScore dbg ord = .ok (.fin x, z') := e2
  refine ⟨_, _, outcome_eq (g := g.setKomi k) ho h2 e1, outcome_eq (g := g.setKomi k') ho h2 e2, ?_⟩
  obtain ⟨a, c⟩ := decide_mono (B := x) (by omega) hz hz' h3
  have key : ∀ {z : F32} {c : Color}, (Game.decideByScore (.fin x, z)).getWinner = some c →
      ∃ d, Game.decideByScore (.fin x, z) = .winnerByScore c d := by
    intro z c e
    unfold Game.decideByScore at e ⊢
    dsimp only at e ⊢
    split at e
    · cases e
    · split at e
      · cases e; exact ⟨_, by rw [if_neg (by assumption), if_pos (by assumption)]⟩
      · cases e; exact ⟨_, by rw [if_neg (by assumption), if_neg (by assumption)]⟩
  constructor
  · intro e
    obtain ⟨d, e⟩ := key e
    obtain ⟨d', e', _⟩ := a d e
    rw [e']; rfl
  · intro e
    obtain ⟨d, e⟩ := key e
    obtain ⟨d', e', _⟩ := c d e
    rw [e']; rfl

/-- **C118**. What Black can force, or make sure of, Black can with every smaller komi; what White can, White can with every larger
one. Under every rule, from every game that can be reached and has not been resigned. -/
theorem C118_komi {k k' : F32} (h : Reach dbg n m g) (ho : g.outcome = none) (hk : k.Value) (hk' : k'.Value) (hle : F32.Le k k')
    (hord : ∀ l, (ord l).Perm l) :
    (Forces dbg ord n .black (g.setKomi k') → Forces dbg ord n .black (g.setKomi k)) ∧
    (Secures dbg ord n .black (g.setKomi k') → Secures dbg ord n .black (g.setKomi k)) ∧
    (Forces dbg ord n .white (g.setKomi k) → Forces dbg ord n .white (g.setKomi k')) ∧
    (Secures dbg ord n .white (g.setKomi k) → Secures dbg ord n .white (g.setKomi k')) := by
  have up : ∀ {c : Color} {W : Option Color → Prop}, (∀ e e' : EndGame, (e.getWinner = some .white → e'.getWinner = some .white) →
      (e'.getWinner = some .black → e.getWinner = some .black) → W e.getWinner → W e'.getWinner) →
      Reaches dbg ord n c W (g.setKomi k) → Reaches dbg ord n c W (g.setKomi k') := by
    intro c W hW hR
    refine Reaches.komi (k' := k') (r := (g.setKomi k).rule) (g := g.setKomi k) ?_ hR (.setKomi h) ho rfl
    intro m g1 hr1 ho1 hp1 hrule e he hw
    obtain ⟨e1, e2, h1, h2, h3, h4⟩ := winner_mono hr1 ho1 hp1 hk hk' hle hord
    have : g1.setKomi k = g1 := by
      have : g1.rule.komi = k := by rw [hrule]; rfl
      rw [← this]; rfl
    rw [this, he] at h1
    cases h1
    exact ⟨e2, h2, hW _ _ h3 h4 hw⟩
  have down : ∀ {c : Color} {W : Option Color → Prop}, (∀ e e' : EndGame, (e.getWinner = some .white → e'.getWinner = some .white) →
      (e'.getWinner = some .black → e.getWinner = some .black) → W e'.getWinner → W e.getWinner) →
      Reaches dbg ord n c W (g.setKomi k') → Reaches dbg ord n c W (g.setKomi k) := by
    intro c W hW hR
    refine Reaches.komi (k' := k) (r := (g.setKomi k').rule) (g := g.setKomi k') ?_ hR (.setKomi h) ho rfl
    intro m g1 hr1 ho1 hp1 hrule e he hw
    obtain ⟨e1, e2, h1, h2, h3, h4⟩ := winner_mono hr1 ho1 hp1 hk hk' hle hord
    have : g1.setKomi k' = g1 := by
      have : g1.rule.komi = k' := by rw [hrule]; rfl
      rw [← this]; rfl
    rw [this, he] at h2
    cases h2
    exact ⟨e1, h1, hW _ _ h3 h4 hw⟩
  exact ⟨down fun _ _ _ h hw => h hw, down fun _ _ h _ hw e => hw (h e), up fun _ _ h _ hw => h hw, up fun _ _ _ h hw e => hw (h e)⟩

/-- Who wins with a komi of `K / 2` when Black leads by `L` without komi. -/
def wonBy (L K : Int) : Option Color := if K < 2 * L then some .black else if 2 * L < K then some .white else none

/-- Area counting: the winner with every komi. -/
theorem area_winner (h : Reach dbg n m g) (ho : g.outcome = none) (h2 : 2 ≤ g.passes) (hf : g.rule.flagScore.komi = true)
    (hpr : g.rule.flagScore.prisonners = false) (hord : ∀ l, (ord l).Perm l) :
    ∃ L : Int, L.natAbs < 2 ^ 19 ∧ ∀ K : Int, K.natAbs < 2 ^ 21 → ∃ e, (g.setKomi (.fin ((K : Rat) / 2))).getOutcome dbg ord = .ok (some e) ∧
      e.getWinner = wonBy L K := by
  have et := calculateTerritories_every h hord
  have hb := credited_le h .black
  have hw := credited_le h .white
  have ht := h.tally
  generalize Spec.credited n g.goban.view .black = tb at *
  generalize Spec.credited n g.goban.view .white = tw at *
  generalize Spec.count n g.goban.view (some .black) = sb at *
  generalize Spec.count n g.goban.view (some .white) = sw at *
  have hbs := ht.black
  have hws := ht.white
  refine ⟨((tb + (if g.rule.flagScore.stones then sb else 0) : Nat) : Int) - ((tw + (if g.rule.flagScore.stones then sw else 0) : Nat) : Int),
    by split <;> omega, fun K hK => ?_⟩
  have hx : Exact (g.setKomi (.fin ((K : Rat) / 2))) g.rule.flagScore K :=
    ⟨fun _ => rfl, hK, fun h => (by rw [hpr] at h; cases h), fun h => (by rw [hpr] at h; cases h)⟩
  have e1 := half_of (g := g.setKomi (.fin ((K : Rat) / 2))) et ht.stones hx hb hw ht.black ht.white
  obtain ⟨b, w, e2, r1, r2, r3⟩ := passes_of (g := g.setKomi (.fin ((K : Rat) / 2))) ho h2 et ht.stones hx hb hw ht.black ht.white
  have e2 : (g.setKomi (.fin ((K : Rat) / 2))).calculateScoreBy dbg ord g.rule.flagScore = .ok (.fin b, .fin w) := e2
  rw [e2, hf, hpr] at e1
  simp only [Bool.false_eq_true, if_false, if_true, Nat.add_zero] at e1
  generalize (tb + (if g.rule.flagScore.stones then sb else 0) : Nat) = B at *
  generalize (tw + (if g.rule.flagScore.stones then sw else 0) : Nat) = Wh at *
  have hb : b = (B : Rat) := by
    injection e1 with e1; injection e1 with e1 _; injection e1 with e1
    rw [e1, Rat.intCast_mul, Rat.intCast_natCast]
    show 2 * (B : Rat) / 2 = B
    grind
  have hw : w = (Wh : Rat) + (K : Rat) / 2 := by
    injection e1 with e1; injection e1 with _ e1; injection e1 with e1
    rw [e1, Rat.intCast_add, Rat.intCast_mul, Rat.intCast_natCast]
    show (2 * (Wh : Rat) + K) / 2 = _
    grind
  have hc : ∀ d : Int, d = 2 * ((B : Int) - Wh) - K → (d : Rat) = 2 * (b - w) := by
    intro d hd
    rw [hd, hb, hw, Rat.intCast_sub, Rat.intCast_mul, Rat.intCast_sub, Rat.intCast_natCast, Rat.intCast_natCast]
    show 2 * _ - _ = _
    grind
  have hc := hc _ rfl
  generalize hd : 2 * ((B : Int) - Wh) - K = d at hc
  unfold wonBy
  by_cases h1 : K < 2 * ((B : Int) - Wh)
  · have : (0 : Rat) < d := Rat.intCast_pos.2 (by omega)
    exact ⟨_, r2 (by grind), by rw [if_pos h1]; rfl⟩
  · by_cases h3 : 2 * ((B : Int) - Wh) < K
    · have : (d : Rat) < 0 := Rat.intCast_neg_iff.2 (by omega)
      exact ⟨_, r3 (by grind), by rw [if_neg h1, if_pos h3]; rfl⟩
    · have : d = 0 := by omega
      rw [this] at hc
      have hc : (0 : Rat) = 2 * (b - w) := hc
      exact ⟨_, r1 (by grind), by rw [if_neg h1, if_neg h3]; rfl⟩

/-- Area counting: passing from one komi to another. -/
theorem Reaches.area {c : Color} {W W' : Option Color → Prop} {K K' : Int} (h : Reach dbg n m g) (ho : g.outcome = none)
    (hf : g.rule.flagScore.komi = true) (hpr : g.rule.flagScore.prisonners = false) (hord : ∀ l, (ord l).Perm l)
    (hK : K.natAbs < 2 ^ 21) (hK' : K'.natAbs < 2 ^ 21) (hW : ∀ L : Int, L.natAbs < 2 ^ 19 → W (wonBy L K) → W' (wonBy L K'))
    (hR : Reaches dbg ord n c W (g.setKomi (.fin ((K : Rat) / 2)))) : Reaches dbg ord n c W' (g.setKomi (.fin ((K' : Rat) / 2))) := by
  refine Reaches.komi (k' := .fin ((K' : Rat) / 2)) (r := (g.setKomi (.fin ((K : Rat) / 2))).rule) (g := g.setKomi (.fin ((K : Rat) / 2))) ?_ hR (.setKomi h) ho rfl
  intro m g1 hr1 ho1 hp1 hrule e he hw
  obtain ⟨L, hL, hall⟩ := area_winner hr1 ho1 hp1 (by rw [hrule]; exact hf) (by rw [hrule]; exact hpr) hord
  obtain ⟨e1, h1, h2⟩ := hall K hK
  obtain ⟨e2, h3, h4⟩ := hall K' hK'
  have : g1.setKomi (.fin ((K : Rat) / 2)) = g1 := by
    have : g1.rule.komi = .fin ((K : Rat) / 2) := by rw [hrule]; rfl
    rw [← this]; rfl
  rw [this, he] at h1
  cases h1
  rw [h2] at hw
  exact ⟨e2, h3, by rw [h4]; exact hW L hL hw⟩

/-- Somewhere between a number with a property and one without, the property is lost. -/
theorem flip {P : Nat → Prop} {N : Nat} (h0 : P 0) (hN : ¬ P N) : ∃ i, i < N ∧ P i ∧ ¬ P (i + 1) := by
  induction N with
  | zero => exact absurd h0 hN
  | succ N ih =>
    by_cases h : P N
    · exact ⟨N, by omega, h, hN⟩
    · obtain ⟨i, hi, h1, h2⟩ := ih h
      exact ⟨i, by omega, h1, h2⟩

/-- **C118**. Under area counting there is one fair komi, a whole number of points: with it both players can make sure not to lose; with
less Black can force a win, with more White can. From every game that can be reached and has not been resigned, for all komi that are
multiples of half a point below 2^20. -/
theorem C118_fair (h : Reach dbg n m g) (ho : g.outcome = none) (hf : g.rule.flagScore.komi = true)
    (hpr : g.rule.flagScore.prisonners = false) (hord : ∀ l, (ord l).Perm l) :
    ∃ V : Int, V.natAbs ≤ 2 ^ 19 ∧
      (Secures dbg ord n .black (g.setKomi (.fin V)) ∧ Secures dbg ord n .white (g.setKomi (.fin V))) ∧
      ∀ K : Int, K.natAbs < 2 ^ 21 →
        (K < 2 * V → Forces dbg ord n .black (g.setKomi (.fin ((K : Rat) / 2)))) ∧
        (2 * V < K → Forces dbg ord n .white (g.setKomi (.fin ((K : Rat) / 2)))) := by
  classical
  have det : ∀ K : Int, ¬ Forces dbg ord n .black (g.setKomi (.fin ((K : Rat) / 2))) → Secures dbg ord n .white (g.setKomi (.fin ((K : Rat) / 2))) :=
    fun K hn => (C94_determined (c := .black) (.setKomi h) hord).2 hn
  have low : Forces dbg ord n .black (g.setKomi (.fin (((-2 ^ 20 : Int) : Rat) / 2))) := by
    apply Classical.byContradiction
    intro hn
    refine reaches_false (Reaches.area (W' := fun _ => False) h ho hf hpr hord (by decide) (K' := -2 ^ 20) (by decide) (fun L hL hw => hw ?_) (det _ hn))
    unfold wonBy
    rw [if_pos (by omega)]; rfl
  have high : ¬ Forces dbg ord n .black (g.setKomi (.fin (((2 ^ 20 : Int) : Rat) / 2))) := by
    intro hF
    refine reaches_false (Reaches.area (W' := fun _ => False) h ho hf hpr hord (by decide) (K' := 2 ^ 20) (by decide) (fun L hL hw => ?_) hF)
    unfold wonBy at hw
    rw [if_neg (by omega)] at hw
    split at hw <;> cases hw
  obtain ⟨i, hile, hprev, hi⟩ := flip (P := fun i : Nat => Forces dbg ord n .black (g.setKomi (.fin (((-2 ^ 20 + i : Int) : Rat) / 2))))
    (N := 2 ^ 21) low (by rw [show (-2 ^ 20 + ((2 ^ 21 : Nat) : Int) : Int) = 2 ^ 20 by decide]; exact high)
  rw [show (-2 ^ 20 + (i : Int) : Int) = -2 ^ 20 + ((i + 1 : Nat) : Int) - 1 by omega] at hprev
  generalize hK0 : (-2 ^ 20 + ((i + 1 : Nat) : Int) : Int) = K0 at hi hprev
  have hb0 : K0.natAbs ≤ 2 ^ 20 := by omega
  have hb1 : (K0 - 1).natAbs < 2 ^ 21 := by omega
  have heven : K0 % 2 = 0 := by
    apply Classical.byContradiction
    intro hodd
    refine hi (Reaches.area h ho hf hpr hord hb1 (by omega) (fun L hL hw => ?_) hprev)
    unfold wonBy at hw ⊢
    rw [if_pos]
    split at hw
    · omega
    · split at hw <;> cases hw
  obtain ⟨V, rfl⟩ : ∃ V, K0 = 2 * V := ⟨K0 / 2, by omega⟩
  have hV : ((2 * V : Int) : Rat) / 2 = (V : Rat) := by
    rw [Rat.intCast_mul]
    show 2 * (V : Rat) / 2 = V
    grind
  have hsw := det _ hi
  have hsb : Secures dbg ord n .black (g.setKomi (.fin (((2 * V : Int) : Rat) / 2))) := by
    refine Reaches.area h ho hf hpr hord hb1 (by omega) (fun L hL hw => ?_) hprev
    unfold wonBy at hw ⊢
    split at hw
    next hlt =>
      by_cases h1 : 2 * V < 2 * L
      · rw [if_pos h1]; simp [Color.opp]
      · rw [if_neg h1, if_neg (by omega)]; simp
    · split at hw <;> cases hw
  refine ⟨V, by omega, ⟨by rw [← hV]; exact hsb, by rw [← hV]; exact hsw⟩, fun K hK => ⟨fun hlt => ?_, fun hgt => ?_⟩⟩
  · refine Reaches.area h ho hf hpr hord hb1 hK (fun L hL hw => ?_) hprev
    unfold wonBy at hw ⊢
    split at hw
    · rw [if_pos (by omega)]
    · split at hw <;> cases hw
  · refine Reaches.area h ho hf hpr hord (show (2 * V).natAbs < 2 ^ 21 by omega) hK (fun L hL hw => ?_) hsw
    unfold wonBy at hw ⊢
    split at hw
    · exact absurd rfl hw
    · rw [if_neg (by omega), if_pos (by omega)]

/-- **C118**: no other multiple of half a point is fair. -/
theorem C118_unique {K K' : Int} (h : Reach dbg n m g) (ho : g.outcome = none) (hf : g.rule.flagScore.komi = true)
    (hpr : g.rule.flagScore.prisonners = false) (hord : ∀ l, (ord l).Perm l) (hK : K.natAbs < 2 ^ 21) (hK' : K'.natAbs < 2 ^ 21)
    (s : ∀ c, Secures dbg ord n c (g.setKomi (.fin ((K : Rat) / 2)))) (s' : ∀ c, Secures dbg ord n c (g.setKomi (.fin ((K' : Rat) / 2)))) :
    K = K' := by
  obtain ⟨V, -, -, hall⟩ := C118_fair h ho hf hpr hord
  have key : ∀ {K : Int}, K.natAbs < 2 ^ 21 → (∀ c, Secures dbg ord n c (g.setKomi (.fin ((K : Rat) / 2)))) → K = 2 * V := by
    intro K hK s
    rcases Int.lt_trichotomy K (2 * V) with hlt | heq | hgt
    · exact (C94_exclusive ((hall K hK).1 hlt) (s _)).elim
    · exact heq
    · exact (C94_exclusive ((hall K hK).2 hgt) (s _)).elim
  rw [key hK s, key hK' s']

/-- A fresh game is one with any other komi. -/
theorem Fresh.setKomi (hf : Fresh dbg n m g) (k : F32) : Fresh dbg n m (g.setKomi k) := by
  induction hf with
  | @new size rule g hn hs e =>
    refine .new (rule := { rule with komi := k }) hn hs ?_
    unfold Game.new at e ⊢
    obtain ⟨b, hb, e⟩ := bind_eq_ok e
    cases e
    rw [hb]; rfl
  | @build b g hn hs hm hd ho e =>
    refine .build (b := { b with komi := some k }) hn hs hm hd ho ?_
    unfold GameBuilder.buildInner at e ⊢
    simp only [hm] at e ⊢
    obtain ⟨g1, hg1, e⟩ := bind_eq_ok e
    cases e
    unfold GameBuilder.start at hg1 ⊢
    obtain ⟨b1, hb1, hg1⟩ := bind_eq_ok hg1
    obtain ⟨b2, hb2, hg1⟩ := bind_eq_ok hg1
    obtain ⟨b3, hb3, hg1⟩ := bind_eq_ok hg1
    cases hg1
    simp only [hb1, hb2, hb3, ok_bind]
    cases hk : b.komi <;> simp [Game.setKomi, pure, Except.pure]
  | @handicap m g ps g' hf hd hps e ih =>
    refine .handicap ih hd hps ?_
    unfold Game.putHandicap at e ⊢
    obtain ⟨b, hb, e⟩ := bind_eq_ok e
    cases e
    show (do let b ← g.goban.pushMany dbg ps .black; _) = _
    rw [hb]; rfl

/-- **C118**: on an empty board the fair komi is not negative if Black begins, and not positive if White does. -/
theorem C118_first_player {K : Int} (hf : Fresh dbg n m g) (hb : Bare n g.goban.view) (ho : g.outcome = none)
    (hk : g.rule.flagScore.komi = true) (hpr : g.rule.flagScore.prisonners = false) (hord : ∀ l, (ord l).Perm l) (hK : K.natAbs < 2 ^ 21)
    (s : ∀ c, Secures dbg ord n c (g.setKomi (.fin ((K : Rat) / 2)))) :
    (g.turn = .black → 0 ≤ K) ∧ (g.turn = .white → K ≤ 0) := by
  obtain ⟨V, -, -, hall⟩ := C118_fair (.fresh hf) ho hk hpr hord
  have hst := C94_strategy_stealing (ord := ord) (hf.setKomi (.fin 0)) hb ho (fun _ => rfl) hord
  have hz : (((0 : Int) : Rat) / 2) = 0 := by decide +kernel
  have hkey : K = 2 * V := by
    rcases Int.lt_trichotomy K (2 * V) with hlt | heq | hgt
    · exact (C94_exclusive ((hall K hK).1 hlt) (s _)).elim
    · exact heq
    · exact (C94_exclusive ((hall K hK).2 hgt) (s _)).elim
  have h0 := hall 0 (by decide)
  rw [hz] at h0
  constructor
  · intro ht
    apply Classical.byContradiction
    intro hn
    apply hst
    show Forces dbg ord n g.turn.opp _
    rw [ht]
    exact h0.2 (by omega)
  · intro ht
    apply Classical.byContradiction
    intro hn
    apply hst
    show Forces dbg ord n g.turn.opp _
    rw [ht]
    exact h0.1 (by omega)

/-- On the board of three points in a row the fair komi is two points (not three: on boards higher than wide
some points are not credited, C92): `C118_fair` and its hypotheses are met, and with that komi
neither player can force a win. -/
theorem C118_row : ∃ g, Fresh true ⟨3, 1⟩ 0 g ∧ g.outcome = none ∧ g.rule.flagScore.komi = true ∧
    g.rule.flagScore.prisonners = false ∧ Secures true id ⟨3, 1⟩ .black (g.setKomi (.fin (2 : Int))) ∧
    Secures true id ⟨3, 1⟩ .white (g.setKomi (.fin (2 : Int))) := by
  obtain ⟨g, hf, h⟩ := fresh_exists (dbg := true) (n := ⟨3, 1⟩) (size := .custom 3 1) (rule := CHINESE)
    (f := fun g => decide (g.rule = CHINESE) && (decide (g.outcome = none) &&
      (reachesIn true ⟨3, 1⟩ .black (fun w => decide (w ≠ some .white)) 3 (g.setKomi (.fin (2 : Int))) &&
       reachesIn true ⟨3, 1⟩ .white (fun w => decide (w ≠ some .black)) 7 (g.setKomi (.fin (2 : Int))))))
    (by decide) rfl (by decide +kernel)
  simp only [Bool.and_eq_true, decide_eq_true_eq] at h
  exact ⟨g, hf, h.2.1, by rw [h.1]; rfl, by rw [h.1]; rfl, reachesIn_secures (c := .black) h.2.2.1, reachesIn_secures (c := .white) h.2.2.2⟩

end Model
