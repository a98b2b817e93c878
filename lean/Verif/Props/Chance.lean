import Verif.Proofs.Chance
import Verif.Props.PlayGame
import Verif.Props.Strategy
/-!
# Play-outs by chance: C113
-/

namespace Model
open Spec (OnBoard mean meanOfOrders)

variable {dbg : Bool} {m : Nat} {g : Game} {n : Dim}

/-- The move made of the first wanted point. -/
def moveOf : Option Coord → Move
  | none => .pass
  | some p => .play p.1 p.2

open Classical in
theorem fast_find (h : Reach dbg n m g) (hps : g.passes ≠ 2) (hm : m < 65535) : ∀ (v : List Coord), (∀ p ∈ v, OnBoard n p) →
    g.fastPlayRandom dbg v = .ok (moveOf (v.find? (fun p => decide (g.Candidate dbg n p))))
  | [], _ => rfl
  | c :: v, hv => by
    by_cases hc : g.Candidate dbg n c
    · rw [fastPlayRandom_first h hps hm hc]; simp [hc, moveOf]
    · rw [List.find?_cons_of_neg (by simpa using hc), ← fast_find h hps hm v (fun p hp => hv p (by simp [hp]))]
      have hb := hv c (by simp)
      obtain ⟨r, e1, _⟩ := (h.checkPointBy_total (dbg := dbg) hb g.rule.flagIllegal).total (fun hf => by have := h.full hf; omega)
      obtain ⟨b, e2, hb2⟩ := checkEye_ok (dbg := dbg) (c := g.turn) h.inv hb
      have e1' : g.checkPoint dbg c = .ok r := e1
      conv => lhs; unfold Game.fastPlayRandom
      rw [e1', ok_bind]
      cases r with
      | some r => rfl
      | none =>
        simp only [Option.isNone_none, if_true]
        rw [e2, ok_bind]
        cases b with
        | true => rfl
        | false =>
          exact absurd ⟨hb, (accepts_iff h hps hm hb).2 ⟨checkPointBy_empty e1, e1'⟩, fun h2 => by have := hb2.2 h2; cases this⟩ hc

open Classical in
theorem slow_find (h : Reach dbg n m g) : ∀ (v : List Coord), (∀ p ∈ v, OnBoard n p ∧ g.Accepts dbg p) →
    g.playRandom dbg v = .ok (moveOf (v.find? (fun p => decide (g.Candidate dbg n p))))
  | [], _ => rfl
  | c :: v, hv => by
    by_cases hc : g.Candidate dbg n c
    · rw [playRandom_first h hc]; simp [hc, moveOf]
    · rw [List.find?_cons_of_neg (by simpa using hc), ← slow_find h v (fun p hp => hv p (by simp [hp]))]
      obtain ⟨hb, ha⟩ := hv c (by simp)
      obtain ⟨b, e2, hb2⟩ := checkEye_ok (dbg := dbg) (c := g.turn) h.inv hb
      conv => lhs; unfold Game.playRandom
      rw [e2, ok_bind]
      cases b with
      | true => rfl
      | false => exact absurd ⟨hb, ha, fun h2 => by have := hb2.2 h2; cases this⟩ hc

/-- The points a play-out chooses among, each once. -/
def Game.Choices (dbg : Bool) (n : Dim) (g : Game) (C : List Coord) : Prop :=
  C.Nodup ∧ ∀ p, p ∈ C ↔ p.1 < n.w ∧ g.Candidate dbg n p

theorem exists_choices (dbg : Bool) (n : Dim) (g : Game) : ∃ C, g.Choices dbg n C := by
  classical
  refine ⟨(Spec.topRows n).filter (fun p => decide (g.Candidate dbg n p)), (List.Nodup.filter _ ((points_nodup n).filter _)), fun p => ?_⟩
  unfold Spec.topRows
  rw [List.mem_filter, List.mem_filter, mem_points, decide_eq_true_eq, decide_eq_true_eq]
  exact ⟨fun h => ⟨h.1.2, h.2⟩, fun h => ⟨⟨h.2.1, h.1⟩, h.2⟩⟩

open Classical in
theorem mean_choices (h : Reach dbg n m g) {C : List Coord} (hC : g.Choices dbg n C) (F : Option Coord → Rat) :
    (if (Spec.scan n).filter (fun p => decide (g.Candidate dbg n p)) = [] then F none
      else mean ((Spec.scan n).filter (fun p => decide (g.Candidate dbg n p))) (fun p => F (some p))) =
    if C = [] then F none else mean C (fun p => F (some p)) := by
  have hn := h.inv.good
  have hd : ((Spec.topRows n).filter (fun p => decide (g.Candidate dbg n p))).Nodup :=
    List.Nodup.filter _ (List.Nodup.filter _ (points_nodup n))
  have hp : ((Spec.topRows n).filter (fun p => decide (g.Candidate dbg n p))).Perm C := by
    rw [List.perm_ext_iff_of_nodup hd hC.1]
    intro p
    rw [hC.2]
    unfold Spec.topRows
    rw [List.mem_filter, List.mem_filter, mem_points, decide_eq_true_eq, decide_eq_true_eq]
    exact ⟨fun h => ⟨h.1.2, h.2⟩, fun h => ⟨⟨h.2.1, h.1⟩, h.2⟩⟩
  have hnil : (Spec.scan n).filter (fun p => decide (g.Candidate dbg n p)) = [] ↔ C = [] := by
    rw [List.filter_eq_nil_iff, List.eq_nil_iff_forall_not_mem]
    constructor
    · intro h p hp
      obtain ⟨h1, h2⟩ := (hC.2 p).1 hp
      exact h p ((mem_scan hn).2 ⟨h2.1, h1⟩) (decide_eq_true h2)
    · intro h p hp hc
      have hc := of_decide_eq_true hc
      exact h p ((hC.2 p).2 ⟨((mem_scan hn).1 hp).2, hc⟩)
  by_cases hc : C = []
  · rw [if_pos (hnil.2 hc), if_pos hc]
  · rw [if_neg (fun h => hc (hnil.1 h)), if_neg hc, mean_perm ((scan_perm hn).filter _), ← mean_perm hp]
    obtain ⟨p, hp'⟩ := List.exists_mem_of_ne_nil _ hc
    have hw : 0 < n.h / n.w := by
      have h1 := ((hC.2 p).1 hp').2.1
      exact Nat.div_pos (hn.w_le (by have := h1.1; omega)) (by have := h1.2; omega)
    rw [List.filter_flatten, List.map_replicate, mean_replicate _ _ hw]

open Classical in
theorem candidates_listed (h : Reach dbg n m g) (hps : g.passes ≠ 2) (hm : m < 65535) {ps : List Coord} (e : g.pseudoLegals = .ok ps) :
    ps.filter (fun p => decide (g.Candidate dbg n p)) = (Spec.scan n).filter (fun p => decide (g.Candidate dbg n p)) := by
  have e' := C91_empty_coords h.spec.board
  rw [show g.goban.getEmptyCoords = .ok ps from e] at e'
  rw [Except.ok.inj e']
  unfold Spec.scan
  rw [filter_flatMap', filter_flatMap']
  apply flatMap_congr'
  intro x hx
  rw [List.filter_map, List.filter_map, List.filter_filter]
  congr 1
  apply filter_congr'
  intro j hj
  rw [Bool.eq_iff_iff, Bool.and_eq_true, decide_eq_true_eq]
  refine ⟨fun h => h.1, fun hc => ⟨hc, ?_⟩⟩
  have hc : g.Candidate dbg n (x, j % n.w) := of_decide_eq_true hc
  by_cases hj : n.w ≤ j
  · exact Or.inl hj
  · have := ((accepts_iff h hps hm hc.1).1 hc.2.1).1
    rw [Nat.mod_eq_of_lt (by omega)] at this
    exact Or.inr this

/-- **C113**, one round of a play-out: with every order of the listed points equally likely, the policy of `playout` makes each sensible
play with the same chance (and passes if there is none). -/
theorem C113_fast (h : Reach dbg n m g) (hps : g.passes ≠ 2) (hm : m < 65535) {ps : List Coord} (e : g.pseudoLegals = .ok ps)
    {C : List Coord} (hC : g.Choices dbg n C) (F : M Move → Rat) :
    meanOfOrders ps (fun v => F (g.fastPlayRandom dbg v)) =
      if C = [] then F (.ok .pass) else mean C (fun p => F (.ok (.play p.1 p.2))) := by
  classical
  obtain ⟨hm1, _⟩ := pseudoLegals_mem h e
  have h1 := first_mean ps (fun p => decide (g.Candidate dbg n p)) (fun o => F (.ok (moveOf o)))
  rw [candidates_listed h hps hm e, mean_choices h hC (fun o => F (.ok (moveOf o)))] at h1
  refine Eq.trans (mean_congr fun v hv => ?_) h1
  rw [fast_find h hps hm v (fun p hp => (hm1 p ((List.mem_permutations.1 hv).mem_iff.1 hp)).1)]

/-- **C113**, the slow policy of the benchmarks: the same. -/
theorem C113_slow (h : Reach dbg n m g) (hps : g.passes ≠ 2) (hm : m < 65535) {ls : List Coord} (e : g.legals dbg = .ok ls)
    {C : List Coord} (hC : g.Choices dbg n C) (F : M Move → Rat) :
    meanOfOrders ls (fun v => F (g.playRandom dbg v)) =
      if C = [] then F (.ok .pass) else mean C (fun p => F (.ok (.play p.1 p.2))) := by
  classical
  rw [C91_legals h hps hm] at e
  have hl := (Except.ok.inj e).symm
  have h1 := first_mean ls (fun p => decide (g.Candidate dbg n p)) (fun o => F (.ok (moveOf o)))
  have h2 : ls.filter (fun p => decide (g.Candidate dbg n p)) = (Spec.scan n).filter (fun p => decide (g.Candidate dbg n p)) := by
    rw [hl, List.filter_filter]
    apply filter_congr'
    intro p _
    rw [Bool.eq_iff_iff, Bool.and_eq_true, decide_eq_true_eq, decide_eq_true_eq]
    exact ⟨fun h => h.1, fun h => ⟨h, h.2.1⟩⟩
  rw [h2, mean_choices h hC (fun o => F (.ok (moveOf o)))] at h1
  refine Eq.trans (mean_congr fun v hv => ?_) h1
  rw [slow_find h v]
  intro p hp
  have := (List.mem_permutations.1 hv).mem_iff.1 hp
  rw [hl, List.mem_filter, mem_scan h.inv.good, decide_eq_true_eq] at this
  exact ⟨this.1.1, this.2⟩

/-- **C113**, the chance of one play: `1 / c` if `c` plays are sensible. -/
theorem C113_chance (h : Reach dbg n m g) (hps : g.passes ≠ 2) (hm : m < 65535) {ps : List Coord} (e : g.pseudoLegals = .ok ps)
    {C : List Coord} (hC : g.Choices dbg n C) {p : Coord} (hp : p ∈ C) :
    meanOfOrders ps (fun v => if g.fastPlayRandom dbg v = .ok (.play p.1 p.2) then 1 else 0) = 1 / C.length := by
  have h1 := C113_fast h hps hm e hC (fun r => if r = .ok (.play p.1 p.2) then 1 else 0)
  rw [h1, if_neg (List.ne_nil_of_mem hp)]
  unfold mean
  congr 1
  have key : ∀ C : List Coord, C.Nodup →
      (C.map (fun q => if (Except.ok (Move.play q.1 q.2) : M Move) = .ok (.play p.1 p.2) then (1 : Rat) else 0)).sum =
        if p ∈ C then 1 else 0 := by
    intro C
    induction C with
    | nil => intro _; rfl
    | cons c C ih =>
      intro hn
      obtain ⟨h1, h2⟩ := List.nodup_cons.1 hn
      rw [List.map_cons, List.sum_cons, ih h2]
      by_cases hc : c = p
      · subst hc
        simp
        grind
      · have hc' : ¬ (c.1 = p.1 ∧ c.2 = p.2) := fun h => hc (Prod.ext h.1 h.2)
        have : p ∈ c :: C ↔ p ∈ C := by
          rw [List.mem_cons]
          exact ⟨fun h => h.resolve_left (fun h => hc h.symm), Or.inr⟩
        simp only [this]
        simp [hc']
        grind
  rw [key C hC.1, if_pos hp]

/-! ## Whole games -/

/-- A whole play-out (src/rules/dead_stones.rs:94-119) in which every order of the listed points is equally likely, independently in
every round: the mean of `F` over its results. -/
def Game.playoutMean (dbg : Bool) : Nat → Game → (M Game → Rat) → Rat
  | 0, g, F => F (if g.isOver then .ok g else .error .diverge)
  | k + 1, g, F =>
    if g.isOver then F (.ok g)
    else match g.pseudoLegals with
      | .error x => F (.error x)
      | .ok ps => meanOfOrders ps (fun v => match g.playoutRound dbg v with
        | .error x => F (.error x)
        | .ok g' => playoutMean dbg k g' F)

/-- The same of `play_game` of the benchmarks (benches/perft.rs:71-76). -/
def Game.playGameMean (dbg : Bool) : Nat → Game → (M Game → Rat) → Rat
  | 0, g, F => F (if g.isOver then .ok g else .error .diverge)
  | k + 1, g, F =>
    if g.isOver then F (.ok g)
    else match g.legals dbg with
      | .error x => F (.error x)
      | .ok ls => meanOfOrders ls (fun v => match (do let m ← g.playRandom dbg v; g.play dbg m) with
        | .error x => F (.error x)
        | .ok g' => playGameMean dbg k g' F)

/-- A whole play-out that chooses one of the sensible plays, each with the same chance, and passes if there is none. -/
noncomputable def Game.evenMean (dbg : Bool) (n : Dim) : Nat → Game → (M Game → Rat) → Rat
  | 0, g, F => F (if g.isOver then .ok g else .error .diverge)
  | k + 1, g, F =>
    if g.isOver then F (.ok g)
    else
      let after : Move → Rat := fun mv => match g.play dbg mv with
        | .error x => F (.error x)
        | .ok g' => evenMean dbg n k g' F
      let C := (exists_choices dbg n g).choose
      if C = [] then after .pass else mean C (fun p => after (.play p.1 p.2))

theorem playout_next (h : Legal dbg n m g) (ho : g.isOver = false) {C : List Coord} (hC : g.Choices dbg n C) :
    (C = [] → ∃ g', g.play dbg .pass = .ok g' ∧ Legal dbg n (m + 1) g') ∧
    ∀ p ∈ C, ∃ g', g.play dbg (.play p.1 p.2) = .ok g' ∧ Legal dbg n (m + 1) g' := by
  refine ⟨fun _ => ?_, fun p hp => ?_⟩
  · have := not_over_passes ho
    have e := tryPlay_pass (dbg := dbg) this
    exact ⟨_, C13_accepted_is_play e, h.tryPlay (mv := .pass) trivial e⟩
  · obtain ⟨hb, ⟨g', e⟩, _⟩ := ((hC.2 p).1 hp).2
    exact ⟨g', C13_accepted_is_play e, h.tryPlay (mv := .play p.1 p.2) hb e⟩

/-- **C113**, whole play-outs: with every order equally likely in every round, the results of `playout` are distributed as if in every
round one of the sensible plays were made, each with the same chance. -/
theorem C113_playout (F : M Game → Rat) : ∀ (k : Nat) {m : Nat} {g : Game}, Legal dbg n m g → m + k ≤ 65535 →
    g.playoutMean dbg k F = g.evenMean dbg n k F
  | 0, _, _, _, _ => rfl
  | k + 1, m, g, h, hm => by
    unfold Game.playoutMean Game.evenMean
    cases ho : g.isOver with
    | true => rfl
    | false =>
      obtain ⟨m', hm', hr⟩ := h.reach
      have hps : g.passes ≠ 2 := by have := not_over_passes ho; omega
      obtain ⟨ps, ep, _⟩ : ∃ ps, g.pseudoLegals = .ok ps ∧ ∀ p ∈ ps, OnBoard n p := getEmptyCoords_any hr.inv
      have hC := (exists_choices dbg n g).choose_spec
      obtain ⟨n1, n2⟩ := playout_next h ho hC
      simp only [Bool.false_eq_true, if_false, ep]
      have key := C113_fast hr hps (by omega) ep hC (fun r => match (do let mv ← r; g.play dbg mv) with
        | .error x => F (.error x)
        | .ok g' => g'.playoutMean dbg k F)
      refine key.trans ?_
      simp only [ok_bind]
      split
      · rename_i h0
        obtain ⟨g', e, hl⟩ := n1 h0
        rw [e]
        exact C113_playout F k hl (by omega)
      · apply mean_congr
        intro p hp
        obtain ⟨g', e, hl⟩ := n2 p hp
        rw [e]
        exact C113_playout F k hl (by omega)

/-- **C113**, whole games of the benchmark `play_game`: the same. -/
theorem C113_play_game (F : M Game → Rat) : ∀ (k : Nat) {m : Nat} {g : Game}, Legal dbg n m g → m + k ≤ 65535 →
    g.playGameMean dbg k F = g.evenMean dbg n k F
  | 0, _, _, _, _ => rfl
  | k + 1, m, g, h, hm => by
    unfold Game.playGameMean Game.evenMean
    cases ho : g.isOver with
    | true => rfl
    | false =>
      obtain ⟨m', hm', hr⟩ := h.reach
      have hps : g.passes ≠ 2 := by have := not_over_passes ho; omega
      have el := C91_legals hr hps (show m' < 65535 by omega)
      have hC := (exists_choices dbg n g).choose_spec
      obtain ⟨n1, n2⟩ := playout_next h ho hC
      simp only [Bool.false_eq_true, if_false, el]
      have key := C113_slow hr hps (by omega) el hC (fun r => match (do let mv ← r; g.play dbg mv) with
        | .error x => F (.error x)
        | .ok g' => g'.playGameMean dbg k F)
      refine key.trans ?_
      simp only [ok_bind]
      split
      · rename_i h0
        obtain ⟨g', e, hl⟩ := n1 h0
        rw [e]
        exact C113_play_game F k hl (by omega)
      · apply mean_congr
        intro p hp
        obtain ⟨g', e, hl⟩ := n2 p hp
        rw [e]
        exact C113_play_game F k hl (by omega)

theorem mean_ge {α : Type} {l : List α} (hl : l ≠ []) {f : α → Rat} {a : Rat} (h : ∀ x ∈ l, a ≤ f x) : a ≤ mean l f := by
  have key : ∀ l : List α, (∀ x ∈ l, a ≤ f x) → (l.length : Rat) * a ≤ (l.map f).sum := by
    intro l
    induction l with
    | nil => intro _; simp
    | cons x l ih =>
      intro h
      have h1 := h x (by simp)
      have h2 := ih (fun y hy => h y (by simp [hy]))
      rw [List.map_cons, List.sum_cons, List.length_cons, Rat.natCast_add]
      grind
  have hp : (0 : Rat) < (l.length : Rat) := Rat.natCast_pos.2 (List.length_pos_iff.2 hl)
  unfold mean
  rw [← Rat.not_lt, Rat.div_lt_iff hp, Rat.not_lt, Rat.mul_comm]
  exact key l h

/-- **C113**, what the means are taken over: a bound that holds of the result of `playout` whatever the orders holds of the mean. -/
theorem C113_within (F : M Game → Rat) {a : Rat} : ∀ (k : Nat) {g : Game},
    (∀ sh : Nat → List Coord → List Coord, (∀ k l, (sh k l).Perm l) → a ≤ F (g.playout dbg sh k)) → a ≤ g.playoutMean dbg k F
  | 0, g, h => by
    have := h (fun _ l => l) (fun _ _ => List.Perm.refl _)
    unfold Game.playout at this
    unfold Game.playoutMean
    cases ho : g.isOver <;> simpa [ho] using this
  | k + 1, g, h => by
    unfold Game.playoutMean
    unfold Game.playout at h
    cases ho : g.isOver with
    | true => simpa [ho] using h (fun _ l => l) (fun _ _ => List.Perm.refl _)
    | false =>
      simp only [ho, Bool.false_eq_true, if_false] at h ⊢
      cases ep : g.pseudoLegals with
      | error x =>
        have := h (fun _ l => l) (fun _ _ => List.Perm.refl _)
        rw [ep] at this
        exact this
      | ok ps =>
        simp only [ep, ok_bind] at h ⊢
        refine mean_ge ?_ (fun v hv => ?_)
        · intro h0
          have := List.length_permutations ps
          rw [h0] at this
          exact absurd this.symm (Nat.factorial_ne_zero _)
        · have hv := List.mem_permutations.1 hv
          cases er : g.playoutRound dbg v with
          | error x =>
            obtain ⟨sh, h1, h2, _⟩ := shuffle_extend (fun _ _ => List.Perm.refl _) k hv
            have := h sh h1
            rw [h2, er] at this
            exact this
          | ok g' =>
            refine C113_within F k (fun sh hsh => ?_)
            obtain ⟨sh', h1, h2, h3⟩ := shuffle_extend hsh k hv
            have := h sh' h1
            rw [h2, er, ok_bind, playout_congr k g' h3] at this
            exact this

/-! ## Colours -/

/-- `g'` is `g` with the colours exchanged, in all that matters from now on; both can still be played on. -/
def Twin (dbg : Bool) (n : Dim) (m : Nat) (g g' : Game) : Prop :=
  (∃ a, a ≤ m ∧ Legal dbg n a g) ∧ (∃ a, a ≤ m ∧ Legal dbg n a g') ∧ g'.rule = g.rule ∧
    ∃ m1 m2 s, m1 ≤ m ∧ m2 ≤ m ∧ Sim dbg n m1 none g s ∧ Sim dbg n m2 none g' (swapState s) ∧ s.passes ≤ 2 ∧ s.resigned = none

theorem Twin.symm {g' : Game} (h : Twin dbg n m g g') : Twin dbg n m g' g := by
  obtain ⟨l1, l2, hr, m1, m2, s, k1, k2, h1, h2, h3, h4⟩ := h
  refine ⟨l2, l1, hr.symm, m2, m1, swapState s, k2, k1, h2, by rw [swapState_swapState]; exact h1, h3, ?_⟩
  show swapC s.resigned = none
  rw [h4]; rfl

theorem Twin.swapped {g' : Game} (h : Twin dbg n m g g') : Swapped n g g' := by
  obtain ⟨_, _, _, m1, m2, s, _, _, h1, h2, h3, h4⟩ := h
  refine ⟨fun p hp => ⟨s.pos p, ?_, ?_⟩, ?_, ?_, ?_, ?_⟩
  · rw [h1.inv.getColor_view hp, h1.pos p hp]
  · rw [h2.inv.getColor_view hp, h2.pos p hp]; rfl
  · rw [h1.turn, h2.turn]; rfl
  · rw [h1.passes, h2.passes]; rfl
  · rw [h1.prisoners, h2.prisoners]; rfl
  · rw [h1.outcome, h2.outcome, show (swapState s).resigned = none by show swapC s.resigned = none; rw [h4]; rfl, h4]; rfl

theorem Twin.outcome {g' : Game} (h : Twin dbg n m g g') : g.outcome = none := by
  obtain ⟨_, _, _, m1, m2, s, _, _, h1, h2, h3, h4⟩ := h
  rw [h1.outcome, h4]

theorem Twin.isOver {g' : Game} (h : Twin dbg n m g g') : g'.isOver = g.isOver := by
  unfold Game.isOver
  rw [h.outcome, h.symm.outcome, h.swapped.passes]

theorem Twin.step {g' : Game} (h : Twin dbg n m g g') (hm : m < 65535) {mv : Move} (hmv : mv.Ordinary n) {g1 : Game}
    (e : g.tryPlay dbg mv = .ok (none, g1)) : ∃ g1', g'.tryPlay dbg mv = .ok (none, g1') ∧ Twin dbg n (m + 1) g1 g1' := by
  obtain ⟨⟨a, ha, l1⟩, ⟨a', ha', l2⟩, h5, m1, m2, s, k1, k2, h1, h2, h3, h4⟩ := h
  have hsw : swapCall (GOp.try_ mv).call = (GOp.try_ mv).call := by
    cases mv with
    | play x y => rfl
    | pass => rfl
    | resign c => exact hmv.elim
  have hst := stepSeen_swap (n := n) (r := g.rule.flagIllegal.forbidden) (s := s) (c := (GOp.try_ mv).call)
  rw [hsw] at hst
  obtain ⟨a1, ⟨m1', k1', b1⟩, c1, d1⟩ := (h1.call_seen (dbg := dbg) (.try_ mv) hmv.onBoard h3).of_ok e
  have hres : (Spec.stepSeen n g.rule.flagIllegal.forbidden s (GOp.try_ mv).call).2.resigned = none := by
    unfold Spec.stepSeen
    split
    · cases mv with
      | play x y => exact h4
      | pass => exact h4
      | resign c => exact hmv.elim
    · exact h4
  have hc2 := h2.call_seen (dbg := dbg) (.try_ mv) hmv.onBoard h3
  rw [h5, hst] at hc2
  obtain ⟨⟨x, g1'⟩, e', a2, ⟨m2', k2', b2⟩, c2, d2⟩ := hc2.total (h2.notFull (by omega))
  dsimp only at a2 b2
  rw [← a1] at a2
  have hx : x = none := toAnswer_inj a2
  subst hx
  refine ⟨g1', e', ⟨_, by omega, l1.tryPlay hmv.onBoard e⟩, ⟨_, by omega, l2.tryPlay hmv.onBoard e'⟩, by rw [tryPlay_rule e', tryPlay_rule e, h5], m1', m2', _,
    by omega, by omega, b1, b2, d1, hres⟩

theorem Twin.candidate {g' : Game} (h : Twin dbg n m g g') (hm : m < 65535) {p : Coord} (hp : g.Candidate dbg n p) :
    g'.Candidate dbg n p := by
  obtain ⟨hb, ⟨g1, e⟩, he⟩ := hp
  obtain ⟨g1', e', _⟩ := h.step hm (mv := .play p.1 p.2) hb e
  refine ⟨hb, ⟨g1', e'⟩, fun h2 => he ?_⟩
  have hv := h.swapped.view
  rw [h.swapped.turn] at h2
  exact eye_swap.1 ((eye_congr hv hb _).1 h2)

/-- The result is a win of `c` (with no winner if there is no result). -/
def Game.won (dbg : Bool) (ord : List Point → List Point) (c : Color) : M Game → Rat
  | .error _ => 0
  | .ok g => match g.getOutcome dbg ord with
    | .ok (some e) => if e.getWinner = some c then 1 else 0
    | _ => 0

theorem Twin.mean {ord : List Point → List Point} (hord : ∀ l, (ord l).Perm l) {c : Color} : ∀ (k : Nat) {m : Nat} {g g' : Game},
    Twin dbg n m g g' → g.rule.Even → m + k ≤ 65535 →
    g'.evenMean dbg n k (Game.won dbg ord c.opp) = g.evenMean dbg n k (Game.won dbg ord c) := by
  have fin : ∀ {m : Nat} {g g' : Game}, Twin dbg n m g g' → g.rule.Even → g.isOver = true →
      Game.won dbg ord c.opp (.ok g') = Game.won dbg ord c (.ok g) := by
    intro m g g' h hev ho
    obtain ⟨_, _, l1⟩ := h.1
    obtain ⟨_, _, l2⟩ := h.2.1
    obtain ⟨m1, _, hr⟩ := l1.reach
    obtain ⟨m2, _, hr'⟩ := l2.reach
    have hp : 2 ≤ g.passes := by
      unfold Game.isOver at ho
      rw [h.outcome] at ho
      simpa using ho
    obtain ⟨x, x', e1, e2, e3⟩ := h.swapped.winner hr hr' h.2.2.1 hev h.outcome hp hord
    unfold Game.won
    dsimp only
    rw [e1, e2]
    dsimp only
    rw [e3]
    cases x.getWinner with
    | none => simp
    | some d => cases d <;> cases c <;> simp [Color.opp]
  intro k
  induction k with
  | zero =>
    intro m g g' h hev hm
    unfold Game.evenMean
    rw [h.isOver]
    cases ho : g.isOver with
    | true => exact fin h hev ho
    | false => rfl
  | succ k ih =>
    intro m g g' h hev hm
    unfold Game.evenMean
    rw [h.isOver]
    cases ho : g.isOver with
    | true => exact fin h hev ho
    | false =>
      simp only [Bool.false_eq_true, if_false]
      have hC := (exists_choices dbg n g).choose_spec
      have hC' := (exists_choices dbg n g').choose_spec
      generalize (exists_choices dbg n g).choose = C at hC
      generalize (exists_choices dbg n g').choose = C' at hC'
      have hperm : C'.Perm C := by
        rw [List.perm_ext_iff_of_nodup hC'.1 hC.1]
        intro p
        rw [hC.2, hC'.2]
        exact ⟨fun hp => ⟨hp.1, h.symm.candidate (by omega) hp.2⟩, fun hp => ⟨hp.1, h.candidate (by omega) hp.2⟩⟩
      have next : ∀ mv g1, mv.Ordinary n → g.tryPlay dbg mv = .ok (none, g1) →
          (match g'.play dbg mv with
            | .error x => Game.won dbg ord c.opp (.error x)
            | .ok g2 => g2.evenMean dbg n k (Game.won dbg ord c.opp)) =
          (match g.play dbg mv with
            | .error x => Game.won dbg ord c (.error x)
            | .ok g2 => g2.evenMean dbg n k (Game.won dbg ord c)) := by
        intro mv g1 hmv e
        obtain ⟨g1', e', h'⟩ := h.step (by omega) hmv e
        rw [C13_accepted_is_play e, C13_accepted_is_play e']
        exact ih h' (by rw [tryPlay_rule e]; exact hev) (by omega)
      by_cases h0 : C = []
      · rw [if_pos h0, if_pos (by rw [h0] at hperm; exact hperm.eq_nil)]
        exact next .pass _ trivial (tryPlay_pass (not_over_passes ho))
      · rw [if_neg h0, if_neg (fun h => h0 (by rw [h] at hperm; exact hperm.symm.eq_nil)), mean_perm hperm]
        apply mean_congr
        intro p hp
        obtain ⟨hb, ⟨g1, e⟩, _⟩ := ((hC.2 p).1 hp).2
        exact next (.play p.1 p.2) g1 hb e

/-- **C113**, fairness: two new games, whatever stones are set up, one with the colours of the other exchanged and the other player to
move. Without komi the chance that a play-out is won by Black in the one is the chance that it is won by White in the other. -/
theorem C113_fair {g' : Game} {m' k : Nat} (hf : Fresh dbg n m g) (hf' : Fresh dbg n m' g') (hd : Spec.NoDead n g.goban.view)
    (ho : g.outcome = none) (hr : g'.rule = g.rule) (hev : g.rule.Even) (h0 : Swapped n g g') (hm : m + k ≤ 65535)
    (hm' : m' + k ≤ 65535) {ord : List Point → List Point} (hord : ∀ l, (ord l).Perm l) (c : Color) :
    g'.playoutMean dbg k (Game.won dbg ord c.opp) = g.playoutMean dbg k (Game.won dbg ord c) := by
  have hv : Spec.SameOn n g'.goban.view (swapPos g.goban.view) := h0.view
  have hd' : Spec.NoDead n g'.goban.view := (noDead_congr hv).2 (noDead_swap.2 hd)
  have l1 : Legal dbg n m g := .fresh hf hd
  have l2 : Legal dbg n m' g' := .fresh hf' hd'
  have s1 := hf.sim hd
  have s2 := hf'.sim_congr hv (noDead_swap.2 hd)
  have hst : Spec.State.start (swapPos g.goban.view) g'.turn = swapState (Spec.State.start g.goban.view g.turn) := by
    rw [h0.turn]; rfl
  have ho' : g'.outcome = none := by rw [h0.outcome, ho]; rfl
  rw [ho] at s1
  rw [hst, ho'] at s2
  rw [C113_playout _ k l1 hm, C113_playout _ k l2 hm']
  have ht : Twin dbg n (max m m') g g' := ⟨⟨m, Nat.le_max_left .., l1⟩, ⟨m', Nat.le_max_right .., l2⟩, hr, m, m', _,
    Nat.le_max_left .., Nat.le_max_right .., s1, s2, Nat.zero_le _, rfl⟩
  exact Twin.mean hord k ht hev (by omega)

/-- Non-vacuity of C113: in this 3 × 3 game five points are listed, the corner among them is an own eye, and each of the other four is
played with chance one fourth. -/
example : ∃ g ps C, Legal true 3 6 g ∧ g.passes ≠ 2 ∧ g.pseudoLegals = .ok ps ∧ ps.length = 5 ∧ g.Choices true 3 C ∧ C.length = 4 ∧
    ∀ p ∈ C, meanOfOrders ps (fun v => if g.fastPlayRandom true v = .ok (.play p.1 p.2) then 1 else 0) = 1 / 4 := by
  obtain ⟨g, hl, hf⟩ : ∃ g, Legal true 3 6 g ∧ (g.passes ≠ 2 ∧ g.pseudoLegals = .ok [(0, 0), (0, 2), (1, 2), (2, 0), (2, 1)] ∧
      g.legalsMoves true = .ok [.play 0 2, .play 1 2, .play 2 0, .play 2 1] : Bool) = true :=
    mkGame_exists (rule := JAPANESE) (l := [.try_ (.play 0 1), .try_ (.play 2 2), .try_ (.play 1 0), .try_ .pass,
      .try_ (.play 1 1), .try_ .pass]) (by decide) (by decide +kernel)
  simp only [Bool.decide_and, Bool.and_eq_true, decide_eq_true_eq] at hf
  obtain ⟨h1, h2, h3⟩ := hf
  obtain ⟨m', hm', hr⟩ := hl.reach
  obtain ⟨l, e, _, hc, _⟩ := C46_legals_moves hr h1 (by omega)
  rw [h3] at e
  cases e
  have hC : g.Choices true 3 [(0, 2), (1, 2), (2, 0), (2, 1)] := by
    refine ⟨by decide, fun p => ?_⟩
    have h4 := hc p.1 p.2
    constructor
    · intro hp
      have h5 : g.Candidate true 3 p := h4.1 (by simpa [Prod.ext_iff] using hp)
      exact ⟨h5.1.1, h5⟩
    · intro hp
      simpa [Prod.ext_iff] using h4.2 hp.2
  exact ⟨g, _, _, hl, h1, h2, rfl, hC, rfl, fun p hp => C113_chance hr h1 (by omega) h2 hC hp⟩

/-- Non-vacuity of `C113_fair`: a stone in the middle of the 3 × 3 board, its opponent to move, with either colours. -/
example : ∃ g g', Fresh true 3 1 g ∧ Fresh true 3 1 g' ∧ Spec.NoDead 3 g.goban.view ∧ g.outcome = none ∧ g'.rule = g.rule ∧
    g.rule.Even ∧ Swapped 3 g g' ∧ g.goban.getColor (1, 1) = .ok (some .black) := by
  obtain ⟨⟨g, g'⟩, e, h⟩ := okAnd_iff.1 (show okAnd (do
      let g ← ({ GameBuilder.default with size := (3, 3), rule := evenChinese, turn := some .white, setup := [⟨(1, 1), .black⟩] } : GameBuilder).buildInner true
      let g' ← ({ GameBuilder.default with size := (3, 3), rule := evenChinese, turn := some .black, setup := [⟨(1, 1), .white⟩] } : GameBuilder).buildInner true
      .ok (g, g'))
    (fun r => decide (r.1.rule = evenChinese ∧ r.2.rule = evenChinese ∧ r.1.outcome = none ∧ r.2.outcome = none ∧
      r.1.goban.allAlive = true ∧ r.2.turn = r.1.turn.opp ∧ r.1.passes = 0 ∧ r.2.passes = 0 ∧ r.1.prisoners = (0, 0) ∧
      r.2.prisoners = (0, 0) ∧ r.1.goban.getColor (1, 1) = .ok (some .black) ∧
      ∀ p ∈ Spec.points 3, ∃ c ∈ [none, some Color.black], r.1.goban.getColor p = .ok c ∧ r.2.goban.getColor p = .ok (swapC c))) = true
    by decide +kernel)
  obtain ⟨_, e1, e⟩ := bind_eq_ok e
  obtain ⟨_, e2, e⟩ := bind_eq_ok e
  cases e
  obtain ⟨h1, h2, h3, h4, h5, h6, h7, h8, h9, h10, h11, h12⟩ := of_decide_eq_true h
  have f1 : Fresh true 3 1 g := .build (by decide) rfl rfl (by decide) (by decide) e1
  have f2 : Fresh true 3 1 g' := .build (by decide) rfl rfl (by decide) (by decide) e2
  refine ⟨g, g', f1, f2, noDead_of_allAlive (Reach.fresh f1).inv h5, h3, by rw [h1, h2], fun _ => by rw [h1]; rfl,
    ⟨fun p hp => ?_, h6, by rw [h7, h8], by rw [h9, h10], by rw [h3, h4]; rfl⟩, h11⟩
  obtain ⟨c, _, hc⟩ := h12 p (mem_points.2 hp)
  exact ⟨c, hc⟩

end Model
