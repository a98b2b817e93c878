import Verif.Spec.Strategy
import Verif.Props.KomiAll
import Verif.Props.RectScore
import Verif.Props.Room
import Verif.Props.SuperKo
import Verif.Props.Counting
/-!
# C94: what the players can force
-/

namespace Model
open Spec (OnBoard Adj Linked NoDead SameOn Pos State Joins Single Rounded RoundedSum dist)

variable {dbg : Bool} {n : Dim} {m : Nat} {g g' : Game} {ord : List Point → List Point}

theorem opp_opp (c : Color) : c.opp.opp = c := by cases c <;> rfl

theorem opp_ne (c : Color) : c.opp ≠ c := by cases c <;> (intro h; cases h)

theorem Move.Ordinary.onBoard {mv : Move} (h : mv.Ordinary n) : mv.OnBoard n := by
  cases mv with
  | play x y => exact h
  | pass => trivial
  | resign c => exact h.elim

/-! ## Results of games that are colour exchanges of each other -/

theorem credited_le (h : Reach dbg n m g) (c : Color) : Spec.credited n g.goban.view c ≤ 2 ^ 18 := by
  unfold Spec.credited
  split
  · exact gained_le h.inv.good _ _
  · have := territorySize_le (n := n) g.goban.view c
    have : n.area ≤ 19 * 19 := h.inv.good.area_le
    omega

theorem roundedSum_single : ∀ {l : List Rat} {a r : Rat}, Single a → RoundedSum a l r → Single r
  | [], a, r, h, hr => by cases hr; exact h
  | x :: xs, a, r, _, hr => by
    obtain ⟨c, hc, hr⟩ := hr
    exact roundedSum_single hc.single hr

theorem score_komi {f : ScoreRules} {b w : F32} (h : g.calculateScoreBy dbg ord { f with komi := false } = .ok (b, w)) :
    g.calculateScoreBy dbg ord f = .ok (b, if f.komi then w.add g.rule.komi else w) := by
  unfold Game.calculateScoreBy at h ⊢
  obtain ⟨t, et, h⟩ := bind_eq_ok h
  rw [et, ok_bind]
  rcases f with ⟨x, y, z⟩
  cases x <;> cases y <;> cases z <;> cases h <;> rfl

/-- Without komi the scores are whole numbers of single precision. -/
theorem score_even (h : Reach dbg n m g) (he : g.rule.Even) (hord : ∀ l, (ord l).Perm l) :
    ∃ b w : Nat, g.calculateScore dbg ord = .ok (.fin b, .fin w) ∧
      g.calculateScoreBy dbg ord { g.rule.flagScore with komi := false } = .ok (.fin b, .fin w) ∧
      b < 2 ^ 31 ∧ w < 2 ^ 31 ∧ Single (b : Rat) ∧ Single (w : Rat) := by
  have hb := credited_le h .black
  have hw := credited_le h .white
  have et := calculateTerritories_every h hord
  obtain ⟨pb, pw, b, w, _, _, sb, sw, lb, lw, e⟩ := score_of (f := { g.rule.flagScore with komi := false }) h.tally et hb hw
  have e1 : g.calculateScoreBy dbg ord { g.rule.flagScore with komi := false } = .ok (.fin b, .fin w) := e
  have s1 : Single (b : Rat) := roundedSum_single (Single.nat (by omega)) sb
  have s2 : Single (w : Rat) := roundedSum_single (Single.nat (by omega)) sw
  refine ⟨b, w, ?_, e1, by omega, by omega, s1, s2⟩
  unfold Game.calculateScore
  rw [score_komi e1]
  cases hk : g.rule.flagScore.komi with
  | false => rfl
  | true =>
    obtain ⟨w', ew, hw'⟩ := sum_rounded (a := w) (by omega) (v := 0) (Single.nat (k := 0) (by omega))
    rw [Rat.add_zero] at hw'
    rw [hw'.exact s2] at ew
    rw [he hk, if_pos rfl, ew]

/-- The winner by two scores. -/
def leader (b w : Nat) : Option Color := if w < b then some .black else if b < w then some .white else none

theorem leader_swap (b w : Nat) : leader w b = (leader b w).map Color.opp := by
  unfold leader
  split
  · rw [if_neg (by omega)]; rfl
  · split
    · rfl
    · rfl

theorem dist_nat {b w : Nat} (h : b ≠ w) : (2 : Rat) ^ (-23 : Int) ≤ dist (b : Rat) (w : Rat) := by
  have h1 : (2 : Rat) ^ (-23 : Int) ≤ 1 := by decide +kernel
  unfold dist
  rcases Nat.lt_or_gt_of_ne h with h | h
  · have : ((b + 1 : Nat) : Rat) ≤ (w : Rat) := Rat.natCast_le_natCast.2 h
    rw [Rat.natCast_add] at this
    grind
  · have : ((w + 1 : Nat) : Rat) ≤ (b : Rat) := Rat.natCast_le_natCast.2 h
    rw [Rat.natCast_add] at this
    grind

theorem decide_leader {b w : Nat} (hb : b < 2 ^ 31) (hw : Single (w : Rat)) :
    (Game.decideByScore (.fin b, .fin w)).getWinner = leader b w := by
  obtain ⟨h1, h2, h3⟩ := decide_spec hb hw
  unfold leader
  by_cases hlt : w < b
  · obtain ⟨d, e, _⟩ := h2 (dist_nat (by omega)) (Rat.natCast_lt_natCast.2 hlt)
    rw [e, if_pos hlt]; rfl
  · rw [if_neg hlt]
    by_cases hgt : b < w
    · obtain ⟨d, e, _⟩ := h3 (dist_nat (by omega)) (Rat.natCast_lt_natCast.2 hgt)
      rw [e, if_pos hgt]; rfl
    · rw [if_neg hgt]
      have : b = w := by omega
      subst this
      rw [h1 (by unfold dist; have := F32.pow2_pos (-23); grind)]; rfl

/-- Ended by two passes and without komi: exchanging the colours exchanges the winner. -/
theorem Swapped.winner {m' : Nat} (h : Reach dbg n m g) (h' : Reach dbg n m' g') (ht : Swapped n g g') (hr : g'.rule = g.rule)
    (he : g.rule.Even) (ho : g.outcome = none) (hp : 2 ≤ g.passes) (hord : ∀ l, (ord l).Perm l) :
    ∃ e e', g.getOutcome dbg ord = .ok (some e) ∧ g'.getOutcome dbg ord = .ok (some e') ∧
      e'.getWinner = e.getWinner.map Color.opp := by
  obtain ⟨b, w, e1, e2, lb, lw, sb, sw⟩ := score_even h he hord
  obtain ⟨b', w', e1', e2', lb', lw', sb', sw'⟩ := score_even h' (by rw [hr]; exact he) hord
  obtain ⟨x, y, e3, e4⟩ := C44_score h h' ht hord hord { g.rule.flagScore with komi := false } rfl
  rw [e2] at e3
  rw [hr] at e2'
  rw [e2'] at e4
  cases e3
  have hx : b' = w ∧ w' = b := by
    injection e4 with e4
    injection e4 with a1 a2
    injection a1 with a1
    injection a2 with a2
    exact ⟨Rat.natCast_inj.1 a1, Rat.natCast_inj.1 a2⟩
  obtain ⟨rfl, rfl⟩ := hx
  refine ⟨_, _, outcome_eq ho hp e1, outcome_eq (by rw [ht.outcome, ho]; rfl) (by rw [ht.passes]; exact hp) e1', ?_⟩
  rw [decide_leader lb sw, decide_leader lb' sw', leader_swap]

/-! ## Games that are colour exchanges of each other -/

/-- `g'` is `g` with the colours exchanged, in all that matters for what `try_play` answers from now on. -/
structure Mirror (dbg : Bool) (n : Dim) (g g' : Game) : Prop where
  sim : ∃ m m' s, Sim dbg n m none g s ∧ Sim dbg n m' none g' (swapState s) ∧ s.passes ≤ 2 ∧ s.resigned = none
  rule : g'.rule = g.rule
  room : g'.goban.chains.length = g.goban.chains.length

theorem swapState_swapState (s : State) : swapState (swapState s) = s := by
  have h : swapPos ∘ swapPos = id := funext swapPos_swapPos
  cases s with
  | mk pos turn passes prisoners resigned before played =>
    unfold swapState
    simp [swapPos_swapPos, swapC_swapC, h]

theorem Mirror.symm (h : Mirror dbg n g g') : Mirror dbg n g' g := by
  obtain ⟨⟨m, m', s, h1, h2, h3, h4⟩, h5, h6⟩ := h
  refine ⟨⟨m', m, swapState s, h2, by rw [swapState_swapState]; exact h1, h3, ?_⟩, h5.symm, h6.symm⟩
  show swapC s.resigned = none
  rw [h4]; rfl

theorem Mirror.swapped (h : Mirror dbg n g g') : Swapped n g g' := by
  obtain ⟨⟨m, m', s, h1, h2, h3, h4⟩, _, _⟩ := h
  refine ⟨fun p hp => ⟨s.pos p, ?_, ?_⟩, ?_, ?_, ?_, ?_⟩
  · rw [h1.inv.getColor_view hp, h1.pos p hp]
  · rw [h2.inv.getColor_view hp, h2.pos p hp]; rfl
  · rw [h1.turn, h2.turn]; rfl
  · rw [h1.passes, h2.passes]; rfl
  · rw [h1.prisoners, h2.prisoners]; rfl
  · rw [h1.outcome, h2.outcome, show (swapState s).resigned = none by show swapC s.resigned = none; rw [h4]; rfl, h4]; rfl

theorem Mirror.outcome (h : Mirror dbg n g g') : g.outcome = none := by
  obtain ⟨⟨m, m', s, h1, h2, h3, h4⟩, _, _⟩ := h
  rw [h1.outcome, h4]

theorem Mirror.isOver (h : Mirror dbg n g g') : g'.isOver = g.isOver := by
  unfold Game.isOver
  rw [h.outcome, h.symm.outcome, h.swapped.passes]

theorem joins_swap {pos : Pos} {p : Coord} {c : Color} : Joins n (swapPos pos) p c.opp ↔ Joins n pos p c := by
  unfold Joins
  simp only [linked_swap]
  simp only [swapPos, swapC_some]

theorem joins_congr_mp {pos pos' : Pos} (h : SameOn n pos pos') {p : Coord} {c : Color} (hj : Joins n pos p c) : Joins n pos' p c := by
  obtain ⟨⟨q, h1, h2, h3⟩, h4⟩ := hj
  refine ⟨⟨q, h1, h2, by rw [← h q h1]; exact h3⟩, fun q r hq hr aq ar cq cr => ?_⟩
  exact linked_congr h hq (h4 q r hq hr aq ar (by rw [h q hq]; exact cq) (by rw [h r hr]; exact cr))

theorem Mirror.joins (h : Mirror dbg n g g') {p : Coord} (hj : Joins n g.goban.view p g.turn) : Joins n g'.goban.view p g'.turn := by
  have h1 := h.swapped.view
  rw [h.swapped.turn]
  exact joins_congr_mp (fun q hq => (h1 q hq).symm) (joins_swap.2 hj)

theorem accepted_stone {x y : Nat} (e : g.tryPlay dbg (.play x y) = .ok (none, g')) :
    g.goban.getColor (x, y) = .ok none ∧ g.passes ≠ 2 ∧ g.checkPoint dbg (x, y) = .ok none := by
  unfold Game.tryPlay at e
  split at e
  · cases e
  next hp =>
  obtain ⟨c, ec, e⟩ := bind_eq_ok e
  split at e
  · cases e
  next hc =>
  obtain ⟨r, er, e⟩ := bind_eq_ok e
  cases r with
  | some r => cases e
  | none => exact ⟨by rw [ec, Decidable.not_not.1 hc], hp, er⟩

theorem tryPlay_pass (hp : g.passes < 2) :
    g.tryPlay dbg .pass = .ok (none, { g with turn := g.turn.opp, koPoint := none, passes := g.passes + 1 }) := by
  unfold Game.tryPlay
  rw [if_neg (by omega)]
  dsimp only
  unfold Game.play
  rw [decide_eq_true hp]
  rfl

open Classical in
theorem Mirror.length (h : Mirror dbg n g g') {mv : Move} (hmv : mv.Ordinary n) {g1 g1' : Game}
    (e : g.tryPlay dbg mv = .ok (none, g1)) (e' : g'.tryPlay dbg mv = .ok (none, g1')) :
    g1'.goban.chains.length = g1.goban.chains.length := by
  obtain ⟨m, m', s, h1, h2, _⟩ := h.sim
  have p := C13_accepted_is_play e
  have p' := C13_accepted_is_play e'
  cases mv with
  | resign c => exact hmv.elim
  | pass =>
    obtain ⟨_, _, p⟩ := bind_eq_ok p
    obtain ⟨_, _, p'⟩ := bind_eq_ok p'
    cases p; cases p'
    exact h.room
  | play x y =>
    rcases play_room (dbg := dbg) h1.inv h1.histInv hmv (accepted_stone e).1 with ⟨_, q, _, l⟩ | ⟨q, _⟩
    swap
    · rw [p] at q; cases q
    rcases play_room (dbg := dbg) h2.inv h2.histInv hmv (accepted_stone e').1 with ⟨_, q', _, l'⟩ | ⟨q', _⟩
    swap
    · rw [p'] at q'; cases q'
    rw [p] at q; cases q
    rw [p'] at q'; cases q'
    rw [l, l', h.room]
    by_cases hj : Joins n g.goban.view (x, y) g.turn
    · rw [if_pos hj, if_pos (h.joins hj)]
    · rw [if_neg hj, if_neg (fun hj' => hj (h.symm.joins hj'))]

/-- What is accepted in one game is accepted in the other, and the games stay colour exchanges of each other. -/
theorem Mirror.step (h : Mirror dbg n g g') {mv : Move} (hmv : mv.Ordinary n) {g1 : Game} (e : g.tryPlay dbg mv = .ok (none, g1)) :
    ∃ g1', g'.tryPlay dbg mv = .ok (none, g1') ∧ Mirror dbg n g1 g1' := by
  have hM := h
  obtain ⟨⟨m, m', s, h1, h2, h3, h4⟩, h5, h6⟩ := h
  have hsw : swapCall (GOp.try_ mv).call = (GOp.try_ mv).call := by
    cases mv with
    | play x y => rfl
    | pass => rfl
    | resign c => exact hmv.elim
  have hst := stepSeen_swap (n := n) (r := g.rule.flagIllegal.forbidden) (s := s) (c := (GOp.try_ mv).call)
  rw [hsw] at hst
  obtain ⟨a1, ⟨m1, _, b1⟩, c1, d1⟩ := (h1.call_seen (dbg := dbg) (.try_ mv) hmv.onBoard h3).of_ok e
  have hres : (Spec.stepSeen n g.rule.flagIllegal.forbidden s (GOp.try_ mv).call).2.resigned = none := by
    unfold Spec.stepSeen
    split
    · cases mv with
      | play x y => exact h4
      | pass => exact h4
      | resign c => exact hmv.elim
    · exact h4
  have hc2 := h2.call_seen (dbg := dbg) (.try_ mv) hmv.onBoard h3
  rw [h5, hst] at hc2
  rcases hc2 with ⟨⟨x, g1'⟩, e', a2, ⟨m2, _, b2⟩, c2, d2⟩ | ⟨e', hfull⟩
  · dsimp only at a2 b2
    rw [← a1] at a2
    have hx : x = none := by
      cases x with
      | none => rfl
      | some x => cases x <;> cases a2
    subst hx
    exact ⟨g1', e', ⟨⟨_, _, _, b1, b2, d1, hres⟩,
      by rw [tryPlay_rule e', tryPlay_rule e, h5], hM.length hmv e e'⟩⟩
  · exfalso
    have e' : g'.tryPlay dbg mv = panic := e'
    cases mv with
    | pass =>
      have hp : g'.passes < 2 := by
        rw [hM.swapped.passes]
        have : g.passes ≤ 2 := by rw [h1.passes]; exact h3
        have : g.passes ≠ 2 := by
          intro h2
          unfold Game.tryPlay at e
          rw [if_pos h2] at e
          cases e
        omega
      rw [tryPlay_pass hp] at e'
      cases e'
    | resign c => exact hmv.elim
    | play x y =>
      obtain ⟨hf, hj⟩ := ((tryPlay_room (dbg := dbg) h2.inv h2.histInv hmv).1.1 e').1
      have hs : g.Stuck n (x, y) := ⟨by unfold Game.Full at hf ⊢; rw [← h6]; exact hf, fun hj' => hj (hM.joins hj')⟩
      rcases play_room (dbg := dbg) h1.inv h1.histInv hmv (accepted_stone e).1 with ⟨_, _, hns, _⟩ | ⟨q, _⟩
      · exact hns hs
      · rw [C13_accepted_is_play e] at q; cases q

/-! ## Forcing a result -/

theorem accepted_reach {mv : Move} (hmv : mv.Ordinary n) (h : Reach dbg n m g) (e : g.tryPlay dbg mv = .ok (none, g')) :
    ∃ m', Reach dbg n m' g' := by
  have p := C13_accepted_is_play e
  cases mv with
  | play x y => exact ⟨_, .play h hmv (accepted_stone e).1 p⟩
  | pass => exact ⟨_, .pass h p⟩
  | resign c => exact hmv.elim

/-- What one player can force, the other can force in the game with the colours exchanged. -/
theorem Mirror.forces (hord : ∀ l, (ord l).Perm l) {c : Color} (hF : Forces dbg ord n c g) :
    ∀ {g' : Game} {m m' : Nat}, Mirror dbg n g g' → Reach dbg n m g → Reach dbg n m' g' → g.rule.Even →
      Forces dbg ord n c.opp g' := by
  unfold Forces at hF
  induction hF with
  | @over g e ho he hw =>
    intro g' m m' hM hr hr' hev
    have hp : 2 ≤ g.passes := by
      unfold Game.isOver at ho
      rw [hM.outcome] at ho
      simpa using ho
    obtain ⟨x, x', e1, e2, e3⟩ := hM.swapped.winner hr hr' hM.rule hev hM.outcome hp hord
    rw [he] at e1
    cases e1
    exact .over (by rw [hM.isOver]; exact ho) e2 (by rw [e3, hw]; rfl)
  | @own g mv g1 ho ht hmv e _ ih =>
    intro g' m m' hM hr hr' hev
    obtain ⟨g1', e', hM'⟩ := hM.step hmv e
    obtain ⟨_, hr1⟩ := accepted_reach hmv hr e
    obtain ⟨_, hr1'⟩ := accepted_reach hmv hr' e'
    exact .own (by rw [hM.isOver]; exact ho) (by rw [hM.swapped.turn, ht]) hmv e'
      (ih hM' hr1 hr1' (by rw [tryPlay_rule e]; exact hev))
  | @other g ho ht _ ih =>
    intro g' m m' hM hr hr' hev
    refine .other (by rw [hM.isOver]; exact ho) (by rw [hM.swapped.turn, ht]) (fun mv g1' hmv e' => ?_)
    obtain ⟨g1, e, hM'⟩ := hM.symm.step hmv e'
    obtain ⟨_, hr1⟩ := accepted_reach hmv hr e
    obtain ⟨_, hr1'⟩ := accepted_reach hmv hr' e'
    exact ih mv g1 hmv e hM'.symm hr1 hr1' (by rw [tryPlay_rule e]; exact hev)

/-- **C94**. If one player can force a win, the other cannot make sure not to lose. -/
theorem C94_exclusive {c : Color} (hF : Forces dbg ord n c g) : ¬ Secures dbg ord n c.opp g := by
  unfold Forces at hF
  intro hS
  induction hF with
  | @over g e ho he hw =>
    cases hS with
    | over ho' he' hw' =>
      rw [he] at he'
      cases he'
      exact hw' (by rw [hw, opp_opp])
    | own ho' _ _ _ _ => rw [ho] at ho'; cases ho'
    | other ho' _ _ => rw [ho] at ho'; cases ho'
  | @own g mv g1 ho ht hmv e _ ih =>
    cases hS with
    | over ho' _ _ => rw [ho] at ho'; cases ho'
    | own _ ht' _ _ _ => rw [ht] at ht'; exact (opp_ne c ht'.symm).elim
    | other _ _ h => exact ih (h mv g1 hmv e)
  | @other g ho ht _ ih =>
    cases hS with
    | over ho' _ _ => rw [ho] at ho'; cases ho'
    | own _ _ hmv e h => exact ih _ _ hmv e h
    | other _ ht' _ => rw [ht] at ht'; exact (opp_ne _ ht'.symm).elim

theorem Forces.secures {c : Color} (h : Forces dbg ord n c g) : Secures dbg ord n c g := by
  unfold Forces at h
  unfold Secures
  induction h with
  | over ho he hw => exact .over ho he (by rw [hw]; intro h; injection h with h; exact opp_ne c h.symm)
  | own ho ht hmv e _ ih => exact .own ho ht hmv e ih
  | other ho ht _ ih => exact .other ho ht ih

theorem not_both {c : Color} (h : Forces dbg ord n c g) (h' : Forces dbg ord n c.opp g) : False :=
  C94_exclusive h h'.secures

/-! ## Strategy stealing -/

theorem Fresh.mirror (hf : Fresh dbg n m g) (hb : Bare n g.goban.view) (ho : g.outcome = none) :
    Mirror dbg n g { g with turn := g.turn.opp } := by
  have hd : NoDead n g.goban.view := fun p hp hne => absurd (hb p hp) hne
  have h0 := hf.sim hd
  rw [ho] at h0
  refine ⟨⟨m, m, _, h0, ?_, Nat.zero_le _, rfl⟩, rfl, rfl⟩
  refine ⟨h0.board, ?_, ?_, noDead_swap.2 h0.noDead, rfl, h0.passes, h0.prisoners, ?_, ?_, ?_⟩
  · rw [hf.spec.history]; trivial
  · intro p hp
    show g.goban.view p = swapC (g.goban.view p)
    rw [hb p hp]; rfl
  · exact h0.outcome
  · intro q
    rw [show ({ g with turn := g.turn.opp } : Game).koPoint = none from hf.spec.ko]
    constructor
    · intro h; cases h
    · rintro ⟨b, h, _⟩; cases h
  · intro b h; cases h

theorem eyeCorners_passes (k : Nat) (c : Color) : ∀ l, Game.eyeCorners dbg { g with passes := k } c l = g.eyeCorners dbg c l
  | [] => rfl
  | a :: l => by
    unfold Game.eyeCorners
    rw [eyeCorners_passes k c l]
    rfl

/-- The passes do not matter for the answer of `check_point`. -/
theorem checkPoint_passes (k : Nat) (p : Coord) : Game.checkPoint dbg { g with passes := k } p = g.checkPoint dbg p := by
  unfold Game.checkPoint Game.checkPointBy Game.checkEye
  simp only [eyeCorners_passes]
  rfl

/-- **C94**, strategy stealing. In a game that starts on an empty board, with no komi that counts, the player who does not move
first cannot force a win: whatever the board, the rule and the order in which territory is counted. -/
theorem C94_strategy_stealing (hf : Fresh dbg n m g) (hb : Bare n g.goban.view) (ho : g.outcome = none) (he : g.rule.Even)
    (hord : ∀ l, (ord l).Perm l) : ¬ Forces dbg ord n g.turn.opp g := by
  intro hF
  have hp0 : g.passes = 0 := hf.spec.passes
  have hk0 : g.koPoint = none := hf.spec.ko
  have hM := hf.mirror hb ho
  have hr := Reach.fresh hf
  have over_of : ∀ {g : Game}, g.outcome = none → g.passes < 2 → ¬ g.isOver = true := by
    intro g ho hp h
    unfold Game.isOver at h
    rw [ho] at h
    simp at h; omega
  cases hF with
  | over h _ _ => exact over_of ho (by omega) h
  | own _ ht _ _ _ => exact opp_ne _ ht.symm
  | other _ _ hall =>
    have e1 := tryPlay_pass (dbg := dbg) (g := g) (by omega)
    obtain ⟨m1, hr1⟩ := accepted_reach (n := n) (mv := .pass) trivial hr e1
    have hF1 := hall .pass _ trivial e1
    cases hF1 with
    | over h _ _ =>
      have hp1 : g.passes + 1 < 2 := by omega
      exact over_of (g := { g with turn := g.turn.opp, koPoint := none, passes := g.passes + 1 }) ho hp1 h
    | other _ ht _ => exact opp_ne _ ht.symm
    | @own _ mv g2 _ _ hmv e2 h2 =>
      cases mv with
      | resign c => exact hmv.elim
      | pass =>
        rw [tryPlay_pass (by show g.passes + 1 < 2; omega)] at e2
        cases e2
        obtain ⟨m2, hr2⟩ := accepted_reach (n := n) (mv := .pass) trivial hr1
          (tryPlay_pass (dbg := dbg) (by show g.passes + 1 < 2; omega))
        have hr3 := Reach.resume hr1
        obtain ⟨m4, hr4⟩ := accepted_reach (n := n) (mv := .pass) trivial hr3
          (tryPlay_pass (dbg := dbg) (by show 0 < 2; omega))
        obtain ⟨m5, hr5⟩ := accepted_reach (n := n) (mv := .pass) trivial hr4
          (tryPlay_pass (dbg := dbg) (by show 0 + 1 < 2; omega))
        have hsw : Swapped n { g with turn := g.turn.opp.opp, koPoint := none, passes := g.passes + 1 + 1 }
            { g with turn := g.turn.opp.opp.opp, koPoint := none, passes := 0 + 1 + 1 } := by
          refine ⟨fun p hp => ⟨none, ?_, ?_⟩, rfl, by show 0 + 1 + 1 = g.passes + 1 + 1; rw [hp0], ?_, ?_⟩
          · rw [hr.inv.getColor_view hp, hb p hp]
          · show g.goban.getColor p = _
            rw [hr.inv.getColor_view hp, hb p hp]; rfl
          · show g.prisoners = (g.prisoners.2, g.prisoners.1)
            rw [hf.spec.prisoners]
          · show g.outcome = g.outcome.map EndGame.swap
            rw [ho]; rfl
        obtain ⟨x, x', o1, o2, o3⟩ := hsw.winner hr2 hr5 rfl he ho (by show 2 ≤ g.passes + 1 + 1; omega) hord
        have o4 : Game.getOutcome dbg ord { g with turn := g.turn.opp.opp, koPoint := none, passes := g.passes + 1 + 1 } =
            .ok (some x') := by rw [← o2, hp0]; rfl
        rw [o4] at o1
        cases o1
        cases h2 with
        | over _ o5 hw =>
          rw [o4] at o5
          cases o5
          rw [hw] at o3
          injection o3 with o3
          exact opp_ne _ o3.symm
        | own h _ _ _ _ => simp [Game.isOver, ho] at h
        | other h _ _ => simp [Game.isOver, ho] at h
      | play x y =>
        have e3 : ({ g with turn := g.turn.opp } : Game).tryPlay dbg (.play x y) = .ok (none, g2) := by
          obtain ⟨c1, _, c2⟩ := accepted_stone e2
          have c3 := C13_accepted_is_play e2
          have c2' : ({ g with turn := g.turn.opp } : Game).checkPoint dbg (x, y) = .ok none := by
            rw [← c2, ← checkPoint_passes (g.passes + 1), hk0]
          have c3' : ({ g with turn := g.turn.opp } : Game).play dbg (.play x y) = .ok g2 := by
            rw [← c3, play_eq, play_eq]
          unfold Game.tryPlay
          rw [if_neg (show ¬ g.passes = 2 by omega)]
          dsimp only
          rw [show g.goban.getColor (x, y) = .ok none from c1, ok_bind, if_neg (by simp), c2', ok_bind]
          dsimp only
          rw [c3', ok_bind]
        obtain ⟨h2', e4, hM2⟩ := hM.symm.step hmv e3
        obtain ⟨_, hra⟩ := accepted_reach hmv hr1 e2
        obtain ⟨_, hrb⟩ := accepted_reach hmv hr e4
        have hA := hM2.forces hord h2 hra hrb (by rw [tryPlay_rule e2]; exact he)
        rw [opp_opp] at hA
        exact not_both hA (hall _ _ hmv e4)

/-! ## Determinacy -/

/-- An accepted move makes the game older. -/
theorem accepted_age {mv : Move} (hmv : mv.Ordinary n) (h : Reach dbg n m g) (ho : g.isOver = false)
    (e : g.tryPlay dbg mv = .ok (none, g')) : 2 * g.goban.age n + g.passes < 2 * g'.goban.age n + g'.passes := by
  have hp := not_over_passes ho
  cases mv with
  | resign c => exact hmv.elim
  | pass =>
    rw [tryPlay_pass hp] at e
    cases e
    show 2 * g.goban.age n + g.passes < 2 * g.goban.age n + (g.passes + 1)
    omega
  | play x y =>
    have := h.play_age hmv (accepted_stone e).1 (C13_accepted_is_play e)
    omega

/-- **C94**, determinacy. From every game that can be reached, under every rule: one player can force a win or the other can make
sure not to lose. -/
theorem C94_determined (h : Reach dbg n m g) (hord : ∀ l, (ord l).Perm l) (c : Color) :
    Secures dbg ord n c.opp g ↔ ¬ Forces dbg ord n c g := by
  suffices key : ∀ (k m : Nat) (g : Game), Reach dbg n m g →
      2 * (131070 * (n.area + 1) + n.area) + 2 - (2 * g.goban.age n + g.passes) = k →
      Forces dbg ord n c g ∨ Secures dbg ord n c.opp g from
    ⟨fun h1 h2 => C94_exclusive h2 h1, (key _ _ g h rfl).resolve_left⟩
  intro k
  induction k using Nat.strongRecOn with
  | ind k ih =>
    intro m g hr hk
    by_cases hov : g.isOver = true
    · obtain ⟨o, eo, ho⟩ := C22_none_iff hr hord
      cases o with
      | none =>
        obtain ⟨h1, h2⟩ := ho.1 rfl
        unfold Game.isOver at hov
        rw [h1] at hov
        simp at hov; omega
      | some x =>
        by_cases hw : x.getWinner = some c
        · exact Or.inl (.over hov eo hw)
        · exact Or.inr (.over hov eo (by rw [opp_opp]; exact hw))
    · have hov : g.isOver = false := by simpa using hov
      have hp := not_over_passes hov
      have hage := age_le hr.inv
      have hstep : ∀ mv g', mv.Ordinary n → g.tryPlay dbg mv = .ok (none, g') →
          Forces dbg ord n c g' ∨ Secures dbg ord n c.opp g' := by
        intro mv g' hmv e'
        obtain ⟨m', hr'⟩ := accepted_reach hmv hr e'
        have := accepted_age hmv hr hov e'
        exact ih _ (by omega) m' g' hr' rfl
      by_cases ht : g.turn = c
      · by_cases hex : ∃ mv g', mv.Ordinary n ∧ g.tryPlay dbg mv = .ok (none, g') ∧ Forces dbg ord n c g'
        · obtain ⟨mv, g', h1, h2, h3⟩ := hex
          exact Or.inl (.own hov ht h1 h2 h3)
        · refine Or.inr (.other hov (by rw [opp_opp]; exact ht) (fun mv g' h1 h2 => ?_))
          exact (hstep mv g' h1 h2).resolve_left (fun h3 => hex ⟨mv, g', h1, h2, h3⟩)
      · have ht' : g.turn = c.opp := by
          cases hg : g.turn <;> cases c <;> first | rfl | exact absurd hg ht
        by_cases hex : ∃ mv g', mv.Ordinary n ∧ g.tryPlay dbg mv = .ok (none, g') ∧ Secures dbg ord n c.opp g'
        · obtain ⟨mv, g', h1, h2, h3⟩ := hex
          exact Or.inr (.own hov ht' h1 h2 h3)
        · refine Or.inl (.other hov ht' (fun mv g' h1 h2 => ?_))
          exact (hstep mv g' h1 h2).resolve_right (fun h3 => hex ⟨mv, g', h1, h2, h3⟩)

/-- **C94**: with no komi that counts, the player who moves first on an empty board can make sure not to lose. -/
theorem C94_first_player (hf : Fresh dbg n m g) (hb : Bare n g.goban.view) (ho : g.outcome = none) (he : g.rule.Even)
    (hord : ∀ l, (ord l).Perm l) : Secures dbg ord n g.turn g := by
  have := (C94_determined (.fresh hf) hord g.turn.opp).2 (C94_strategy_stealing hf hb ho he hord)
  rwa [opp_opp] at this

/-! ## A solver, to show concrete cases -/

/-- Passes and all points of the board. -/
def allMoves (n : Dim) : List Move := .pass :: (Spec.points n).map (fun p => .play p.1 p.2)

/-- Whether `c` can force a result whose winner satisfies `W` within `k` moves. -/
def reachesIn (dbg : Bool) (n : Dim) (c : Color) (W : Option Color → Bool) : Nat → Game → Bool
  | k, g =>
    if g.isOver then (match g.getOutcome dbg id with
      | .ok (some e) => W e.getWinner
      | _ => false)
    else match k with
      | 0 => false
      | k + 1 =>
        if g.turn = c then (allMoves n).any (fun mv => match g.tryPlay dbg mv with
          | .ok (none, g') => reachesIn dbg n c W k g'
          | _ => false)
        else (allMoves n).all (fun mv => match g.tryPlay dbg mv with
          | .ok (none, g') => reachesIn dbg n c W k g'
          | _ => true)

theorem mem_allMoves {mv : Move} : mv ∈ allMoves n ↔ mv.Ordinary n := by
  unfold allMoves
  cases mv with
  | pass => simp [Move.Ordinary]
  | resign c => simp [Move.Ordinary]
  | play x y =>
    simp only [List.mem_cons, reduceCtorEq, false_or, List.mem_map, Move.Ordinary]
    constructor
    · rintro ⟨p, hp, h⟩
      cases h
      exact mem_points.1 hp
    · intro h
      exact ⟨(x, y), mem_points.2 h, rfl⟩

theorem reachesIn_reaches {c : Color} {W : Option Color → Bool} : ∀ (k : Nat) (g : Game), reachesIn dbg n c W k g = true →
    Reaches dbg id n c (fun w => W w = true) g := by
  intro k
  induction k with
  | zero =>
    intro g h
    unfold reachesIn at h
    split at h
    next ho =>
      split at h
      next e he => exact .over ho he h
      · cases h
    · cases h
  | succ k ih =>
    intro g h
    unfold reachesIn at h
    split at h
    next ho =>
      split at h
      next e he => exact .over ho he h
      · cases h
    next ho =>
      have ho : g.isOver = false := by simpa using ho
      dsimp only at h
      split at h
      next ht =>
        rw [List.any_eq_true] at h
        obtain ⟨mv, hm, h⟩ := h
        split at h
        next g' e => exact .own ho ht (mem_allMoves.1 hm) e (ih g' h)
        · cases h
      next ht =>
        rw [List.all_eq_true] at h
        have ht' : g.turn = c.opp := by
          cases hg : g.turn <;> cases c <;> first | rfl | exact absurd hg ht
        refine .other ho ht' (fun mv g' hmv e => ih g' ?_)
        have := h mv (mem_allMoves.2 hmv)
        rw [e] at this
        exact this

theorem reachesIn_forces {c : Color} {k : Nat} (h : reachesIn dbg n c (fun w => decide (w = some c)) k g = true) :
    Forces dbg id n c g := by
  have := reachesIn_reaches k g h
  simp only [decide_eq_true_eq] at this
  exact this

theorem reachesIn_secures {c : Color} {k : Nat} (h : reachesIn dbg n c (fun w => decide (w ≠ some c.opp)) k g = true) :
    Secures dbg id n c g := by
  have := reachesIn_reaches k g h
  simp only [decide_eq_true_eq] at this
  exact this

/-- The Chinese rule without komi. -/
def evenChinese : Rule := { CHINESE with komi := .fin 0 }

theorem fresh_exists {size : GobanSizes} {rule : Rule} {f : Game → Bool} (hn : n.Fits) (hs : size.toSize = n.sz)
    (h : okAnd (Game.new size rule) f = true) : ∃ g, Fresh dbg n 0 g ∧ f g = true := by
  obtain ⟨g, e, h⟩ := okAnd_iff.1 h
  exact ⟨g, .new hn hs e, h⟩

/-- Non-vacuity of `C94_strategy_stealing`, `C94_first_player` and `C94_exclusive`: on the 3 × 1 board, without komi, all hypotheses
hold and Black even forces a win (in the middle, and then both pass). -/
theorem C94_black_wins : ∃ g, Fresh true ⟨3, 1⟩ 0 g ∧ Bare ⟨3, 1⟩ g.goban.view ∧ g.outcome = none ∧ g.rule.Even ∧
    Forces true id ⟨3, 1⟩ .black g := by
  obtain ⟨g, hf, h⟩ := fresh_exists (dbg := true) (n := ⟨3, 1⟩) (size := .custom 3 1) (rule := evenChinese)
    (f := fun g => decide (g.rule = evenChinese) && (decide (g.outcome = none) &&
      ((Spec.points ⟨3, 1⟩).all (fun p => decide (g.goban.view p = none)) &&
      reachesIn true ⟨3, 1⟩ .black (fun w => decide (w = some .black)) 3 g)))
    (by decide) rfl (by decide +kernel)
  simp only [Bool.and_eq_true, decide_eq_true_eq, List.all_eq_true] at h
  exact ⟨g, hf, fun p hp => h.2.2.1 p (mem_points.2 hp), h.2.1, fun _ => by rw [h.1]; rfl, reachesIn_forces h.2.2.2⟩

/-- Neither player can force a win on the board of one point: passing is all they can do. So "not to lose" cannot be strengthened to
"to win" in `C94_first_player`. -/
theorem C94_draw : ∃ g, Fresh true 1 0 g ∧ Bare 1 g.goban.view ∧ g.outcome = none ∧ g.rule.Even ∧
    ¬ Forces true id 1 .black g ∧ ¬ Forces true id 1 .white g := by
  obtain ⟨g, hf, h⟩ := fresh_exists (dbg := true) (n := 1) (size := .custom 1 1) (rule := evenChinese)
    (f := fun g => decide (g.rule = evenChinese) && (decide (g.outcome = none) &&
      ((Spec.points 1).all (fun p => decide (g.goban.view p = none)) &&
      (reachesIn true 1 .black (fun w => decide (w ≠ some .white)) 2 g &&
       reachesIn true 1 .white (fun w => decide (w ≠ some .black)) 2 g))))
    (by decide) rfl (by decide +kernel)
  simp only [Bool.and_eq_true, decide_eq_true_eq, List.all_eq_true] at h
  exact ⟨g, hf, fun p hp => h.2.2.1 p (mem_points.2 hp), h.2.1, fun _ => by rw [h.1]; rfl,
    fun hb => C94_exclusive hb (reachesIn_secures (c := .white) h.2.2.2.2),
    fun hw => C94_exclusive hw (reachesIn_secures (c := .black) h.2.2.2.1)⟩

/-- With komi White can force a win: "no komi" cannot be left out of `C94_strategy_stealing`. -/
theorem C94_komi_matters : ∃ g, Fresh true 1 0 g ∧ Bare 1 g.goban.view ∧ g.outcome = none ∧ g.turn = .black ∧
    Forces true id 1 .white g := by
  obtain ⟨g, hf, h⟩ := fresh_exists (dbg := true) (n := 1) (size := .custom 1 1) (rule := CHINESE)
    (f := fun g => decide (g.turn = .black) && (decide (g.outcome = none) &&
      ((Spec.points 1).all (fun p => decide (g.goban.view p = none)) &&
      reachesIn true 1 .white (fun w => decide (w = some .white)) 2 g)))
    (by decide) rfl (by decide +kernel)
  simp only [Bool.and_eq_true, decide_eq_true_eq, List.all_eq_true] at h
  exact ⟨g, hf, fun p hp => h.2.2.1 p (mem_points.2 hp), h.2.1, h.1, reachesIn_forces h.2.2.2⟩

/-- Without the empty board White can force a win as well: a white stone in the middle of the 3 × 1 board. -/
theorem C94_setup_matters : ∃ g, Fresh true ⟨3, 1⟩ 1 g ∧ g.outcome = none ∧ g.rule.Even ∧ g.turn = .black ∧
    Forces true id ⟨3, 1⟩ .white g := by
  obtain ⟨g, e, h⟩ := okAnd_iff.1 (show okAnd
    (({ GameBuilder.default with size := (3, 1), rule := evenChinese, setup := [⟨(1, 0), .white⟩] } : GameBuilder).buildInner true)
    (fun g => decide (g.rule = evenChinese) && (decide (g.outcome = none) && (decide (g.turn = .black) &&
      reachesIn true ⟨3, 1⟩ .white (fun w => decide (w = some .white)) 3 g))) = true by decide +kernel)
  simp only [Bool.and_eq_true, decide_eq_true_eq] at h
  exact ⟨g, .build (by decide) rfl rfl (by decide) (by decide) e, h.2.1, fun _ => by rw [h.1]; rfl, h.2.2.1, reachesIn_forces h.2.2.2⟩

end Model
