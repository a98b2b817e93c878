import Verif.Proofs.Slots
import Verif.Props.DeadStones
import Verif.Props.Limits
/-!
# Finite games: C57
-/

namespace Model
open Spec (OnBoard Adj Linked HasLiberty NoDead place SameOn Pos)

variable {dbg : Bool} {n : Dim} {m : Nat} {g : Game}

/-! ### A measure that every stone increases -/

theorem colours_le (n : Dim) (pos : Pos) : Spec.count n pos (some .black) + Spec.count n pos (some .white) ≤ n.area := by
  have hl : (Spec.points n).length = n.area := points_length n
  rw [← hl]
  unfold Spec.count
  generalize Spec.points n = l
  induction l with
  | nil => simp
  | cons p l ih =>
    simp only [List.filter_cons, List.length_cons]
    cases pos p with
    | none => simp; omega
    | some c => cases c <;> simp <;> omega

/-- Slots used, slots used up, and stones. -/
def Goban.age (n : Dim) (b : Goban) : Nat :=
  (b.chains.length + spent b.chains) * (n.area + 1) + (Spec.count n b.view (some .black) + Spec.count n b.view (some .white))

theorem age_le {b : Goban} (h : Inv n b) : b.age n ≤ 131070 * (n.area + 1) + n.area := by
  unfold Goban.age
  have h1 := h.rep.few
  have h2 := spent_le b.chains
  have h3 := colours_le n b.view
  have : (b.chains.length + spent b.chains) * (n.area + 1) ≤ 131070 * (n.area + 1) := Nat.mul_le_mul_right _ (by omega)
  omega

theorem move_age {b : Goban} {sa : Bool} {p : Coord} {c : Color} {s : Goban.Captures} (h : Inv n b)
    (e : b.move dbg sa p c = .ok s) (hs : MoveSpec n b sa p c s) : b.age n + 1 ≤ s.goban.age n := by
  have hw := hs.cnt .white
  have hb := hs.cnt .black
  rw [cnt_eq_count h, cnt_eq_count hs.inv] at hw hb
  unfold Goban.move at e
  obtain ⟨f, e1, e2⟩ := bind_eq_ok e
  obtain ⟨_, _, _, _, h1⟩ := pushWthFeedback_clen e1
  have h2 := pushWthFeedback_spent e1
  have h3 := removeCaptured_clen e2
  have h4 := colours_le n b.view
  unfold Goban.age
  rcases removeCaptured_spent e2 with h5 | ⟨h5, h6⟩
  · have : (b.chains.length + spent b.chains + 1) * (n.area + 1) ≤
        (s.goban.chains.length + spent s.goban.chains) * (n.area + 1) := Nat.mul_le_mul_right _ (by omega)
    rw [Nat.add_mul, Nat.one_mul] at this
    omega
  · have : (b.chains.length + spent b.chains) * (n.area + 1) ≤
        (s.goban.chains.length + spent s.goban.chains) * (n.area + 1) := Nat.mul_le_mul_right _ (by rw [h5]; omega)
    rw [h6] at hw hb
    unfold removedOf at hw hb
    dsimp only at hw hb
    cases c <;> simp at hw hb <;> omega

theorem Reach.play_age (h : Reach dbg n m g) {x y : Nat} (hp : OnBoard n (x, y)) (he : g.goban.getColor (x, y) = .ok none) {g' : Game}
    (e : g.play dbg (.play x y) = .ok g') : g.goban.age n + 1 ≤ g'.goban.age n := by
  rw [play_eq] at e
  obtain ⟨l, _, e⟩ := bind_eq_ok e
  obtain ⟨s, e1, e⟩ := bind_eq_ok e
  cases e
  rcases move_total (dbg := dbg) (suicide := !g.rule.flagIllegal.suicide) (c := g.turn) h.inv hp ((getColor_none h.inv hp).1 he)
    with ⟨s', e2, hs⟩ | ⟨e2, _⟩
  · rw [e1] at e2; cases e2
    exact move_age h.inv e1 hs
  · rw [e1] at e2; cases e2

/-! ## C57 -/

/-- The greatest number of stones that can be put on a board of size `n × n` in its life. -/
def lifeOf (n : Dim) : Nat := 131070 * (n.area + 1) + n.area

/-- **C57**, every game: whatever the calls and the rule, at most `131070 · (n² + 1) + n²` stones are played; one more panics. -/
theorem C57_stones_played {g0 : Game} {m0 b w : Nat} (hf : Fresh dbg n m0 g0) (h : Plays dbg n g0 b w g) :
    b + w ≤ lifeOf n := by
  have key : b + w ≤ g.goban.age n := by
    induction h with
    | start => exact Nat.zero_le _
    | @play b w g x y g' h hp he e ih =>
      obtain ⟨m, hr⟩ := Plays.reach h hf
      have := hr.play_age hp he e
      cases g.turn <;> simp <;> omega
    | pass h e ih =>
      unfold Game.play at e
      obtain ⟨_, _, e⟩ := bind_eq_ok e
      cases e; exact ih
    | resign h e ih => cases e; exact ih
    | resume h ih => exact ih
    | setKomi h ih => exact ih
  obtain ⟨m, hr⟩ := Plays.reach h hf
  exact Nat.le_trans key (age_le hr.inv)

/-- **C57**, consequence: the 32-bit counters of prisoners cannot overflow, whatever the calls and the rule. -/
theorem C57_prisoners {g0 : Game} {m0 b w : Nat} (hf : Fresh dbg n m0 g0) (h : Plays dbg n g0 b w g) :
    g.prisoners.1 + g.prisoners.2 < 2 ^ 32 := by
  obtain ⟨h1, h2⟩ := C11_conservation hf h
  have h3 := C57_stones_played hf h
  have hI := Reach.inv (.fresh hf)
  rw [numberOfStones_ok hI] at h1 h2
  dsimp only at h1 h2
  have h4 := colours_le n g0.goban.view
  have h5 : n.area ≤ 19 * 19 := hI.good.area_le
  unfold lifeOf at h3
  omega

/-- A game with three stones played and one captured. -/
example : ∃ g0 g, Fresh true 2 0 g0 ∧ Plays true 2 g0 2 1 g ∧ (g.prisoners = (1, 0) ∧ g.goban.numberOfStones = (2, 0) : Bool) :=
  exCapture

theorem fastPlayRandom_safe (h : Legal dbg n m g) : ∀ (v : List Coord), (∀ p ∈ v, OnBoard n p) →
    Safe g.Full (g.fastPlayRandom dbg v) (fun mv => mv = .pass ∨ ∃ p ∈ v, mv = .play p.1 p.2 ∧ g.checkPoint dbg p = .ok none)
  | [], _ => .ok (Or.inl rfl)
  | c :: v, hv => by
    obtain ⟨o, s, m', hm', hps2, hs⟩ := h.sim
    have hc := hv c (by simp)
    have ih := (fastPlayRandom_safe h v (fun p hp => hv p (by simp [hp]))).mono
      (Q := fun mv => mv = .pass ∨ ∃ p ∈ c :: v, mv = .play p.1 p.2 ∧ g.checkPoint dbg p = .ok none)
      (fun mv h => h.imp_right (fun ⟨p, h1, h2⟩ => ⟨p, by simp [h1], h2⟩))
    obtain ⟨b, e2, hb⟩ := checkEye_ok (dbg := dbg) (c := g.turn) hs.inv hc
    unfold Game.fastPlayRandom
    rcases hs.checkPointBy_total (dbg := dbg) hc g.rule.flagIllegal with ⟨r, e1, _⟩ | ⟨e1, hf⟩
    · have e1' : g.checkPoint dbg c = .ok r := e1
      rw [e1', ok_bind, e2]
      cases r with
      | some r => simpa using ih
      | none =>
        simp only [Option.isNone_none, if_true, ok_bind]
        cases b with
        | true => simpa using ih
        | false => exact .ok (Or.inr ⟨c, by simp, rfl, e1'⟩)
    · have e1' : g.checkPoint dbg c = panic := e1
      rw [e1']
      exact Or.inr ⟨rfl, hf⟩

/-- Passing or playing an accepted point in a legal game that is not over leads to a legal game, older by a stone or a pass, or
panics. -/
theorem accepted_safe (h : Legal dbg n m g) (ho : g.isOver = false) {mv : Move} (hmv : mv = .pass ∨ ∃ x y, mv = .play x y ∧
      OnBoard n (x, y) ∧ g.goban.getColor (x, y) = .ok none ∧ g.checkPoint dbg (x, y) = .ok none) :
    Safe g.Full (g.play dbg mv) (fun g' => g.tryPlay dbg mv = .ok (none, g') ∧ Legal dbg n (m + 1) g' ∧ g'.passes ≤ 2 ∧
      2 * g.goban.age n + g.passes + 1 ≤ 2 * g'.goban.age n + g'.passes) := by
  obtain ⟨m', hm', hr⟩ := h.reach
  have hps := not_over_passes ho
  rcases hmv with rfl | ⟨x, y, rfl, hO, he, hc⟩
  · have e1 : g.tryPlay dbg .pass = (do let g' ← g.play dbg .pass; .ok (none, g')) := by
      unfold Game.tryPlay; rw [if_neg (by omega)]
    have : ∃ g2, g.play dbg .pass = .ok g2 ∧ g2.goban = g.goban ∧ g2.passes = g.passes + 1 := by
      unfold Game.play
      rw [decide_eq_true hps]
      exact ⟨_, rfl, rfl, rfl⟩
    obtain ⟨g2, e2, e3, e4⟩ := this
    rw [e2, ok_bind] at e1
    rw [e2]
    exact .ok ⟨e1, .tryPlay (mv := .pass) h trivial e1, by omega, by rw [e3, e4]; omega⟩
  · have e1 : g.tryPlay dbg (.play x y) = (do let g' ← g.play dbg (.play x y); .ok (none, g')) := by
      unfold Game.tryPlay
      rw [if_neg (by omega)]
      dsimp only
      rw [he, ok_bind, hc, ok_bind]
      simp
    rcases hr.play_full (dbg := dbg) hO he with ⟨g2, e2, _, _, _, _, hp0, _⟩ | ⟨e2, hf⟩
    · have := hr.play_age hO he e2
      rw [e2, ok_bind] at e1
      rw [e2]
      exact .ok ⟨e1, .tryPlay (mv := .play x y) h hO e1, by omega, by omega⟩
    · rw [e2]
      exact Or.inr ⟨rfl, hf⟩

/-- A round from a legal game that is not over makes a move that `try_play` accepts, leading to a legal game, older by a stone or a
pass, or panics because the group table is full. -/
theorem playoutRound_safe (h : Legal dbg n m g) (ho : g.isOver = false) {ps v : List Coord} (e : g.pseudoLegals = .ok ps)
    (hv : v.Perm ps) : Safe g.Full (g.playoutRound dbg v) (fun g' => (∃ mv, mv.OnBoard n ∧ g.tryPlay dbg mv = .ok (none, g')) ∧
      Legal dbg n (m + 1) g' ∧ g'.passes ≤ 2 ∧ 2 * g.goban.age n + g.passes + 1 ≤ 2 * g'.goban.age n + g'.passes) := by
  obtain ⟨m', _, hr⟩ := h.reach
  obtain ⟨l, el, hl⟩ := getEmptyCoords_any hr.inv
  obtain rfl : l = ps := Except.ok.inj (el.symm.trans e)
  have hmem : ∀ p ∈ v, OnBoard n p := fun p hp => hl p (hv.mem_iff.1 hp)
  unfold Game.playoutRound
  refine Safe.bind (fastPlayRandom_safe h v hmem) (fun mv hmv => ?_)
  rcases hmv with rfl | ⟨⟨x, y⟩, hp, rfl, hc⟩
  · exact (accepted_safe h ho (Or.inl rfl)).mono (fun g' h => ⟨⟨.pass, trivial, h.1⟩, h.2⟩)
  · exact (accepted_safe h ho (Or.inr ⟨x, y, rfl, hmem _ hp, checkPointBy_empty hc, hc⟩)).mono (fun g' h => ⟨⟨.play x y, hmem _ hp, h.1⟩, h.2⟩)

/-- A game reached from `g` by moves that `try_play` accepts, `k` of them. -/
inductive Accepted (dbg : Bool) (n : Dim) (g : Game) : Nat → Game → Prop
  | start : Accepted dbg n g 0 g
  | move {k : Nat} {g1 g2 : Game} {mv : Move} (h : Accepted dbg n g k g1) (hmv : mv.OnBoard n)
      (e : g1.tryPlay dbg mv = .ok (none, g2)) : Accepted dbg n g (k + 1) g2

/-- **C57**, play-outs, full statement: no play-out panics (with `C57_playout_partial`: every play-out ends in a game that is over). Refuted by `C57_false`. -/
def C57Full (dbg : Bool) (g : Game) : Prop := ∀ sh : Nat → List Coord → List Coord, (∀ k l, (sh k l).Perm l) → ∀ fuel,
  g.playout dbg sh fuel ≠ panic

/-- **C57**, what holds of play-outs: under every rule and whatever the shuffles, the loop stops within
`2 · (131070 · (a + 1) + a) + 2` rounds, `a` the number of points, either with a game that is over and that is reached by accepted moves, or with a panic
after accepted moves that have filled the group table. Missing: that it is never a panic, which is false (`C57_false`). -/
theorem C57_playout_partial (h : Legal dbg n m g) {sh : Nat → List Coord → List Coord} (hsh : ∀ k l, (sh k l).Perm l) :
    (∃ g' k, g.playout dbg sh (2 * lifeOf n + 2) = .ok g' ∧ g'.isOver = true ∧ Accepted dbg n g k g') ∨
      (g.playout dbg sh (2 * lifeOf n + 2) = panic ∧ ∃ k g', Accepted dbg n g k g' ∧ g'.Full ∧ 65535 ≤ m + k) := by
  have key : ∀ (k j : Nat) (g1 : Game), Accepted dbg n g j g1 → Legal dbg n (m + j) g1 → g1.passes ≤ 2 →
      2 * lifeOf n + 2 ≤ k + (2 * g1.goban.age n + g1.passes) →
      (∃ g' j', g1.playout dbg sh k = .ok g' ∧ g'.isOver = true ∧ Accepted dbg n g j' g') ∨
      (g1.playout dbg sh k = panic ∧ ∃ k g', Accepted dbg n g k g' ∧ g'.Full ∧ 65535 ≤ m + k) := by
    intro k
    induction k with
    | zero =>
      intro j g1 ha h hp hk
      obtain ⟨m', _, hr⟩ := h.reach
      have h1 : g1.goban.age n ≤ lifeOf n := age_le hr.inv
      have ho : g1.isOver = true := by
        cases ho : g1.isOver with
        | true => rfl
        | false => have := not_over_passes ho; omega
      unfold Game.playout
      rw [if_pos ho]
      exact Or.inl ⟨g1, j, rfl, ho, ha⟩
    | succ k ih =>
      intro j g1 ha h hp hk
      unfold Game.playout
      cases ho : g1.isOver with
      | true => exact Or.inl ⟨g1, j, rfl, ho, ha⟩
      | false =>
        obtain ⟨m', hm', hr⟩ := h.reach
        obtain ⟨ps, e⟩ : ∃ ps, g1.pseudoLegals = .ok ps := by
          obtain ⟨l, el, _⟩ := getEmptyCoords_any hr.inv
          exact ⟨l, el⟩
        rw [e, ok_bind]
        rcases playoutRound_safe h ho e (hsh k ps) with ⟨g', e1, ⟨mv, h0, e0⟩, h1, h2, h3⟩ | ⟨e1, hf⟩
        · rw [e1]
          exact ih (j + 1) g' (.move ha h0 e0) h1 h2 (by omega)
        · rw [e1]; exact Or.inr ⟨rfl, j, g1, ha, hf, Nat.le_trans (hr.full hf) hm'⟩
  obtain ⟨_, s, _, _, hp, hs⟩ := h.sim
  exact key _ 0 g .start h (by rw [hs.passes]; exact hp) (by omega)

/-! ### A play-out that panics -/

theorem playout_congr {sh sh' : Nat → List Coord → List Coord} : ∀ (k : Nat) (g : Game), (∀ j < k, sh j = sh' j) →
    g.playout dbg sh k = g.playout dbg sh' k
  | 0, _, _ => rfl
  | k + 1, g, h => by
    unfold Game.playout
    rw [h k (Nat.lt_succ_self _)]
    have ih := fun g' => playout_congr k g' (fun j hj => h j (Nat.lt_succ_of_lt hj))
    simp only [ih]

/-- The rounds of a play-out, as a run of the loop. -/
theorem Rounds.playout {k : Nat} {g' : Game} (h : Rounds dbg g k g') : ∀ (j : Nat) (sh : Nat → List Coord → List Coord),
    (∀ i l, (sh i l).Perm l) → ∃ sh' : Nat → List Coord → List Coord, (∀ i l, (sh' i l).Perm l) ∧
      g.playout dbg sh' (k + j) = g'.playout dbg sh j := by
  induction h with
  | start => intro j sh hsh; exact ⟨sh, hsh, by rw [Nat.zero_add]⟩
  | @round k g1 g2 ps v _ ho e hv e2 ih =>
    intro j sh hsh
    obtain ⟨sh', h1, h2⟩ := ih (j + 1) (fun i l => if i = j ∧ l = ps then v else sh i l) (by
      intro i l
      split
      · rename_i h; rw [h.2]; exact hv
      · exact hsh i l)
    refine ⟨sh', h1, ?_⟩
    rw [Nat.add_right_comm, Nat.add_assoc, h2]
    have e3 : ∀ sh, g1.playout dbg sh (j + 1) = (if g1.isOver then .ok g1 else do
        let ps ← g1.pseudoLegals
        let g' ← g1.playoutRound dbg (sh j ps)
        g'.playout dbg sh j) := fun _ => rfl
    rw [e3, if_neg (by rw [ho]; simp), e, ok_bind, if_pos ⟨rfl, rfl⟩, e2, ok_bind]
    refine playout_congr _ _ (fun i hi => ?_)
    funext l
    rw [if_neg (by omega)]

theorem Rounds.trans {k j : Nat} {g1 g2 : Game} (h : Rounds dbg g k g1) (h' : Rounds dbg g1 j g2) : Rounds dbg g (k + j) g2 := by
  induction h' with
  | start => exact h
  | round _ ho e hv e2 ih => exact .round ih ho e hv e2

/-- A play-out has reached `g`, and some shuffle makes it panic now or later. -/
def Dies (dbg : Bool) (g : Game) : Prop :=
  ∃ k g1 ps v, Rounds dbg g k g1 ∧ g1.isOver = false ∧ g1.pseudoLegals = .ok ps ∧ v.Perm ps ∧ g1.playoutRound dbg v = panic

theorem Rounds.dies {k : Nat} {g' : Game} (h : Rounds dbg g k g') (h' : Dies dbg g') : Dies dbg g := by
  obtain ⟨j, g1, ps, v, h1, h2⟩ := h'
  exact ⟨_, g1, ps, v, h.trans h1, h2⟩

/-- The points of a play-out, one after the other, in the abstract game: each accepted and no eye. -/
def Path (n : Dim) (r : Spec.Forbidden) : Spec.State → List Coord → Prop
  | _, [] => True
  | t, p :: l => OnBoard n p ∧ Spec.answer n r t (.play p) = .ok ∧ ¬ Spec.Eye n t.pos t.turn p ∧ Path n r (Spec.apply n r t (.play p)) l

/-- A game in the middle of a play-out that looks like `t`. -/
structure Amid (dbg : Bool) (n : Dim) (g : Game) (t : Spec.State) : Prop where
  sim : ∃ m s, Sim dbg n m none g s ∧ Like n s t
  rule : g.rule.flagIllegal = JAPANESE.flagIllegal
  outcome : g.outcome = none
  passes : g.passes = 0

/-- One round with the wanted point first. -/
theorem Amid.round {n : Nat} {t : Spec.State} (h : Amid dbg n g t) {p : Coord} (hp : OnBoard n p)
    (ha : Spec.answer n JAPANESE.flagIllegal.forbidden t (.play p) = .ok) (hy : ¬ Spec.Eye n t.pos t.turn p) :
    (∃ g', Rounds dbg g 1 g' ∧ g.play dbg (.play p.1 p.2) = .ok g' ∧
      Amid dbg n g' (Spec.apply n JAPANESE.flagIllegal.forbidden t (.play p))) ∨ Dies dbg g := by
  obtain ⟨⟨m, s, hs, hl⟩, hr, ho, hps⟩ := h
  obtain ⟨x, y⟩ := p
  have hover : g.isOver = false := by unfold Game.isOver; rw [ho, hps]; rfl
  have hsp : s.passes = 0 := by rw [← hs.passes]; exact hps
  have ha' : Spec.answer n JAPANESE.flagIllegal.forbidden s (.play (x, y)) = .ok := by
    rw [hl.answer rfl rfl (show OnCall n (.play (x, y)) from hp)]; exact ha
  have hempty : s.pos (x, y) = none := by
    unfold Spec.answer at ha'
    dsimp only at ha'
    rw [if_neg (by omega)] at ha'
    by_cases h0 : s.pos (x, y) ≠ none
    · rw [if_pos h0] at ha'; cases ha'
    · exact Classical.not_not.1 h0
  have he : g.goban.getColor (x, y) = .ok none := by rw [hs.inv.getColor_view hp, hs.pos _ hp, hempty]
  obtain ⟨b, e2, hb⟩ := checkEye_ok (dbg := dbg) (c := g.turn) hs.inv hp
  have hb' : b = false := by
    cases b with
    | false => rfl
    | true =>
      have := hb.1 rfl
      rw [eye_congr (SameOn.trans hs.pos hl.pos) hp, hs.turn, hl.turn] at this
      exact absurd this hy
  subst hb'
  obtain ⟨ps, eps, hmem⟩ : ∃ ps, g.pseudoLegals = .ok ps ∧ (x, y) ∈ ps := by
    refine ⟨_, emptyCoords_ok hs.inv, ?_⟩
    rw [List.mem_filter, mem_points, hs.pos _ hp, hempty]
    exact ⟨hp, rfl⟩
  have hv : ((x, y) :: ps.erase (x, y)).Perm ps := (List.perm_cons_erase hmem).symm
  have hround : g.playoutRound dbg ((x, y) :: ps.erase (x, y)) = (do
      let m ← (do if (← g.checkPoint dbg (x, y)).isNone then .ok (.play x y) else g.fastPlayRandom dbg (ps.erase (x, y)))
      g.play dbg m) := by
    unfold Game.playoutRound
    rw [Game.fastPlayRandom, e2]
    rfl
  have htry : g.tryPlay dbg (.play x y) = (do
      match ← g.checkPoint dbg (x, y) with
      | some e => .ok (some e, g)
      | none => do
        let g' ← g.play dbg (.play x y)
        .ok (none, g')) := by
    unfold Game.tryPlay
    rw [if_neg (by omega)]
    dsimp only
    rw [he, ok_bind]
    simp only [ne_eq, not_true_eq_false, if_false]
    cases g.checkPoint dbg (x, y) with
    | error f => rfl
    | ok r => cases r <;> rfl
  have hst := hs.tryPlay (dbg := dbg) (.play x y) hp (by omega) (by rw [hr]; exact Or.inl rfl)
  rw [hr] at hst
  have hmc : (Move.play x y).call = .play (x, y) := rfl
  rw [hmc, step_ok ha'] at hst
  cases hc : g.checkPoint dbg (x, y) with
  | error f =>
    rw [hc] at htry
    rcases hst with ⟨r, e, _⟩ | ⟨e, _⟩
    · rw [htry] at e; cases e
    · rw [htry] at e
      have : f = .panic := by cases e; rfl
      subst this
      exact Or.inr ⟨0, g, ps, _, .start, hover, eps, hv, by rw [hround, hc]; rfl⟩
  | ok r =>
    rw [hc, ok_bind] at htry
    cases r with
    | some e =>
      rcases hst with ⟨r, e1, h1, _⟩ | ⟨e1, _⟩
      · rw [htry] at e1; cases e1
        exact absurd (toAnswer_ok.1 h1) (by simp)
      · rw [htry] at e1; cases e1
    | none =>
      have hround' : g.playoutRound dbg ((x, y) :: ps.erase (x, y)) = g.play dbg (.play x y) := by
        rw [hround, hc]; rfl
      dsimp only at htry
      cases hpl : g.play dbg (.play x y) with
      | error f =>
        rw [hpl] at htry
        rcases hst with ⟨r, e, _⟩ | ⟨e, _⟩
        · rw [htry] at e; cases e
        · rw [htry] at e
          have : f = .panic := by cases e; rfl
          subst this
          exact Or.inr ⟨0, g, ps, _, .start, hover, eps, hv, by rw [hround', hpl]; rfl⟩
      | ok g' =>
        rw [hpl, ok_bind] at htry
        obtain ⟨_, ⟨m', _, h2⟩, h3, _⟩ := hst.of_ok htry
        refine Or.inl ⟨g', .round .start hover eps hv (by rw [hround', hpl]), rfl, ⟨⟨m', _, h2, hl.apply (.play (x, y))⟩, by
          have : g'.rule = g.rule := h3
          rw [this, hr], ?_, ?_⟩⟩
        · rw [play_eq] at hpl
          obtain ⟨_, _, hpl⟩ := bind_eq_ok hpl
          obtain ⟨_, _, hpl⟩ := bind_eq_ok hpl
          cases hpl; exact ho
        · rw [play_eq] at hpl
          obtain ⟨_, _, hpl⟩ := bind_eq_ok hpl
          obtain ⟨_, _, hpl⟩ := bind_eq_ok hpl
          cases hpl; rfl

theorem Amid.walk {n : Nat} : ∀ (l : List Coord) {g : Game} {t : Spec.State}, Amid dbg n g t → Path n JAPANESE.flagIllegal.forbidden t l →
    (∃ g', Rounds dbg g l.length g' ∧ g.goban.chains.length ≤ g'.goban.chains.length ∧
      Amid dbg n g' ((l.map Spec.Call.play).foldl (Spec.apply n JAPANESE.flagIllegal.forbidden) t)) ∨ Dies dbg g
  | [], g, t, h, _ => Or.inl ⟨g, .start, Nat.le_refl _, h⟩
  | p :: l, g, t, h, ⟨h1, h2, h3, h4⟩ => by
    rcases h.round h1 h2 h3 with ⟨g1, r1, e1, a1⟩ | hd
    · rcases a1.walk l h4 with ⟨g2, r2, c2, a2⟩ | hd
      · refine Or.inl ⟨g2, ?_, Nat.le_trans (play_clen e1) c2, a2⟩
        have := r1.trans r2
        rwa [Nat.add_comm] at this
      · exact Or.inr (r1.dies hd)
    · exact Or.inr hd

/-- The moves of a walk with `try_play`, checking that no point is an eye. -/
def Game.tryWalk (dbg : Bool) : List Coord → Game → M (Bool × Game)
  | [], g => .ok (true, g)
  | p :: l, g => do
    let b ← g.checkEye dbg { coord := p, color := g.turn }
    let r ← g.tryPlay dbg (.play p.1 p.2)
    let rs ← tryWalk dbg l r.2
    .ok (!b && decide (r.1 = none) && rs.1, rs.2)

theorem walk_of_try : ∀ (l : List Coord) {m : Nat} {g g' : Game} {t : Spec.State}, Sim dbg n m none g t → t.passes ≤ 2 →
    g.rule.flagIllegal = JAPANESE.flagIllegal → (∀ p ∈ l, OnBoard n p) → g.tryWalk dbg l = .ok (true, g') →
    Path n JAPANESE.flagIllegal.forbidden t l ∧
      (∃ m', Sim dbg n m' none g' ((l.map Spec.Call.play).foldl (Spec.apply n JAPANESE.flagIllegal.forbidden) t)) ∧
      ((l.map Spec.Call.play).foldl (Spec.apply n JAPANESE.flagIllegal.forbidden) t).passes ≤ 2 ∧
      g'.rule.flagIllegal = JAPANESE.flagIllegal
  | [], m, g, g', t, h, hp, hr, _, e => by cases e; exact ⟨trivial, ⟨m, h⟩, hp, hr⟩
  | p :: l, m, g, g', t, h, hp, hr, hon, e => by
    have hO := hon p (by simp)
    unfold Game.tryWalk at e
    obtain ⟨b, e1, e⟩ := bind_eq_ok e
    obtain ⟨⟨x, g1⟩, e2, e⟩ := bind_eq_ok e
    obtain ⟨⟨c, g2⟩, e3, e⟩ := bind_eq_ok e
    simp only [Except.ok.injEq, Prod.mk.injEq, Bool.and_eq_true, Bool.not_eq_true', decide_eq_true_eq] at e
    obtain ⟨⟨⟨rfl, rfl⟩, rfl⟩, rfl⟩ := e
    obtain ⟨b', e4, hb⟩ := checkEye_ok (dbg := dbg) (c := g.turn) h.inv hO
    rw [e4] at e1; cases e1
    obtain ⟨h1, ⟨m', _, h2⟩, h3, h4⟩ := (h.tryPlay (dbg := dbg) (.play p.1 p.2) hO hp (by rw [hr]; exact Or.inl rfl)).of_ok e2
    rw [hr] at h1 h2 h4
    have hmc : (Move.play p.1 p.2).call = .play p := rfl
    rw [hmc] at h1 h2 h4
    have ha : Spec.answer n JAPANESE.flagIllegal.forbidden t (.play p) = .ok := by
      have h1' : (Spec.step n JAPANESE.flagIllegal.forbidden t (.play p)).1 = .ok := h1.symm
      unfold Spec.step at h1'
      split at h1'
      · assumption
      · exact h1'
    rw [step_ok ha] at h2 h4
    obtain ⟨i1, i2⟩ := walk_of_try l h2 h4 (by have : g1.rule = g.rule := h3; rw [this, hr]) (fun p hp => hon p (by simp [hp])) e3
    refine ⟨⟨hO, ha, ?_, i1⟩, i2⟩
    rw [← eye_congr h.pos hO, ← h.turn]
    intro hy
    have := hb.2 hy
    cases this

theorem Like.trans {s t u : Spec.State} (h : Like n s t) (h' : Like n t u) : Like n s u := by
  refine ⟨SameOn.trans h.pos h'.pos, h.turn.trans h'.turn, h.passes.trans h'.passes, ?_⟩
  rcases h.before with ⟨h1, h2⟩ | ⟨c1, c2, h1, h2, h3⟩
  · rcases h'.before with ⟨_, h5⟩ | ⟨_, _, h4, _, _⟩
    · exact Or.inl ⟨h1, h5⟩
    · rw [h2] at h4; cases h4
  · rcases h'.before with ⟨h4, _⟩ | ⟨d1, d2, h4, h5, h6⟩
    · rw [h2] at h4; cases h4
    · rw [h2] at h4; cases h4
      exact Or.inr ⟨_, _, h1, h5, SameOn.trans h3 h6⟩

/-- The start of the play-out, up to the last move. -/
def exStart : List Coord := [(0, 0), (0, 1), (1, 0)]
/-- The cycle, up to the last move. -/
def exRound : List Coord := [(0, 0), (1, 0), (0, 0), (0, 1), (1, 0)]

/-- **C57** is false as stated: under the Japanese rule there is a play-out from the empty 2 × 2 board, in which nobody ever
passes, that panics. (White and Black capture each other in turn; each cycle of six stones takes at least one new slot of the
group table.) -/
theorem C57_false_witness (dbg : Bool) : ∃ g0, Game.new (.custom 2 2) JAPANESE = .ok g0 ∧ Legal dbg 2 0 g0 ∧ Dies dbg g0 := by
  have key : okAnd (do
      let g0 ← Game.new (.custom 2 2) JAPANESE
      let a ← g0.tryWalk dbg exStart
      let b ← a.2.tryWalk dbg [(1, 1)]
      let c ← b.2.tryWalk dbg exRound
      let d ← c.2.tryWalk dbg [(1, 1)]
      .ok (g0, a, b, c, d)) (fun r => r.2.1.1 && r.2.2.1.1 && r.2.2.2.1.1 && r.2.2.2.2.1 && decide (r.1.turn = .black ∧
        r.2.2.1.2.turn = .black ∧ r.2.2.2.2.2.turn = .black ∧
        (∀ p ∈ Spec.points 2, r.2.1.2.goban.view p = r.2.2.2.1.2.goban.view p) ∧
        (∀ p ∈ Spec.points 2, r.2.2.1.2.goban.view p = r.2.2.2.2.2.goban.view p) ∧
        r.2.2.1.2.goban.view (0, 1) ≠ some .black ∧ r.2.2.1.2.goban.view (1, 0) ≠ some .black)) = true := by
    cases dbg <;> decide +kernel
  obtain ⟨r, e, hr⟩ := okAnd_iff.1 key
  obtain ⟨g0, e0, e⟩ := bind_eq_ok e
  obtain ⟨⟨oka, ga⟩, e1, e⟩ := bind_eq_ok e
  obtain ⟨⟨okb, gb⟩, e2, e⟩ := bind_eq_ok e
  obtain ⟨⟨okc, gc⟩, e3, e⟩ := bind_eq_ok e
  obtain ⟨⟨okd, gd⟩, e4, e⟩ := bind_eq_ok e
  cases e
  simp only [Bool.and_eq_true, decide_eq_true_eq] at hr
  obtain ⟨⟨⟨⟨rfl, rfl⟩, rfl⟩, rfl⟩, t0, tb, td, vac, vbd, v1, v2⟩ := hr
  have hf : Fresh dbg 2 0 g0 := new_fresh (by decide) e0
  obtain ⟨hd, hr0, ho0, hp0⟩ : NoDead 2 g0.goban.view ∧ g0.rule = JAPANESE ∧ g0.outcome = none ∧ g0.passes = 0 := by
    unfold Game.new at e0
    obtain ⟨b, e3, e0⟩ := bind_eq_ok e0
    cases e0
    exact ⟨noDead_empty (new_view (n := 2) (by decide) e3), rfl, rfl, rfl⟩
  have hsim := hf.sim hd
  rw [ho0] at hsim
  refine ⟨g0, e0, .fresh hf hd, ?_⟩
  generalize hT0 : Spec.State.start g0.goban.view g0.turn = T0 at hsim
  have hT0p : T0.passes = 0 := by rw [← hsim.passes]; exact hp0
  obtain ⟨w1, ⟨ma, sa⟩, pa, ra⟩ := walk_of_try _ hsim (by omega) (by rw [hr0]) (by decide) e1
  obtain ⟨w2, ⟨mb, sb⟩, pb, rb⟩ := walk_of_try _ sa pa ra (by decide) e2
  obtain ⟨w3, ⟨mc, sc⟩, pc, rc⟩ := walk_of_try _ sb pb rb (by decide) e3
  obtain ⟨w4, ⟨md, sd⟩, pd, rd⟩ := walk_of_try _ sc pc rc (by decide) e4
  generalize hTa : (exStart.map Spec.Call.play).foldl (Spec.apply 2 JAPANESE.flagIllegal.forbidden) T0 = Ta at *
  generalize hTb : ([(1, 1)].map Spec.Call.play).foldl (Spec.apply 2 JAPANESE.flagIllegal.forbidden) Ta = Tb at *
  generalize hTc : (exRound.map Spec.Call.play).foldl (Spec.apply 2 JAPANESE.flagIllegal.forbidden) Tb = Tc at *
  generalize hTd : ([(1, 1)].map Spec.Call.play).foldl (Spec.apply 2 JAPANESE.flagIllegal.forbidden) Tc = Td at *
  have hback : Like 2 Td Tb := by
    refine ⟨?_, ?_, ?_, Or.inr ⟨Tc.pos, Ta.pos, ?_, ?_, ?_⟩⟩
    · intro p hp
      rw [← sd.pos p hp, ← sb.pos p hp, vbd p (mem_points.2 hp)]
    · rw [← sd.turn, ← sb.turn, tb, td]
    · rw [← hTd, ← hTb]; rfl
    · rw [← hTd]; rfl
    · rw [← hTb]; rfl
    · intro p hp
      rw [← sa.pos p hp, ← sc.pos p hp, vac p (mem_points.2 hp)]
  have hbt : Tb.turn = .black := by rw [← sb.turn, tb]
  have bad : ∀ (j : Nat) (g : Game), Amid dbg 2 g Tb → 65536 - g.goban.chains.length ≤ j → Dies dbg g := by
    intro j
    induction j with
    | zero =>
      intro g ⟨⟨m, s, hs, _⟩, _, _, _⟩ hj
      have := hs.inv.rep.few
      omega
    | succ j ih =>
      intro g hg hj
      obtain ⟨x1, x2, x3, x4⟩ := w3
      rcases hg.round x1 x2 x3 with ⟨g1, r1, p1, a1⟩ | hd
      swap
      · exact hd
      refine r1.dies ?_
      have hlen : g1.goban.chains.length = g.goban.chains.length + 1 := by
        obtain ⟨⟨m, s, hs, hl⟩, _⟩ := hg
        rw [play_eq] at p1
        obtain ⟨l, _, p1⟩ := bind_eq_ok p1
        obtain ⟨c, q1, p1⟩ := bind_eq_ok p1
        cases p1
        unfold Goban.move at q1
        obtain ⟨f, q2, q1⟩ := bind_eq_ok q1
        dsimp only
        rw [removeCaptured_clen q1, push_isolated hs.inv (by decide) ?_ q2]
        rintro ⟨q1, q2⟩ hq1 hq2
        rw [hs.turn, hl.turn, hbt, hs.pos _ hq2, hl.pos _ hq2, ← sb.pos _ hq2]
        have h1 : q1 < 2 := hq2.1
        have h2 : q2 < 2 := hq2.2
        unfold Adj at hq1
        dsimp only at hq1
        have : (q1 = 0 ∧ q2 = 1) ∨ (q1 = 1 ∧ q2 = 0) := by omega
        rcases this with ⟨rfl, rfl⟩ | ⟨rfl, rfl⟩
        · exact v1
        · exact v2
      rcases a1.walk _ x4 with ⟨g2, r2, c2, a2⟩ | hd
      swap
      · exact hd
      refine r2.dies ?_
      have a2' : Amid dbg 2 g2 Tc := by rw [← hTc]; exact a2
      rcases a2'.walk _ w4 with ⟨g3, r3, c3, a3⟩ | hd
      swap
      · exact hd
      refine r3.dies (ih g3 ?_ (by omega))
      replace a3 := (congrArg (Amid dbg 2 g3) hTd).mp a3
      obtain ⟨⟨m, s, hs, hl⟩, b1, b2, b3⟩ := a3
      exact ⟨⟨m, s, hs, hl.trans hback⟩, b1, b2, b3⟩
  have h0 : Amid dbg 2 g0 T0 := by
    refine ⟨⟨_, _, hsim, SameOn.refl _, rfl, rfl, ?_⟩, by rw [hr0], ho0, hp0⟩
    cases hb : T0.before with
    | none => exact Or.inl ⟨rfl, rfl⟩
    | some b => exact Or.inr ⟨b, b, rfl, rfl, SameOn.refl _⟩
  rcases h0.walk _ w1 with ⟨g1, r1, _, a1⟩ | hd
  swap
  · exact hd
  replace a1 := (congrArg (Amid dbg 2 g1) hTa).mp a1
  refine r1.dies ?_
  rcases a1.walk _ w2 with ⟨g2, r2, _, a2⟩ | hd
  swap
  · exact hd
  replace a2 := (congrArg (Amid dbg 2 g2) hTb).mp a2
  exact r2.dies (bad _ g2 a2 (Nat.le_refl _))

/-- **C57** is false as stated, as a run of the loop. -/
theorem C57_false (dbg : Bool) : ∃ g0, Game.new (.custom 2 2) JAPANESE = .ok g0 ∧ ¬ C57Full dbg g0 := by
  obtain ⟨g0, e, _, k, g1, ps, v, hr, ho, e1, hv, e2⟩ := C57_false_witness dbg
  refine ⟨g0, e, fun h => ?_⟩
  obtain ⟨sh, h1, h2⟩ := hr.playout 1 (fun _ l => if l = ps then v else l) (by
    intro _ l
    split
    · rename_i h; rw [h]; exact hv
    · exact .refl _)
  apply h sh h1 (k + 1)
  rw [h2]
  unfold Game.playout
  rw [if_neg (by rw [ho]; simp), e1, ok_bind]
  dsimp only
  rw [if_pos rfl, e2]
  rfl

/-- Non-vacuity of `C57_playout_partial`: a whole play-out on a 2 × 2 board, six stones with a capture of three, then two passes. -/
example : okAnd (do
    let g0 ← Game.new (.custom 2 2) CHINESE
    g0.playout true (fun _ l => l.reverse) 20) (fun g => g.isOver && decide (g.passes = 2) && g.goban.numberOfStones == (0, 3) && g.prisoners == (0, 3)) = true := by
  decide +kernel

end Model
