import Verif.Props.Abstract
import Verif.Props.Flow
import Verif.Props.Score
import Verif.Proofs.Sym
/-!
# Turning and reflecting the board: C52; scores under the exchange of colours: C44
-/

namespace Model
open Spec (OnBoard Adj Linked HasLiberty NoDead place SameOn Pos Suicide State Symmetry)

variable {dbg : Bool} {n : Dim} {m : Nat} {g : Game}

/-! ## C52 -/

/-- The call meant after turning or reflecting the board. -/
def GOp.turned (σ : Symmetry n) : GOp → GOp
  | .try_ (.play x y) => .try_ (.play (σ.map (x, y)).1 (σ.map (x, y)).2)
  | c => c

/-- `g'` is `g` on the turned or reflected board, as far as players can see. -/
structure Turned (σ : Symmetry n) (g g' : Game) : Prop where
  colours : ∀ p, OnBoard n p → ∃ c, g.goban.getColor p = .ok c ∧ g'.goban.getColor (σ.map p) = .ok c
  turn : g'.turn = g.turn
  passes : g'.passes = g.passes
  prisoners : g'.prisoners = g.prisoners
  outcome : g'.outcome = g.outcome

theorem call_turned (σ : Symmetry n) (c : GOp) : (c.turned σ).call = σ.call c.call := by
  cases c with
  | try_ m => cases m <;> rfl
  | resume => rfl
  | setKomi k => rfl

theorem onBoard_turned (σ : Symmetry n) {c : GOp} (h : c.OnBoard n) : (c.turned σ).OnBoard n := by
  cases c with
  | try_ m =>
    cases m with
    | play x y => exact (σ.onBoard (x, y)).2 h
    | pass => exact h
    | resign c => exact h
  | resume => exact h
  | setKomi k => exact h

theorem callOn {c : GOp} (h : c.OnBoard n) : CallOn n c.call := by
  cases c with
  | try_ m => cases m <;> exact h
  | resume => exact h
  | setKomi k => exact h

/-- The part of a position on the board. -/
def clip (n : Dim) (pos : Pos) : Pos := fun p => if OnBoard n p then pos p else none

theorem clip_clip (pos : Pos) : Clip n (clip n pos) := fun q hq => by unfold clip; rw [if_neg hq]

theorem sameOn_clip (pos : Pos) : SameOn n pos (clip n pos) := fun p hp => by unfold clip; rw [if_pos hp]

theorem Turned.view (σ : Symmetry n) {g' : Game} (h : Turned σ g g') :
    SameOn n g'.goban.view (σ.pos (clip n g.goban.view)) := by
  intro p hp
  have hq := (sym_onBoard_inv σ).2 hp
  obtain ⟨c, h1, h2⟩ := h.colours _ hq
  rw [σ.map_inv] at h2
  show g'.goban.view p = clip n g.goban.view (σ.inv p)
  unfold clip
  rw [if_pos hq]
  unfold Goban.view
  rw [h1, h2]

/-- The two games after the same calls, in terms of one run of the abstract game. -/
theorem turned_runs (σ : Symmetry n) {g0 g0' g' : Game} {m0 m0' : Nat} (hf : Fresh dbg n m0 g0) (hf' : Fresh dbg n m0' g0')
    (hd : NoDead n g0.goban.view) (hr : g0'.rule.flagIllegal = g0.rule.flagIllegal) (hfe : g0.rule.flagIllegal.fillEye = false)
    (h0 : Turned σ g0 g0') {cs : List GOp} (hcs : ∀ c ∈ cs, c.OnBoard n) {es es' : List (Option PlayError)}
    (e : g0.run dbg cs = .ok (es, g)) (e' : g0'.run dbg (cs.map (GOp.turned σ)) = .ok (es', g')) :
    es' = es ∧ g'.rule.flagIllegal = g.rule.flagIllegal ∧ ∃ s m1 m2, m1 ≤ m0 + cs.length ∧ m2 ≤ m0' + cs.length ∧ Clip n s.pos ∧
      s.passes ≤ 2 ∧ Sim dbg n m1 g0.outcome g s ∧ Sim dbg n m2 g0.outcome g' (symState σ s) := by
  have hd1 : NoDead n (clip n g0.goban.view) := (noDead_congr (sameOn_clip _)).1 hd
  obtain ⟨a1, ⟨m1, l1, s1⟩, f1, p1⟩ := Sim.run_seen cs (hf.sim_congr (sameOn_clip _) hd1) (Nat.zero_le _) hcs e
  have hcs' : ∀ c ∈ cs.map (GOp.turned σ), c.OnBoard n := by
    intro c hc
    obtain ⟨c0, h1, rfl⟩ := List.mem_map.1 hc
    exact onBoard_turned σ (hcs c0 h1)
  obtain ⟨a2, ⟨m2, l2, s2⟩, f2, _⟩ :=
    Sim.run_seen (cs.map (GOp.turned σ)) (hf'.sim_congr h0.view ((noDead_sym σ).2 hd1)) (Nat.zero_le _) hcs' e'
  have hmap : (cs.map (GOp.turned σ)).map GOp.call = (cs.map GOp.call).map σ.call := by
    rw [List.map_map, List.map_map]
    exact List.map_congr_left (fun c _ => call_turned σ c)
  have hst : State.start (σ.pos (clip n g0.goban.view)) g0'.turn = symState σ (State.start (clip n g0.goban.view) g0.turn) := by
    rw [h0.turn]; rfl
  have hon : ∀ c ∈ cs.map GOp.call, CallOn n c := by
    intro c hc
    obtain ⟨c0, h1, rfl⟩ := List.mem_map.1 hc
    exact callOn (hcs c0 h1)
  rw [hr, hst, hmap, runSeen_sym σ hfe _ _ (clip_clip _) hon] at a2 s2
  rw [List.length_map] at l2
  rw [h0.outcome] at s2
  refine ⟨?_, by rw [f1, f2, hr], _, m1, m2, l1, l2, ?_, p1, s1, s2⟩
  · exact (List.map_injective_iff.2 (fun _ _ h => toAnswer_inj h)) (a2.trans a1.symm)
  · clear a1 s1 p1 a2 s2 e e'
    have : ∀ (l : List Spec.Call) (s : State), Clip n s.pos → (∀ c ∈ l, CallOn n c) →
        Clip n (Spec.runSeen n g0.rule.flagIllegal.forbidden s l).2.pos := by
      intro l
      induction l with
      | nil => intro s hs _; exact hs
      | cons c l ih =>
        intro s hs hl
        exact ih _ (clip_stepSeen hs (hl c (by simp))) (fun c hc => hl c (by simp [hc]))
    exact this _ _ (clip_clip _) hon

theorem Sim.turned (σ : Symmetry n) {g' : Game} {o : Option EndGame} {m1 m2 : Nat} {s : State} (s1 : Sim dbg n m1 o g s)
    (s2 : Sim dbg n m2 o g' (symState σ s)) : Turned σ g g' := by
  have k1 := s1.looks
  have k2 := s2.looks
  refine ⟨fun p hp => ⟨_, k1.colours p hp, ?_⟩, ?_, ?_, ?_, ?_⟩
  · rw [k2.colours _ ((σ.onBoard p).2 hp)]
    exact congrArg Except.ok (sym_pos_map σ s.pos p)
  · rw [k2.turn, k1.turn]; rfl
  · rw [k2.passes, k1.passes]; rfl
  · rw [k2.prisoners, k1.prisoners]; rfl
  · rw [k2.outcome, k1.outcome]; rfl

/-- **C52** under the rules that do not forbid filling eyes (in particular both rules of the crate). Two fresh games under the
same prohibitions, the second on the turned or reflected board; any sequence of calls on the one and the turned calls on the
other: the answers are the same, and at the end the second game is still the first on the turned board. -/
theorem C52_board_symmetry_partial (σ : Symmetry n) {g0 g0' g' : Game} {m0 m0' : Nat} (hf : Fresh dbg n m0 g0)
    (hf' : Fresh dbg n m0' g0') (hd : NoDead n g0.goban.view) (hr : g0'.rule.flagIllegal = g0.rule.flagIllegal)
    (hfe : g0.rule.flagIllegal.fillEye = false) (h0 : Turned σ g0 g0') {cs : List GOp} (hcs : ∀ c ∈ cs, c.OnBoard n)
    {es es' : List (Option PlayError)} (e : g0.run dbg cs = .ok (es, g))
    (e' : g0'.run dbg (cs.map (GOp.turned σ)) = .ok (es', g')) : es' = es ∧ Turned σ g g' := by
  obtain ⟨h1, _, s, m1, m2, _, _, _, _, s1, s2⟩ := turned_runs σ hf hf' hd hr hfe h0 hcs e e'
  exact ⟨h1, s1.turned σ s2⟩

/-- The whole property: no condition on the rule. -/
def C52Full : Prop := ∀ (dbg : Bool) (n : Nat) (σ : Symmetry n) (g0 g0' g g' : Game) (m0 m0' : Nat) (cs : List GOp)
    (es es' : List (Option PlayError)), Fresh dbg n m0 g0 → Fresh dbg n m0' g0' → NoDead n g0.goban.view →
    g0'.rule.flagIllegal = g0.rule.flagIllegal → Turned σ g0 g0' → (∀ c ∈ cs, c.OnBoard n) →
    g0.run dbg cs = .ok (es, g) → g0'.run dbg (cs.map (GOp.turned σ)) = .ok (es', g') → es' = es ∧ Turned σ g g'

theorem Sim.accepts {o : Option EndGame} {s : State} (h : Sim dbg n m o g s) (hp2 : s.passes ≤ 2) (hm : m < 65535) {p : Coord}
    (hp : OnBoard n p) : g.Accepts dbg p ↔ Spec.answerSeen n g.rule.flagIllegal.forbidden s (.play p) = .ok := by
  obtain ⟨⟨r, g'⟩, e, h1⟩ := (h.tryPlay_answer (.play p.1 p.2) hp hp2).total (h.notFull hm)
  have h1 : toAnswer r = Spec.answerSeen n g.rule.flagIllegal.forbidden s (.play p) := h1
  rw [← h1]
  unfold Game.Accepts
  rw [e]
  constructor
  · rintro ⟨g1, h2⟩
    cases h2
    rfl
  · intro h2
    rw [toAnswer_ok] at h2
    exact ⟨g', by rw [h2]⟩

/-- **C52**: after the same calls, the points accepted on the turned board are the turned points. -/
theorem C52_accepted_partial (σ : Symmetry n) {g0 g0' g' : Game} {m0 m0' : Nat} (hf : Fresh dbg n m0 g0)
    (hf' : Fresh dbg n m0' g0') (hd : NoDead n g0.goban.view) (hr : g0'.rule.flagIllegal = g0.rule.flagIllegal)
    (hfe : g0.rule.flagIllegal.fillEye = false) (h0 : Turned σ g0 g0') {cs : List GOp} (hcs : ∀ c ∈ cs, c.OnBoard n)
    {es es' : List (Option PlayError)} (e : g0.run dbg cs = .ok (es, g))
    (e' : g0'.run dbg (cs.map (GOp.turned σ)) = .ok (es', g')) (hm : m0 + cs.length < 65535) (hm' : m0' + cs.length < 65535)
    {p : Coord} (hp : OnBoard n p) : g'.Accepts dbg (σ.map p) ↔ g.Accepts dbg p := by
  obtain ⟨_, h2, s, m1, m2, l1, l2, hc, p1, s1, s2⟩ := turned_runs σ hf hf' hd hr hfe h0 hcs e e'
  have hfe' : g.rule.flagIllegal.fillEye = false := by
    rw [(Sim.run_seen cs (hf.sim hd) (Nat.zero_le _) hcs e).2.2.1, hfe]
  rw [s1.accepts p1 (by omega) hp, s2.accepts p1 (by omega) ((σ.onBoard p).2 hp), h2]
  have := answerSeen_sym σ (r := g.rule.flagIllegal.forbidden) hfe' hc (c := .play p) hp
  rw [show σ.call (.play p) = .play (σ.map p) from rfl] at this
  rw [this]

/-- **C52**: territories do not depend on which way the board is turned, nor on the order in which hash sets are visited. -/
theorem C52_territories {n : Nat} (σ : Symmetry n) {g' : Game} {m' : Nat} (h : Reach dbg n m g) (h' : Reach dbg n m' g')
    (ht : Turned σ g g') {ord ord' : List Point → List Point} (hord : ∀ l, (ord l).Perm l) (hord' : ∀ l, (ord' l).Perm l) :
    ∃ b w b' w', g.goban.territories dbg ord = .ok (b, w) ∧ g'.goban.territories dbg ord' = .ok (b', w') ∧
      (b'.map Point.coord).Perm ((b.map Point.coord).map σ.map) ∧ (w'.map Point.coord).Perm ((w.map Point.coord).map σ.map) := by
  obtain ⟨b, w, e, hb, hw, hb1, hw1⟩ := territories_ok (dbg := dbg) h.inv hord
  obtain ⟨b', w', e', hb', hw', hb1', hw1'⟩ := territories_ok (dbg := dbg) h'.inv hord'
  have coordNodup : ∀ {l : List Point} {c : Color} {v : Pos}, l.Nodup → (∀ x, x ∈ l ↔ x.color = none ∧ Spec.Territory n v c x.coord) →
      (l.map Point.coord).Nodup := by
    intro l c v hl hx
    rw [List.Nodup, List.pairwise_map]
    refine hl.imp_of_mem ?_
    intro x y h1 h2 hne he
    apply hne
    cases x; cases y
    have k1 := ((hx _).1 h1).1
    have k2 := ((hx _).1 h2).1
    simp_all
  have key : ∀ {l l' : List Point} {c : Color}, l.Nodup → l'.Nodup →
      (∀ x, x ∈ l ↔ x.color = none ∧ Spec.Territory n g.goban.view c x.coord) →
      (∀ x, x ∈ l' ↔ x.color = none ∧ Spec.Territory n g'.goban.view c x.coord) →
      (l'.map Point.coord).Perm ((l.map Point.coord).map σ.map) := by
    intro l l' c h1 h2 h3 h4
    apply (List.perm_ext_iff_of_nodup (coordNodup h2 h4) _).2
    · intro p
      have t1 : p ∈ l'.map Point.coord ↔ Spec.Territory n g'.goban.view c p := by
        rw [List.mem_map]
        constructor
        · rintro ⟨x, hx, rfl⟩; exact ((h4 x).1 hx).2
        · intro hp; exact ⟨⟨p, none⟩, (h4 _).2 ⟨rfl, hp⟩, rfl⟩
      have t2 : ∀ q, q ∈ l.map Point.coord ↔ Spec.Territory n g.goban.view c q := by
        intro q
        rw [List.mem_map]
        constructor
        · rintro ⟨x, hx, rfl⟩; exact ((h3 x).1 hx).2
        · intro hp; exact ⟨⟨q, none⟩, (h3 _).2 ⟨rfl, hp⟩, rfl⟩
      rw [t1, territory_congr ht.view, List.mem_map]
      constructor
      · intro hp
        refine ⟨σ.inv p, (t2 _).2 ?_, σ.map_inv p⟩
        rw [territory_congr (sameOn_clip _), ← territory_sym σ, σ.map_inv]
        exact hp
      · rintro ⟨q, hq, rfl⟩
        rw [territory_sym σ, ← territory_congr (sameOn_clip _)]
        exact (t2 q).1 hq
    · rw [List.Nodup, List.pairwise_map]
      exact (coordNodup h1 h3).imp (fun h h' => h ((sym_map_eq σ).1 h'))
  exact ⟨b, w, b', w', e, e', key hb hb' hb1 hb1', key hw hw' hw1 hw1'⟩

theorem territorySize_congr {a b : Pos} {c : Color} (hab : SameOn n a b) : Spec.territorySize n a c = Spec.territorySize n b c := by
  unfold Spec.territorySize
  congr 1
  apply List.filter_congr
  intro p _
  rw [decide_eq_decide]
  exact territory_congr hab c p

/-- **C52**: scores do not depend on which way the board is turned. Any komi. -/
theorem C52_score {n : Nat} (σ : Symmetry n) {g' : Game} {m' : Nat} (h : Reach dbg n m g) (h' : Reach dbg n m' g')
    (ht : Turned σ g g') (hk : g'.rule.komi = g.rule.komi) {ord ord' : List Point → List Point} (hord : ∀ l, (ord l).Perm l)
    (hord' : ∀ l, (ord' l).Perm l) (f : ScoreRules) :
    ∃ s, g.calculateScoreBy dbg ord f = .ok s ∧ g'.calculateScoreBy dbg ord' f = .ok s := by
  have et : ∀ c, Spec.territorySize n g'.goban.view c = Spec.territorySize n g.goban.view c := by
    intro c
    rw [territorySize_congr ht.view, territorySize_sym, ← territorySize_congr (sameOn_clip _)]
  have en : g'.goban.numberOfStones = g.goban.numberOfStones := by
    rw [numberOfStones_ok h.inv, numberOfStones_ok h'.inv, count_congr ht.view, count_congr ht.view, count_sym, count_sym,
      ← count_congr (sameOn_clip _), ← count_congr (sameOn_clip _)]
  unfold Game.calculateScoreBy
  rw [calculateTerritories_ok h.inv hord, calculateTerritories_ok h'.inv hord', et, et, en, ht.prisoners, hk]
  rcases f with ⟨a, b, c⟩
  cases a <;> cases b <;> cases c <;> exact ⟨_, rfl, rfl⟩

/-- **C52**: the symmetries are at least the eight turns and reflections of the square, so the theorems are about all of them. -/
theorem C52_rotate {n : Nat} (hn : 0 < n) : (Symmetry.rotate n).map (0, 0) = (n - 1, 0) ∧
    ∀ p, OnBoard n p → (Symmetry.rotate n).map p = (n - 1 - p.2, p.1) := by
  have key : ∀ p, OnBoard n p → (Symmetry.rotate n).map p = (n - 1 - p.2, p.1) := by
    intro p hp
    unfold OnBoard at hp
    unfold Symmetry.rotate Symmetry.trans Symmetry.transpose Symmetry.flip
    simp [hp.2]
  refine ⟨?_, key⟩
  rw [key (0, 0) ⟨hn, hn⟩]
  simp

/-! ### With eye filling forbidden: false -/

/-- Rules forbidding only the filling of eyes. -/
def eyeRule : Rule := { JAPANESE with flagIllegal := { ko := false, suicide := false, fillEye := true, superko := false } }

/-- Black stones around (2, 2), both corners (3, 3) and (1, 1) empty, one white stone next to (3, 3). -/
def eyeBoard : GameBuilder :=
  { GameBuilder.default with
    size := (5, 5)
    rule := eyeRule
    turn := some .black
    setup := [⟨(1, 2), .black⟩, ⟨(3, 2), .black⟩, ⟨(2, 1), .black⟩, ⟨(2, 3), .black⟩, ⟨(3, 1), .black⟩, ⟨(1, 3), .black⟩,
      ⟨(2, 0), .black⟩, ⟨(0, 2), .black⟩, ⟨(4, 3), .white⟩] }

/-- The half turn. -/
def halfTurn (n : Nat) : Symmetry n := (Symmetry.rotate n).trans (Symmetry.rotate n)

/-- The same position after a half turn. -/
def eyeBoardTurned : GameBuilder :=
  { eyeBoard with setup := eyeBoard.setup.map (fun s => ⟨(halfTurn 5).map s.coord, s.color⟩) }

/-- The check of `Turned` point by point. -/
def turnedCheck (σ : Symmetry n) (g g' : Game) : Bool :=
  (Spec.points n).all (fun p => match g.goban.getColor p, g'.goban.getColor (σ.map p) with
    | .ok c, .ok c' => c == c'
    | _, _ => false) && g'.turn == g.turn && g'.passes == g.passes && g'.prisoners == g.prisoners && g'.outcome == g.outcome

theorem turned_of_check (σ : Symmetry n) {g' : Game} (h : turnedCheck σ g g' = true) : Turned σ g g' := by
  unfold turnedCheck at h
  simp only [Bool.and_eq_true, beq_iff_eq, List.all_eq_true] at h
  obtain ⟨⟨⟨⟨h1, h2⟩, h3⟩, h4⟩, h5⟩ := h
  refine ⟨fun p hp => ?_, h2, h3, h4, h5⟩
  have := h1 p (mem_points.2 hp)
  split at this
  · rename_i c c' e1 e2
    have hc : c = c' := by simpa using this
    exact ⟨c, e1, by rw [e2, hc]⟩
  · cases this

/-- The eye test looks at the empty corners in a fixed order and stops at the first with an enemy neighbour, so that turning the
board changes its verdict: Black may fill (2, 2) on the one board and may not on the turned one. -/
theorem C52_false_witness (dbg : Bool) : ∃ g0 g0' g g', Fresh dbg 5 9 g0 ∧ Fresh dbg 5 9 g0' ∧ NoDead 5 g0.goban.view ∧
    g0'.rule = g0.rule ∧ Turned (halfTurn 5) g0 g0' ∧ (halfTurn 5).map (2, 2) = (2, 2) ∧
    g0.run dbg [.try_ (.play 2 2)] = .ok ([none], g) ∧
    g0'.run dbg [.try_ (.play 2 2)] = .ok ([some .fillEye], g') := by
  have w : okAnd (do
      let g0 ← eyeBoard.buildInner dbg
      let g0' ← eyeBoardTurned.buildInner dbg
      let r ← g0.run dbg [.try_ (.play 2 2)]
      let r' ← g0'.run dbg [.try_ (.play 2 2)]
      .ok (g0, g0', r, r')) (fun x => x.1.goban.allAlive && x.2.1.rule == x.1.rule && turnedCheck (halfTurn 5) x.1 x.2.1 &&
        x.2.2.1.1 == [none] && x.2.2.2.1 == [some .fillEye]) = true := by cases dbg <;> decide +kernel
  obtain ⟨⟨g0, g0', ⟨a, g⟩, ⟨a', g'⟩⟩, e, h⟩ := okAnd_iff.1 w
  obtain ⟨x0, e0, e⟩ := bind_eq_ok e
  obtain ⟨x0', e0', e⟩ := bind_eq_ok e
  obtain ⟨r, e1, e⟩ := bind_eq_ok e
  obtain ⟨r', e1', e⟩ := bind_eq_ok e
  cases e
  simp only [Bool.and_eq_true, beq_iff_eq] at h
  obtain ⟨⟨⟨⟨h1, h2⟩, h3⟩, h4⟩, h5⟩ := h
  subst h4 h5
  have hf : Fresh dbg 5 9 g0 := Fresh.build (b := eyeBoard) (by decide) rfl rfl (by decide) (by decide) e0
  have hf' : Fresh dbg 5 9 g0' := Fresh.build (b := eyeBoardTurned) (by decide) rfl rfl (by decide) (by decide) e0'
  exact ⟨g0, g0', g, g', hf, hf', noDead_of_allAlive (Reach.fresh hf).inv h1, h2, turned_of_check _ h3, by decide, e1, e1'⟩

theorem C52_false : ¬ C52Full := by
  intro h
  obtain ⟨g0, g0', g, g', hf, hf', hd, hr, ht, _, e, e'⟩ := C52_false_witness true
  have := (h true 5 (halfTurn 5) g0 g0' g g' 9 9 [.try_ (.play 2 2)] _ _ hf hf' hd (by rw [hr]) ht (by decide) e e').1
  cases this

/-- Non-vacuity of C52: the ko game and the same game a quarter turn on: the capture, the ban on the retake, and afterwards boards
that differ from each other. -/
example : okAnd (do
    let g0 ← Game.new (.custom 4 4) JAPANESE
    let r ← g0.run true exWhole
    let r' ← g0.run true (exWhole.map (GOp.turned (Symmetry.rotate 4)))
    .ok (g0, r, r')) (fun r => turnedCheck (Symmetry.rotate 4) r.1 r.1 && r.2.1.1 == r.2.2.1 && r.2.1.2.prisoners == (1, 0) &&
      turnedCheck (Symmetry.rotate 4) r.2.1.2 r.2.2.2 && !turnedCheck (Symmetry.rotate 4) r.2.1.2 r.2.1.2) = true := by
  decide +kernel

/-! ## C44: scores -/

theorem Swapped.view {g' : Game} (h : Swapped n g g') : SameOn n g'.goban.view (swapPos g.goban.view) := by
  intro p hp
  obtain ⟨c, h1, h2⟩ := h.colours p hp
  unfold swapPos Goban.view
  rw [h1, h2]

theorem touches_swap {pos : Pos} {p : Coord} {c : Color} : Spec.Touches n (swapPos pos) p c.opp ↔ Spec.Touches n pos p c := by
  unfold Spec.Touches
  apply exists_congr; intro q
  apply exists_congr; intro r
  rw [linked_swap]
  unfold swapPos
  rw [swapC_some]

theorem territory_swap {pos : Pos} {p : Coord} {c : Color} : Spec.Territory n (swapPos pos) c.opp p ↔ Spec.Territory n pos c p := by
  unfold Spec.Territory
  rw [touches_swap, touches_swap]
  unfold swapPos
  rw [swapC_none]

theorem territorySize_swap (pos : Pos) (c : Color) : Spec.territorySize n (swapPos pos) c.opp = Spec.territorySize n pos c := by
  unfold Spec.territorySize
  congr 1
  apply List.filter_congr
  intro p _
  rw [decide_eq_decide]
  exact territory_swap

theorem count_swap (pos : Pos) (c : Color) : Spec.count n (swapPos pos) (some c.opp) = Spec.count n pos (some c) := by
  unfold Spec.count
  congr 1
  apply List.filter_congr
  intro p _
  rw [decide_eq_decide]
  exact swapC_some

end Model
