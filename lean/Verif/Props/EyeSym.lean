import Verif.Props.Symmetry
import Verif.Props.Reachable
import Verif.Props.Limits
import Verif.Props.Simulate
import Verif.Proofs.SymEye
/-!
# C89: exactly where turning the board changes the eye test
-/

namespace Model
open Spec (OnBoard Adj NoDead SameOn Pos State Symmetry Contested)

variable {dbg : Bool} {n : Dim} {m : Nat} {g : Game}

/-- `b'` is `b` on the turned or reflected board. -/
def BoardTurned (σ : Symmetry n) (b b' : Goban) : Prop := ∀ p, OnBoard n p → b'.getColor (σ.map p) = b.getColor p

theorem BoardTurned.view (σ : Symmetry n) {b b' : Goban} (h : BoardTurned σ b b') : SameOn n b'.view (σ.pos b.view) := by
  intro p hp
  show b'.view p = b.view (σ.inv p)
  have := h _ ((sym_onBoard_inv σ).2 hp)
  rw [σ.map_inv] at this
  unfold Goban.view
  rw [this]

/-- The answer of the eye test on a turned board, in terms of the board it was turned from. -/
theorem checkEye_turned (σ : Symmetry n) {g' : Game} {m' : Nat} (h' : Reach dbg n m' g') (ht : BoardTurned σ g.goban g'.goban)
    {p : Coord} (hp : OnBoard n p) (c : Color) :
    ∃ b, g'.checkEye dbg { coord := σ.map p, color := c } = .ok b ∧
      (b = true ↔ Spec.Eye n (σ.pos g.goban.view) c (σ.map p)) := by
  obtain ⟨b, e, hb⟩ := C31_exact h' ((σ.onBoard p).2 hp) c
  exact ⟨b, e, hb.trans (eye_congr ht.view ((σ.onBoard p).2 hp) c)⟩

/-- **C89**. Where a point is not contested, the eye test gives the same answer on the turned or reflected board, whatever game
the board belongs to. -/
theorem C89_uncontested (σ : Symmetry n) {g' : Game} {m' : Nat} (h : Reach dbg n m g) (h' : Reach dbg n m' g')
    (ht : BoardTurned σ g.goban g'.goban) {p : Coord} (hp : OnBoard n p) {c : Color} (hc : ¬ Contested n g.goban.view c p) :
    g'.checkEye dbg { coord := σ.map p, color := c } = g.checkEye dbg { coord := p, color := c } := by
  obtain ⟨b, e, hb⟩ := C31_exact h hp c
  obtain ⟨b', e', hb'⟩ := checkEye_turned σ h' ht hp c
  rw [e, e', (Bool.eq_iff_iff.2 (hb'.trans ((eye_sym σ hp hc).trans hb.symm)))]

/-- Moves from a new game lead to a legal game. -/
theorem legal_of_new (hn : n.Good) {rule : Rule} {g0 g' : Game} {ms : List Move} {es : List (Option PlayError)}
    (e0 : Game.new (.custom n.h n.w) rule = .ok g0) (hms : ∀ mv ∈ ms, Move.OnBoard n mv)
    (er : g0.run dbg (ms.map GOp.try_) = .ok (es, g')) : ∃ m', Legal dbg n m' g' := by
  have hh := hn.h19
  have hw := hn.w19
  have hsz : GobanSizes.toSize (.custom n.h n.w) = n.sz := by
    show (u8 n.h, u8 n.w) = _
    unfold u8 Dim.sz
    rw [Nat.mod_eq_of_lt (by omega), Nat.mod_eq_of_lt (by omega)]
  have hf : Fresh dbg n 0 g0 := .new hn.fits hsz e0
  have hl : Legal dbg n 0 g0 := .fresh hf (by
    intro p hp hne
    obtain ⟨_, hx⟩ | ⟨_, g0', e0', hb⟩ := C53_new_partial (.custom n.h n.w) rule (by show n.h < 256; omega) (by show n.w < 256; omega)
    · exact absurd ⟨hh, hw⟩ hx
    · rw [e0] at e0'
      obtain rfl : g0 = g0' := by injection e0'
      exact absurd ((getColor_none hf.spec.board.inv.1 hp).1 (hb.empty p hp)) hne)
  exact Legal.run _ hl (by
    intro c hc
    obtain ⟨mv, h1, rfl⟩ := List.mem_map.1 hc
    exact hms mv h1) er

/-- **C89**. A contested point: there is a way to turn the board such that the eye test changes its answer. The turned board
comes up in a game from a new board, with accepted moves only. -/
theorem C89_contested (h : Legal dbg n m g) {p : Coord} (hp : OnBoard n p) {c : Color} (hc : Contested n g.goban.view c p)
    (rule : Rule) :
    ∃ (σ : Symmetry n) (g0 : Game) (ms : List Move) (es : List (Option PlayError)) (g' : Game) (b : Bool),
      Game.new (.custom n.h n.w) rule = .ok g0 ∧ (∀ mv ∈ ms, Move.OnBoard n mv) ∧
      g0.run dbg (ms.map GOp.try_) = .ok (es, g') ∧ (∀ e ∈ es, e = none) ∧ BoardTurned σ g.goban g'.goban ∧
      g.checkEye dbg { coord := p, color := c } = .ok b ∧
      g'.checkEye dbg { coord := σ.map p, color := c } = .ok (!b) := by
  obtain ⟨k, -, hr⟩ := h.reach
  have hi := hr.inv
  have hh := hi.good.h19
  have hw := hi.good.w19
  obtain ⟨b, e, hb⟩ := C31_exact hr hp c
  obtain ⟨⟨τ, h1⟩, τ', h2⟩ := contested_turns hp hc
  have key : ∃ σ : Symmetry n, (Spec.Eye n (σ.pos g.goban.view) c (σ.map p) ↔ ¬ b = true) := by
    cases b with
    | true => exact ⟨τ', by simp [h2]⟩
    | false => exact ⟨τ, by simp [h1]⟩
  obtain ⟨σ, hσ⟩ := key
  obtain ⟨_, _, _, _, _, hs⟩ := h.sim
  have hd : NoDead n (σ.pos g.goban.view) := (noDead_sym σ).2 hs.noDead'
  obtain ⟨g0, ms, es, g', e0, hms, er, hes, -, hcol, -⟩ := C69_every_position dbg hi.good.fits hh hw rule hd .black
  have ht : BoardTurned σ g.goban g'.goban := by
    intro q hq
    rw [hcol _ ((σ.onBoard q).2 hq), sym_pos_map, hi.getColor_view hq]
  obtain ⟨m', hl⟩ := legal_of_new hi.good e0 hms er
  obtain ⟨k', -, hr'⟩ := hl.reach
  obtain ⟨b', e', hb'⟩ := checkEye_turned σ hr' ht hp c
  refine ⟨σ, g0, ms, es, g', b, e0, hms, er, hes, ht, e, ?_⟩
  rw [e']
  have hbb : b' = true ↔ ¬ b = true := hb'.trans hσ
  have : b' = !b := by
    clear e e' hσ hb' hb
    revert hbb
    cases b <;> cases b' <;> decide
  rw [this]

/-- **C89**, in one sentence: the answer of the eye test at `p` is the same on all turned and reflected boards iff `p` is not
contested. -/
theorem C89_iff (h : Legal dbg n m g) {p : Coord} (hp : OnBoard n p) (c : Color) :
    (∀ (σ : Symmetry n) (m' : Nat) (g' : Game), Legal dbg n m' g' → BoardTurned σ g.goban g'.goban →
      g'.checkEye dbg { coord := σ.map p, color := c } = g.checkEye dbg { coord := p, color := c }) ↔
    ¬ Contested n g.goban.view c p := by
  constructor
  · intro hall hc
    obtain ⟨σ, g0, ms, es, g', b, e0, hms, er, _, ht, e1, e2⟩ := C89_contested h hp hc CHINESE
    obtain ⟨_, _, hr⟩ := h.reach
    obtain ⟨m', hl⟩ := legal_of_new hr.inv.good e0 hms er
    have := hall σ m' g' hl ht
    rw [e1, e2] at this
    cases b <;> cases this
  · intro hc σ m' g' h' ht
    obtain ⟨_, _, hr⟩ := h.reach
    obtain ⟨_, _, hr'⟩ := h'.reach
    exact C89_uncontested σ hr hr' ht hp hc

/-! ## Whole games -/

open Classical in
theorem answerSeen_sym_eye (σ : Symmetry n) {r : Spec.Forbidden} {s : State} (hc : Clip n s.pos) {c : Spec.Call} (hcall : CallOn n c)
    (he : r.fillEye = true → ∀ p, c = .play p → ¬ Contested n s.pos s.turn p) :
    Spec.answerSeen n r (symState σ s) (σ.call c) = Spec.answerSeen n r s c := by
  cases c with
  | resume => rfl
  | komi => rfl
  | pass => rfl
  | resign c => rfl
  | play p =>
    have hp : OnBoard n p := hcall
    have h1 : (r.fillEye = true ∧ Spec.Eye n (σ.pos s.pos) s.turn (σ.map p)) ↔ (r.fillEye = true ∧ Spec.Eye n s.pos s.turn p) :=
      and_congr_right (fun h => eye_sym σ hp (he h p rfl))
    show (if s.passes = 2 then Spec.Answer.paused else if σ.pos s.pos (σ.map p) ≠ none then .occupied
      else if r.suicide = true ∧ Spec.Suicide n (σ.pos s.pos) (σ.map p) s.turn then .suicide
      else if r.ko = true ∧ Spec.KoSeen n (symState σ s) (σ.map p) then .ko
      else if r.fillEye = true ∧ Spec.Eye n (σ.pos s.pos) s.turn (σ.map p) then .fillEye
      else if r.superko = true ∧ Spec.SuperKoSeen n (!r.suicide) (symState σ s) (σ.map p) then .ko else .ok) = _
    rw [suicide_sym σ hc hp, koSeen_sym σ hp, superKoSeen_sym σ hc hp, sym_pos_map]
    simp only [h1]
    rfl

/-- No stone of the sequence is offered to `try_play` at a point contested for the player to move. -/
def Uncontested (dbg : Bool) (n : Dim) (g0 : Game) (cs : List GOp) : Prop :=
  ∀ (a b : List GOp) (x y : Nat) (es : List (Option PlayError)) (g : Game), cs = a ++ .try_ (.play x y) :: b →
    g0.run dbg a = .ok (es, g) → ¬ Contested n g.goban.view g.turn (x, y)

theorem contested_congr {a b : Pos} (h : SameOn n a b) {c : Color} {p : Coord} (hp : OnBoard n p) :
    Contested n a c p ↔ Contested n b c p := by
  have key : ∀ {a b : Pos}, SameOn n a b → Contested n a c p → Contested n b c p := by
    rintro a b h ⟨h0, h1, h2, ⟨q, q1, q2, q3, r, r1, r2, r3⟩, t, t1, t2, t3, t4, t5⟩
    refine ⟨by rw [← h p hp]; exact h0, fun q hq ho => by rw [← h q ho]; exact h1 q hq ho, by rw [← safeCorners_congr h]; exact h2,
      ⟨q, q1, q2, by rw [← h q q1]; exact q3, r, r1, r2, by rw [← h r r2]; exact r3⟩,
      t, t1, t2, by rw [← h t t1]; exact t3, fun r hr ho => by rw [← h r ho]; exact t4 r hr ho,
      by rw [← safeCorners_congr h]; exact t5⟩
  exact ⟨key h, key (SameOn.symm h)⟩

theorem turned_runs_eyes (σ : Symmetry n) {o : Option EndGame} : ∀ (cs : List GOp) {m1 m2 : Nat} {g g' k k' : Game} {s : State}
    {es es' : List (Option PlayError)}, Sim dbg n m1 o g s → Sim dbg n m2 o g' (symState σ s) → Clip n s.pos → s.passes ≤ 2 →
    g'.rule.flagIllegal = g.rule.flagIllegal → (∀ c ∈ cs, c.OnBoard n) → (g.rule.flagIllegal.fillEye = true → Uncontested dbg n g cs) →
    g.run dbg cs = .ok (es, k) → g'.run dbg (cs.map (GOp.turned σ)) = .ok (es', k') →
    es' = es ∧ k'.rule.flagIllegal = k.rule.flagIllegal ∧ k.rule.flagIllegal = g.rule.flagIllegal ∧
      ∃ s' j1 j2, j1 ≤ m1 + cs.length ∧ j2 ≤ m2 + cs.length ∧
      Clip n s'.pos ∧ s'.passes ≤ 2 ∧ Sim dbg n j1 o k s' ∧ Sim dbg n j2 o k' (symState σ s')
  | [], m1, m2, g, g', k, k', s, es, es', h, h', hcl, hp, hr, _, _, e, e' => by
    cases e
    cases e'
    exact ⟨rfl, hr, rfl, s, m1, m2, by simp, by simp, hcl, hp, h, h'⟩
  | c :: cs, m1, m2, g, g', k, k', s, es, es', h, h', hcl, hp, hr, hon, hu, e, e' => by
    rw [List.map_cons] at e'
    obtain ⟨⟨x, g1⟩, es1, e1, e2, rfl⟩ := run_cons e
    obtain ⟨⟨x', g1'⟩, es1', e1', e2', rfl⟩ := run_cons e'
    have hc := hon c (by simp)
    obtain ⟨a1, ⟨j1, l1, s1⟩, f1, p1⟩ := (h.call_seen c hc hp).of_ok e1
    obtain ⟨a2, ⟨j2, l2, s2⟩, f2, -⟩ := (h'.call_seen (c.turned σ) (onBoard_turned σ hc) hp).of_ok e1'
    dsimp only at a1 a2 s1 s2 f1 f2
    have hans := answerSeen_sym_eye (n := n) σ (r := g.rule.flagIllegal.forbidden) hcl (callOn hc) (by
      intro hfe p hcp
      obtain ⟨y, z⟩ := p
      have : c = .try_ (.play y z) := by
        cases c with
        | try_ mv =>
          cases mv with
          | play a b => cases hcp; rfl
          | pass => cases hcp
          | resign d => cases hcp
        | resume => cases hcp
        | setKomi q => cases hcp
      subst this
      have := hu hfe [] cs y z [] g rfl rfl
      rwa [contested_congr h.pos hc, h.turn] at this)
    have hstep : Spec.stepSeen n g.rule.flagIllegal.forbidden (symState σ s) (σ.call c.call) =
        ((Spec.stepSeen n g.rule.flagIllegal.forbidden s c.call).1,
          symState σ (Spec.stepSeen n g.rule.flagIllegal.forbidden s c.call).2) := by
      unfold Spec.stepSeen
      rw [hans, apply_sym σ hcl (callOn hc)]
      split <;> rfl
    rw [hr, call_turned, hstep] at a2 s2
    have hx : x' = x := toAnswer_inj (a2.trans a1.symm)
    obtain ⟨r1, r2, r3, s', i1, i2, b1, b2, b3, b4, b5, b6⟩ := turned_runs_eyes σ cs s1 s2 (clip_stepSeen hcl (callOn hc)) p1
      (by rw [f1, f2, hr]) (fun c hc => hon c (by simp [hc])) (by
        rw [f1]
        intro hfe a b y z es g2 hcs e3
        refine hu hfe (c :: a) b y z (x :: es) g2 (by rw [hcs]; rfl) ?_
        rw [run_cons_eq, e1]
        show (do let rs ← g1.run dbg a; _) = _
        rw [e3]
        rfl) e2 e2'
    refine ⟨by rw [hx, r1], r2, by rw [r3, f1], s', i1, i2, ?_, ?_, b3, b4, b5, b6⟩
    · rw [List.length_cons]; omega
    · rw [List.length_cons]; omega

theorem turned_fresh (σ : Symmetry n) {g0 g0' g' : Game} {m0 m0' : Nat} (hf : Fresh dbg n m0 g0)
    (hf' : Fresh dbg n m0' g0') (hd : NoDead n g0.goban.view) (hr : g0'.rule.flagIllegal = g0.rule.flagIllegal)
    (h0 : Turned σ g0 g0') {cs : List GOp} (hcs : ∀ c ∈ cs, c.OnBoard n)
    (hu : g0.rule.flagIllegal.fillEye = true → Uncontested dbg n g0 cs)
    {es es' : List (Option PlayError)} (e : g0.run dbg cs = .ok (es, g))
    (e' : g0'.run dbg (cs.map (GOp.turned σ)) = .ok (es', g')) :
    es' = es ∧ g'.rule.flagIllegal = g.rule.flagIllegal ∧ g.rule.flagIllegal = g0.rule.flagIllegal ∧
      ∃ s j1 j2, j1 ≤ m0 + cs.length ∧ j2 ≤ m0' + cs.length ∧
      Clip n s.pos ∧ s.passes ≤ 2 ∧ Sim dbg n j1 g0.outcome g s ∧ Sim dbg n j2 g0.outcome g' (symState σ s) := by
  have hd1 : NoDead n (clip n g0.goban.view) := (noDead_congr (sameOn_clip _)).1 hd
  have s1 := hf.sim_congr (sameOn_clip _) hd1
  have s2 := hf'.sim_congr h0.view ((noDead_sym σ).2 hd1)
  rw [h0.turn, h0.outcome] at s2
  exact turned_runs_eyes σ cs s1 s2 (clip_clip _) (Nat.zero_le _) hr hcs hu e e'

/-- **C89** for whole games, under every rule: as in C52, as long as, when eyes may not be filled, no stone is tried at a contested
point. Any sequence of calls on a fresh game and the turned calls on the turned game: the answers are the same, and at the end
the second game is still the first on the turned board. -/
theorem C89_game (σ : Symmetry n) {g0 g0' g' : Game} {m0 m0' : Nat} (hf : Fresh dbg n m0 g0)
    (hf' : Fresh dbg n m0' g0') (hd : NoDead n g0.goban.view) (hr : g0'.rule.flagIllegal = g0.rule.flagIllegal)
    (h0 : Turned σ g0 g0') {cs : List GOp} (hcs : ∀ c ∈ cs, c.OnBoard n)
    (hu : g0.rule.flagIllegal.fillEye = true → Uncontested dbg n g0 cs)
    {es es' : List (Option PlayError)} (e : g0.run dbg cs = .ok (es, g))
    (e' : g0'.run dbg (cs.map (GOp.turned σ)) = .ok (es', g')) : es' = es ∧ Turned σ g g' := by
  obtain ⟨h1, _, _, s, m1, m2, _, _, _, _, s1, s2⟩ := turned_fresh σ hf hf' hd hr h0 hcs hu e e'
  exact ⟨h1, s1.turned σ s2⟩

/-- **C89**: after such a sequence of calls, `try_play` gives the same answer on both boards at every point that is not contested. -/
theorem C89_try_play (σ : Symmetry n) {g0 g0' g' : Game} {m0 m0' : Nat} (hf : Fresh dbg n m0 g0)
    (hf' : Fresh dbg n m0' g0') (hd : NoDead n g0.goban.view) (hr : g0'.rule.flagIllegal = g0.rule.flagIllegal)
    (h0 : Turned σ g0 g0') {cs : List GOp} (hcs : ∀ c ∈ cs, c.OnBoard n)
    (hu : g0.rule.flagIllegal.fillEye = true → Uncontested dbg n g0 cs)
    {es es' : List (Option PlayError)} (e : g0.run dbg cs = .ok (es, g))
    (e' : g0'.run dbg (cs.map (GOp.turned σ)) = .ok (es', g')) (hm : m0 + cs.length < 65535) (hm' : m0' + cs.length < 65535)
    {p : Coord} (hp : OnBoard n p) (hc : ¬ Contested n g.goban.view g.turn p) :
    ∃ x k k', g.tryPlay dbg (.play p.1 p.2) = .ok (x, k) ∧ g'.tryPlay dbg (.play (σ.map p).1 (σ.map p).2) = .ok (x, k') := by
  obtain ⟨_, h2, _, s, m1, m2, l1, l2, hcl, p1, s1, s2⟩ := turned_fresh σ hf hf' hd hr h0 hcs hu e e'
  obtain ⟨⟨x, k⟩, t1, a1⟩ := (s1.tryPlay_answer (.play p.1 p.2) hp p1).total (s1.notFull (by omega))
  obtain ⟨⟨x', k'⟩, t2, a2⟩ := (s2.tryPlay_answer (.play (σ.map p).1 (σ.map p).2) ((σ.onBoard p).2 hp) p1).total
    (s2.notFull (by omega))
  dsimp only at a1 a2
  have hans := answerSeen_sym_eye (n := n) σ (r := g.rule.flagIllegal.forbidden) hcl (c := .play p) hp (by
    intro _ q hq
    cases hq
    rw [← contested_congr s1.pos hp, ← s1.turn]
    exact hc)
  rw [h2] at a2
  have hx : x' = x := toAnswer_inj ((a2.trans hans).trans a1.symm)
  exact ⟨x, k, k', t1, by rw [t2, hx]⟩

/-! ## Not vacuous -/

/-- Contested points come up: the point in the middle of `eyeBoard`, in a game that is just starting. -/
theorem C89_contested_witness (dbg : Bool) : ∃ g0 m, Legal dbg 5 m g0 ∧ Contested 5 g0.goban.view g0.turn (2, 2) := by
  obtain ⟨g0, g0', g, g', hf, hf', hd, hr, ht, hc, e, e'⟩ := C52_false_witness dbg
  refine ⟨g0, 9, .fresh hf hd, Classical.byContradiction fun hn => ?_⟩
  obtain ⟨x, k, k', e1, e2⟩ := C89_try_play (halfTurn 5) hf hf' hd (by rw [hr]) ht (cs := []) (by simp) (by
    intro _ a b x y es g h
    cases a <;> cases h) rfl rfl (by decide) (by decide) (p := (2, 2)) (by decide) hn
  rw [hc] at e2
  obtain ⟨r, es, f1, f2, f3⟩ := run_cons e
  obtain ⟨r', es', f1', f2', f3'⟩ := run_cons e'
  rw [show g0.call dbg (.try_ (.play 2 2)) = g0.tryPlay dbg (.play 2 2) from rfl, e1] at f1
  rw [show g0'.call dbg (.try_ (.play 2 2)) = g0'.tryPlay dbg (.play 2 2) from rfl, e2] at f1'
  cases f1
  cases f1'
  injection f3 with f3
  injection f3' with f3'
  rw [← f3] at f3'
  cases f3'

/-- `eyeBoard` without the white stone. -/
def quietBoard : GameBuilder := { eyeBoard with setup := eyeBoard.setup.dropLast }

/-- Points with an eye on them and not contested come up too (non-vacuity of `C89_uncontested` and `C89_try_play`): without the
white stone the middle is an eye for Black, and not contested. -/
theorem C89_uncontested_witness (dbg : Bool) : ∃ g0 m, Legal dbg 5 m g0 ∧ g0.rule.flagIllegal.fillEye = true ∧ g0.turn = .black ∧
    g0.checkEye dbg { coord := (2, 2), color := .black } = .ok true ∧ ¬ Contested 5 g0.goban.view .black (2, 2) := by
  have w : okAnd (quietBoard.buildInner dbg) (fun g => g.goban.allAlive && g.rule.flagIllegal.fillEye && g.turn == .black &&
      okAnd (g.checkEye dbg { coord := (2, 2), color := .black }) id &&
      (Spec.points 5).all (fun p => okAnd (g.goban.getColor p) (fun c => c != some .white))) = true := by
    cases dbg <;> decide +kernel
  obtain ⟨g0, e, h⟩ := okAnd_iff.1 w
  simp only [Bool.and_eq_true, beq_iff_eq, List.all_eq_true] at h
  obtain ⟨⟨⟨⟨h1, h2⟩, h3⟩, h4⟩, h5⟩ := h
  have hf : Fresh dbg 5 8 g0 := Fresh.build (b := quietBoard) (by decide) rfl rfl (by decide) (by decide) e
  have hi := (Reach.fresh hf).inv
  obtain ⟨b, e1, hb⟩ := okAnd_iff.1 h4
  obtain rfl : b = true := hb
  refine ⟨g0, 8, .fresh hf (noDead_of_allAlive hi h1), h2, h3, e1, ?_⟩
  rintro ⟨-, -, -, ⟨q, -, -, -, r, -, r2, r3⟩, -⟩
  obtain ⟨c, e2, hc⟩ := okAnd_iff.1 (h5 r (mem_points.2 r2))
  rw [hi.getColor_view r2] at e2
  injection e2 with e2
  rw [r3] at e2
  subst e2
  cases hc

end Model
