import Verif.Proofs.Local
import Verif.Props.Abstract
import Verif.Props.Support
/-!
# Games from every start: C102

`C49` follows a game call by call from a start whose groups all have liberties, and only through `try_play`. Here the start is
any board a builder or `put_handicap` can set up, dead groups included, and `play` may be used as well.
-/

namespace Model
open Spec (OnBoard Adj Linked HasLiberty NoDead place SameOn Pos Suicide State playLocal)

variable {dbg : Bool} {n : Dim} {m : Nat} {g : Game}

theorem SimL.looks {o : Option EndGame} {s : State} (h : SimL dbg n m o g s) : Looks n o g s := by
  refine ⟨fun p hp => by rw [h.inv.getColor_view hp, h.pos p hp], h.turn, h.passes, h.prisoners, h.outcome, ?_⟩
  unfold Game.isOver
  rw [h.outcome, h.passes]
  cases s.resigned with
  | some c => simp
  | none => cases o <;> simp

/-- **C102**, whole games. Whatever the start (dead groups included), under every rule, for every sequence of `try_play`,
`resume`, `set_komi` and `play` (the last on empty points, and to pass at most twice in a row): the answers are those of the
abstract game of `Spec.Local`, and at the end the game looks like its state. -/
theorem C102_refines {g0 : Game} {m0 : Nat} (hf : Fresh dbg n m0 g0) {cs : List ROp} (hcs : ∀ c ∈ cs, c.OnBoard n)
    (hpr : Spec.ProperRun n g0.rule.flagIllegal.forbidden (.start g0.goban.view g0.turn) (cs.map ROp.call))
    {es : List (Option PlayError)} (e : g0.acts dbg cs = .ok (es, g)) :
    es.map toAnswer = (Spec.runLocal n g0.rule.flagIllegal.forbidden (.start g0.goban.view g0.turn) (cs.map ROp.call)).1 ∧
    Looks n g0.outcome g (Spec.runLocal n g0.rule.flagIllegal.forbidden (.start g0.goban.view g0.turn) (cs.map ROp.call)).2 := by
  obtain ⟨h1, ⟨m', _, h2⟩, _⟩ := SimL.acts cs hf.simL (Nat.zero_le _) hcs hpr e
  exact ⟨h1, h2.looks⟩

/-- **C102**, the sequence always runs through below the 16-bit limit on the stones put in the life of the board. -/
theorem C102_total {g0 : Game} {m0 : Nat} (hf : Fresh dbg n m0 g0) {cs : List ROp} (hcs : ∀ c ∈ cs, c.OnBoard n)
    (hpr : Spec.ProperRun n g0.rule.flagIllegal.forbidden (.start g0.goban.view g0.turn) (cs.map ROp.call))
    (hm : m0 + cs.length < 65536) : ∃ es g, g0.acts dbg cs = .ok (es, g) ∧ es.length = cs.length :=
  SimL.acts_total cs hf.simL (Nat.zero_le _) hcs hpr (by omega)

/-- **C102**, the questions about a play on an empty point, after any such sequence. `check_suicide` and `check_ko` may be asked
for either colour; `check_ko` does not look at it. -/
theorem C102_checks {g0 : Game} {m0 : Nat} (hf : Fresh dbg n m0 g0) {cs : List ROp} (hcs : ∀ c ∈ cs, c.OnBoard n)
    (hpr : Spec.ProperRun n g0.rule.flagIllegal.forbidden (.start g0.goban.view g0.turn) (cs.map ROp.call))
    {es : List (Option PlayError)} (e : g0.acts dbg cs = .ok (es, g)) {p : Coord} (hp : OnBoard n p)
    (he : g.goban.getColor p = .ok none) {s : State}
    (hs : s = (Spec.runLocal n g0.rule.flagIllegal.forbidden (.start g0.goban.view g0.turn) (cs.map ROp.call)).2) :
    (∃ b, g.willCapture dbg p = .ok b ∧ (b = true ↔ Spec.CapturesLocal n s.pos p s.turn)) ∧
    (∀ c, ∃ b, g.checkSuicide dbg { coord := p, color := c } = .ok b ∧ (b = true ↔ Spec.SuicideLocal n s.pos p c)) ∧
    (∀ c, ∃ b, g.checkKo dbg { coord := p, color := c } = .ok b ∧ (b = true ↔ Spec.KoSeen n s p)) ∧
    Safe g.Full (g.checkSuperKo dbg { coord := p, color := g.turn }) (fun b => (b = true ↔ Spec.SuperKoLocal n s p)) ∧
    (∀ r : IllegalRules, Safe g.Full (g.checkPointBy dbg p r) (fun a => toAnswer a = Spec.pointLocal n r.forbidden s p)) ∧
    Safe g.Full (g.playForVerification dbg p) (fun b => ∀ q, OnBoard n q →
      b.getColor q = .ok (playLocal n g0.rule.flagIllegal.suicide s.pos p s.turn q)) := by
  obtain ⟨_, ⟨m', _, h⟩, hr⟩ := SimL.acts cs hf.simL (Nat.zero_le _) hcs hpr e
  rw [← hs] at h
  have he' : s.pos p = none := by rw [← h.pos p hp]; exact (getColor_none h.inv hp).1 he
  refine ⟨h.willCapture hp he', fun c => h.checkSuicide hp he' c, fun c => h.checkKo hp he' c, h.checkSuperKo hp he',
    fun r => h.checkPointBy hp he' r, ?_⟩
  refine (h.verification hp he').mono ?_
  rintro b ⟨h1, h2⟩ q hq
  rw [h1.getColor_view hq, h2 q hq, hr]

/-- **C102** for every reachable game (`play` may have been used freely on empty points): what `will_capture`, `check_suicide`
and `play_for_verification` say of an empty point, and what `play` does there, in terms of the position shown. -/
theorem C102_position (h : Reach dbg n m g) {x y : Nat} (hp : OnBoard n (x, y)) (he : g.goban.getColor (x, y) = .ok none) :
    (∃ b, g.willCapture dbg (x, y) = .ok b ∧ (b = true ↔ Spec.CapturesLocal n g.goban.view (x, y) g.turn)) ∧
    (∀ c, ∃ b, g.checkSuicide dbg { coord := (x, y), color := c } = .ok b ∧
      (b = true ↔ Spec.SuicideLocal n g.goban.view (x, y) c)) ∧
    Safe g.Full (g.playForVerification dbg (x, y)) (fun b => ∀ q, OnBoard n q →
      b.getColor q = .ok (playLocal n g.rule.flagIllegal.suicide g.goban.view (x, y) g.turn q)) ∧
    Safe g.Full (g.play dbg (.play x y)) (fun g' => ∀ q, OnBoard n q →
      g'.goban.getColor q = .ok (playLocal n (!g.rule.flagIllegal.suicide) g.goban.view (x, y) g.turn q)) := by
  obtain ⟨o, s, hps, hs⟩ := h.simL
  have hv := (getColor_none hs.inv hp).1 he
  have he' : s.pos (x, y) = none := by rw [← hs.pos _ hp]; exact hv
  refine ⟨willCapture_local hs.inv hp hv, fun c => checkSuicide_local hs.inv hp hv, ?_, ?_⟩
  · refine (hs.verification hp he').mono ?_
    rintro b ⟨h1, h2⟩ q hq
    rw [h1.getColor_view hq, h2 q hq, hs.turn, playLocal_congr hs.pos _ hp _ q hq]
  · refine (hs.play hp he').mono ?_
    rintro g' ⟨h1, _⟩ q hq
    rw [h1.inv.getColor_view hq, h1.pos q hq, hs.turn, playLocal_congr hs.pos _ hp _ q hq]
    rfl

/-- **C102**: `try_play` leaves no group without liberties that was not there before, without liberties, and untouched. -/
theorem C102_no_new_dead (h : Reach dbg n m g) {mv : Move} (hmv : mv.OnBoard n) {e : Option PlayError} {g' : Game}
    (e1 : g.tryPlay dbg mv = .ok (e, g')) {q : Coord} (hq : OnBoard n q) (hs : g'.goban.view q ≠ none)
    (hl : ¬ HasLiberty n g'.goban.view q) : g.goban.view q = g'.goban.view q ∧ ¬ HasLiberty n g.goban.view q := by
  obtain ⟨o, s, hps, hsim⟩ := h.simL
  obtain ⟨_, ⟨m', _, h2⟩, _⟩ := (hsim.tryPlay mv hmv hps).of_ok e1
  unfold Spec.stepLocal at h2
  dsimp only at h2
  have same : SameOn n g'.goban.view g.goban.view → g.goban.view q = g'.goban.view q ∧ ¬ HasLiberty n g.goban.view q := by
    intro h'
    exact ⟨(h' q hq).symm, fun h3 => hl (hasLiberty_congr (SameOn.symm h') hq h3)⟩
  split at h2
  · rename_i ha
    cases mv with
    | pass => exact same (SameOn.trans h2.pos (SameOn.symm hsim.pos))
    | resign c => exact same (SameOn.trans h2.pos (SameOn.symm hsim.pos))
    | play x y =>
      have hp : OnBoard n (x, y) := hmv
      have hv : SameOn n g'.goban.view (playLocal n (!g.rule.flagIllegal.suicide) s.pos (x, y) s.turn) := h2.pos
      unfold Spec.answerLocal Move.call at ha
      dsimp only at ha
      split at ha
      · cases ha
      split at ha
      · cases ha
      rename_i _ hemp
      have hemp := Classical.not_not.1 hemp
      have hns : (!g.rule.flagIllegal.suicide) = true ∨ ¬ Spec.SuicideLocal n s.pos (x, y) s.turn := by
        cases hf : g.rule.flagIllegal.suicide with
        | false => exact Or.inl rfl
        | true =>
          right
          intro h'
          unfold Spec.pointLocal at ha
          rw [if_pos ⟨hf, h'⟩] at ha
          cases ha
      rw [hv q hq] at hs ⊢
      obtain ⟨h3, h4⟩ := local_no_new_dead hp hemp hns hq hs (fun h' => hl (hasLiberty_congr (SameOn.symm hv) hq h'))
      exact ⟨by rw [hsim.pos q hq, h3], fun h' => h4 (hasLiberty_congr hsim.pos hq h')⟩
  · exact same (SameOn.trans h2.pos (SameOn.symm hsim.pos))

/-- **C102** extends what is proved of games without dead groups: there the tests and the move are those of the book. -/
theorem C102_same_as_book {pos : Pos} {p : Coord} {c : Color} (hd : NoDead n pos) (hp : OnBoard n p) (he : pos p = none) :
    (Spec.SuicideLocal n pos p c ↔ Suicide n pos p c) ∧ (Spec.CapturesLocal n pos p c ↔ Spec.Captures n pos p c) ∧
    ∀ sa, SameOn n (playLocal n sa pos p c) (Spec.play n sa pos p c) :=
  ⟨suicideLocal_eq hd hp he, capturesLocal_eq hd hp he, fun sa => playLocal_eq_play sa hd hp he⟩

/-! ### Where set-up positions leave the book -/

theorem walled {pos : Pos} {q : Coord} {c : Color} (hc : pos q = some c) (h : ∀ r, Adj q r → OnBoard n r → pos r = some c.opp) :
    ¬ HasLiberty n pos q := by
  have only : ∀ x, Linked n pos q x → x = q := by
    intro x hx
    induction hx with
    | refl => rfl
    | step hl ha hr he ih =>
      subst ih
      rw [h _ ha hr, hc] at he
      exact absurd he.symm some_ne_opp
  rintro ⟨q', r, h1, h2, h3, h4⟩
  obtain rfl := only q' h1
  rw [h r h2 h3] at h4
  cases h4

/-- A black stone without liberties in the corner, White to play. -/
def deadCorner : GameBuilder :=
  { GameBuilder.default with
    size := (3, 3)
    turn := some .white
    setup := [⟨(0, 0), .black⟩, ⟨(0, 1), .white⟩, ⟨(1, 0), .white⟩] }

theorem adj_zero {r : Coord} (h : Adj (0, 0) r) : r = (0, 1) ∨ r = (1, 0) := by
  obtain ⟨a, b⟩ := r
  unfold Adj at h
  dsimp only at h
  rw [Prod.mk.injEq, Prod.mk.injEq]
  omega

/-- **C102**: a dead group away from the stone stays, though by the book the move removes it. -/
theorem C102_book_move_false (dbg sa : Bool) : ∃ g g', Fresh dbg 3 3 g ∧ g.goban.getColor (2, 2) = .ok none ∧
    g.tryPlay dbg (.play 2 2) = .ok (none, g') ∧ g'.goban.getColor (0, 0) = .ok (some .black) ∧
    Spec.play 3 sa g.goban.view (2, 2) g.turn (0, 0) = none := by
  have key : okAnd (do
      let g ← deadCorner.buildInner dbg
      let (e, g') ← g.tryPlay dbg (.play 2 2)
      .ok (g, e, g')) (fun r => r.1.turn = .white ∧ r.2.1 = none ∧ r.2.2.goban.getColor (0, 0) = .ok (some .black) ∧
        r.1.goban.getColor (2, 2) = .ok none ∧
        r.1.goban.getColor (0, 0) = .ok (some .black) ∧ r.1.goban.getColor (0, 1) = .ok (some .white) ∧
        r.1.goban.getColor (1, 0) = .ok (some .white)) = true := by
    cases dbg <;> decide +kernel
  obtain ⟨r, e, hr⟩ := okAnd_iff.1 key
  obtain ⟨g, e0, e⟩ := bind_eq_ok e
  obtain ⟨⟨er, g'⟩, e1, e⟩ := bind_eq_ok e
  cases e
  simp only [decide_eq_true_eq] at hr
  obtain ⟨ht, rfl, h1, h0, h2, h3, h4⟩ := hr
  have hf : Fresh dbg 3 3 g := .build (b := deadCorner) (by decide) rfl rfl (by decide) (by decide) e0
  have hi := hf.spec.board.inv.1
  rw [hi.getColor_view (by decide)] at h2 h3 h4
  injection h2 with h2; injection h3 with h3; injection h4 with h4
  refine ⟨g, g', hf, h0, e1, h1, ?_⟩
  have hdead : Spec.removeDead 3 (place g.goban.view (2, 2) g.turn) g.turn.opp (0, 0) = none := by
    unfold Spec.removeDead
    rw [if_pos]
    have hb : place g.goban.view (2, 2) g.turn (0, 0) = some .black := by rw [place_ne (by decide), h2]
    refine ⟨by rw [hb, ht]; rfl, walled hb ?_⟩
    intro r hr _
    rcases adj_zero hr with rfl | rfl
    · rw [place_ne (by decide), h3]; rfl
    · rw [place_ne (by decide), h4]; rfl
  unfold Spec.play
  cases sa
  · exact hdead
  · exact removeDead_none hdead

/-- A column of three points: an empty one, a black stone, a white stone without liberties. -/
def deadEnd : GameBuilder :=
  { GameBuilder.default with
    size := (3, 1)
    setup := [⟨(1, 0), .black⟩, ⟨(2, 0), .white⟩] }

/-- **C102**: `check_suicide` says true of a play that by the book is none, because a dead group away from the stone would give
it a liberty; `try_play` refuses the play. -/
theorem C102_book_suicide_false (dbg : Bool) : ∃ g, Fresh dbg ⟨3, 1⟩ 2 g ∧ g.goban.getColor (0, 0) = .ok none ∧
    g.checkSuicide dbg { coord := (0, 0), color := g.turn } = .ok true ∧
    g.tryPlay dbg (.play 0 0) = .ok (some .suicide, g) ∧ ¬ Suicide ⟨3, 1⟩ g.goban.view (0, 0) g.turn := by
  have key : okAnd (do
      let g ← deadEnd.buildInner dbg
      let b ← g.checkSuicide dbg { coord := (0, 0), color := g.turn }
      let (e, _) ← g.tryPlay dbg (.play 0 0)
      .ok (g, b, e)) (fun r => r.1.turn = .black ∧ r.2.1 = true ∧ r.2.2 = some .suicide ∧
        r.1.goban.getColor (0, 0) = .ok none ∧ r.1.goban.getColor (1, 0) = .ok (some .black) ∧
        r.1.goban.getColor (2, 0) = .ok (some .white)) = true := by
    cases dbg <;> decide +kernel
  obtain ⟨r, e, hr⟩ := okAnd_iff.1 key
  obtain ⟨g, e0, e⟩ := bind_eq_ok e
  obtain ⟨b, e1, e⟩ := bind_eq_ok e
  obtain ⟨⟨er, g'⟩, e2, e⟩ := bind_eq_ok e
  cases e
  simp only [decide_eq_true_eq] at hr
  obtain ⟨ht, rfl, rfl, h0, h1, h2⟩ := hr
  have hf : Fresh dbg ⟨3, 1⟩ 2 g := .build (b := deadEnd) (by decide) rfl rfl (by decide) (by decide) e0
  have hi := hf.spec.board.inv.1
  have hsame : g' = g := by
    have := e2
    unfold Game.tryPlay at this
    split at this
    · cases this
    dsimp only at this
    obtain ⟨x, _, this⟩ := bind_eq_ok this
    split at this
    · cases this
    obtain ⟨x, hx, this⟩ := bind_eq_ok this
    cases x with
    | none => obtain ⟨x, _, this⟩ := bind_eq_ok this; cases this
    | some x => cases this; rfl
  subst hsame
  refine ⟨g', hf, h0, e1, e2, ?_⟩
  rw [hi.getColor_view (by decide)] at h0 h1 h2
  injection h0 with h0; injection h1 with h1; injection h2 with h2
  have hpl : ∀ q, q ≠ (0, 0) → place g'.goban.view (0, 0) .black q = g'.goban.view q := fun q hq => place_ne hq
  have hdead : Spec.removeDead ⟨3, 1⟩ (place g'.goban.view (0, 0) .black) .white (2, 0) = none := by
    unfold Spec.removeDead
    rw [if_pos]
    have hb : place g'.goban.view (0, 0) .black (2, 0) = some .white := by rw [hpl _ (by decide), h2]
    refine ⟨hb, walled hb ?_⟩
    rintro ⟨a, b⟩ hr ho
    have : (a, b) = (1, 0) := by
      unfold Adj at hr
      obtain ⟨o1, o2⟩ := ho
      dsimp only at hr o1 o2
      rw [Prod.mk.injEq]
      omega
    rw [this, hpl _ (by decide), h1]; rfl
  have hown : ∀ q, place g'.goban.view (0, 0) .black q = some .black →
      Spec.removeDead ⟨3, 1⟩ (place g'.goban.view (0, 0) .black) .white q = some .black :=
    fun q hq => removeDead_other hq (by decide)
  rw [ht]
  intro hsu
  apply hsu
  show HasLiberty ⟨3, 1⟩ (Spec.removeDead ⟨3, 1⟩ (place g'.goban.view (0, 0) .black) .white) (0, 0)
  refine ⟨(1, 0), (2, 0), .step (.refl _) (by decide) (by decide) ?_, by decide, by decide, hdead⟩
  rw [hown _ (by rw [hpl _ (by decide), h1]), hown _ (place_self _ _ _)]

/-- A black stone White can capture in the corner, next to a white stone without liberties. -/
def deadNeighbour : GameBuilder :=
  { GameBuilder.default with
    size := (4, 4)
    rule := JAPANESE
    turn := some .white
    setup := [⟨(0, 0), .black⟩, ⟨(1, 0), .white⟩, ⟨(2, 0), .black⟩, ⟨(1, 1), .black⟩, ⟨(0, 2), .black⟩] }

/-- **C102**: `check_ko` says true, and `try_play` answers `Ko`, though taking back does not restore the position: it captures a
second stone, one that had been set up without liberties. -/
theorem C102_book_ko_false (dbg : Bool) : ∃ g0 g g', Fresh dbg 4 5 g0 ∧ g0.tryPlay dbg (.play 0 1) = .ok (none, g) ∧
    g.checkKo dbg { coord := (0, 0), color := g.turn } = .ok true ∧ g.tryPlay dbg (.play 0 0) = .ok (some .ko, g) ∧
    g.play dbg (.play 0 0) = .ok g' ∧ g0.goban.getColor (1, 0) = .ok (some .white) ∧ g'.goban.getColor (1, 0) = .ok none := by
  have key : okAnd (do
      let g0 ← deadNeighbour.buildInner dbg
      let (e, g) ← g0.tryPlay dbg (.play 0 1)
      let b ← g.checkKo dbg { coord := (0, 0), color := g.turn }
      let (e', g1) ← g.tryPlay dbg (.play 0 0)
      let g' ← g.play dbg (.play 0 0)
      .ok (g0, e, b, e', g')) (fun r => r.2.1 = none ∧ r.2.2.1 = true ∧ r.2.2.2.1 = some .ko ∧
        r.1.goban.getColor (1, 0) = .ok (some .white) ∧ r.2.2.2.2.goban.getColor (1, 0) = .ok none) = true := by
    cases dbg <;> decide +kernel
  obtain ⟨r, e, hr⟩ := okAnd_iff.1 key
  obtain ⟨g0, e0, e⟩ := bind_eq_ok e
  obtain ⟨⟨er, g⟩, e1, e⟩ := bind_eq_ok e
  obtain ⟨b, e2, e⟩ := bind_eq_ok e
  obtain ⟨⟨er', g1⟩, e3, e⟩ := bind_eq_ok e
  obtain ⟨g', e4, e⟩ := bind_eq_ok e
  cases e
  simp only [decide_eq_true_eq] at hr
  obtain ⟨rfl, rfl, rfl, h1, h2⟩ := hr
  have hf : Fresh dbg 4 5 g0 := .build (b := deadNeighbour) (by decide) rfl rfl (by decide) (by decide) e0
  have hsame : g1 = g := by
    have := e3
    unfold Game.tryPlay at this
    split at this
    · cases this
    dsimp only at this
    obtain ⟨x, _, this⟩ := bind_eq_ok this
    split at this
    · cases this
    obtain ⟨x, hx, this⟩ := bind_eq_ok this
    cases x with
    | none => obtain ⟨x, _, this⟩ := bind_eq_ok this; cases this
    | some x => cases this; rfl
  subst hsame
  exact ⟨g0, g1, g', hf, e1, e2, e3, e4, h1, h2⟩

/-- Non-vacuity of `C102_refines`, `C102_total` and `C102_checks`: from the start above, with its dead white stone, White plays
(0, 1) without asking, Black is refused (0, 0) because of ko and plays (3, 3). -/
theorem C102_witness (dbg : Bool) : ∃ g0, Fresh dbg 4 5 g0 ∧ ¬ NoDead 4 g0.goban.view ∧
    Spec.ProperRun 4 g0.rule.flagIllegal.forbidden (.start g0.goban.view g0.turn)
      ([ROp.force (.play 0 1), .ask (.try_ (.play 0 0)), .ask (.try_ (.play 3 3))].map ROp.call) ∧
    okAnd (g0.acts dbg [ROp.force (.play 0 1), .ask (.try_ (.play 0 0)), .ask (.try_ (.play 3 3))]) (fun r =>
      r.1 = [none, some .ko, none]) = true := by
  have key : okAnd (deadNeighbour.buildInner dbg) (fun g0 => g0.goban.getColor (0, 1) = .ok none ∧
      g0.goban.getColor (1, 0) = .ok (some .white) ∧ g0.goban.getColor (0, 0) = .ok (some .black) ∧
      g0.goban.getColor (2, 0) = .ok (some .black) ∧ g0.goban.getColor (1, 1) = .ok (some .black) ∧
      okAnd (g0.acts dbg [ROp.force (.play 0 1), .ask (.try_ (.play 0 0)), .ask (.try_ (.play 3 3))]) (fun r =>
        r.1 = [none, some .ko, none]) = true) = true := by
    cases dbg <;> decide +kernel
  obtain ⟨g0, e0, hr⟩ := okAnd_iff.1 key
  simp only [decide_eq_true_eq] at hr
  obtain ⟨h1, h2, h3, h4, h5, h6⟩ := hr
  have hf : Fresh dbg 4 5 g0 := .build (b := deadNeighbour) (by decide) rfl rfl (by decide) (by decide) e0
  have hi := hf.spec.board.inv.1
  rw [hi.getColor_view (by decide)] at h1 h2 h3 h4 h5
  injection h1 with h1; injection h2 with h2; injection h3 with h3; injection h4 with h4; injection h5 with h5
  refine ⟨g0, hf, ?_, ⟨h1, trivial, trivial, trivial⟩, h6⟩
  intro hd
  refine walled h2 ?_ (hd (1, 0) (by decide) (by rw [h2]; simp))
  rintro ⟨a, b⟩ hr ho
  have : (a, b) = (0, 0) ∨ (a, b) = (2, 0) ∨ (a, b) = (1, 1) := by
    unfold Adj at hr
    dsimp only at hr
    simp only [Prod.mk.injEq]
    omega
  rcases this with h | h | h
  · rw [h]; exact h3
  · rw [h]; exact h4
  · rw [h]; exact h5

end Model
