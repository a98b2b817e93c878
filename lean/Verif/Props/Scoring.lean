import Verif.Props.Flow
/-!
# Komi and scoring flags do not influence play (C108)

Two games that differ at most in the komi and in the scoring flags answer every call in the same way. No hypothesis on the games:
every board size, every value of the type, both builds, errors included.
-/

namespace Model
variable {dbg : Bool}

/-- The two games differ at most in their rules, and these agree on whether suicide is forbidden. -/
structure SameBoard (g h : Game) : Prop where
  goban : h.goban = g.goban
  passes : h.passes = g.passes
  prisoners : h.prisoners = g.prisoners
  outcome : h.outcome = g.outcome
  turn : h.turn = g.turn
  suicide : h.rule.flagIllegal.suicide = g.rule.flagIllegal.suicide
  handicap : h.handicap = g.handicap
  history : h.history = g.history
  koPoint : h.koPoint = g.koPoint

/-- The two games differ at most in the komi and in the scoring flags of their rules. -/
structure SamePlay (g h : Game) : Prop extends SameBoard g h where
  illegal : h.rule.flagIllegal = g.rule.flagIllegal

/-- The same call, komi aside. -/
inductive SameCall : GOp → GOp → Prop
  | try_ (m : Move) : SameCall (.try_ m) (.try_ m)
  | resume : SameCall .resume .resume
  | setKomi (k k' : F32) : SameCall (.setKomi k) (.setKomi k')

/-- Two outcomes of a call: both fail in the same way, or both return the same answer and games that differ at most in the
scoring part of their rules. -/
inductive SameOutcome {α : Type} : M (α × Game) → M (α × Game) → Prop
  | ok {a : α} {g h : Game} : SamePlay g h → SameOutcome (.ok (a, g)) (.ok (a, h))
  | error (f : Fault) : SameOutcome (.error f) (.error f)

theorem SameBoard.eq {g h : Game} (s : SameBoard g h) : h = { g with rule := h.rule } := by
  obtain ⟨a, b, c, d, e, r, x, y, z⟩ := h
  obtain ⟨h1, h2, h3, h4, h5, h6, h7, h8, h9⟩ := s
  simp only at h1 h2 h3 h4 h5 h6 h7 h8 h9
  subst h1 h2 h3 h4 h5 h7 h8 h9
  rfl

instance (g h : Game) : Decidable (SamePlay g h) :=
  decidable_of_iff (h = { g with rule := h.rule } ∧ h.rule.flagIllegal = g.rule.flagIllegal)
    ⟨fun e => by rw [e.1]; exact ⟨⟨rfl, rfl, rfl, rfl, rfl, congrArg _ e.2, rfl, rfl, rfl⟩, e.2⟩, fun s => ⟨s.toSameBoard.eq, s.illegal⟩⟩

theorem SamePlay.of (g : Game) (k : F32) (f : ScoreRules) :
    SamePlay g { g with rule := { komi := k, flagIllegal := g.rule.flagIllegal, flagScore := f } } :=
  ⟨⟨rfl, rfl, rfl, rfl, rfl, rfl, rfl, rfl, rfl⟩, rfl⟩

theorem helperCheckEye_same {g h : Game} (s : SameBoard g h) (p : Coord) (c : Color) :
    h.helperCheckEye dbg p c = g.helperCheckEye dbg p c := by
  rw [s.eq]; rfl

theorem eyeCorners_same {g h : Game} (s : SameBoard g h) (c : Color) : ∀ l, h.eyeCorners dbg c l = g.eyeCorners dbg c l
  | [] => rfl
  | p :: l => by
    unfold Game.eyeCorners
    rw [s.goban, helperCheckEye_same s, eyeCorners_same s c l]

/-- **C108**: what a point is answered, under any set of forbidden things. -/
theorem C108_check_point_by {g h : Game} (s : SameBoard g h) (p : Coord) (r : IllegalRules) :
    h.checkPointBy dbg p r = g.checkPointBy dbg p r := by
  have e1 (st : Stone) : h.checkEye dbg st = g.checkEye dbg st := by
    unfold Game.checkEye
    simp only [s.goban, helperCheckEye_same s, eyeCorners_same s]
  have e2 (st : Stone) : h.checkKo dbg st = g.checkKo dbg st := by
    unfold Game.checkKo
    simp only [s.goban, s.koPoint]
  have e3 (st : Stone) : h.checkSuperKo dbg st = g.checkSuperKo dbg st := by
    unfold Game.checkSuperKo Game.willCapture Game.playForVerification
    simp only [s.goban, s.history, s.turn, s.suicide, e2]
  have e4 (st : Stone) : h.checkSuicide dbg st = g.checkSuicide dbg st := by
    unfold Game.checkSuicide
    simp only [s.goban]
  unfold Game.checkPointBy
  simp only [s.goban, s.turn, e1, e2, e3, e4]

/-- **C108**: what a point is answered under the rule of the game. -/
theorem C108_check_point {g h : Game} (s : SamePlay g h) (p : Coord) : h.checkPoint dbg p = g.checkPoint dbg p := by
  unfold Game.checkPoint
  rw [s.illegal, C108_check_point_by s.toSameBoard]

/-- **C108**: the lists of legal points. -/
theorem C108_legals {g h : Game} (s : SamePlay g h) : h.legals dbg = g.legals dbg ∧ (∀ r, h.legalsBy dbg r = g.legalsBy dbg r) ∧
    h.pseudoLegals = g.pseudoLegals ∧ h.pseudoLegalsVec dbg = g.pseudoLegalsVec dbg ∧ h.isOver = g.isOver := by
  have e : ∀ r, h.legalsBy dbg r = g.legalsBy dbg r := by
    intro r
    unfold Game.legalsBy Game.pseudoLegals
    simp only [s.goban, C108_check_point_by s.toSameBoard]
  refine ⟨?_, e, ?_, ?_, ?_⟩
  · unfold Game.legals; rw [s.illegal, e]
  · unfold Game.pseudoLegals; rw [s.goban]
  · unfold Game.pseudoLegalsVec; rw [s.goban]
  · unfold Game.isOver; rw [s.outcome, s.passes]

/-- **C108**: `play` looks only at whether the rule forbids suicide, and leaves both rules alone. -/
theorem C108_play {g h : Game} (s : SameBoard g h) (m : Move) :
    (∃ a b, g.play dbg m = .ok a ∧ h.play dbg m = .ok b ∧ SameBoard a b ∧ a.rule = g.rule ∧ b.rule = h.rule) ∨
    ∃ f, g.play dbg m = .error f ∧ h.play dbg m = .error f := by
  cases m with
  | resign c => exact .inl ⟨_, _, rfl, rfl, ⟨s.1, s.2, s.3, rfl, s.5, s.6, s.7, s.8, s.9⟩, rfl, rfl⟩
  | pass =>
    unfold Game.play
    dsimp only
    rw [s.passes]
    cases e : assertM (decide (g.passes < 2)) with
    | error f => exact .inr ⟨f, rfl, rfl⟩
    | ok u => exact .inl ⟨_, _, rfl, rfl, ⟨s.1, rfl, s.3, s.4, by simp [s.5], s.6, s.7, s.8, rfl⟩, rfl, rfl⟩
  | play x y =>
    unfold Game.play Game.removeCapturedStones
    dsimp only
    rw [s.history, s.goban, s.turn, s.suicide]
    cases historyInsert g.history g.goban with
    | error f => exact .inr ⟨f, rfl, rfl⟩
    | ok l =>
      simp only [ok_bind]
      cases g.goban.pushWthFeedback dbg (x, y) g.turn with
      | error f => exact .inr ⟨f, rfl, rfl⟩
      | ok fb =>
        simp only [ok_bind]
        cases fb.goban.removeCapturedStonesAux dbg (!g.rule.flagIllegal.suicide) fb.dead fb.added with
        | error f => exact .inr ⟨f, rfl, rfl⟩
        | ok c =>
          refine .inl ⟨_, _, rfl, rfl, ⟨rfl, rfl, ?_, s.4, ?_, s.6, s.7, rfl, rfl⟩, rfl, rfl⟩
          · simp [s.prisoners]
          · simp

/-- **C108**: one `try_play`; moreover it leaves the rules of both games alone. -/
theorem C108_try_play {g h : Game} (s : SamePlay g h) (m : Move) :
    SameOutcome (g.tryPlay dbg m) (h.tryPlay dbg m) ∧
    (∀ r, g.tryPlay dbg m = .ok r → r.2.rule = g.rule) := by
  have key : (∃ a b o, g.tryPlay dbg m = .ok (o, a) ∧ h.tryPlay dbg m = .ok (o, b) ∧ SamePlay a b ∧ a.rule = g.rule) ∨
      ∃ f, g.tryPlay dbg m = .error f ∧ h.tryPlay dbg m = .error f := by
    unfold Game.tryPlay
    rw [s.passes]
    by_cases hp : g.passes = 2
    · simp only [hp, if_true]
      exact .inl ⟨_, _, _, rfl, rfl, s, rfl⟩
    · simp only [hp, if_false]
      have go (m : Move) : (∃ a b o, (do let g' ← g.play dbg m; (.ok (none, g') : M (Option PlayError × Game))) = .ok (o, a) ∧
          (do let g' ← h.play dbg m; (.ok (none, g') : M (Option PlayError × Game))) = .ok (o, b) ∧ SamePlay a b ∧ a.rule = g.rule) ∨
          ∃ f, (do let g' ← g.play dbg m; (.ok (none, g') : M (Option PlayError × Game))) = .error f ∧
            (do let g' ← h.play dbg m; (.ok (none, g') : M (Option PlayError × Game))) = .error f := by
        rcases C108_play (dbg := dbg) s.toSameBoard m with ⟨a, b, e1, e2, s', h1, h2⟩ | ⟨f, e1, e2⟩
        · rw [e1, e2]; exact .inl ⟨a, b, none, rfl, rfl, ⟨s', by rw [h1, h2, s.illegal]⟩, h1⟩
        · rw [e1, e2]; exact .inr ⟨f, rfl, rfl⟩
      cases m with
      | pass => exact go .pass
      | resign c => exact go (.resign c)
      | play x y =>
        dsimp only
        rw [s.goban, C108_check_point s]
        cases g.goban.getColor (x, y) with
        | error f => exact .inr ⟨f, rfl, rfl⟩
        | ok o =>
          simp only [ok_bind]
          split
          · exact .inl ⟨_, _, _, rfl, rfl, s, rfl⟩
          · cases g.checkPoint dbg (x, y) with
            | error f => exact .inr ⟨f, rfl, rfl⟩
            | ok e =>
              simp only [ok_bind]
              cases e with
              | some e => exact .inl ⟨_, _, _, rfl, rfl, s, rfl⟩
              | none => exact go (.play x y)
  rcases key with ⟨a, b, o, e1, e2, s', h1⟩ | ⟨f, e1, e2⟩
  · rw [e1, e2]
    refine ⟨.ok s', ?_⟩
    rintro r ⟨⟩; exact h1
  · rw [e1, e2]
    exact ⟨.error f, by rintro r ⟨⟩⟩

/-- **C108**: sequences of calls, in which even the arguments of `set_komi` may differ. -/
theorem C108_run : ∀ {cs cs' : List GOp}, List.Forall₂ SameCall cs cs' → ∀ {g h : Game}, SamePlay g h →
    SameOutcome (g.run dbg cs) (h.run dbg cs')
  | _, _, .nil, g, h, s => .ok s
  | _, _, .cons (a := c) (b := c') hc hcs, g, h, s => by
    have step : SameOutcome (g.call dbg c) (h.call dbg c') := by
      cases hc with
      | try_ m => exact (C108_try_play s m).1
      | resume => exact .ok ⟨⟨s.1.1, rfl, s.1.3, s.1.4, s.1.5, s.1.6, s.1.7, s.1.8, s.1.9⟩, s.2⟩
      | setKomi k k' => exact .ok ⟨⟨s.1.1, s.1.2, s.1.3, s.1.4, s.1.5, s.1.6, s.1.7, s.1.8, s.1.9⟩, s.2⟩
    unfold Game.run
    revert step
    generalize g.call dbg c = x
    generalize h.call dbg c' = y
    intro step
    cases step with
    | error f => exact .error f
    | @ok o a b s' =>
      simp only [ok_bind]
      have ih := C108_run hcs s'
      revert ih
      generalize a.run dbg _ = x
      generalize b.run dbg _ = y
      intro ih
      cases ih with
      | error f => exact .error f
      | ok s'' => exact .ok s''

/-- `r'` forbids no more than `r`. -/
structure IllegalRules.Weaker (r' r : IllegalRules) : Prop where
  ko : r'.ko = true → r.ko = true
  superko : r'.superko = true → r.superko = true
  suicide : r'.suicide = true → r.suicide = true
  fillEye : r'.fillEye = true → r.fillEye = true

/-- **C108**: a `try_play` accepted under a rule is accepted under a rule that forbids no more and agrees on suicide, with the same
effect. -/
theorem C108_try_play_weaker {g h : Game} (s : SameBoard g h) (hr : h.rule.flagIllegal.Weaker g.rule.flagIllegal) {m : Move} {a : Game}
    (e : g.tryPlay dbg m = .ok (none, a)) : ∃ b, h.tryPlay dbg m = .ok (none, b) ∧ SameBoard a b ∧ a.rule = g.rule ∧ b.rule = h.rule := by
  unfold Game.tryPlay at e ⊢
  rw [s.passes]
  split at e
  · cases e
  rename_i hp
  rw [if_neg hp]
  have go (m : Move) (e : (do let g' ← g.play dbg m; (.ok (none, g') : M (Option PlayError × Game))) = .ok (none, a)) :
      ∃ b, (do let g' ← h.play dbg m; (.ok (none, g') : M (Option PlayError × Game))) = .ok (none, b) ∧ SameBoard a b ∧ a.rule = g.rule ∧
        b.rule = h.rule := by
    obtain ⟨a', e1, e⟩ := bind_eq_ok e
    cases e
    rcases C108_play (dbg := dbg) s m with ⟨a'', b, e2, e3, s', h1, h2⟩ | ⟨f, e2, _⟩
    · rw [e1] at e2; cases e2
      exact ⟨b, by rw [e3]; rfl, s', h1, h2⟩
    · rw [e1] at e2; cases e2
  cases m with
  | pass => exact go .pass e
  | resign c => exact go (.resign c) e
  | play x y =>
    dsimp only at e ⊢
    rw [s.goban]
    obtain ⟨o, e0, e⟩ := bind_eq_ok e
    rw [e0, ok_bind]
    split at e
    · cases e
    rename_i ho
    rw [if_neg ho]
    obtain ⟨c, e1, e⟩ := bind_eq_ok e
    cases c with
    | some c => cases e
    | none =>
      have e2 : h.checkPoint dbg (x, y) = .ok none := by
        unfold Game.checkPoint at e1 ⊢
        rw [C108_check_point_by s]
        exact C17_check_mono hr.ko hr.superko hr.suicide hr.fillEye e1
      rw [e2, ok_bind]
      exact go (.play x y) e

/-- **C108**: a sequence of calls that is accepted throughout is accepted throughout under a rule that forbids no more and agrees on
suicide, with the same effect. -/
theorem C108_run_weaker : ∀ {cs : List GOp} {g h a : Game} {es : List (Option PlayError)}, SameBoard g h →
    h.rule.flagIllegal.Weaker g.rule.flagIllegal → g.run dbg cs = .ok (es, a) → (∀ e ∈ es, e = none) →
    ∃ b, h.run dbg cs = .ok (es, b) ∧ SameBoard a b
  | [], g, h, a, es, s, _, e, _ => by cases e; exact ⟨h, rfl, s⟩
  | c :: cs, g, h, a, es, s, hr, e, he => by
    unfold Game.run at e ⊢
    obtain ⟨⟨o, g'⟩, e1, e⟩ := bind_eq_ok e
    obtain ⟨⟨es', a'⟩, e2, e⟩ := bind_eq_ok e
    cases e
    have ho : o = none := he _ List.mem_cons_self
    subst ho
    obtain ⟨h', e3, s', h1, h2⟩ : ∃ h', h.call dbg c = .ok (none, h') ∧ SameBoard g' h' ∧ g'.rule.flagIllegal = g.rule.flagIllegal ∧
        h'.rule.flagIllegal = h.rule.flagIllegal := by
      cases c with
      | try_ m =>
        obtain ⟨b, e3, s', h1, h2⟩ := C108_try_play_weaker s hr e1
        exact ⟨b, e3, s', by rw [h1], by rw [h2]⟩
      | resume =>
        cases e1
        exact ⟨_, rfl, ⟨s.1, rfl, s.3, s.4, s.5, s.6, s.7, s.8, s.9⟩, rfl, rfl⟩
      | setKomi k =>
        cases e1
        exact ⟨_, rfl, ⟨s.1, s.2, s.3, s.4, s.5, s.6, s.7, s.8, s.9⟩, rfl, rfl⟩
    obtain ⟨b, e4, s''⟩ := C108_run_weaker s' (by rw [h1, h2]; exact hr) e2 (fun e hm => he e (List.mem_cons_of_mem _ hm))
    exact ⟨b, by rw [e3, ok_bind, e4]; rfl, s''⟩

/-- Non-vacuity of C108: the same four moves on a 3×3 board under the Japanese rule, and with a komi of 100 and area scoring, the
komi being set to different values on the way: the answers are the same (one of them a refusal), the rules at the end are not. -/
theorem C108_example : ∃ (g h : Game) (es : List (Option PlayError)) (a b : Game),
    Game.new (.custom 3 3) JAPANESE = .ok g ∧
    Game.new (.custom 3 3) { JAPANESE with komi := .fin 100, flagScore := { stones := true, komi := true, prisonners := false } } = .ok h ∧
    SamePlay g h ∧
    g.run true [.try_ (.play 1 1), .try_ (.play 1 1), .setKomi (.fin 3), .try_ (.play 0 0)] = .ok (es, a) ∧
    h.run true [.try_ (.play 1 1), .try_ (.play 1 1), .setKomi (.fin 7), .try_ (.play 0 0)] = .ok (es, b) ∧
    es = [none, some .pointNotEmpty, none, none] ∧ SamePlay a b ∧ a.rule ≠ b.rule := by
  have key : okAnd (do
      let g ← Game.new (.custom 3 3) JAPANESE
      let h ← Game.new (.custom 3 3) { JAPANESE with komi := .fin 100, flagScore := { stones := true, komi := true, prisonners := false } }
      let r ← g.run true [.try_ (.play 1 1), .try_ (.play 1 1), .setKomi (.fin 3), .try_ (.play 0 0)]
      let r' ← h.run true [.try_ (.play 1 1), .try_ (.play 1 1), .setKomi (.fin 7), .try_ (.play 0 0)]
      .ok (g, h, r, r')) (fun x => decide (SamePlay x.1 x.2.1 ∧ x.2.2.1.1 = x.2.2.2.1 ∧ x.2.2.1.1 = [none, some .pointNotEmpty, none, none] ∧
        SamePlay x.2.2.1.2 x.2.2.2.2 ∧ x.2.2.1.2.rule ≠ x.2.2.2.2.rule)) = true := by decide +kernel
  obtain ⟨x, h1, h2⟩ := okAnd_iff.mp key
  obtain ⟨g, e1, h1⟩ := bind_eq_ok h1
  obtain ⟨h, e2, h1⟩ := bind_eq_ok h1
  obtain ⟨r, e3, h1⟩ := bind_eq_ok h1
  obtain ⟨r', e4, h1⟩ := bind_eq_ok h1
  cases h1
  obtain ⟨s, h3, h4, s', h5⟩ := of_decide_eq_true h2
  dsimp only at s h3 h4 s' h5
  exact ⟨g, h, r.1, r.2, r'.2, e1, e2, s, e3, by rw [h3]; exact e4, h4, s', h5⟩

end Model
