import Verif.Proofs.Refine
/-!
# The answers of `try_play` under every rule
-/

namespace Model
open Spec (OnBoard Adj Linked HasLiberty NoDead place SameOn Pos Suicide State Forbidden Call Answer)

variable {dbg : Bool} {n : Dim} {m : Nat} {o : Option EndGame} {g : Game} {s : State}

theorem onlyLiberty_iff {pos : Pos} {q p : Coord} : Spec.OnlyLiberty n pos q p ↔ ∀ r, LibAt n pos q r → r = p := by
  constructor
  · rintro h r ⟨h1, h2, h3⟩; exact h r h1 h2 h3
  · intro h r h1 h2 h3; exact h r ⟨h1, h2, h3⟩

theorem Sim.checkKo_seen (h : Sim dbg n m o g s) {p : Coord} (hp : OnBoard n p) (he : s.pos p = none) :
    ∃ b, g.checkKo dbg { coord := p, color := g.turn } = .ok b ∧ (b = true ↔ Spec.KoSeen n s p) := by
  obtain ⟨b, e, hb⟩ := checkKo_ok (dbg := dbg) (c := g.turn) h.inv hp (by rw [h.pos p hp]; exact he)
  refine ⟨b, e, ?_⟩
  rw [hb, h.ko]
  unfold Spec.KoSeen
  have h1 : (∃ b, s.before = some b ∧ OnBoard n p ∧ ∀ r, OnBoard n r → ((b r = some s.turn ∧ s.pos r = none) ↔ r = p)) ↔
      ∃ b, s.before = some b ∧ ∀ r, OnBoard n r → ((b r = some s.turn ∧ s.pos r = none) ↔ r = p) :=
    ⟨fun ⟨b, a, _, c⟩ => ⟨b, a, c⟩, fun ⟨b, a, c⟩ => ⟨b, a, hp, c⟩⟩
  rw [h1]
  apply and_congr_right
  intro _
  constructor
  · intro hall t hadj htb hne hat u hu
    rw [onlyLiberty_iff] at hat
    exact hall t hadj htb (by rw [h.pos t htb]; exact hne) (fun r hr => hat r ((libAt_congr h.pos htb).1 hr)) u
      (linked_congr (SameOn.symm h.pos) htb hu)
  · intro hall t hadj htb hne hat u hu
    refine hall t hadj htb (by rw [← h.pos t htb]; exact hne) ?_ u (linked_congr h.pos htb hu)
    rw [onlyLiberty_iff]
    exact fun r hr => hat r ((libAt_congr h.pos htb).2 hr)

open Classical in
/-- The refusal of a play on an empty point, under every rule. -/
noncomputable def refusalSeen (n : Dim) (r : IllegalRules) (s : State) (p : Coord) : Option PlayError :=
  if r.suicide = true ∧ Suicide n s.pos p s.turn then some .suicide
  else if r.ko = true ∧ Spec.KoSeen n s p then some .ko
  else if r.fillEye = true ∧ Spec.Eye n s.pos s.turn p then some .fillEye
  else if r.superko = true ∧ Spec.SuperKoSeen n (!r.suicide) s p then some .ko
  else none

open Classical in
theorem Sim.checkPointBy_seen (h : Sim dbg n m o g s) {p : Coord} (hp : OnBoard n p) (he : s.pos p = none) (r : IllegalRules) :
    Safe g.Full (g.checkPointBy dbg p r) (fun e => e = refusalSeen n r s p) := by
  obtain ⟨bs, e1, hs⟩ := h.checkSuicide hp he
  obtain ⟨bk, e2, hk⟩ := h.checkKo_seen hp he
  obtain ⟨be, e3, hy⟩ := h.checkEye hp
  have e0 : g.goban.getColor p = .ok none := by rw [h.inv.getColor_view hp, h.pos p hp, he]
  rw [checkPointBy_eq e0 e1 e2 e3]
  unfold refusalSeen
  rw [← hs, ← hy, ← hk]
  by_cases h1 : r.suicide = true ∧ bs = true
  · rw [if_pos (by simp [h1]), if_pos h1]; exact Safe.ok rfl
  · rw [if_neg (by simpa using h1), if_neg h1]
    by_cases h2 : r.ko = true ∧ bk = true
    · rw [if_pos (by simp [h2]), if_pos h2]; exact Safe.ok rfl
    rw [if_neg (by simpa using h2), if_neg h2]
    by_cases h3 : r.fillEye = true ∧ be = true
    · rw [if_pos (by simp [h3]), if_pos h3]; exact Safe.ok rfl
    rw [if_neg (by simpa using h3), if_neg h3]
    by_cases h4 : r.superko = true
    · rw [if_pos h4]
      apply Safe.bind (h.checkSuperKo hp he (!r.suicide))
      intro b hb
      refine Safe.ok ?_
      rw [← hb]
      simp only [h4, true_and]
    · rw [if_neg h4, if_neg (fun h' => h4 h'.1)]; exact Safe.ok rfl

open Classical in
theorem answerSeen_play {r : IllegalRules} {p : Coord} : Spec.answerSeen n r.forbidden s (.play p) =
    if s.passes = 2 then .paused else if s.pos p ≠ none then .occupied else toAnswer (refusalSeen n r s p) := by
  unfold Spec.answerSeen refusalSeen
  dsimp only
  congr 1
  congr 1
  by_cases h1 : r.suicide = true ∧ Suicide n s.pos p s.turn
  · rw [if_pos h1, if_pos (show r.forbidden.suicide = true ∧ _ from h1)]; rfl
  rw [if_neg h1, if_neg (show ¬ (r.forbidden.suicide = true ∧ _) from h1)]
  by_cases h2 : r.ko = true ∧ Spec.KoSeen n s p
  · rw [if_pos h2, if_pos (show r.forbidden.ko = true ∧ _ from h2)]; rfl
  rw [if_neg h2, if_neg (show ¬ (r.forbidden.ko = true ∧ _) from h2)]
  by_cases h3 : r.fillEye = true ∧ Spec.Eye n s.pos s.turn p
  · rw [if_pos h3, if_pos (show r.forbidden.fillEye = true ∧ _ from h3)]; rfl
  rw [if_neg h3, if_neg (show ¬ (r.forbidden.fillEye = true ∧ _) from h3)]
  by_cases h4 : r.superko = true ∧ Spec.SuperKoSeen n (!r.suicide) s p
  · rw [if_pos h4, if_pos (show r.forbidden.superko = true ∧ Spec.SuperKoSeen n (!r.forbidden.suicide) s p from h4)]; rfl
  rw [if_neg h4, if_neg (show ¬ (r.forbidden.superko = true ∧ Spec.SuperKoSeen n (!r.forbidden.suicide) s p) from h4)]; rfl

/-- The answer of `try_play`, under every rule. -/
theorem Sim.tryPlay_answer (h : Sim dbg n m o g s) (mv : Move) (hmv : mv.OnBoard n) (hp2 : s.passes ≤ 2) :
    Safe g.Full (g.tryPlay dbg mv) (fun r => toAnswer r.1 = Spec.answerSeen n g.rule.flagIllegal.forbidden s mv.call) := by
  cases mv with
  | pass =>
    have ha : Spec.answerSeen n g.rule.flagIllegal.forbidden s Move.pass.call = if s.passes = 2 then .paused else .ok := rfl
    unfold Game.tryPlay
    rw [h.passes, ha]
    by_cases hps : s.passes = 2
    · rw [if_pos hps, if_pos hps]; exact Safe.ok rfl
    · rw [if_neg hps, if_neg hps]
      obtain ⟨g', e, _⟩ := h.pass (by omega)
      dsimp only
      rw [e, ok_bind]
      exact Safe.ok rfl
  | resign c =>
    have ha : Spec.answerSeen n g.rule.flagIllegal.forbidden s (Move.resign c).call = if s.passes = 2 then .paused else .ok := rfl
    unfold Game.tryPlay
    rw [h.passes, ha]
    by_cases hps : s.passes = 2
    · rw [if_pos hps, if_pos hps]; exact Safe.ok rfl
    · rw [if_neg hps, if_neg hps]; exact Safe.ok rfl
  | play x y =>
    have hp : OnBoard n (x, y) := hmv
    rw [h.tryPlay_play hp, show (Move.play x y).call = .play (x, y) from rfl, answerSeen_play]
    by_cases hps : s.passes = 2
    · rw [if_pos hps, if_pos hps]; exact Safe.ok rfl
    rw [if_neg hps, if_neg hps]
    by_cases he : s.pos (x, y) ≠ none
    · rw [if_pos he, if_pos he]; exact Safe.ok rfl
    rw [if_neg he, if_neg he]
    have he := Classical.not_not.1 he
    apply Safe.bind (h.checkPointBy_seen hp he _)
    intro e hf
    cases e with
    | some e => rw [← hf]; exact Safe.ok rfl
    | none =>
      rw [← hf]
      have hns : g.rule.flagIllegal.suicide = true → ¬ Suicide n s.pos (x, y) s.turn := by
        intro hs h'
        unfold refusalSeen at hf
        rw [if_pos ⟨hs, h'⟩] at hf
        cases hf
      apply Safe.bind (h.play hp he hns)
      intro g' _
      exact Safe.ok rfl

theorem stepSeen_ok {r : Forbidden} {c : Call} (h : Spec.answerSeen n r s c = .ok) :
    Spec.stepSeen n r s c = (.ok, Spec.apply n r s c) := by
  unfold Spec.stepSeen; rw [if_pos h]

theorem stepSeen_refused {r : Forbidden} {c : Call} (h : Spec.answerSeen n r s c ≠ .ok) :
    Spec.stepSeen n r s c = (Spec.answerSeen n r s c, s) := by
  unfold Spec.stepSeen; rw [if_neg h]

/-- One call, under every rule. -/
theorem Sim.call_seen (h : Sim dbg n m o g s) (c : GOp) (hc : c.OnBoard n) (hp2 : s.passes ≤ 2) :
    Safe g.Full (g.call dbg c) (fun r => toAnswer r.1 = (Spec.stepSeen n g.rule.flagIllegal.forbidden s c.call).1 ∧
      (∃ m' ≤ m + 1, Sim dbg n m' o r.2 (Spec.stepSeen n g.rule.flagIllegal.forbidden s c.call).2) ∧
      r.2.rule.flagIllegal = g.rule.flagIllegal ∧
      (Spec.stepSeen n g.rule.flagIllegal.forbidden s c.call).2.passes ≤ 2) := by
  have hans : Safe g.Full (g.call dbg c) (fun r => toAnswer r.1 = Spec.answerSeen n g.rule.flagIllegal.forbidden s c.call) := by
    cases c with
    | try_ mv => exact h.tryPlay_answer mv hc hp2
    | resume => exact Safe.ok rfl
    | setKomi k => exact Safe.ok rfl
  rcases h.call_any c hc hp2 with ⟨⟨e, g'⟩, e1, h1, h2, h3⟩ | hpan
  · refine Or.inl ⟨(e, g'), e1, ?_⟩
    have ha := hans.of_ok e1
    dsimp only at ha h1 h2 h3
    cases e with
    | none =>
      obtain ⟨h4, h5⟩ := h3 rfl
      rw [stepSeen_ok ha.symm]
      exact ⟨rfl, h5, h1, h4⟩
    | some e =>
      have hne : Spec.answerSeen n g.rule.flagIllegal.forbidden s c.call ≠ .ok := by
        rw [← ha]; intro h'; rw [toAnswer_ok] at h'; cases h'
      rw [stepSeen_refused hne]
      have : g' = g := h2 (by simp)
      subst this
      exact ⟨ha, ⟨m, by omega, h⟩, rfl, hp2⟩
  · exact Or.inr hpan

/-- A sequence of calls that returns is a run of the abstract game, under every rule. -/
theorem Sim.run_seen : ∀ (cs : List GOp) {m : Nat} {g : Game} {s : State} {es : List (Option PlayError)} {g' : Game},
    Sim dbg n m o g s → s.passes ≤ 2 → (∀ c ∈ cs, c.OnBoard n) → g.run dbg cs = .ok (es, g') →
    es.map toAnswer = (Spec.runSeen n g.rule.flagIllegal.forbidden s (cs.map GOp.call)).1 ∧
      (∃ m' ≤ m + cs.length, Sim dbg n m' o g' (Spec.runSeen n g.rule.flagIllegal.forbidden s (cs.map GOp.call)).2) ∧
      g'.rule.flagIllegal = g.rule.flagIllegal ∧
      (Spec.runSeen n g.rule.flagIllegal.forbidden s (cs.map GOp.call)).2.passes ≤ 2
  | [], m, g, s, es, g', h, hp, _, e => by
    cases e
    exact ⟨rfl, ⟨m, by simp, h⟩, rfl, hp⟩
  | c :: cs, m, g, s, es, g', h, hp, hon, e => by
    obtain ⟨r, es', e1, e2, rfl⟩ := run_cons e
    obtain ⟨h3, ⟨m1, h2, h4⟩, h5, h6⟩ := (h.call_seen c (hon c (by simp)) hp).of_ok e1
    obtain ⟨r3, ⟨m', r2, r4⟩, r5, r6⟩ := Sim.run_seen cs h4 h6 (fun c hc => hon c (by simp [hc])) e2
    rw [h5] at r3 r4 r5 r6
    refine ⟨?_, ⟨m', ?_, r4⟩, r5, r6⟩
    · rw [List.map_cons, List.map_cons, h3, r3]; rfl
    · rw [List.length_cons]; omega

end Model
