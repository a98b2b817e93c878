import Verif.Props.KoBan
import Verif.Props.Simulate
import Verif.Props.Counting
import Verif.Props.FourPlies
import Verif.Props.Lockstep
/-!
# The positions in which play-outs and simulations stop: C129
-/

namespace Model
open Spec (OnBoard Adj Linked HasLiberty NoDead place SameOn Pos Suicide State)

variable {dbg : Bool} {n : Dim} {m : Nat} {g g0 g1 g2 : Game}

/-- The player to move has nothing left to play but own eyes: `try_play` refuses every other point of the board. -/
def Game.Settled (dbg : Bool) (n : Dim) (g : Game) : Prop := ∀ p, OnBoard n p → ¬ Spec.Eye n g.goban.view g.turn p →
  ∃ e, g.tryPlay dbg (.play p.1 p.2) = .ok (some e, g)

theorem Game.Settled.no_candidate (h : g.Settled dbg n) (p : Coord) : ¬ g.Candidate dbg n p := by
  rintro ⟨hp, ⟨_, e1⟩, h3⟩
  obtain ⟨_, e2⟩ := h p hp h3
  rw [e1] at e2; cases e2

/-- **C129**: below the limit of the group table a player has nothing left to play but own eyes exactly if there is no accepted play that
does not fill an eye of theirs. -/
theorem C129_settled (h : Reach dbg n m g) (hm : m < 65535) : g.Settled dbg n ↔ ∀ p, ¬ g.Candidate dbg n p := by
  refine ⟨fun h p => h.no_candidate p, fun hc p hp he => ?_⟩
  obtain ⟨⟨e, g'⟩, e1⟩ := (tryPlay_room (dbg := dbg) h.inv h.histories (x := p.1) (y := p.2) hp).2.resolve_right (fun e => by
    have := ((tryPlay_room (dbg := dbg) h.inv h.histories (x := p.1) (y := p.2) hp).1.1 e).1.1
    have := h.full this; omega)
  cases e with
  | none => exact absurd ⟨hp, ⟨g', e1⟩, he⟩ (hc p)
  | some e => cases C13_refused_unchanged e1; exact ⟨e, e1⟩

theorem candidate_none {o : Option EndGame} {s : State} (hs : Sim dbg n m o g s) (hps : s.passes ≤ 1)
    (hno : g.Settled dbg n) {p : Coord} (hp : OnBoard n p) (he : s.pos p = none) :
    (∀ q, Adj p q → OnBoard n q → s.pos q = some s.turn) ∨
    (g.tryPlay dbg (.play p.1 p.2) = .ok (some .suicide, g) ∧ Suicide n s.pos p s.turn) ∨
    (g.tryPlay dbg (.play p.1 p.2) = .ok (some .ko, g) ∧
      ((g.rule.flagIllegal.ko = true ∧ Spec.KoSeen n s p) ∨ g.rule.flagIllegal.superko = true)) := by
  have heye : Spec.Eye n s.pos s.turn p → ∀ q, Adj p q → OnBoard n q → s.pos q = some s.turn := fun h => h.2.1
  by_cases hey : Spec.Eye n g.goban.view g.turn p
  · left
    rw [hs.turn] at hey
    intro q ha hq
    rw [← hs.pos q hq]
    exact hey.2.1 q ha hq
  · obtain ⟨e, e1⟩ := hno p hp hey
    have h1 : toAnswer (some e) = Spec.answerSeen n g.rule.flagIllegal.forbidden s (.play p) :=
      (hs.tryPlay_answer (dbg := dbg) (.play p.1 p.2) hp (by omega)).of_ok e1
    unfold Spec.answerSeen at h1
    dsimp only at h1
    rw [if_neg (by omega), if_neg (by simp [he])] at h1
    by_cases c1 : g.rule.flagIllegal.forbidden.suicide = true ∧ Suicide n s.pos p s.turn
    · rw [if_pos c1] at h1
      right; left
      cases e <;> cases h1
      exact ⟨e1, c1.2⟩
    rw [if_neg c1] at h1
    by_cases c2 : g.rule.flagIllegal.forbidden.ko = true ∧ Spec.KoSeen n s p
    · rw [if_pos c2] at h1
      right; right
      cases e <;> cases h1
      exact ⟨e1, Or.inl c2⟩
    rw [if_neg c2] at h1
    by_cases c3 : g.rule.flagIllegal.forbidden.fillEye = true ∧ Spec.Eye n s.pos s.turn p
    · exact Or.inl (heye c3.2)
    rw [if_neg c3] at h1
    by_cases c4 : g.rule.flagIllegal.forbidden.superko = true ∧ Spec.SuperKoSeen n (!g.rule.flagIllegal.forbidden.suicide) s p
    · rw [if_pos c4] at h1
      right; right
      cases e <;> cases h1
      exact ⟨e1, Or.inr c4.1⟩
    rw [if_neg c4] at h1
    cases e <;> cases h1

theorem ko_cause {o : Option EndGame} {s : State} (hs : Sim dbg n m o g s) (hps : s.passes ≤ 2) {p : Coord} (hp : OnBoard n p) {g' : Game}
    (e : g.tryPlay dbg (.play p.1 p.2) = .ok (some .ko, g')) : Spec.KoSeen n s p ∨ g.rule.flagIllegal.superko = true := by
  have h1 : toAnswer (some .ko) = Spec.answerSeen n g.rule.flagIllegal.forbidden s (.play p) :=
    (hs.tryPlay_answer (dbg := dbg) (.play p.1 p.2) hp hps).of_ok e
  unfold Spec.answerSeen at h1
  dsimp only at h1
  by_cases c2 : Spec.KoSeen n s p
  · exact Or.inl c2
  by_cases c4 : g.rule.flagIllegal.superko = true
  · exact Or.inr c4
  have c4' : ¬ g.rule.flagIllegal.forbidden.superko = true := c4
  simp only [c2, c4', and_false, if_false] at h1
  split at h1
  · cases h1
  · split at h1
    · cases h1
    · split at h1
      · cases h1
      · split at h1
        · cases h1
        · split at h1
          · rename_i h2; exact absurd h2.1 c4'
          · cases h1

/-- A stone on `p` cannot be suicide for both players, unless `p` has no neighbours. -/
theorem suicide_both {pos : Pos} {p q : Coord} {c : Color} (hd : NoDead n pos) (hp : OnBoard n p) (he : pos p = none) (ha : Adj p q)
    (hq : OnBoard n q) (h1 : Suicide n pos p c) (h2 : Suicide n pos p c.opp) : False := by
  have k1 := fun h => (suicide_local (c := c) hd hp he).2 h h1
  have k2 := fun h => (suicide_local (c := c.opp) hd hp he).2 h h2
  cases hv : pos q with
  | none => exact k1 (Or.inl ⟨q, ha, hq, hv⟩)
  | some d =>
    have hcc : c.opp.opp = c := by cases c <;> rfl
    by_cases hdc : d = c
    · subst hdc
      by_cases hl : ∀ r, LibAt n pos q r → r = p
      · exact k2 (Or.inr (Or.inr ⟨q, ha, hq, by rw [hv, hcc], hl⟩))
      · have : ∃ r, LibAt n pos q r ∧ r ≠ p := Classical.byContradiction fun h' => hl fun r hr => Classical.byContradiction fun h3 => h' ⟨r, hr, h3⟩
        obtain ⟨r, hr, hrp⟩ := this
        exact k1 (Or.inr (Or.inl ⟨q, r, ha, hq, hv, hr, hrp⟩))
    · have hdo : d = c.opp := by revert hdc; cases d <;> cases c <;> simp [Color.opp]
      subst hdo
      by_cases hl : ∀ r, LibAt n pos q r → r = p
      · exact k1 (Or.inr (Or.inr ⟨q, ha, hq, hv, hl⟩))
      · have : ∃ r, LibAt n pos q r ∧ r ≠ p := Classical.byContradiction fun h' => hl fun r hr => Classical.byContradiction fun h3 => h' ⟨r, hr, h3⟩
        obtain ⟨r, hr, hrp⟩ := this
        exact k2 (Or.inr (Or.inl ⟨q, r, ha, hq, hv, hr, hrp⟩))

/-- **C129**. Two players pass one after the other, neither having anything left to play but own eyes, however long the game. Then every
empty point has only stones of one colour around it, except where `try_play` answered one of them `Ko`; without super-ko it is the first,
and there is at most one such point. -/
theorem C129_stop (h : Legal dbg n m g0) (h0 : g0.Settled dbg n)
    (e0 : g0.tryPlay dbg .pass = .ok (none, g1)) (hps : g1.passes ≠ 2) (h1 : g1.Settled dbg n) :
    (∀ p, OnBoard n p → g1.goban.getColor p = .ok none →
      (∃ c, ∀ q, Adj p q → OnBoard n q → g1.goban.getColor q = .ok (some c)) ∨
      g0.tryPlay dbg (.play p.1 p.2) = .ok (some .ko, g0) ∨ g1.tryPlay dbg (.play p.1 p.2) = .ok (some .ko, g1)) ∧
    (g0.rule.flagIllegal.superko = false →
      (∀ p, OnBoard n p → g1.tryPlay dbg (.play p.1 p.2) ≠ .ok (some .ko, g1)) ∧
      ∀ p q, OnBoard n p → OnBoard n q → g0.tryPlay dbg (.play p.1 p.2) = .ok (some .ko, g0) →
        g0.tryPlay dbg (.play q.1 q.2) = .ok (some .ko, g0) → p = q) := by
  obtain ⟨o, s, m', hm', hps2, hs⟩ := h.sim
  have hpl := C13_accepted_is_play e0
  have hp2 : g0.passes < 2 := by
    refine Classical.byContradiction fun h' => ?_
    rw [(C16_pass (dbg := dbg)).2 (by omega)] at hpl; cases hpl
  obtain ⟨gx, ex, t1, t2, t3, _⟩ := (C16_pass (dbg := dbg) (g := g0)).1 hp2
  rw [hpl] at ex; cases ex
  obtain ⟨hrule, _, hok⟩ := (hs.tryPlay_any .pass trivial hps2).of_ok e0
  obtain ⟨_, _, m1, hm1, hs1⟩ := hok rfl
  have hp0 := hs.passes
  have hp1 := hs1.passes
  have hq1 : (Spec.apply n g0.rule.flagIllegal.forbidden s .pass).passes = s.passes + 1 := rfl
  have hq1' : (Spec.apply n g0.rule.flagIllegal.forbidden s Move.pass.call).passes = s.passes + 1 := rfl
  have ht : (Spec.apply n g0.rule.flagIllegal.forbidden s .pass).turn = s.turn.opp := rfl
  constructor
  · intro p hp he
    have he1 := (getColor_none hs1.inv hp).1 he
    rw [hs1.pos p hp] at he1
    have col : ∀ q c, OnBoard n q → s.pos q = some c → g1.goban.getColor q = .ok (some c) := by
      intro q c hq hv
      rw [hs1.inv.getColor_view hq, hs1.pos q hq]
      exact congrArg _ hv
    rcases candidate_none hs (by omega) h0 hp he1 with a | ⟨_, a⟩ | ⟨a, _⟩
    · exact Or.inl ⟨_, fun q h1 h2 => col q _ h2 (a q h1 h2)⟩
    · rcases candidate_none hs1 (by omega) h1 hp he1 with b | ⟨_, b⟩ | ⟨b, _⟩
      · exact Or.inl ⟨_, fun q h1 h2 => col q _ h2 (b q h1 h2)⟩
      · left
        refine ⟨.black, fun q h1 h2 => ?_⟩
        exact absurd (suicide_both hs.noDead hp he1 h1 h2 a b) id
      · exact Or.inr (Or.inr b)
    · exact Or.inr (Or.inl a)
  · intro hsk
    constructor
    · intro p hp e
      rcases ko_cause hs1 (by omega) hp e with a | a
      · obtain ⟨⟨b, hb, _⟩, _⟩ := a
        cases hb
      · rw [hrule, hsk] at a; cases a
    · intro p q hp hq ep eq
      have := C114_refused h hsk (x := p.1) (y := p.2) (x' := q.1) (y' := q.2) hp hq ep eq
      exact this

/-- `k` moves from `g`, each in a game that is not over: a stone `try_play` accepts that does not fill an eye of its player, or a pass
if every point but own eyes is refused. -/
inductive Sensible (dbg : Bool) (n : Dim) (g : Game) : Nat → Game → Prop
  | start : Sensible dbg n g 0 g
  | stone {k : Nat} {g1 g2 : Game} {p : Coord} : Sensible dbg n g k g1 → g1.isOver = false → g1.Candidate dbg n p →
      g1.tryPlay dbg (.play p.1 p.2) = .ok (none, g2) → Sensible dbg n g (k + 1) g2
  | pass {k : Nat} {g1 g2 : Game} : Sensible dbg n g k g1 → g1.isOver = false → g1.Settled dbg n →
      g1.tryPlay dbg .pass = .ok (none, g2) → Sensible dbg n g (k + 1) g2

theorem Sensible.cons {k : Nat} {g' : Game} (h0 : Sensible dbg n g 1 g1) (h : Sensible dbg n g1 k g') : Sensible dbg n g (k + 1) g' := by
  induction h with
  | start => exact h0
  | stone _ a b c ih => exact .stone ih a b c
  | pass _ a b c ih => exact .pass ih a b c

theorem Sensible.legal {k : Nat} {g' : Game} (h : Legal dbg n m g) (hs : Sensible dbg n g k g') : Legal dbg n (m + k) g' := by
  induction hs with
  | start => exact h
  | stone _ _ b c ih => exact .tryPlay ih (mv := .play _ _) b.1 c
  | pass _ _ _ c ih => exact .tryPlay ih (mv := .pass) trivial c

theorem stone_not_over {p : Coord} (ho : g.isOver = false) (e : g.tryPlay dbg (.play p.1 p.2) = .ok (none, g1)) :
    g1.isOver = false ∧ g1.passes = 0 ∧ g1.rule = g.rule := by
  have e := C13_accepted_is_play e
  have h0 := (C16_play e).2
  rw [play_eq] at e
  obtain ⟨l, _, e⟩ := bind_eq_ok e
  obtain ⟨s, _, e⟩ := bind_eq_ok e
  cases e
  refine ⟨?_, h0, rfl⟩
  unfold Game.isOver at ho ⊢
  split at ho
  · cases ho
  · rename_i h1
    rw [if_neg h1]
    rfl

theorem pass_more (e : g.tryPlay dbg .pass = .ok (none, g1)) : g.passes < 2 ∧ g1.passes = g.passes + 1 ∧ g1.goban = g.goban ∧
    g1.outcome = g.outcome := by
  have hpl := C13_accepted_is_play e
  have hp2 : g.passes < 2 := by
    refine Classical.byContradiction fun h' => ?_
    rw [(C16_pass (dbg := dbg)).2 (by omega)] at hpl; cases hpl
  obtain ⟨gx, ex, t1, t2, t3, _, _, t4⟩ := (C16_pass (dbg := dbg) (g := g)).1 hp2
  rw [hpl] at ex; cases ex
  exact ⟨hp2, t2, t3, t4⟩

theorem Sensible.rule {k : Nat} {g' : Game} (h : Legal dbg n m g) (hs : Sensible dbg n g k g') : g'.rule = g.rule := by
  induction hs with
  | start => rfl
  | stone _ ho _ c ih => rw [(stone_not_over ho c).2.2, ih]
  | pass h1 _ _ c ih =>
    obtain ⟨o, s, m', hm', hps2, hs⟩ := (h1.legal h).sim
    rw [((hs.tryPlay_any .pass trivial hps2).of_ok c).1, ih]

/-- **C129**. A game of at least two such moves that has ended: the last two were passes, `g1` and `g'` being the games they led to; every
empty point has only stones of one colour around it, or `Ko` was the answer there to one of the two players; without super-ko there
is at most one empty point of the second kind, and it is the player who passed first who was answered. -/
theorem C129_sensible {k : Nat} {g' : Game} (h : Legal dbg n m g) (hs : Sensible dbg n g k g') (hk : 2 ≤ k)
    (ho : g'.isOver = true) : ∃ g0 g1, Sensible dbg n g (k - 2) g0 ∧ g0.tryPlay dbg .pass = .ok (none, g1) ∧
      g1.tryPlay dbg .pass = .ok (none, g') ∧
      (∀ p, OnBoard n p → g'.goban.getColor p = .ok none →
        (∃ c, ∀ q, Adj p q → OnBoard n q → g'.goban.getColor q = .ok (some c)) ∨
        g0.tryPlay dbg (.play p.1 p.2) = .ok (some .ko, g0) ∨ g1.tryPlay dbg (.play p.1 p.2) = .ok (some .ko, g1)) ∧
      (g.rule.flagIllegal.superko = false →
        (∀ p, OnBoard n p → g1.tryPlay dbg (.play p.1 p.2) ≠ .ok (some .ko, g1)) ∧
        ∀ p q, OnBoard n p → OnBoard n q → g0.tryPlay dbg (.play p.1 p.2) = .ok (some .ko, g0) →
          g0.tryPlay dbg (.play q.1 q.2) = .ok (some .ko, g0) → p = q) := by
  cases hs with
  | start => omega
  | stone _ a _ c => rw [(stone_not_over a c).1] at ho; cases ho
  | @pass k g1 _ hs a b c =>
    obtain ⟨q1, q2, q3, q4⟩ := pass_more c
    have hp : g1.passes = 1 := by
      unfold Game.isOver at ho a
      rw [q4] at ho
      split at a
      · cases a
      · rename_i h1
        rw [if_neg h1] at ho
        simp only [decide_eq_true_eq] at ho
        omega
    cases hs with
    | start => omega
    | stone _ a2 _ c2 => rw [(stone_not_over a2 c2).2.1] at hp; cases hp
    | @pass k g0 _ hs a2 b2 c2 =>
      have := C129_stop (hs.legal h) b2 c2 (by omega) b
      rw [hs.rule h] at this
      exact ⟨g0, g1, hs, c2, c, by rw [q3]; exact this⟩

theorem Accepted.before {k : Nat} {mv : Move} {g' : Game} (h : Accepted dbg n g1 k g') (hmv : mv.OnBoard n)
    (e : g.tryPlay dbg mv = .ok (none, g1)) : Accepted dbg n g (k + 1) g' := by
  induction h with
  | start => exact .move .start hmv e
  | move _ a b ih => exact .move ih a b

theorem pass_accepted (ho : g.isOver = false) : ∃ g2, g.tryPlay dbg .pass = .ok (.none, g2) := by
  have hps := not_over_passes ho
  unfold Game.tryPlay Game.play
  rw [if_neg (by omega), decide_eq_true hps]
  exact ⟨_, rfl⟩

theorem fastPlayRandom_exact (h : Reach dbg n m g) : ∀ (v : List Coord), (∀ p ∈ v, OnBoard n p) →
    ∀ {mv : Move}, g.fastPlayRandom dbg v = .ok mv →
      (∃ p ∈ v, mv = .play p.1 p.2 ∧ g.checkPoint dbg p = .ok none ∧ ¬ Spec.Eye n g.goban.view g.turn p) ∨
      (mv = .pass ∧ ∀ p ∈ v, ¬ Spec.Eye n g.goban.view g.turn p → ∃ e, g.checkPoint dbg p = .ok (some e))
  | [], _, mv, e => by cases e; exact Or.inr ⟨rfl, by simp⟩
  | c :: v, hv, mv, e => by
    have hc := hv c (by simp)
    unfold Game.fastPlayRandom at e
    obtain ⟨r, e1, e⟩ := bind_eq_ok e
    obtain ⟨b, e2, hb⟩ := checkEye_ok (dbg := dbg) (c := g.turn) h.inv hc
    have ih := fun e => fastPlayRandom_exact h v (fun p hp => hv p (by simp [hp])) (mv := mv) e
    have skip : (¬ Spec.Eye n g.goban.view g.turn c → ∃ e, g.checkPoint dbg c = .ok (some e)) → g.fastPlayRandom dbg v = .ok mv →
        (∃ p ∈ c :: v, mv = .play p.1 p.2 ∧ g.checkPoint dbg p = .ok none ∧ ¬ Spec.Eye n g.goban.view g.turn p) ∨
        (mv = .pass ∧ ∀ p ∈ c :: v, ¬ Spec.Eye n g.goban.view g.turn p → ∃ e, g.checkPoint dbg p = .ok (some e)) := by
      intro hs e
      rcases ih e with ⟨p, h1, h2⟩ | ⟨h1, h2⟩
      · exact Or.inl ⟨p, by simp [h1], h2⟩
      · refine Or.inr ⟨h1, fun p hp => ?_⟩
        rcases List.mem_cons.1 hp with rfl | hp
        · exact hs
        · exact h2 p hp
    cases r with
    | some r => exact skip (fun _ => ⟨r, e1⟩) e
    | none =>
      simp only [Option.isNone_none, if_true] at e
      rw [e2, ok_bind] at e
      cases b with
      | true => exact skip (fun h' => absurd (hb.1 rfl) h') e
      | false =>
        cases e
        refine Or.inl ⟨c, by simp, rfl, e1, fun h' => ?_⟩
        have := hb.2 h'
        cases this

theorem settled_of (h : Reach dbg n m g) (hps : g.passes ≠ 2)
    (hc : ∀ p, OnBoard n p → g.goban.getColor p = .ok none → ¬ Spec.Eye n g.goban.view g.turn p →
      ∃ e, g.checkPointBy dbg p g.rule.flagIllegal = .ok (some e)) : g.Settled dbg n := by
  intro p hp hey
  by_cases he : g.goban.getColor p = .ok none
  · obtain ⟨e, e1⟩ := hc p hp he hey
    exact ⟨e, by rw [tryPlay_empty h hps hp he, e1]; rfl⟩
  · obtain ⟨x, y⟩ := p
    exact ⟨.pointNotEmpty, by rw [h.tryPlay_play hp, if_neg hps, if_pos (fun h' => he ((getColor_none h.inv hp).2 h'))]⟩

/-- **C46**, however long the game: whatever move the policy of `playout` returns, for every shuffle, it is a point that is no own eye and
that `try_play` accepts, or at which it panics because the group table is full; or a pass, and then `try_play` refuses every point but
own eyes. -/
theorem C46_any_length {n : Nat} (h : Reach dbg n m g) (hps : g.passes ≠ 2) {ps v : List Coord} (e : g.pseudoLegals = .ok ps) (hv : v.Perm ps)
    {mv : Move} (er : g.fastPlayRandom dbg v = .ok mv) :
    (∃ p, mv = .play p.1 p.2 ∧ OnBoard n p ∧ ¬ Spec.Eye n g.goban.view g.turn p ∧
      (g.Accepts dbg p ∨ (g.Full ∧ g.tryPlay dbg (.play p.1 p.2) = panic))) ∨
    (mv = .pass ∧ g.Settled dbg n) := by
  obtain ⟨hm1, hm2⟩ := pseudoLegals_mem h e
  rcases fastPlayRandom_exact h v (fun p hp => (hm1 p (hv.mem_iff.1 hp)).1) er with ⟨p, h1, h2, h3, h4⟩ | ⟨h1, h2⟩
  · have hp := (hm1 p (hv.mem_iff.1 h1)).1
    refine Or.inl ⟨p, h2, hp, h4, ?_⟩
    rcases tryPlay_room (dbg := dbg) h.inv h.histories (x := p.1) (y := p.2) hp with ⟨r1, ⟨⟨a, g'⟩, r2⟩ | r2⟩
    · left
      refine ⟨g', ?_⟩
      rw [r2]
      rw [tryPlay_empty h hps hp (checkPointBy_empty h3), show g.checkPointBy dbg p g.rule.flagIllegal = .ok none from h3, ok_bind] at r2
      obtain ⟨_, _, r2⟩ := bind_eq_ok r2
      cases r2; rfl
    · exact Or.inr ⟨(r1.1 r2).1.1, r2⟩
  · refine Or.inr ⟨h1, settled_of h hps fun p hp he hey => h2 p (hv.mem_iff.2 (hm2 p hp hp.1 he)) hey⟩

theorem legalsMoves_settled {n : Nat} (h : Reach dbg n m g) (hps : g.passes ≠ 2) {l : List Move} (e : g.legalsMoves dbg = .ok l)
    (hl : .pass ∈ l) : g.Settled dbg n := by
  unfold Game.legalsMoves at e
  obtain ⟨ps, e1, e⟩ := bind_eq_ok e
  have h1 := (C91_legals_by h { g.rule.flagIllegal with fillEye := true }).of_ok e1
  dsimp only at e
  by_cases h0 : (ps.map (fun c => Move.play c.1 c.2)).isEmpty = true
  · have h0 : ps = [] := by simpa using h0
    subst h0
    refine settled_of h hps fun p hp he hey => ?_
    obtain ⟨k1, k2⟩ := legals_panics h { g.rule.flagIllegal with fillEye := true }
    rcases (checkPointBy_stuck (dbg := dbg) h.inv h.histories hp { g.rule.flagIllegal with fillEye := true }).1 with ⟨a, ea⟩ | ea
    · cases a with
      | none =>
        have : p ∈ ([] : List Coord) := by
          rw [h1, List.mem_filter, mem_scan h.inv.good, decide_eq_true_eq]
          exact ⟨⟨hp, hp.1⟩, he, ea⟩
        cases this
      | some a =>
        refine ⟨a, ?_⟩
        rw [← ea]
        obtain ⟨bs, e1⟩ := checkSuicide_total (dbg := dbg) (c := g.turn) h.inv hp
        obtain ⟨bk, e2, _⟩ := checkKo_ok (dbg := dbg) (c := g.turn) h.inv hp ((getColor_none h.inv hp).1 he)
        obtain ⟨be, e3, hy⟩ := checkEye_ok (dbg := dbg) (c := g.turn) h.inv hp
        have : be = false := by
          cases be with
          | false => rfl
          | true => exact absurd (hy.1 rfl) hey
        subst this
        rw [checkPointBy_eq he e1 e2 e3, checkPointBy_eq he e1 e2 e3]
        simp
    · rw [k1.2 ⟨p, hp, hp.1, he, ea⟩] at e1
      cases e1
  · rw [if_neg h0] at e
    cases e
    obtain ⟨_, _, h⟩ := List.mem_map.1 hl
    cases h

/-- **C129**, simulations and play-outs are such games. -/
theorem C129_simulation {n : Nat} {best : Nat → Game → List Move → Move} (hbest : FromList best) : ∀ (fuel : Nat) {m : Nat} {g g' : Game},
    Legal dbg n m g → g.simulate dbg best fuel = .ok g' → g'.isOver = true ∧
      ∃ k, Accepted dbg n g k g' ∧ Sensible dbg n g k g'
  | 0, m, g, g', h, e => by
    unfold Game.simulate at e
    split at e
    · cases e; exact ⟨by assumption, 0, .start, .start⟩
    · cases e
  | fuel + 1, m, g, g', h, e => by
    unfold Game.simulate at e
    by_cases ho : g.isOver = true
    · rw [if_pos ho] at e
      cases e; exact ⟨ho, 0, .start, .start⟩
    rw [if_neg ho] at e
    have ho : g.isOver = false := by simpa using ho
    obtain ⟨l, e1, e⟩ := bind_eq_ok e
    obtain ⟨g1, e2, e⟩ := bind_eq_ok e
    obtain ⟨h1, h2, _⟩ := ((C67_round hbest h ho fuel).of_ok e1).of_ok e2
    obtain ⟨h3, k, h4, h5⟩ := C129_simulation hbest fuel h2 e
    have hne : l ≠ [] := by
      rintro rfl
      rw [C46_empty_over e1] at ho
      cases ho
    have hmv := legalsMoves_mem h ho e1 (hbest fuel g l hne)
    have hb : (best fuel g l).OnBoard n := by
      rcases hmv with ⟨h1, _⟩ | ⟨x, y, h1, h2, _⟩
      · rw [h1]; trivial
      · rw [h1]; exact h2
    refine ⟨h3, k + 1, h4.before hb h1, Sensible.cons ?_ h5⟩
    obtain ⟨m', hm', hr⟩ := h.reach
    have hin := hbest fuel g l hne
    rcases hmv with ⟨h1', _⟩ | ⟨x, y, h1', hO, _, _, hey⟩
    · rw [h1'] at h1 hin
      exact .pass .start ho (legalsMoves_settled hr (by have := not_over_passes ho; omega) e1 hin) h1
    · rw [h1'] at h1
      refine .stone (p := (x, y)) .start ho ⟨hO, ⟨g1, h1⟩, fun h' => ?_⟩ h1
      obtain ⟨b, e2, hb⟩ := checkEye_ok (dbg := dbg) (c := g.turn) hr.inv hO
      rw [hey] at e2; cases e2
      cases hb.2 h'

/-- **C129**, the games of `playout`. -/
theorem C129_playout {n : Nat} {sh : Nat → List Coord → List Coord} (hsh : ∀ k l, (sh k l).Perm l) : ∀ (fuel : Nat) {m : Nat} {g g' : Game},
    Legal dbg n m g → g.playout dbg sh fuel = .ok g' → g'.isOver = true ∧
      ∃ k, Accepted dbg n g k g' ∧ Sensible dbg n g k g'
  | 0, m, g, g', h, e => by
    unfold Game.playout at e
    split at e
    · cases e; exact ⟨by assumption, 0, .start, .start⟩
    · cases e
  | fuel + 1, m, g, g', h, e => by
    unfold Game.playout at e
    by_cases ho : g.isOver = true
    · rw [if_pos ho] at e
      cases e; exact ⟨ho, 0, .start, .start⟩
    rw [if_neg ho] at e
    have ho : g.isOver = false := by simpa using ho
    obtain ⟨ps, e1, e⟩ := bind_eq_ok e
    obtain ⟨g1, e2, e⟩ := bind_eq_ok e
    obtain ⟨⟨mv, hmv, h1⟩, h2, _⟩ := (playoutRound_safe h ho e1 (hsh fuel ps)).of_ok e2
    obtain ⟨h3, k, h4, h5⟩ := C129_playout hsh fuel h2 e
    refine ⟨h3, k + 1, h4.before hmv h1, Sensible.cons ?_ h5⟩
    obtain ⟨m', hm', hr⟩ := h.reach
    have hps := not_over_passes ho
    unfold Game.playoutRound at e2
    obtain ⟨mv', e3, e2⟩ := bind_eq_ok e2
    obtain ⟨hm1, hm2⟩ := pseudoLegals_mem hr e1
    rcases fastPlayRandom_exact hr _ (fun p hp => (hm1 p ((hsh fuel ps).mem_iff.1 hp)).1) e3 with ⟨p, hp, rfl, hck, hey⟩ | ⟨rfl, hc⟩
    · have hp := (hm1 p ((hsh fuel ps).mem_iff.1 hp)).1
      have e4 : g.tryPlay dbg (.play p.1 p.2) = .ok (none, g1) := by
        rw [tryPlay_empty hr (by omega) hp (checkPointBy_empty hck), show g.checkPointBy dbg p g.rule.flagIllegal = .ok none from hck, ok_bind, e2]
        rfl
      exact .stone .start ho ⟨hp, ⟨_, e4⟩, hey⟩ e4
    · obtain ⟨g2, e4⟩ := pass_accepted (dbg := dbg) ho
      rw [C13_accepted_is_play e4] at e2; cases e2
      exact .pass .start ho (settled_of hr (by omega) fun p hp he hey => hc p ((hsh fuel ps).mem_iff.2 (hm2 p hp hp.1 he)) hey) e4

/-- A game with no pass pending needs two moves to end. -/
theorem Sensible.two {k : Nat} {g' : Game} (hs : Sensible dbg n g k g') (h0 : g.isOver = false) (hp : g.passes = 0) (ho : g'.isOver = true) :
    2 ≤ k := by
  cases hs with
  | start => rw [h0] at ho; cases ho
  | stone _ a _ c => rw [(stone_not_over a c).1] at ho; cases ho
  | pass hs a b c =>
    cases hs with
    | start =>
      obtain ⟨q1, q2, q3, q4⟩ := pass_more c
      unfold Game.isOver at ho a
      rw [q4] at ho
      split at a
      · cases a
      · rename_i h1
        rw [if_neg h1] at ho
        simp only [decide_eq_true_eq] at ho
        omega
    | stone => omega
    | pass => omega

/-- An empty point with a neighbour, and stones of one colour only around it, is territory. -/
theorem territory_of_one {pos : Pos} {p q : Coord} {c : Color} (hp : OnBoard n p) (he : pos p = none) (ha : Adj p q) (hq : OnBoard n q)
    (h : ∀ q, Adj p q → OnBoard n q → pos q = some c) : Spec.Territory n pos c p := by
  have alone : ∀ r, Linked n pos p r → r = p := by
    intro r hr
    induction hr with
    | refl => rfl
    | step h1 h2 h3 h4 ih =>
      subst ih
      rw [h _ h2 h3] at h4
      rw [he] at h4
      cases h4
  refine ⟨hp, he, ⟨p, q, .refl _, ha, hq, h q ha hq⟩, ?_⟩
  rintro ⟨r, t, h1, h2, h3, h4⟩
  have := alone r h1
  subst this
  rw [h t h2 h3] at h4
  cases c <;> cases h4

theorem length_le_one {α : Type} {l : List α} (hd : l.Nodup) (h : ∀ a ∈ l, ∀ b ∈ l, a = b) : l.length ≤ 1 := by
  match l, hd, h with
  | [], _, _ => simp
  | [_], _, _ => simp
  | a :: b :: l, hd, h =>
    have := h a (by simp) b (by simp)
    subst this
    simp at hd

/-- **C129**, the score: without super-ko, counting stones and territory shares out the whole board but at most one point. -/
theorem C129_score {n k : Nat} {g' : Game} {f : ScoreRules} (h : Legal dbg n m g) (hs : Sensible dbg n g k g') (hk : 2 ≤ k)
    (ho : g'.isOver = true) (hsk : g.rule.flagIllegal.superko = false) (hf : f.stones = true) (hp : f.prisonners = false)
    (hko : f.komi = false) {ord : List Point → List Point} (hord : ∀ l, (ord l).Perm l) :
    ∃ b w : Nat, g'.calculateScoreBy dbg ord f = .ok (.fin b, .fin w) ∧ b + w ≤ n * n ∧ n * n ≤ b + w + 1 := by
  obtain ⟨m', _, hr⟩ := (hs.legal h).reach
  obtain ⟨b, w, e, hbw⟩ := C60_area_total (dbg := dbg) hr hf hp hko hord
  refine ⟨b, w, e, by omega, ?_⟩
  by_cases hn : 2 ≤ n
  swap
  · have : n = 0 ∨ n = 1 := by omega
    rcases this with rfl | rfl <;> omega
  obtain ⟨g0, g1, _, _, _, h1, h2⟩ := C129_sensible h hs hk ho
  obtain ⟨h2, h3⟩ := h2 hsk
  suffices neutral n g'.goban.view ≤ 1 by omega
  classical
  have one : ∀ p, OnBoard n p → g'.goban.view p = none → ¬ Spec.Territory n g'.goban.view .black p → ¬ Spec.Territory n g'.goban.view .white p →
      g0.tryPlay dbg (.play p.1 p.2) = .ok (some .ko, g0) := by
    intro p hp he hb hw
    rcases h1 p hp ((getColor_none hr.inv hp).2 he) with ⟨c, hc⟩ | a | a
    · exfalso
      have hc' : ∀ q, Adj p q → OnBoard n q → g'.goban.view q = some c := fun q ha hq => by
        have := hc q ha hq
        rw [hr.inv.getColor_view hq] at this
        exact Except.ok.inj this
      have : ∃ q, Adj p q ∧ OnBoard n q := by
        have h1 : p.1 < n := hp.1
        have h2 : p.2 < n := hp.2
        by_cases h0 : p.1 = 0
        · exact ⟨(p.1 + 1, p.2), Or.inr ⟨rfl, Or.inl rfl⟩, show p.1 + 1 < n by omega, h2⟩
        · exact ⟨(p.1 - 1, p.2), Or.inr ⟨rfl, Or.inr (show p.1 - 1 + 1 = p.1 by omega)⟩, show p.1 - 1 < n by omega, h2⟩
      obtain ⟨q, ha, hq⟩ := this
      have := territory_of_one hp he ha hq hc'
      cases c
      · exact hb this
      · exact hw this
    · exact a
    · exact absurd a (h2 p hp)
  unfold neutral
  refine length_le_one ((points_nodup _).filter _) ?_
  intro p hp q hq
  rw [List.mem_filter, mem_points, decide_eq_true_eq] at hp hq
  exact h3 p q hp.1 hq.1 (one p hp.1 hp.2.1 hp.2.2.1 hp.2.2.2) (one q hq.1 hq.2.1 hq.2.2.1 hq.2.2.2)

/-- Non-vacuity: a play-out and a simulation on the empty 3 × 3 board without super-ko, of 15 stones; at the end there are
seven stones, all Black's, so that the whole board is Black's. -/
example : okAnd (do
    let g0 ← Game.new (.custom 3 3) JAPANESE
    let g1 ← g0.playout true (fun _ l => l) 30
    let g2 ← g0.simulate true (fun _ _ l => l.headD .pass) 30
    .ok (g0, g1, g2)) (fun r => !r.1.isOver && decide (r.1.passes = 0) && r.2.1.isOver && r.2.2.isOver &&
      r.2.1.goban.numberOfStones == (7, 0) && r.2.2.goban.numberOfStones == (7, 0)) = true := by
  decide +kernel

end Model
