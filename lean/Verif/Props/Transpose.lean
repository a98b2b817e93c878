import Verif.Props.Race
import Verif.Props.Same
/-!
# Without super-ko the past does not matter; transpositions: C116
-/

namespace Model
open Spec (OnBoard Adj Linked HasLiberty NoDead place SameOn Pos Suicide State)

variable {dbg dbg' : Bool} {n : Dim} {m m' : Nat} {g g' : Game}

/-- As `SameGame`, but the histories may differ. -/
structure ShowsSame (g g' : Game) : Prop where
  goban : g.goban.beq g'.goban = .ok true
  turn : g.turn = g'.turn
  passes : g.passes = g'.passes
  prisoners : g.prisoners = g'.prisoners
  outcome : g.outcome = g'.outcome
  illegal : g.rule.flagIllegal = g'.rule.flagIllegal
  koPoint : g.koPoint = g'.koPoint

/-- The state with another past. -/
def withPast (s : State) (P : List Pos) (B : Option Pos) : State := { s with played := P, before := B }

theorem Sim.koSeen_iff {o : Option EndGame} {s : State} (h : Sim dbg n m o g s) {p : Coord} (hp : OnBoard n p) :
    Spec.KoSeen n s p ↔ g.koPoint = some p ∧
      ∀ q, Adj p q → OnBoard n q → s.pos q ≠ none → Spec.OnlyLiberty n s.pos q p → ∀ t, Linked n s.pos q t → t = q := by
  unfold Spec.KoSeen
  rw [h.ko]
  refine and_congr_left fun _ => ?_
  exact ⟨fun ⟨b, h1, h2⟩ => ⟨b, h1, hp, h2⟩, fun ⟨b, h1, _, h2⟩ => ⟨b, h1, h2⟩⟩

/-- The other game is in the same state up to the past. -/
theorem Sim.transferPast {o o' : Option EndGame} {s s' : State} (h : Sim dbg n m o g s) (h' : Sim dbg' n m' o' g' s')
    (hs : ShowsSame g g') : Sim dbg' n m' o g' (withPast s s'.played s'.before) := by
  obtain ⟨r, e2, hr⟩ := beq_ok h.inv h'.inv
  rw [hs.goban] at e2
  have hv : SameOn n g.goban.view g'.goban.view := hr.1 (Except.ok.inj e2).symm
  have hpos : SameOn n s'.pos s.pos := SameOn.trans (SameOn.symm h'.pos) (SameOn.trans (SameOn.symm hv) h.pos)
  have hturn : s'.turn = s.turn := by rw [← h.turn, ← h'.turn, hs.turn]
  refine ⟨h'.board, h'.hist, SameOn.trans h'.pos hpos, h.noDead, hs.turn ▸ h.turn, hs.passes ▸ h.passes,
    hs.prisoners ▸ h.prisoners, hs.outcome ▸ h.outcome, ?_, ?_⟩
  · intro q
    rw [h'.ko q]
    show (∃ b, s'.before = some b ∧ OnBoard n q ∧ ∀ r, OnBoard n r → ((b r = some s'.turn ∧ s'.pos r = none) ↔ r = q)) ↔
      ∃ b, s'.before = some b ∧ OnBoard n q ∧ ∀ r, OnBoard n r → ((b r = some s.turn ∧ s.pos r = none) ↔ r = q)
    rw [hturn]
    constructor
    · rintro ⟨b, h1, h2, h3⟩; exact ⟨b, h1, h2, fun r hr => by rw [← hpos r hr]; exact h3 r hr⟩
    · rintro ⟨b, h1, h2, h3⟩; exact ⟨b, h1, h2, fun r hr => by rw [hpos r hr]; exact h3 r hr⟩
  · intro b hb
    obtain ⟨h1, h2, mv, h3, h4, h5, h6⟩ := h'.bef b hb
    rw [hturn] at h5 h6
    exact ⟨h1, h2, mv, h3, h4, SameOn.trans (SameOn.symm hpos) h5, h6⟩

theorem answer_past {r : IllegalRules} (hr : r.superko = false) {o : Option EndGame} {s : State} {P : List Pos} {B : Option Pos}
    (h : Sim dbg n m o g s) (h' : Sim dbg' n m' o g' (withPast s P B)) (hk : g.koPoint = g'.koPoint) (c : GOp) (hc : c.OnBoard n) :
    Spec.answerSeen n r.forbidden (withPast s P B) c.call = Spec.answerSeen n r.forbidden s c.call := by
  cases c with
  | resume => rfl
  | setKomi k => rfl
  | try_ mv =>
    cases mv with
    | pass => rfl
    | resign c => rfl
    | play x y =>
      have hp : OnBoard n (x, y) := hc
      have hko : Spec.KoSeen n (withPast s P B) (x, y) ↔ Spec.KoSeen n s (x, y) := by
        rw [h.koSeen_iff hp, h'.koSeen_iff hp, hk]; rfl
      show Spec.answerSeen n r.forbidden (withPast s P B) (.play (x, y)) = Spec.answerSeen n r.forbidden s (.play (x, y))
      rw [answerSeen_play, answerSeen_play]
      unfold refusalSeen
      rw [hr, propext hko]
      simp only [Bool.false_eq_true, false_and]
      rfl

theorem apply_past (r : Spec.Forbidden) (s : State) (P : List Pos) (B : Option Pos) (c : Spec.Call) :
    ∃ P' B', Spec.apply n r (withPast s P B) c = withPast (Spec.apply n r s c) P' B' := by
  cases c with
  | resume => exact ⟨P, B, rfl⟩
  | komi => exact ⟨P, B, rfl⟩
  | pass => exact ⟨P, none, rfl⟩
  | resign c => exact ⟨P, B, rfl⟩
  | play p => exact ⟨P ++ [s.pos], some s.pos, rfl⟩

theorem option_ext {α : Type} {a b : Option α} (h : ∀ q, a = some q ↔ b = some q) : a = b := by
  cases a with
  | some q => exact ((h q).1 rfl).symm
  | none =>
    cases b with
    | none => rfl
    | some q => have := (h q).2 rfl; cases this

theorem call_ko {c : GOp} (hne : ∀ x y, c ≠ .try_ (.play x y)) {e e' : Option PlayError} {k k' : Game} (e1 : g.call dbg c = .ok (e, k))
    (e2 : g'.call dbg' c = .ok (e', k')) (hko : g.koPoint = g'.koPoint) (he : e = e') : k.koPoint = k'.koPoint := by
  subst he
  cases c with
  | resume => cases e1; cases e2; exact hko
  | setKomi => cases e1; cases e2; exact hko
  | try_ mv =>
    cases e with
    | some er => rw [C13_refused_unchanged e1, C13_refused_unchanged e2]; exact hko
    | none =>
      have a1 := C13_accepted_is_play e1
      have a2 := C13_accepted_is_play e2
      cases mv with
      | play x y => exact absurd rfl (hne x y)
      | resign c => cases a1; cases a2; exact hko
      | pass =>
        unfold Game.play at a1 a2
        obtain ⟨_, _, a1⟩ := bind_eq_ok a1
        obtain ⟨_, _, a2⟩ := bind_eq_ok a2
        cases a1; cases a2; rfl

theorem run_past {o : Option EndGame} : ∀ (cs : List GOp) {m m' : Nat} {g g' : Game} {s : State} {P : List Pos} {B : Option Pos}
    {es es' : List (Option PlayError)} {k k' : Game}, g.rule.flagIllegal.superko = false → g.rule.flagIllegal = g'.rule.flagIllegal →
    Sim dbg n m o g s → Sim dbg' n m' o g' (withPast s P B) → g.koPoint = g'.koPoint → s.passes ≤ 2 →
    (∀ c ∈ cs, c.OnBoard n) → g.run dbg cs = .ok (es, k) → g'.run dbg' cs = .ok (es', k') →
    es = es' ∧ ShowsSame k k'
  | [], m, m', g, g', s, P, B, es, es', k, k', hsk, hf, h, h', hko, hp2, hcs, e, e' => by
    cases e; cases e'
    refine ⟨rfl, ?_, h.turn.trans h'.turn.symm, h.passes.trans h'.passes.symm, h.prisoners.trans h'.prisoners.symm,
      h.outcome.trans h'.outcome.symm, hf, hko⟩
    obtain ⟨r, e2, hr⟩ := beq_ok h.inv h'.inv
    rw [e2, hr.2 (SameOn.trans h.pos (SameOn.symm h'.pos))]
  | c :: cs, m, m', g, g', s, P, B, es, es', k, k', hsk, hf, h, h', hko, hp2, hcs, e, e' => by
    obtain ⟨r, fs, e1, e2, rfl⟩ := run_cons e
    obtain ⟨r', fs', e1', e2', rfl⟩ := run_cons e'
    have hc := hcs c (by simp)
    obtain ⟨h3, ⟨m1, _, h4⟩, h5, h6⟩ := (h.call_seen c hc hp2).of_ok e1
    obtain ⟨h3', ⟨m1', _, h4'⟩, h5', h6'⟩ := (h'.call_seen c hc hp2).of_ok e1'
    rw [← hf] at h3' h4' h5' h6'
    have hans := answer_past hsk h h' hko c hc
    have hstep : (Spec.stepSeen n g.rule.flagIllegal.forbidden (withPast s P B) c.call).1 =
        (Spec.stepSeen n g.rule.flagIllegal.forbidden s c.call).1 := by
      unfold Spec.stepSeen
      rw [hans]
      split <;> rfl
    have hr : r.1 = r'.1 := toAnswer_inj (by rw [h3, h3', hstep])
    by_cases hok : Spec.answerSeen n g.rule.flagIllegal.forbidden s c.call = .ok
    · have hok' := hans.trans hok
      rw [stepSeen_ok hok] at h4 h6
      rw [stepSeen_ok hok'] at h4' h6'
      have hko2 : r.2.koPoint = r'.2.koPoint := by
        by_cases hpl : ∃ x y, c = .try_ (.play x y)
        · obtain ⟨x, y, rfl⟩ := hpl
          exact option_ext fun q => (h4.ko q).trans (h4'.ko q).symm
        · exact call_ko (fun x y h => hpl ⟨x, y, h⟩) e1 e1' hko hr
      obtain ⟨P', B', hap⟩ := apply_past (n := n) g.rule.flagIllegal.forbidden s P B c.call
      rw [hap] at h4'
      obtain ⟨a1, a2⟩ := run_past cs (by rw [h5]; exact hsk) (h5.trans h5'.symm) h4 h4' hko2 h6 (fun c hc => hcs c (by simp [hc])) e2 e2'
      exact ⟨by rw [hr, a1], a2⟩
    · have hok' : Spec.answerSeen n g.rule.flagIllegal.forbidden (withPast s P B) c.call ≠ .ok := by rw [hans]; exact hok
      rw [stepSeen_refused hok] at h3 h4 h6
      rw [stepSeen_refused hok'] at h4' h6'
      have hko2 : r.2.koPoint = r'.2.koPoint := by
        by_cases hpl : ∃ x y, c = .try_ (.play x y)
        · obtain ⟨x, y, rfl⟩ := hpl
          obtain ⟨er, k1⟩ := r
          obtain ⟨er', k2⟩ := r'
          dsimp only at hr
          subst hr
          cases er with
          | none => exact absurd h3.symm hok
          | some er =>
            rw [C13_refused_unchanged (mv := .play x y) e1, C13_refused_unchanged (mv := .play x y) e1']; exact hko
        · exact call_ko (fun x y h => hpl ⟨x, y, h⟩) e1 e1' hko hr
      obtain ⟨a1, a2⟩ := run_past cs (by rw [h5]; exact hsk) (h5.trans h5'.symm) h4 h4' hko2 h6 (fun c hc => hcs c (by simp [hc])) e2 e2'
      exact ⟨by rw [hr, a1], a2⟩

/-- **C116**. Without super-ko the past does not matter: games that show the same, whatever positions they went through, answer
every sequence of calls in the same way and still show the same afterwards. -/
theorem C116_past (h : Legal dbg n m g) (h' : Legal dbg' n m' g') (hsk : g.rule.flagIllegal.superko = false) (hs : ShowsSame g g')
    {cs : List GOp} (hcs : ∀ c ∈ cs, c.OnBoard n) {es es' : List (Option PlayError)} {k k' : Game} (e : g.run dbg cs = .ok (es, k))
    (e' : g'.run dbg' cs = .ok (es', k')) : es = es' ∧ ShowsSame k k' := by
  obtain ⟨o, s, m1, _, hps, hsim⟩ := h.sim
  obtain ⟨o', s', m1', _, _, hsim'⟩ := h'.sim
  exact run_past cs hsk hs.illegal hsim (hsim.transferPast hsim' hs) hs.koPoint hps hcs e e'

/-- **C116**. They have the same legal moves under every set of forbidden moves without super-ko. -/
theorem C116_legals (h : Legal dbg n m g) (h' : Legal dbg' n m' g') (hm : m < 65535) (hm' : m' < 65535) (hs : ShowsSame g g')
    {r : IllegalRules} (hsk : r.superko = false) : ∃ l, g.legalsBy dbg r = .ok l ∧ g'.legalsBy dbg' r = .ok l := by
  obtain ⟨o, s, m1, hm1, hps, hsim⟩ := h.sim
  obtain ⟨o', s', m1', hm1', _, hsim'⟩ := h'.sim
  have hsim' := hsim.transferPast hsim' hs
  obtain ⟨m2, hm2, hr⟩ := h.reach
  obtain ⟨m2', hm2', hr'⟩ := h'.reach
  obtain ⟨l, e, hl⟩ := (C91_legals_by hr r).total (by omega)
  obtain ⟨l', e', hl'⟩ := (C91_legals_by hr' r).total (by omega)
  refine ⟨l, e, ?_⟩
  rw [e', hl, hl']
  congr 1
  apply List.filter_congr
  intro p hp
  have hp := ((mem_scan hr.inv.good).1 hp).1
  rw [decide_eq_decide, hsim.inv.getColor_view hp, hsim'.inv.getColor_view hp, hsim.pos p hp, hsim'.pos p hp,
    show (withPast s s'.played s'.before).pos p = s.pos p from rfl]
  cases hsp : s.pos p with
  | some c => exact iff_of_false (fun h => by cases h.1) (fun h => by cases h.1)
  | none =>
    obtain ⟨a, ea, ha⟩ := (hsim.checkPointBy_seen hp hsp r).total (fun hf => by have := hsim.full hf; omega)
    obtain ⟨b, eb, hb⟩ := (hsim'.checkPointBy_seen hp hsp r).total (fun hf => by have := hsim'.full hf; omega)
    have hko : Spec.KoSeen n (withPast s s'.played s'.before) p ↔ Spec.KoSeen n s p := by
      rw [hsim.koSeen_iff hp, hsim'.koSeen_iff hp, hs.koPoint]; rfl
    have hab : b = a := by
      rw [ha, hb]
      unfold refusalSeen
      rw [hsk, propext hko]
      simp only [Bool.false_eq_true, false_and]
      rfl
    rw [ea, eb, hab]

/-- Games reached from `g` by accepted stones and passes; `L` are the stones put. -/
inductive Puts (dbg : Bool) (n : Dim) (g : Game) : List Stone → Game → Prop
  | start : Puts dbg n g [] g
  | stone {L g1 g2 x y} : Puts dbg n g L g1 → OnBoard n (x, y) → g1.tryPlay dbg (.play x y) = .ok (none, g2) →
      Puts dbg n g ({ coord := (x, y), color := g1.turn } :: L) g2
  | pass {L g1 g2} : Puts dbg n g L g1 → g1.tryPlay dbg .pass = .ok (none, g2) → Puts dbg n g L g2

theorem Puts.legal {L : List Stone} (hl : Puts dbg n g L g') (h : Legal dbg n m g) : ∃ m', Legal dbg n m' g' := by
  induction hl with
  | start => exact ⟨m, h⟩
  | stone _ hp e ih => obtain ⟨m', ih⟩ := ih; exact ⟨_, .tryPlay (mv := .play _ _) ih hp e⟩
  | pass _ e ih => obtain ⟨m', ih⟩ := ih; exact ⟨_, .tryPlay (mv := .pass) ih trivial e⟩

theorem Puts.mono {L : List Stone} (hl : Puts dbg n g L g') (h : Legal dbg n m g) :
    g.prisoners.1 ≤ g'.prisoners.1 ∧ g.prisoners.2 ≤ g'.prisoners.2 := by
  induction hl with
  | start => exact ⟨Nat.le_refl _, Nat.le_refl _⟩
  | stone hl hp e ih =>
    obtain ⟨m', hleg⟩ := hl.legal h
    obtain ⟨m2, _, hr⟩ := hleg.reach
    obtain ⟨h1, h2⟩ := (C11_play hr hp (accepted_stone e).1).of_ok (C13_accepted_is_play e)
    omega
  | pass hl e ih =>
    have e := C13_accepted_is_play e
    unfold Game.play at e
    obtain ⟨_, _, e⟩ := bind_eq_ok e
    cases e
    exact ih

/-- The game is as before except for the stones put, if none was taken. -/
theorem Puts.shows {L : List Stone} (hl : Puts dbg n g L g') (h : Legal dbg n m g) (hpr : g'.prisoners = g.prisoners) :
    (∀ q c, OnBoard n q → (g'.goban.view q = some c ↔ g.goban.view q = some c ∨ { coord := q, color := c } ∈ L)) ∧
      g'.outcome = g.outcome ∧ g'.rule = g.rule ∧ (L ≠ [] → g'.koPoint = none) := by
  induction hl with
  | start => exact ⟨fun q c _ => by simp, rfl, rfl, fun h => absurd rfl h⟩
  | @stone L g1 g2 x y hl hp e ih =>
    obtain ⟨m', hleg⟩ := hl.legal h
    obtain ⟨m2, _, hr⟩ := hleg.reach
    have he := (accepted_stone e).1
    have hpl := C13_accepted_is_play e
    obtain ⟨h1, h2⟩ := (C11_play hr hp he).of_ok hpl
    obtain ⟨h3, h4⟩ := hl.mono h
    rw [hpr] at h1 h2
    have hpr1 : g1.prisoners = g.prisoners := Prod.ext (by omega) (by omega)
    obtain ⟨ih1, ih2, ih3, _⟩ := ih hpr1
    have hv1 : Spec.vanished n (place g1.goban.view (x, y) g1.turn) g2.goban.view .white = 0 := by omega
    have hv2 : Spec.vanished n (place g1.goban.view (x, y) g1.turn) g2.goban.view .black = 0 := by omega
    have he0 := (getColor_none hr.inv hp).1 he
    have hv : SameOn n g2.goban.view (place g1.goban.view (x, y) g1.turn) := by
      intro q hq
      have hloc := (C09_play_local hr hp he).of_ok hpl q hq
      rcases local_sub (n := n) (pos := g1.goban.view) (p := (x, y)) (c := g1.turn) (s := !g1.rule.flagIllegal.suicide) q with a | a
      · have hn : g2.goban.view q = none := hloc.trans a
        cases hb : place g1.goban.view (x, y) g1.turn q with
        | none => rw [hn]
        | some c =>
          exfalso
          have hc : Spec.vanished n (place g1.goban.view (x, y) g1.turn) g2.goban.view c = 0 := by cases c <;> assumption
          have := List.filter_eq_nil_iff.1 (List.eq_nil_of_length_eq_zero hc) q (mem_points.2 hq)
          exact this (by simp [hb, hn])
      · exact hloc.trans a
    refine ⟨?_, ?_, ?_, fun _ => ?_⟩
    · intro q c hq
      rw [hv q hq, List.mem_cons]
      by_cases hqp : q = (x, y)
      · subst hqp
        rw [place_self]
        have := ih1 (x, y) c hq
        rw [he0] at this
        constructor
        · intro h'; cases h'; exact Or.inr (Or.inl rfl)
        · rintro (h' | h' | h')
          · exact absurd (this.2 (Or.inl h')) (by simp)
          · cases h'; rfl
          · exact absurd (this.2 (Or.inr h')) (by simp)
      · rw [place_ne hqp, ih1 q c hq]
        constructor
        · rintro (h' | h')
          · exact Or.inl h'
          · exact Or.inr (Or.inr h')
        · rintro (h' | h' | h')
          · exact Or.inl h'
          · cases h'; exact absurd rfl hqp
          · exact Or.inr h'
    · exact (((hr.play_spec hp he).of_ok hpl).choose_spec.2.2.2.2.2.1).trans ih2
    · exact (play_rule hpl).trans ih3
    · obtain ⟨o, s, m', _, hps, hs⟩ := hleg.sim
      obtain ⟨_, _, hok⟩ := (hs.tryPlay_any (.play x y) hp hps).of_ok e
      obtain ⟨_, _, _, _, hs2⟩ := hok rfl
      cases hk : g2.koPoint with
      | none => rfl
      | some q =>
        exfalso
        obtain ⟨b, hb, hq, kb⟩ := (hs2.ko q).1 hk
        cases hb
        obtain ⟨k1, k2⟩ := (kb q hq).2 rfl
        rw [← hs2.pos q hq] at k2
        have k2 : g2.goban.view q = none := k2
        rw [← hs.pos q hq] at k1
        rw [hv q hq] at k2
        by_cases hqp : q = (x, y)
        · rw [hqp, he0] at k1; cases k1
        · rw [place_ne hqp, k1] at k2; cases k2
  | @pass L g1 g2 hl e ih =>
    have e := C13_accepted_is_play e
    unfold Game.play at e
    obtain ⟨_, _, e⟩ := bind_eq_ok e
    cases e
    obtain ⟨a, b, c, _⟩ := ih hpr
    exact ⟨a, b, c, fun _ => rfl⟩

/-- **C116**, transpositions: two ways to put the same stones, without taking any, lead to games that show the same if the same
player is to move after the same number of passes. (`C116_past` then says that without super-ko they have the same future.) -/
theorem C116_transposition {L L' : List Stone} {a b : Game} (h : Legal dbg n m g) (ha : Puts dbg n g L a) (hb : Puts dbg n g L' b)
    (hL : ∀ s, s ∈ L ↔ s ∈ L') (hne : L ≠ []) (pa : a.prisoners = g.prisoners) (pb : b.prisoners = g.prisoners)
    (ht : a.turn = b.turn) (hp : a.passes = b.passes) :
    ShowsSame a b ∧ a.goban.zobristHash = b.goban.zobristHash := by
  obtain ⟨ma, hla⟩ := ha.legal h
  obtain ⟨mb, hlb⟩ := hb.legal h
  obtain ⟨ma', _, hra⟩ := hla.reach
  obtain ⟨mb', _, hrb⟩ := hlb.reach
  obtain ⟨a1, a2, a3, a4⟩ := ha.shows h pa
  obtain ⟨b1, b2, b3, b4⟩ := hb.shows h pb
  have hne' : L' ≠ [] := by
    obtain ⟨s, hs⟩ := List.exists_mem_of_ne_nil _ hne
    exact List.ne_nil_of_mem ((hL s).1 hs)
  have hv : SameOn n a.goban.view b.goban.view := fun q hq =>
    option_ext fun c => by rw [a1 q c hq, b1 q c hq, hL]
  obtain ⟨r, e2, hr⟩ := beq_ok hra.inv hrb.inv
  refine ⟨⟨by rw [e2, hr.2 hv], ht, hp, pa.trans pb.symm, a2.trans b2.symm, by rw [a3, b3], (a4 hne).trans (b4 hne').symm⟩, ?_⟩
  exact hash_eq_of_view hra.inv hrb.inv hv

theorem puts_three {x1 y1 x2 y2 x3 y3 : Nat} {g1 g2 g3 : Game} (h1 : OnBoard n (x1, y1)) (h2 : OnBoard n (x2, y2)) (h3 : OnBoard n (x3, y3))
    (e1 : g.tryPlay dbg (.play x1 y1) = .ok (none, g1)) (e2 : g1.tryPlay dbg (.play x2 y2) = .ok (none, g2))
    (e3 : g2.tryPlay dbg (.play x3 y3) = .ok (none, g3)) :
    Puts dbg n g [{ coord := (x3, y3), color := g2.turn }, { coord := (x2, y2), color := g1.turn }, { coord := (x1, y1), color := g.turn }] g3 :=
  .stone (.stone (.stone .start h1 e1) h2 e2) h3 e3

/-- **C116**: with super-ko the past does matter. On a 4 × 1 board under the Chinese rule, Black (0,0), White (3,0), Black (1,0) and
the same with the black stones exchanged lead to games that show the same (by `C116_transposition`); White (2,0) takes both stones
in either; then Black (1,0), which takes two back, is accepted in one and refused as a repetition in the other. -/
theorem C116_super_ko : ∃ g a b L L', Legal true ⟨4, 1⟩ 0 g ∧ g.rule = CHINESE ∧ Puts true ⟨4, 1⟩ g L a ∧ Puts true ⟨4, 1⟩ g L' b ∧
    (∀ s, s ∈ L ↔ s ∈ L') ∧ ShowsSame a b ∧
    (∃ k, a.run true [.try_ (.play 2 0), .try_ (.play 1 0)] = .ok ([none, none], k)) ∧
    ∃ k, b.run true [.try_ (.play 2 0), .try_ (.play 1 0)] = .ok ([none, some .ko], k) := by
  have key : okAnd (do
      let g ← Game.new (.custom 4 1) CHINESE
      let a1 ← g.tryPlay true (.play 0 0)
      let a2 ← a1.2.tryPlay true (.play 3 0)
      let a3 ← a2.2.tryPlay true (.play 1 0)
      let b1 ← g.tryPlay true (.play 1 0)
      let b2 ← b1.2.tryPlay true (.play 3 0)
      let b3 ← b2.2.tryPlay true (.play 0 0)
      let ra ← a3.2.run true [.try_ (.play 2 0), .try_ (.play 1 0)]
      let rb ← b3.2.run true [.try_ (.play 2 0), .try_ (.play 1 0)]
      .ok (g, a1, a2, a3, b1, b2, b3, ra, rb)) (fun ⟨g, a1, a2, a3, b1, b2, b3, ra, rb⟩ => decide (g.rule = CHINESE ∧
        [a1.1, a2.1, a3.1, b1.1, b2.1, b3.1] = List.replicate 6 none ∧
        [a1.2.turn, a2.2.turn, b1.2.turn, b2.2.turn] = [.white, .black, .white, .black] ∧ g.turn = .black ∧
        a3.2.prisoners = g.prisoners ∧ b3.2.prisoners = g.prisoners ∧ a3.2.turn = b3.2.turn ∧ a3.2.passes = b3.2.passes ∧
        ra.1 = [none, none] ∧ rb.1 = [none, some .ko])) = true := by decide +kernel
  obtain ⟨r, e, hc⟩ := okAnd_iff.1 key
  obtain ⟨g, e0, e⟩ := bind_eq_ok e
  obtain ⟨⟨x1, a1⟩, ea1, e⟩ := bind_eq_ok e
  obtain ⟨⟨x2, a2⟩, ea2, e⟩ := bind_eq_ok e
  obtain ⟨⟨x3, a3⟩, ea3, e⟩ := bind_eq_ok e
  obtain ⟨⟨y1, b1⟩, eb1, e⟩ := bind_eq_ok e
  obtain ⟨⟨y2, b2⟩, eb2, e⟩ := bind_eq_ok e
  obtain ⟨⟨y3, b3⟩, eb3, e⟩ := bind_eq_ok e
  obtain ⟨⟨ra, ka⟩, era, e⟩ := bind_eq_ok e
  obtain ⟨⟨rb, kb⟩, erb, e⟩ := bind_eq_ok e
  cases e
  simp only [decide_eq_true_eq, List.replicate, List.cons.injEq, and_true] at hc
  obtain ⟨h0, ⟨rfl, rfl, rfl, rfl, rfl, rfl⟩, ⟨t1, t2, t3, t4⟩, t0, pa, pb, ht, hp, rfl, rfl⟩ := hc
  have hleg : Legal true ⟨4, 1⟩ 0 g := new_legal (n := ⟨4, 1⟩) (by decide) e0
  have ha := puts_three (n := ⟨4, 1⟩) (by decide) (by decide) (by decide) ea1 ea2 ea3
  have hb := puts_three (n := ⟨4, 1⟩) (by decide) (by decide) (by decide) eb1 eb2 eb3
  have hL : ∀ s : Stone, s ∈ [Stone.mk (1, 0) a2.turn, Stone.mk (3, 0) a1.turn, Stone.mk (0, 0) g.turn] ↔
      s ∈ [Stone.mk (0, 0) b2.turn, Stone.mk (3, 0) b1.turn, Stone.mk (1, 0) g.turn] := by
    intro s
    simp only [List.mem_cons, List.not_mem_nil, or_false, t0, t1, t2, t3, t4]
    constructor <;> (rintro (h | h | h) <;> simp [h])
  exact ⟨g, a3, b3, _, _, hleg, h0, ha, hb, hL, (C116_transposition hleg ha hb hL (by simp) pa pb ht hp).1, ⟨ka, era⟩, kb, erb⟩

/-- Non-vacuity of C116_past and C116_legals: the same two games under the Japanese rule, where both continuations are accepted; the
histories differ. -/
example : ∃ a b, Legal true ⟨4, 1⟩ 3 a ∧ Legal true ⟨4, 1⟩ 3 b ∧ a.rule.flagIllegal.superko = false ∧ ShowsSame a b ∧ a.history ≠ b.history ∧
    (∃ k, a.run true [.try_ (.play 2 0), .try_ (.play 1 0)] = .ok ([none, none], k)) ∧
    ∃ k, b.run true [.try_ (.play 2 0), .try_ (.play 1 0)] = .ok ([none, none], k) := by
  have key : okAnd (do
      let a ← mkGame true ⟨4, 1⟩ JAPANESE [.try_ (.play 0 0), .try_ (.play 3 0), .try_ (.play 1 0)]
      let b ← mkGame true ⟨4, 1⟩ JAPANESE [.try_ (.play 1 0), .try_ (.play 3 0), .try_ (.play 0 0)]
      let r ← a.goban.beq b.goban
      let ra ← a.run true [.try_ (.play 2 0), .try_ (.play 1 0)]
      let rb ← b.run true [.try_ (.play 2 0), .try_ (.play 1 0)]
      .ok (a, b, r, ra, rb)) (fun ⟨a, b, r, ra, rb⟩ => decide (r = true ∧ a.turn = b.turn ∧ a.passes = b.passes ∧ a.prisoners = b.prisoners ∧
        a.outcome = b.outcome ∧ a.rule.flagIllegal = b.rule.flagIllegal ∧ a.koPoint = b.koPoint ∧ a.rule.flagIllegal.superko = false ∧
        a.history.map (·.getColor (0, 0) |>.toOption) ≠ b.history.map (·.getColor (0, 0) |>.toOption) ∧
        ra.1 = [none, none] ∧ rb.1 = [none, none])) = true := by decide +kernel
  obtain ⟨r, e, hc⟩ := okAnd_iff.1 key
  obtain ⟨a, ea, e⟩ := bind_eq_ok e
  obtain ⟨b, eb, e⟩ := bind_eq_ok e
  obtain ⟨r, er, e⟩ := bind_eq_ok e
  obtain ⟨⟨ra, ka⟩, era, e⟩ := bind_eq_ok e
  obtain ⟨⟨rb, kb⟩, erb, e⟩ := bind_eq_ok e
  cases e
  simp only [decide_eq_true_eq] at hc
  obtain ⟨rfl, c1, c2, c3, c4, c5, c6, c7, c8, rfl, rfl⟩ := hc
  exact ⟨a, b, mkGame_legal (n := ⟨4, 1⟩) (by decide) ea, mkGame_legal (n := ⟨4, 1⟩) (by decide) eb, c7, ⟨er, c1, c2, c3, c4, c5, c6⟩,
    fun h => c8 (by rw [h]), ⟨ka, era⟩, kb, erb⟩

end Model
