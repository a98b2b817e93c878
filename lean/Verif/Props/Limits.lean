import Verif.Props.Abstract
import Verif.Proofs.Grow
/-!
# Absence of panics and its limit: C27
-/

namespace Model
open Spec (OnBoard Adj Linked HasLiberty NoDead place SameOn Pos Suicide State Call Forbidden)

variable {dbg : Bool} {n : Dim} {m : Nat} {g : Game}

/-! ### Two games that look alike behave alike -/

/-- Two abstract states a rule without super-ko and eye filling cannot tell apart. -/
structure Like (n : Dim) (s s' : State) : Prop where
  pos : SameOn n s.pos s'.pos
  turn : s.turn = s'.turn
  passes : s.passes = s'.passes
  before : (s.before = none ∧ s'.before = none) ∨ ∃ b b', s.before = some b ∧ s'.before = some b' ∧ SameOn n b b'

/-- The point of a call, if any, is on the board. -/
def OnCall (n : Dim) : Call → Prop
  | .play p => OnBoard n p
  | _ => True

theorem GOp.onCall {c : GOp} (h : c.OnBoard n) : OnCall n c.call := by
  cases c with
  | try_ mv => cases mv <;> exact h
  | resume => trivial
  | setKomi k => trivial

theorem Like.ko {s s' : State} (h : Like n s s') (sa : Bool) (p : Coord) : Spec.Ko n sa s p ↔ Spec.Ko n sa s' p := by
  unfold Spec.Ko
  have h1 := play_congr h.pos sa p s.turn
  rw [← h.turn]
  rcases h.before with ⟨h2, h3⟩ | ⟨b, b', h2, h3, h4⟩
  · rw [h2, h3]; simp
  · rw [h2, h3]
    constructor
    · rintro ⟨_, e, hb⟩; cases e; exact ⟨b', rfl, (sameOn_congr h1 h4).1 hb⟩
    · rintro ⟨_, e, hb⟩; cases e; exact ⟨b, rfl, (sameOn_congr h1 h4).2 hb⟩

theorem Like.answer {s s' : State} (h : Like n s s') {r : Forbidden} (h1 : r.superko = false) (h2 : r.fillEye = false) {c : Call}
    (hc : OnCall n c) : Spec.answer n r s c = Spec.answer n r s' c := by
  cases c with
  | resume => rfl
  | komi => rfl
  | pass => unfold Spec.answer; rw [h.passes]
  | resign c => unfold Spec.answer; rw [h.passes]
  | play p =>
    unfold Spec.answer
    dsimp only
    have e1 : Suicide n s.pos p s.turn ↔ Suicide n s'.pos p s'.turn := by rw [suicide_congr h.pos hc, h.turn]
    have e2 := h.ko (!r.suicide) p
    rw [h.passes, h.pos p hc, h1, h2]
    have e3 : (r.suicide = true ∧ Suicide n s.pos p s.turn) = (r.suicide = true ∧ Suicide n s'.pos p s'.turn) :=
      propext (and_congr_right fun _ => e1)
    have e4 : (r.ko = true ∧ Spec.Ko n (!r.suicide) s p) = (r.ko = true ∧ Spec.Ko n (!r.suicide) s' p) :=
      propext (and_congr_right fun _ => e2)
    congr 1
    congr 1
    by_cases h3 : r.suicide = true ∧ Suicide n s.pos p s.turn
    · have h3' := h3
      rw [e3] at h3'
      rw [if_pos h3, if_pos h3']
    have h3' := h3
    rw [e3] at h3'
    rw [if_neg h3, if_neg h3']
    by_cases h4 : r.ko = true ∧ Spec.Ko n (!r.suicide) s p
    · have h4' := h4
      rw [e4] at h4'
      rw [if_pos h4, if_pos h4']
    have h4' := h4
    rw [e4] at h4'
    rw [if_neg h4, if_neg h4']
    simp

theorem Like.apply {s s' : State} (h : Like n s s') {r : Forbidden} (c : Call) :
    Like n (Spec.apply n r s c) (Spec.apply n r s' c) := by
  cases c with
  | resume => exact ⟨h.pos, h.turn, rfl, h.before⟩
  | komi => exact h
  | pass => exact ⟨h.pos, congrArg Color.opp h.turn, congrArg (· + 1) h.passes, Or.inl ⟨rfl, rfl⟩⟩
  | resign c => exact ⟨h.pos, h.turn, h.passes, h.before⟩
  | play p =>
    refine ⟨?_, congrArg Color.opp h.turn, rfl, Or.inr ⟨_, _, rfl, rfl, h.pos⟩⟩
    have := play_congr h.pos (!r.suicide) p s.turn
    show SameOn n (Spec.play n (!r.suicide) s.pos p s.turn) (Spec.play n (!r.suicide) s'.pos p s'.turn)
    rw [← h.turn]
    exact this

theorem Like.step {s s' : State} (h : Like n s s') {r : Forbidden} (h1 : r.superko = false) (h2 : r.fillEye = false) {c : Call}
    (hc : OnCall n c) : (Spec.step n r s c).1 = (Spec.step n r s' c).1 ∧ Like n (Spec.step n r s c).2 (Spec.step n r s' c).2 := by
  unfold Spec.step
  rw [h.answer h1 h2 hc]
  split
  · exact ⟨rfl, h.apply c⟩
  · exact ⟨rfl, h⟩

theorem Like.run {r : Forbidden} (h1 : r.superko = false) (h2 : r.fillEye = false) : ∀ (cs : List Call) {s s' : State},
    Like n s s' → (∀ c ∈ cs, OnCall n c) →
    (Spec.run n r s cs).1 = (Spec.run n r s' cs).1 ∧ Like n (Spec.run n r s cs).2 (Spec.run n r s' cs).2
  | [], s, s', h, _ => ⟨rfl, h⟩
  | c :: cs, s, s', h, hcs => by
    obtain ⟨a1, a2⟩ := h.step h1 h2 (hcs c (by simp))
    obtain ⟨b1, b2⟩ := Like.run h1 h2 cs a2 (fun c hc => hcs c (by simp [hc]))
    unfold Spec.run
    exact ⟨by rw [a1, b1], b2⟩

theorem run_all_ok {r : Forbidden} : ∀ (cs : List Call) {s : State}, (∀ a ∈ (Spec.run n r s cs).1, a = .ok) →
    (Spec.run n r s cs).2 = cs.foldl (Spec.apply n r) s
  | [], s, _ => rfl
  | c :: cs, s, h => by
    unfold Spec.run at h ⊢
    have h1 : (Spec.step n r s c).1 = .ok := h _ (by simp)
    have h2 : Spec.answer n r s c = .ok := by
      unfold Spec.step at h1
      split at h1
      · assumption
      · exact h1
    rw [step_ok h2] at h ⊢
    exact run_all_ok cs (fun a ha => h a (by simp [ha]))

/-! ### A sequence of calls returns or panics -/

theorem Sim.run_safe {o : Option EndGame} : ∀ (cs : List GOp) {m : Nat} {g : Game} {s : State}, Sim dbg n m o g s → s.passes ≤ 2 →
    (∀ c ∈ cs, c.OnBoard n) → (∃ r, g.run dbg cs = .ok r) ∨ g.run dbg cs = panic
  | [], m, g, s, _, _, _ => Or.inl ⟨_, rfl⟩
  | c :: cs, m, g, s, h, hp, hon => by
    unfold Game.run
    rcases h.call_seen (dbg := dbg) c (hon c (by simp)) hp with ⟨⟨e, g1⟩, e1, _, ⟨m', _, h'⟩, _, hp'⟩ | ⟨e1, _⟩
    · rw [e1, ok_bind]
      dsimp only
      rcases Sim.run_safe cs h' hp' (fun c hc => hon c (by simp [hc])) with ⟨r, e2⟩ | e2
      · rw [e2]; exact Or.inl ⟨_, rfl⟩
      · rw [e2]; exact Or.inr rfl
    · rw [e1]; exact Or.inr rfl

theorem run_cons_eq (c : GOp) (cs : List GOp) (g : Game) : g.run dbg (c :: cs) = (do
    let r ← g.call dbg c
    let rs ← r.2.run dbg cs
    .ok (r.1 :: rs.1, rs.2)) := rfl

theorem run_append : ∀ (a b : List GOp) (g : Game), g.run dbg (a ++ b) = (do
    let r ← g.run dbg a
    let r' ← r.2.run dbg b
    .ok (r.1 ++ r'.1, r'.2))
  | [], b, g => by
    show g.run dbg b = (g.run dbg b >>= fun r' => .ok ([] ++ r'.1, r'.2))
    cases g.run dbg b <;> rfl
  | c :: a, b, g => by
    rw [List.cons_append, run_cons_eq, run_cons_eq]
    cases g.call dbg c with
    | error e => rfl
    | ok r =>
      rw [ok_bind, ok_bind, run_append a b r.2]
      cases r.2.run dbg a with
      | error e => rfl
      | ok r1 =>
        simp only [ok_bind]
        generalize r1.2.run dbg b = z
        cases z <;> rfl

/-! ## C27 -/

/-- **C27**, full statement for `try_play`, `resume` and `set_komi`: no sequence of calls with on-board points panics. Refuted by
`C27_false`. -/
def C27Full (dbg : Bool) (n : Dim) (g : Game) : Prop := ∀ cs : List GOp, (∀ c ∈ cs, c.OnBoard n) → ∃ r, g.run dbg cs = .ok r

/-- **C27**, what holds: a sequence of fewer than 65,536 calls, counting the stones put before, returns. Missing: longer
sequences, for which the property is false. -/
theorem C27_run_partial {g0 : Game} {m0 : Nat} (hf : Fresh dbg n m0 g0) (hd : NoDead n g0.goban.view) {cs : List GOp}
    (hcs : ∀ c ∈ cs, c.OnBoard n) (hm : m0 + cs.length < 65536) : ∃ r, g0.run dbg cs = .ok r :=
  Sim.run_total cs (hf.sim hd) (Nat.zero_le _) hcs (by omega)

/-- **C27**, what holds however long the game: a sequence of calls never loops for ever and never fails in any way but a
panic. -/
theorem C27_returns_or_panics_partial {g0 : Game} {m0 : Nat} (hf : Fresh dbg n m0 g0) (hd : NoDead n g0.goban.view) {cs : List GOp}
    (hcs : ∀ c ∈ cs, c.OnBoard n) : (∃ r, g0.run dbg cs = .ok r) ∨ g0.run dbg cs = panic :=
  Sim.run_safe cs (hf.sim hd) (Nat.zero_le _) hcs

/-- Preparation: White takes the lower row of a 2 × 2 board, then two passes and a resumption. -/
def exPrefix : List GOp := [.try_ .pass, .try_ (.play 1 1), .try_ .pass, .try_ (.play 1 0), .try_ .pass, .try_ .pass, .resume]

/-- Black takes the upper row and captures, White takes the lower row and captures, two passes and a resumption. -/
def exCycle : List GOp := [.try_ (.play 0 0), .try_ .pass, .try_ (.play 0 1), .try_ (.play 1 1), .try_ .pass, .try_ (.play 1 0),
  .try_ .pass, .try_ .pass, .resume]

/-- A game in which the cycle can be played again and again. -/
def InCycle (dbg : Bool) (s0 : State) (g : Game) : Prop :=
  ∃ m s, Sim dbg 2 m none g s ∧ s.passes ≤ 2 ∧ Like 2 s s0 ∧ g.rule.flagIllegal = JAPANESE.flagIllegal

theorem cycle_step {s0 : State} (hs0 : s0.turn = .black) (he : s0.pos (0, 1) ≠ some .black ∧ s0.pos (1, 0) ≠ some .black)
    (hrun : ∀ a ∈ (Spec.run 2 JAPANESE.flagIllegal.forbidden s0 (exCycle.map GOp.call)).1, a = .ok)
    (hback : Like 2 (Spec.run 2 JAPANESE.flagIllegal.forbidden s0 (exCycle.map GOp.call)).2 s0)
    {es : List (Option PlayError)} {g' : Game} (h : InCycle dbg s0 g) (e : g.run dbg exCycle = .ok (es, g')) :
    InCycle dbg s0 g' ∧ g.goban.chains.length + 1 ≤ g'.goban.chains.length := by
  obtain ⟨m, s, hs, hp, hl, hr⟩ := h
  obtain ⟨a1, ⟨m', _, a2⟩, a3, a4⟩ := Sim.run exCycle hs hp (by rw [hr]; exact Or.inl rfl) (by decide) e
  rw [hr] at a1 a2 a3 a4
  obtain ⟨b1, b2⟩ := hl.run (r := JAPANESE.flagIllegal.forbidden) rfl rfl (exCycle.map GOp.call) (by
    intro c hc
    obtain ⟨d, hd, rfl⟩ := List.mem_map.1 hc
    have : ∀ d ∈ exCycle, d.OnBoard 2 := by decide
    exact GOp.onCall (this d hd))
  refine ⟨⟨m', _, a2, a4, ⟨?_, b2.turn.trans hback.turn, b2.passes.trans hback.passes, ?_⟩, a3⟩, ?_⟩
  · exact SameOn.trans b2.pos hback.pos
  · rcases hback.before with ⟨h1, h2⟩ | ⟨c1, c2, h1, h2, h3⟩
    · rcases b2.before with ⟨h4, h5⟩ | ⟨_, _, _, h5, _⟩
      · exact Or.inl ⟨h4, h2⟩
      · rw [h5] at h1; cases h1
    · rcases b2.before with ⟨h4, h5⟩ | ⟨d1, d2, h4, h5, h6⟩
      · rw [h5] at h1; cases h1
      · rw [h5] at h1; cases h1
        exact Or.inr ⟨_, _, h4, h2, SameOn.trans h6 h3⟩
  · -- the first play takes a slot
    have hes : ∀ x ∈ es, x = none := by
      intro x hx
      have : toAnswer x ∈ es.map toAnswer := List.mem_map_of_mem hx
      rw [a1, b1] at this
      exact toAnswer_ok.1 (hrun _ this)
    rw [exCycle] at e
    unfold Game.run at e
    obtain ⟨⟨x, g1⟩, e1, e⟩ := bind_eq_ok e
    obtain ⟨⟨xs, g2⟩, e2, e⟩ := bind_eq_ok e
    cases e
    have hx : x = none := hes x (by simp)
    subst hx
    have h2 := run_clen e2
    dsimp only at h2
    refine Nat.le_trans ?_ h2
    have e1 := C13_accepted_is_play (show g.tryPlay dbg (.play 0 0) = .ok (none, g1) from e1)
    rw [play_eq] at e1
    obtain ⟨l, _, e1⟩ := bind_eq_ok e1
    obtain ⟨c, e3, e1⟩ := bind_eq_ok e1
    cases e1
    unfold Goban.move at e3
    obtain ⟨f, e4, e3⟩ := bind_eq_ok e3
    dsimp only
    rw [removeCaptured_clen e3, push_isolated hs.inv (by decide) ?_ e4]
    · exact Nat.le_refl _
    rintro ⟨q1, q2⟩ hq1 hq2
    rw [hs.turn, hl.turn, hs0, hs.pos _ hq2, hl.pos _ hq2]
    have h1 : q1 < 2 := hq2.1
    have h2 : q2 < 2 := hq2.2
    unfold Adj at hq1
    dsimp only at hq1
    have : (q1 = 0 ∧ q2 = 1) ∨ (q1 = 1 ∧ q2 = 0) := by omega
    rcases this with ⟨rfl, rfl⟩ | ⟨rfl, rfl⟩
    · exact he.1
    · exact he.2

/-- **C27** is false as stated: under the Japanese rule on a 2 × 2 board there is a sequence of calls, each of them accepted
until then, after which `try_play` panics. (Every repetition of `exCycle` takes at least one new slot of the group table, and
there are only 65,535.) -/
theorem C27_false (dbg : Bool) : ∃ g0, Fresh dbg 2 0 g0 ∧ Game.new (.custom 2 2) JAPANESE = .ok g0 ∧
    ∃ cs : List GOp, (∀ c ∈ cs, c.OnBoard 2) ∧ g0.run dbg cs = panic := by
  have key : okAnd (do
      let g0 ← Game.new (.custom 2 2) JAPANESE
      let a ← g0.run dbg exPrefix
      let b ← a.2.run dbg exCycle
      .ok (g0, a, b)) (fun r => (r.2.1.1.all (fun x => decide (x = none)) && r.2.2.1.all (fun x => decide (x = none))) &&
        decide (r.2.1.2.turn = .black ∧ r.2.2.2.turn = .black ∧ r.2.1.2.passes = r.2.2.2.passes ∧
        (∀ p ∈ Spec.points 2, r.2.1.2.goban.view p = r.2.2.2.goban.view p) ∧
        r.2.1.2.goban.view (0, 1) ≠ some .black ∧ r.2.1.2.goban.view (1, 0) ≠ some .black)) = true := by
    cases dbg <;> decide +kernel
  obtain ⟨r, e, hr⟩ := okAnd_iff.1 key
  obtain ⟨g0, e0, e⟩ := bind_eq_ok e
  obtain ⟨⟨ea, ga⟩, e1, e⟩ := bind_eq_ok e
  obtain ⟨⟨eb, gb⟩, e2, e⟩ := bind_eq_ok e
  cases e
  simp only [Bool.and_eq_true, decide_eq_true_eq, List.all_eq_true] at hr
  obtain ⟨⟨ha, hb⟩, t1, t2, hps, hv, v1, v2⟩ := hr
  have hf : Fresh dbg 2 0 g0 := new_fresh (by decide) e0
  have hd : NoDead 2 g0.goban.view := by
    unfold Game.new at e0
    obtain ⟨b, e3, e0⟩ := bind_eq_ok e0
    cases e0
    exact noDead_empty (new_view (n := 2) (by decide) e3)
  have hr0 : g0.rule = JAPANESE := by
    unfold Game.new at e0
    obtain ⟨b, e3, e0⟩ := bind_eq_ok e0
    cases e0; rfl
  have ho0 : g0.outcome = none := by
    unfold Game.new at e0
    obtain ⟨b, e3, e0⟩ := bind_eq_ok e0
    cases e0; rfl
  refine ⟨g0, hf, e0, ?_⟩
  have hsim := hf.sim hd
  rw [ho0] at hsim
  obtain ⟨a1, ⟨m1, _, a2⟩, a3, a4⟩ := Sim.run exPrefix hsim (Nat.zero_le _) (by rw [hr0]; exact Or.inl rfl) (by decide) e1
  rw [hr0] at a1 a2 a3 a4
  generalize hs0 : (Spec.run 2 JAPANESE.flagIllegal.forbidden (State.start g0.goban.view g0.turn) (exPrefix.map GOp.call)).2 = s0 at a2 a4
  have hb0 : s0.before = none := by
    rw [← hs0, run_all_ok]
    · rfl
    · intro a ha'
      rw [← a1] at ha'
      obtain ⟨x, hx, rfl⟩ := List.mem_map.1 ha'
      rw [ha x hx]; rfl
  obtain ⟨c1, ⟨m2, _, c2⟩, _, _⟩ := Sim.run exCycle a2 a4 (by rw [a3]; exact Or.inl rfl) (by decide) e2
  rw [a3] at c1 c2
  have hrun : ∀ a ∈ (Spec.run 2 JAPANESE.flagIllegal.forbidden s0 (exCycle.map GOp.call)).1, a = .ok := by
    intro a ha'
    rw [← c1] at ha'
    obtain ⟨x, hx, rfl⟩ := List.mem_map.1 ha'
    rw [hb x hx]; rfl
  have hback : Like 2 (Spec.run 2 JAPANESE.flagIllegal.forbidden s0 (exCycle.map GOp.call)).2 s0 := by
    refine ⟨?_, ?_, ?_, Or.inl ⟨?_, hb0⟩⟩
    · intro p hp
      rw [← c2.pos p hp, ← a2.pos p hp, hv p (mem_points.2 hp)]
    · rw [← c2.turn, ← a2.turn, t1, t2]
    · rw [← c2.passes, ← a2.passes, hps]
    · rw [run_all_ok _ hrun]; rfl
  have hst : s0.turn = .black := by rw [← a2.turn, t1]
  have hpos : s0.pos (0, 1) ≠ some .black ∧ s0.pos (1, 0) ≠ some .black := by
    rw [← a2.pos (0, 1) (by decide), ← a2.pos (1, 0) (by decide)]
    exact ⟨v1, v2⟩
  have bad : ∀ (j : Nat) (g : Game), InCycle dbg s0 g → 65536 - g.goban.chains.length ≤ j →
      ∃ cs : List GOp, (∀ c ∈ cs, c.OnBoard 2) ∧ g.run dbg cs = panic := by
    intro j
    induction j with
    | zero =>
      intro g ⟨m, s, hs, _⟩ hj
      have := hs.inv.rep.few
      omega
    | succ j ih =>
      intro g hg hj
      obtain ⟨m, s, hs, hp, _⟩ := id hg
      rcases Sim.run_safe (dbg := dbg) exCycle hs hp (by decide) with ⟨⟨es, g'⟩, e⟩ | e
      · obtain ⟨hg', hl⟩ := cycle_step hst hpos hrun hback hg e
        obtain ⟨cs, hcs, ecs⟩ := ih g' hg' (by omega)
        refine ⟨exCycle ++ cs, ?_, ?_⟩
        · intro c hc
          rcases List.mem_append.1 hc with hc | hc
          · exact (by decide : ∀ c ∈ exCycle, c.OnBoard 2) c hc
          · exact hcs c hc
        · rw [run_append, e, ok_bind]
          dsimp only
          rw [ecs]; rfl
      · exact ⟨exCycle, by decide, e⟩
  obtain ⟨cs, hcs, ecs⟩ := bad _ ga ⟨m1, s0, a2, a4, ⟨SameOn.refl _, rfl, rfl, Or.inl ⟨hb0, hb0⟩⟩, by rw [a3]⟩ (Nat.le_refl _)
  refine ⟨exPrefix ++ cs, ?_, ?_⟩
  · intro c hc
    rcases List.mem_append.1 hc with hc | hc
    · exact (by decide : ∀ c ∈ exPrefix, c.OnBoard 2) c hc
    · exact hcs c hc
  · rw [run_append, e1, ok_bind]
    dsimp only
    rw [ecs]; rfl

/-- Beside `C27_false`: where the panic comes from. When 65,535 groups have been recorded in the life of the board, `push` of a
stone on an empty point with no neighbour of its own colour panics, on every board. -/
theorem C27_full_table {b : Goban} (h : Board dbg n m b) (hfull : b.chains.length = 65535) {p : Coord} {c : Color}
    (hp : OnBoard n p) (he : b.getColor p = .ok none)
    (hiso : ∀ q, Adj p q → OnBoard n q → b.getColor q ≠ .ok (some c)) : b.push dbg p c = panic := by
  have hI := h.inv.1
  have hv := (getColor_none hI hp).1 he
  have := push_full (dbg := dbg) (c := c) hI hfull hp hv (by
    intro q h1 h2 h3
    exact hiso q h1 h2 (by rw [hI.getColor_view h2, h3]))
  unfold Goban.push
  rw [this, hI.size]
  simp [Dim.sz, debugAssert, hp.1, hp.2]

/-- Non-vacuity of the positive parts: a run of seven calls. -/
example : okAnd (do
    let g0 ← Game.new (.custom 2 2) JAPANESE
    g0.run true exPrefix) (fun r => r.1.all (fun x => decide (x = none)) && r.2.goban.numberOfStones == (0, 2)) = true := by
  decide +kernel

end Model
