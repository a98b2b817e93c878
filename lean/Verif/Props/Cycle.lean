import Verif.Props.Finite
import Verif.Props.TwoKos
import Verif.Props.Lockstep
import Verif.Props.Return
/-!
# A cycle of play can be repeated until the group table is full: C130
-/

namespace Model
open Spec (OnBoard Adj Linked HasLiberty NoDead place SameOn Pos Suicide State)

variable {dbg dbg' : Bool} {n : Dim} {m m' : Nat} {g g' : Game}

/-! ### Prisoners and results do not influence play -/

/-- The game with other prisoners and another recorded result. -/
def Game.forget (g : Game) (P : Nat × Nat) (O : Option EndGame) : Game := { g with prisoners := P, outcome := O }

theorem eyeCorners_forget (g : Game) (P : Nat × Nat) (O : Option EndGame) (c : Color) :
    ∀ l, (g.forget P O).eyeCorners dbg c l = g.eyeCorners dbg c l
  | [] => rfl
  | p :: l => by
    unfold Game.eyeCorners
    rw [eyeCorners_forget g P O c l]
    rfl

theorem checkPoint_forget (g : Game) (P : Nat × Nat) (O : Option EndGame) (p : Coord) : (g.forget P O).checkPoint dbg p = g.checkPoint dbg p := by
  have e1 (st : Stone) : (g.forget P O).checkEye dbg st = g.checkEye dbg st := by
    unfold Game.checkEye
    simp only [eyeCorners_forget]
    rfl
  unfold Game.checkPoint Game.checkPointBy
  simp only [e1]
  rfl

theorem play_forget {P : Nat × Nat} {O : Option EndGame} {mv : Move} {k : Game} (e : g.play dbg mv = .ok k) :
    ∃ P' O', (g.forget P O).play dbg mv = .ok (k.forget P' O') := by
  cases mv with
  | pass =>
    unfold Game.play at e ⊢
    obtain ⟨_, e1, e⟩ := bind_eq_ok e
    cases e
    exact ⟨P, O, by rw [show (g.forget P O).passes = g.passes from rfl, e1]; rfl⟩
  | resign c => cases e; exact ⟨P, _, rfl⟩
  | play x y =>
    unfold Game.play at e ⊢
    obtain ⟨h, e1, e⟩ := bind_eq_ok e
    obtain ⟨f, e2, e⟩ := bind_eq_ok e
    dsimp only at e
    obtain ⟨g1, e3, e⟩ := bind_eq_ok e
    unfold Game.removeCapturedStones at e3
    obtain ⟨s, e4, e3⟩ := bind_eq_ok e3
    dsimp only at e4
    cases e3
    cases e
    refine ⟨(P.1 + s.removed.1, P.2 + s.removed.2), O, ?_⟩
    dsimp only
    rw [show historyInsert (g.forget P O).history (g.forget P O).goban = .ok h from e1, ok_bind,
      show (g.forget P O).goban.pushWthFeedback dbg (x, y) (g.forget P O).turn = .ok f from e2, ok_bind]
    unfold Game.removeCapturedStones
    dsimp only
    rw [show (g.forget P O).rule = g.rule from rfl, e4]
    rfl

theorem tryPlay_forget {P : Nat × Nat} {O : Option EndGame} {mv : Move} {r : Option PlayError} {k : Game}
    (e : g.tryPlay dbg mv = .ok (r, k)) : ∃ P' O', (g.forget P O).tryPlay dbg mv = .ok (r, k.forget P' O') := by
  unfold Game.tryPlay at e ⊢
  rw [show (g.forget P O).passes = g.passes from rfl]
  split at e
  · rename_i hp
    rw [if_pos hp]
    cases e
    exact ⟨P, O, rfl⟩
  rename_i hp
  rw [if_neg hp]
  have go (m : Move) (e : (do let g' ← g.play dbg m; (.ok (none, g') : M (Option PlayError × Game))) = .ok (r, k)) :
      ∃ P' O', (do let g' ← (g.forget P O).play dbg m; (.ok (none, g') : M (Option PlayError × Game))) = .ok (r, k.forget P' O') := by
    obtain ⟨a, e1, e⟩ := bind_eq_ok e
    cases e
    obtain ⟨P', O', e2⟩ := play_forget (P := P) (O := O) e1
    exact ⟨P', O', by rw [e2]; rfl⟩
  cases mv with
  | pass => exact go .pass e
  | resign c => exact go (.resign c) e
  | play x y =>
    dsimp only at e ⊢
    obtain ⟨o, e0, e⟩ := bind_eq_ok e
    rw [show (g.forget P O).goban.getColor (x, y) = .ok o from e0, ok_bind]
    split at e
    · rename_i ho
      rw [if_pos ho]
      cases e
      exact ⟨P, O, rfl⟩
    rename_i ho
    rw [if_neg ho]
    obtain ⟨c, e1, e⟩ := bind_eq_ok e
    rw [checkPoint_forget, e1, ok_bind]
    cases c with
    | some c => cases e; exact ⟨P, O, rfl⟩
    | none => exact go (.play x y) e

theorem run_forget : ∀ (cs : List GOp) {g k : Game} {P : Nat × Nat} {O : Option EndGame} {es : List (Option PlayError)},
    g.run dbg cs = .ok (es, k) → ∃ P' O', (g.forget P O).run dbg cs = .ok (es, k.forget P' O')
  | [], g, k, P, O, es, e => by cases e; exact ⟨P, O, rfl⟩
  | c :: cs, g, k, P, O, es, e => by
    obtain ⟨r, es', e1, e2, rfl⟩ := run_cons e
    have step : ∃ P' O', (g.forget P O).call dbg c = .ok (r.1, r.2.forget P' O') := by
      cases c with
      | try_ mv => exact tryPlay_forget e1
      | resume => cases e1; exact ⟨P, O, rfl⟩
      | setKomi k => cases e1; exact ⟨P, O, rfl⟩
    obtain ⟨P', O', e3⟩ := step
    obtain ⟨P'', O'', e4⟩ := run_forget cs (P := P') (O := O') e2
    refine ⟨P'', O'', ?_⟩
    rw [run_cons_eq, e3, ok_bind, e4]
    rfl

/-- As `ShowsSame`, but prisoners and recorded results may differ too. -/
structure PlaysSame (g g' : Game) : Prop where
  goban : g.goban.beq g'.goban = .ok true
  turn : g.turn = g'.turn
  passes : g.passes = g'.passes
  illegal : g.rule.flagIllegal = g'.rule.flagIllegal
  koPoint : g.koPoint = g'.koPoint

/-- **C130**, the past, the prisoners and a recorded result do not matter without super-ko: two games with the same board, player to move,
passes, forbidden moves and ko point answer every sequence of calls in the same way, and still have the same of these afterwards. -/
theorem C130_same (h : Legal dbg n m g) (h' : Legal dbg' n m' g') (hsk : g.rule.flagIllegal.superko = false) (hs : PlaysSame g g')
    {cs : List GOp} (hcs : ∀ c ∈ cs, c.OnBoard n) {es es' : List (Option PlayError)} {k k' : Game} (e : g.run dbg cs = .ok (es, k))
    (e' : g'.run dbg' cs = .ok (es', k')) : es = es' ∧ PlaysSame k k' := by
  obtain ⟨o, s, m1, _, hps, hsim⟩ := h.sim
  obtain ⟨o', s', m1', _, _, hsim'⟩ := h'.sim
  obtain ⟨P, O, e2⟩ := run_forget cs (P := g.prisoners) (O := g.outcome) e'
  have hsim2 : Sim dbg' n m1' g.outcome (g'.forget g.prisoners g.outcome) { s' with prisoners := g.prisoners, resigned := none } :=
    ⟨hsim'.board, hsim'.hist, hsim'.pos, hsim'.noDead, hsim'.turn, hsim'.passes, rfl, rfl, hsim'.ko, hsim'.bef⟩
  have hs2 : ShowsSame g (g'.forget g.prisoners g.outcome) := ⟨hs.goban, hs.turn, hs.passes, rfl, rfl, hs.illegal, hs.koPoint⟩
  obtain ⟨h1, h2⟩ := run_past cs hsk hs2.illegal hsim (hsim.transferPast hsim2 hs2) hs2.koPoint hps hcs e e2
  exact ⟨h1, h2.goban, h2.turn, h2.passes, h2.illegal, h2.koPoint⟩

theorem PlaysSame.trans {g1 g2 g3 : Game} {m1 m2 m3 : Nat} (h1 : Legal dbg n m1 g1) (h2 : Legal dbg n m2 g2) (h3 : Legal dbg n m3 g3)
    (a : PlaysSame g1 g2) (b : PlaysSame g2 g3) : PlaysSame g1 g3 := by
  obtain ⟨_, _, _, _, _, s1⟩ := h1.sim
  obtain ⟨_, _, _, _, _, s2⟩ := h2.sim
  obtain ⟨_, _, _, _, _, s3⟩ := h3.sim
  refine ⟨?_, a.turn.trans b.turn, a.passes.trans b.passes, a.illegal.trans b.illegal, a.koPoint.trans b.koPoint⟩
  obtain ⟨r1, e1, i1⟩ := beq_ok s1.inv s2.inv
  obtain ⟨r2, e2, i2⟩ := beq_ok s2.inv s3.inv
  obtain ⟨r3, e3, i3⟩ := beq_ok s1.inv s3.inv
  rw [a.goban] at e1
  rw [b.goban] at e2
  rw [e3, i3.2 (SameOn.trans (i1.1 (Except.ok.inj e1).symm) (i2.1 (Except.ok.inj e2).symm))]

theorem PlaysSame.refl (h : Legal dbg n m g) : PlaysSame g g := by
  obtain ⟨_, _, _, _, _, s1⟩ := h.sim
  obtain ⟨r1, e1, i1⟩ := beq_ok s1.inv s1.inv
  exact ⟨by rw [e1, i1.2 (fun _ _ => rfl)], rfl, rfl, rfl, rfl⟩

/-! ### The age of the board along a run -/

theorem tryPlay_on_empty {x y : Nat} {k : Game} (e : g.tryPlay dbg (.play x y) = .ok (none, k)) : g.goban.getColor (x, y) = .ok none := by
  unfold Game.tryPlay at e
  split at e
  · cases e
  dsimp only at e
  obtain ⟨o, e0, e⟩ := bind_eq_ok e
  cases o with
  | none => exact e0
  | some c => rw [if_pos (by simp)] at e; cases e

theorem call_age (h : Legal dbg n m g) {c : GOp} (hc : c.OnBoard n) {e : Option PlayError} {k : Game} (e1 : g.call dbg c = .ok (e, k)) :
    g.goban.age n ≤ k.goban.age n ∧ ((∃ x y, c = .try_ (.play x y)) → e = none → g.goban.age n < k.goban.age n) := by
  cases c with
  | resume => cases e1; exact ⟨Nat.le_refl _, fun ⟨_, _, h⟩ => by cases h⟩
  | setKomi q => cases e1; exact ⟨Nat.le_refl _, fun ⟨_, _, h⟩ => by cases h⟩
  | try_ mv =>
    cases e with
    | some e =>
      rw [C13_refused_unchanged e1]
      exact ⟨Nat.le_refl _, fun _ h => by cases h⟩
    | none =>
      have e2 := C13_accepted_is_play e1
      cases mv with
      | pass =>
        unfold Game.play at e2
        obtain ⟨_, _, e2⟩ := bind_eq_ok e2
        cases e2
        exact ⟨Nat.le_refl _, fun ⟨_, _, h⟩ => by cases h⟩
      | resign c => cases e2; exact ⟨Nat.le_refl _, fun ⟨_, _, h⟩ => by cases h⟩
      | play x y =>
        obtain ⟨m', _, hr⟩ := h.reach
        have := hr.play_age hc (tryPlay_on_empty e1) e2
        exact ⟨by omega, fun _ _ => by omega⟩

theorem run_age : ∀ (cs : List GOp) {m : Nat} {g k : Game} {es : List (Option PlayError)}, Legal dbg n m g → (∀ c ∈ cs, c.OnBoard n) →
    g.run dbg cs = .ok (es, k) →
    g.goban.age n ≤ k.goban.age n ∧ ((∃ x y, (GOp.try_ (.play x y), none) ∈ cs.zip es) → g.goban.age n < k.goban.age n)
  | [], m, g, k, es, _, _, e => by cases e; exact ⟨Nat.le_refl _, fun ⟨_, _, h⟩ => by simp at h⟩
  | c :: cs, m, g, k, es, h, hcs, e => by
    obtain ⟨r, es', e1, e2, rfl⟩ := run_cons e
    have hc := hcs c (by simp)
    obtain ⟨a1, a2⟩ := call_age h hc (e := r.1) (k := r.2) e1
    obtain ⟨m', h'⟩ := Legal.run [c] h (by simpa using hc) (g' := r.2) (es := [r.1]) (by rw [run_cons_eq, e1]; rfl)
    obtain ⟨b1, b2⟩ := run_age cs h' (fun c hc => hcs c (by simp [hc])) e2
    refine ⟨by omega, ?_⟩
    rintro ⟨x, y, hm⟩
    rw [List.zip_cons_cons, List.mem_cons] at hm
    rcases hm with hm | hm
    · have := a2 ⟨x, y, (congrArg Prod.fst hm).symm⟩ (congrArg Prod.snd hm).symm
      omega
    · have := b2 ⟨x, y, hm⟩
      omega

/-! ## C130 -/

/-- **C130**. Without super-ko, a sequence of calls that ends with the board, player to move, passes, forbidden moves and ko point it began
with can be repeated: `t` times in a row it panics, or gets the same answers every time and ends the same again. -/
theorem C130_cycle (h : Legal dbg n m g) (hsk : g.rule.flagIllegal.superko = false) {cs : List GOp} (hcs : ∀ c ∈ cs, c.OnBoard n)
    {es : List (Option PlayError)} (e : g.run dbg cs = .ok (es, g')) (hs : PlaysSame g g') :
    ∀ t, g.run dbg (List.replicate t cs).flatten = panic ∨
      ∃ k, g.run dbg (List.replicate t cs).flatten = .ok ((List.replicate t es).flatten, k) ∧ PlaysSame g k
  | 0 => Or.inr ⟨g, rfl, .refl h⟩
  | t + 1 => by
    have hon : ∀ c ∈ (List.replicate t cs).flatten, c.OnBoard n := by
      intro c hc
      obtain ⟨l, h1, h2⟩ := List.mem_flatten.1 hc
      rw [(List.mem_replicate.1 h1).2] at h2
      exact hcs c h2
    rw [List.replicate_succ', List.flatten_append, run_append, show [cs].flatten = cs by simp]
    rcases C130_cycle h hsk hcs e hs t with e1 | ⟨k, e1, hk⟩
    · rw [e1]; exact Or.inl rfl
    rw [e1, ok_bind]
    obtain ⟨mk, hlk⟩ := Legal.run _ h hon e1
    obtain ⟨o, s, m1, _, hps, hsim⟩ := hlk.sim
    rcases hsim.run_safe cs hps hcs with ⟨⟨fs, q⟩, e2⟩ | e2
    · obtain ⟨h1, h2⟩ := C130_same h hlk hsk hk hcs e e2
      subst h1
      refine Or.inr ⟨q, ?_, ?_⟩
      · dsimp only
        rw [e2, List.replicate_succ', List.flatten_append, show [es].flatten = es by simp]
        rfl
      · obtain ⟨_, hl'⟩ := Legal.run _ h hcs e
        obtain ⟨_, hlq⟩ := Legal.run _ hlk hcs e2
        exact hs.trans h hl' hlq h2
    · dsimp only
      rw [e2]; exact Or.inl rfl

/-- **C130**, and if a stone is played in it, it cannot be repeated for ever: after at most `lifeOf n` repetitions, all answered alike, the next
one panics. -/
theorem C130_ends (h : Legal dbg n m g) (hsk : g.rule.flagIllegal.superko = false) {cs : List GOp} (hcs : ∀ c ∈ cs, c.OnBoard n)
    {es : List (Option PlayError)} (e : g.run dbg cs = .ok (es, g')) (hs : PlaysSame g g')
    (hst : ∃ x y, (GOp.try_ (.play x y), none) ∈ cs.zip es) :
    ∃ t ≤ lifeOf n, ∃ k, g.run dbg (List.replicate t cs).flatten = .ok ((List.replicate t es).flatten, k) ∧ PlaysSame g k ∧
      k.run dbg cs = panic := by
  by_contra hno
  have key : ∀ t ≤ lifeOf n + 1, ∃ k, g.run dbg (List.replicate t cs).flatten = .ok ((List.replicate t es).flatten, k) ∧ PlaysSame g k ∧
      (∃ m', Legal dbg n m' k) ∧ t ≤ k.goban.age n := by
    intro t
    induction t with
    | zero => exact fun _ => ⟨g, rfl, .refl h, ⟨m, h⟩, Nat.zero_le _⟩
    | succ t ih =>
      intro ht
      obtain ⟨k, e1, hk, ⟨mk, hlk⟩, ha⟩ := ih (by omega)
      obtain ⟨o, s, m1, _, hps, hsim⟩ := hlk.sim
      rcases hsim.run_safe cs hps hcs with ⟨⟨fs, q⟩, e2⟩ | e2
      · obtain ⟨h1, h2⟩ := C130_same h hlk hsk hk hcs e e2
        subst h1
        obtain ⟨_, hl'⟩ := Legal.run _ h hcs e
        obtain ⟨mq, hlq⟩ := Legal.run _ hlk hcs e2
        refine ⟨q, ?_, hs.trans h hl' hlq h2, ⟨mq, hlq⟩, ?_⟩
        · rw [List.replicate_succ', List.flatten_append, run_append, show [cs].flatten = cs by simp, e1, ok_bind]
          dsimp only
          rw [e2, List.replicate_succ', List.flatten_append, show [es].flatten = es by simp]
          rfl
        · have := (run_age cs hlk hcs e2).2 hst
          omega
      · exact absurd ⟨t, by omega, k, e1, hk, e2⟩ hno
  obtain ⟨k, _, _, ⟨mk, hlk⟩, ha⟩ := key (lifeOf n + 1) (Nat.le_refl _)
  obtain ⟨_, _, hr⟩ := hlk.reach
  have := age_le hr.inv
  unfold lifeOf at ha
  omega

/-- Such a cycle on a 3 × 1 board under the Japanese rule: Black holds one end, White takes the other, Black passes, White captures, Black
recaptures. All four moves are accepted, and the prisoners have changed. -/
example : ∃ g es g', Legal true ⟨3, 1⟩ 1 g ∧ g.rule.flagIllegal.superko = false ∧
    g.run true [.try_ (.play 2 0), .try_ .pass, .try_ (.play 1 0), .try_ (.play 0 0)] = .ok (es, g') ∧ es = [none, none, none, none] ∧
    PlaysSame g g' ∧ g.prisoners ≠ g'.prisoners := by
  obtain ⟨g, h, e⟩ := mkGame_exists (dbg := true) (n := ⟨3, 1⟩) (rule := JAPANESE) (l := [.try_ (.play 0 0)])
    (f := fun g => okAnd (do
      let r ← g.run true [.try_ (.play 2 0), .try_ .pass, .try_ (.play 1 0), .try_ (.play 0 0)]
      let q ← g.goban.beq r.2.goban
      .ok (q, r)) (fun x => decide (x.1 = true ∧ g.rule.flagIllegal.superko = false ∧ x.2.1 = [none, none, none, none] ∧
        g.turn = x.2.2.turn ∧ g.passes = x.2.2.passes ∧ g.rule.flagIllegal = x.2.2.rule.flagIllegal ∧ g.koPoint = x.2.2.koPoint ∧
        g.prisoners ≠ x.2.2.prisoners))) (by decide) (by decide +kernel)
  obtain ⟨x, e1, e2⟩ := okAnd_iff.1 e
  obtain ⟨r, e3, e1⟩ := bind_eq_ok e1
  obtain ⟨q, e4, e1⟩ := bind_eq_ok e1
  cases e1
  obtain ⟨h1, h2, h3, h4, h5, h6, h7, h8⟩ := of_decide_eq_true e2
  exact ⟨g, r.1, r.2, h, h2, e3, h3, ⟨by rw [e4]; exact congrArg _ h1, h4, h5, h6, h7⟩, h8⟩

end Model
