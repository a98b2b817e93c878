import Verif.Props.Profile
import Verif.Props.Strategy
import Verif.Props.Symmetry
import Verif.Props.Transpose
/-!
# Games in step: C44, C52, C62, C63 and C116 without the assumption that every call returns
-/

namespace Model
open Spec (OnBoard Adj Linked HasLiberty NoDead place SameOn Pos Suicide State Joins Symmetry)

variable {dbg dbg' : Bool} {n : Dim} {m m' : Nat} {g g' : Game}

/-! ## C63: the two builds, without a bound on the number of stones -/

theorem push_profile {b : Goban} (hI : Inv n b) {p : Coord} {c : Color} (hp : OnBoard n p) (he : b.getColor p = .ok none) :
    b.push true p c = b.push false p c := by
  rcases push_room (dbg := true) (c := c) hI hp he with ⟨b', e, _⟩ | ⟨e, h⟩
  · exact Le.eq_of_total (Goban.push_le ..) ⟨_, e⟩
  · rcases push_room (dbg := false) (c := c) hI hp he with ⟨b', _, h', _⟩ | ⟨e', _⟩
    · rcases h' with h' | h'
      · omega
      · exact absurd h' h.2
    · rw [e, e']

theorem Board.debug_all {b : Goban} (h : Board false n m b) : Board true n m b := by
  induction h with
  | new hf e => exact .new hf e
  | @push m b b' p c h0 hp he e ih =>
    exact .push (c := c) ih hp he (by rw [push_profile ih.inv.1 hp he]; exact e)
  | remove h0 hl e ih =>
    refine .remove ih hl ?_
    obtain ⟨grp, hg⟩ := hl
    obtain ⟨l, hl⟩ := group_spec (dbg := true) ih.inv.1 (live_ch.1 hg)
    obtain ⟨r, e', _⟩ := C08_remove_chain ih hl.stones
    rw [Le.eq_of_total (Goban.removeChain_le ..) ⟨r, e'⟩]; exact e

theorem pushAll_profile : ∀ (l : List Stone) {m : Nat} {b : Goban}, Board true n m b → (l.map Stone.coord).Nodup →
    (∀ s ∈ l, OnBoard n s.coord ∧ b.view s.coord = none) → b.pushAll true l = b.pushAll false l
  | [], _, _, _, _, _ => rfl
  | s :: l, m, b, h, hnd, hs => by
    obtain ⟨hp, hv⟩ := hs s (by simp)
    obtain ⟨hI, hl⟩ := h.inv
    have he := (getColor_none hI hp).2 hv
    unfold Goban.pushAll
    rw [List.foldlM_cons, List.foldlM_cons, ← push_profile hI hp he]
    rcases hI.push_total (dbg := true) (c := s.color) hp hv with ⟨b', e, h1, h2, h3⟩ | ⟨e, h2⟩
    · rw [e, ok_bind, ok_bind]
      have hv' := push_view hI h1 hp h3
      rw [List.map_cons, List.nodup_cons] at hnd
      refine pushAll_profile l (.push h hp he e) hnd.2 ?_
      intro t ht
      obtain ⟨a, b⟩ := hs t (by simp [ht])
      refine ⟨a, ?_⟩
      rw [hv' _ a]; unfold Spec.place; rw [if_neg, b]
      intro h'; exact hnd.1 (h' ▸ List.mem_map_of_mem ht)
    · rw [e]; rfl

theorem Fresh.debug_all (h : Fresh false n m g) : Fresh true n m g := by
  induction h with
  | new hf hs e => exact .new hf hs e
  | @build b g hf h1 h2 h3 h4 e =>
    refine .build hf h1 h2 h3 h4 ?_
    have hn := (Fresh.build hf h1 h2 h3 h4 e).spec.board.inv.1.good
    obtain ⟨g', _, e', _⟩ := C29_build (dbg := true) h1 hf hn.h19 hn.w19 h3 h4
    unfold GameBuilder.build at e'
    obtain ⟨g1, e1, _⟩ := bind_eq_ok e'
    have : b.setMoves [] = b := by rw [← h2]; rfl
    rw [this] at e1
    rw [Le.eq_of_total (GameBuilder.buildInner_le _) ⟨_, e1⟩]; exact e
  | @handicap m g ps g' h0 h1 h2 e ih =>
    refine .handicap ih h1 h2 ?_
    have hI := ih.spec.board
    unfold Game.putHandicap at e ⊢
    rw [pushMany_eq] at e ⊢
    rw [pushAll_profile (ps.map (fun p => { coord := p, color := .black })) hI (by
          rw [List.map_map]; show (ps.map id).Nodup; rw [List.map_id]; exact h1) (by
        intro s hs
        obtain ⟨p, hp, rfl⟩ := List.mem_map.1 hs
        obtain ⟨a1, a2⟩ := h2 p hp
        exact ⟨a1, (getColor_none hI.inv.1 a1).1 a2⟩)]
    exact e

theorem play_profile (hI : Inv n g.goban) (hh : ∀ b ∈ g.history, Inv n b) {x y : Nat} (hp : OnBoard n (x, y))
    (he : g.goban.getColor (x, y) = .ok none) : g.play true (.play x y) = g.play false (.play x y) := by
  rcases play_room (dbg := true) hI hh hp he with ⟨_, e, _⟩ | ⟨e, h⟩
  · exact Le.eq_of_total (Game.play_le ..) ⟨_, e⟩
  · rcases play_room (dbg := false) hI hh hp he with ⟨_, _, h', _⟩ | ⟨e', _⟩
    · exact absurd h h'
    · rw [e, e']

theorem Reach.histories (h : Reach dbg n m g) : ∀ b ∈ g.history, Inv n b :=
  fun b hb => (h.spec.history b hb).choose_spec.2.inv.1

theorem Reach.debug_all (h : Reach false n m g) : Reach true n m g := by
  induction h with
  | fresh h => exact .fresh h.debug_all
  | play _ hp he e ih => exact .play ih hp he (by rw [play_profile ih.inv ih.histories hp he]; exact e)
  | pass _ e ih => exact .pass ih e
  | resign _ e ih => exact .resign ih e
  | resume _ ih => exact .resume ih
  | setKomi _ ih => exact .setKomi ih

theorem tryPlay_profile (hI : Inv n g.goban) (hh : ∀ b ∈ g.history, Inv n b) {mv : Move} (hmv : mv.OnBoard n) :
    g.tryPlay true mv = g.tryPlay false mv := by
  cases mv with
  | pass => rfl
  | resign c => rfl
  | play x y =>
    obtain ⟨p1, t1⟩ := tryPlay_room (dbg := true) hI hh hmv
    obtain ⟨p2, t2⟩ := tryPlay_room (dbg := false) hI hh hmv
    rcases t1 with t1 | t1
    · exact Le.eq_of_total (Game.tryPlay_le ..) t1
    · obtain ⟨h1, h2, h3⟩ := p1.1 t1
      rw [t1, p2.2 ⟨h1, h2, (Game.checkPointBy_le ..).ok _ h3⟩]

theorem Legal.debug_all (h : Legal false n m g) : Legal true n m g := by
  induction h with
  | fresh h hd => exact .fresh h.debug_all hd
  | @tryPlay m g mv e g' _ hp e1 ih =>
    obtain ⟨o, s, m', hm', hps, hs⟩ := ih.sim
    exact .tryPlay ih hp (e := e) (by rw [tryPlay_profile hs.inv hs.histInv hp]; exact e1)
  | resume _ ih => exact .resume ih
  | setKomi _ ih => exact .setKomi ih

/-- **C63** without a bound on the number of stones: the boards that can be reached are the same in the two builds. -/
theorem C63_all_boards {b : Goban} : Board true n m b ↔ Board false n m b := ⟨Board.release, Board.debug_all⟩

/-- **C63** without a bound: the games that can be reached, and those that can be reached with `try_play`, are the same. -/
theorem C63_all_games : (Reach true n m g ↔ Reach false n m g) ∧ (Legal true n m g ↔ Legal false n m g) :=
  ⟨⟨Reach.release, Reach.debug_all⟩, ⟨Legal.release, Legal.debug_all⟩⟩

theorem reach_call {c : GOp} (h : Reach dbg n m g) (hc : c.OnBoard n) {o : Option PlayError} (e : g.call dbg c = .ok (o, g')) :
    ∃ m', Reach dbg n m' g' := by
  cases c with
  | resume => cases e; exact ⟨_, h.resume⟩
  | setKomi k => cases e; exact ⟨_, h.setKomi⟩
  | try_ mv =>
    cases o with
    | some er => rw [C13_refused_unchanged e]; exact ⟨_, h⟩
    | none =>
      have a := C13_accepted_is_play e
      cases mv with
      | play x y => exact ⟨_, .play h hc (accepted_stone e).1 a⟩
      | pass => exact ⟨_, .pass h a⟩
      | resign c => exact ⟨_, .resign h a⟩

/-- **C63**, without a bound: from every game that can be reached the two builds give the same answers and the same game, and panic
on the same calls. -/
theorem C63_all_runs (h : Reach dbg n m g) {cs : List GOp} (hcs : ∀ c ∈ cs, c.OnBoard n) : g.run true cs = g.run false cs := by
  have h : Reach true n m g := by
    cases dbg
    · exact h.debug_all
    · exact h
  clear * - h hcs
  induction cs generalizing m g with
  | nil => rfl
  | cons c cs ih =>
    rw [run_cons_eq, run_cons_eq]
    have hc : g.call true c = g.call false c := by
      cases c with
      | resume => rfl
      | setKomi k => rfl
      | try_ mv => exact tryPlay_profile h.inv h.histories (show mv.OnBoard n from hcs (.try_ mv) (by simp))
    rw [← hc]
    cases e : g.call true c with
    | error er => simp only [bind, Except.bind]
    | ok r =>
      obtain ⟨m1, h1⟩ := reach_call (o := r.1) h (hcs c (by simp)) e
      rw [ok_bind, ok_bind, ih (fun c hc => hcs c (List.mem_cons_of_mem _ hc)) h1]

/-! ## Two games in step -/

/-- What a call does to the room in the table of groups, and exactly when it panics. -/
theorem Sim.call_panics {o : Option EndGame} {s : State} (h : Sim dbg n m o g s) (hp2 : s.passes ≤ 2) {c : GOp} (hc : c.OnBoard n) :
    ((∃ r, g.call dbg c = .ok r) ∨ g.call dbg c = panic) ∧
    (g.call dbg c = panic ↔ ∃ x y, c = .try_ (.play x y) ∧ g.Full ∧ ¬ Joins n s.pos (x, y) s.turn ∧
      Spec.answerSeen n { g.rule.flagIllegal with superko := false }.forbidden s (.play (x, y)) = .ok) := by
  have stuck : ∀ p, Joins n g.goban.view p g.turn ↔ Joins n s.pos p s.turn := by
    intro p
    rw [h.turn]
    exact ⟨joins_congr_mp h.pos, joins_congr_mp (SameOn.symm h.pos)⟩
  have never : (∀ x y, c ≠ .try_ (.play x y)) → ∃ r, g.call dbg c = .ok r := by
    intro hne
    cases c with
    | resume => exact ⟨_, rfl⟩
    | setKomi k => exact ⟨_, rfl⟩
    | try_ mv =>
      cases mv with
      | play x y => exact absurd rfl (hne x y)
      | resign c =>
        show ∃ r, g.tryPlay dbg (.resign c) = .ok r
        unfold Game.tryPlay
        split <;> exact ⟨_, rfl⟩
      | pass =>
        show ∃ r, g.tryPlay dbg .pass = .ok r
        by_cases h2 : g.passes = 2
        · unfold Game.tryPlay; rw [if_pos h2]; exact ⟨_, rfl⟩
        · exact ⟨_, tryPlay_pass (by rw [h.passes] at h2 ⊢; omega)⟩
  by_cases hne : ∀ x y, c ≠ .try_ (.play x y)
  · obtain ⟨r, e⟩ := never hne
    refine ⟨Or.inl ⟨r, e⟩, fun h' => (by rw [e] at h'; cases h'), ?_⟩
    rintro ⟨x, y, h1, _⟩; exact absurd h1 (hne x y)
  · simp only [not_forall, ne_eq, not_not] at hne
    obtain ⟨x, y, rfl⟩ := hne
    obtain ⟨p1, t1⟩ := tryPlay_room (dbg := dbg) h.inv h.histInv (x := x) (y := y) hc
    refine ⟨t1, ?_⟩
    show g.tryPlay dbg (.play x y) = panic ↔ _
    rw [p1]
    unfold Game.Stuck
    rw [stuck, h.passes]
    simp only [answerSeen_play]
    obtain ⟨a, ea, _, ha⟩ := checkPointBy_split (dbg := dbg) h.inv (p := (x, y)) hc g.rule.flagIllegal
    rw [ea]
    constructor
    · rintro ⟨⟨h1, h2⟩, h3, h4⟩
      cases h4
      have hem := ha rfl
      rw [h.inv.getColor_view hc, h.pos _ hc] at hem
      have hem : s.pos (x, y) = none := Except.ok.inj hem
      refine ⟨x, y, rfl, h1, h2, ?_⟩
      have := (h.checkPointBy_seen (dbg := dbg) hc hem { g.rule.flagIllegal with superko := false }).of_ok ea
      rw [if_neg h3, if_neg (by simp [hem]), ← this]; rfl
    · rintro ⟨x', y', h0, h1, h2, h3⟩
      cases h0
      split at h3
      · cases h3
      rename_i h4
      split at h3
      · cases h3
      rename_i hem
      have hem := Classical.not_not.1 hem
      have := (h.checkPointBy_seen (dbg := dbg) hc hem { g.rule.flagIllegal with superko := false }).of_ok ea
      rw [← this] at h3
      exact ⟨⟨h1, h2⟩, h4, by rw [toAnswer_ok.1 h3]⟩

open Classical in
theorem Sim.call_length {o : Option EndGame} {s : State} (h : Sim dbg n m o g s) {c : GOp} (hc : c.OnBoard n) {a : Option PlayError}
    {g1 : Game} (e : g.call dbg c = .ok (a, g1)) : g1.goban.chains.length = g.goban.chains.length +
      if a = none ∧ ∃ x y, c = .try_ (.play x y) ∧ ¬ Joins n s.pos (x, y) s.turn then 1 else 0 := by
  have stuck : ∀ p, Joins n g.goban.view p g.turn ↔ Joins n s.pos p s.turn := by
    intro p
    rw [h.turn]
    exact ⟨joins_congr_mp h.pos, joins_congr_mp (SameOn.symm h.pos)⟩
  cases c with
  | resume => cases e; rw [if_neg]; · rfl
              rintro ⟨_, x, y, h1, _⟩; cases h1
  | setKomi k => cases e; rw [if_neg]; · rfl
                 rintro ⟨_, x, y, h1, _⟩; cases h1
  | try_ mv =>
    cases a with
    | some er =>
      rw [C13_refused_unchanged e, if_neg]
      · rfl
      · rintro ⟨h1, _⟩; cases h1
    | none =>
      have p := C13_accepted_is_play e
      cases mv with
      | resign c => cases p; rw [if_neg]; · rfl
                    rintro ⟨_, x, y, h1, _⟩; cases h1
      | pass =>
        obtain ⟨_, _, p⟩ := bind_eq_ok p
        cases p; rw [if_neg]
        · rfl
        · rintro ⟨_, x, y, h1, _⟩; cases h1
      | play x y =>
        rcases play_room (dbg := dbg) h.inv h.histInv hc (accepted_stone e).1 with ⟨_, q, _, l⟩ | ⟨q, _⟩
        · rw [p] at q; cases q
          rw [l]
          by_cases hj : Joins n g.goban.view (x, y) g.turn
          · rw [if_pos hj, if_neg]
            rintro ⟨_, x', y', h1, h2⟩; cases h1; exact h2 ((stuck _).1 hj)
          · rw [if_neg hj, if_pos ⟨rfl, x, y, rfl, fun h' => hj ((stuck _).2 h')⟩]
        · rw [p] at q; cases q

/-- Two games in step: a relation between the states of the abstract game that the calls keep, under which they are answered alike
and join alike, with as much room in the one table of groups as in the other. Then the calls return in both games or panic in both. -/
theorem lockstep {f : IllegalRules} {T : GOp → GOp} {Q : State → State → Prop}
    (hT : ∀ c, c.OnBoard n → (T c).OnBoard n)
    (hplay : ∀ x y, ∃ x' y', T (.try_ (.play x y)) = .try_ (.play x' y') ∧ ∀ s s', Q s s' → OnBoard n (x, y) →
      (Joins n s'.pos (x', y') s'.turn ↔ Joins n s.pos (x, y) s.turn))
    (hother : ∀ c, (∀ x y, c ≠ .try_ (.play x y)) → ∀ x y, T c ≠ .try_ (.play x y))
    (hans : ∀ s s' c, Q s s' → c.OnBoard n → Spec.answerSeen n f.forbidden s' (T c).call = Spec.answerSeen n f.forbidden s c.call ∧
      Spec.answerSeen n { f with superko := false }.forbidden s' (T c).call =
        Spec.answerSeen n { f with superko := false }.forbidden s c.call)
    (hstep : ∀ s s' c, Q s s' → c.OnBoard n → Q (Spec.stepSeen n f.forbidden s c.call).2 (Spec.stepSeen n f.forbidden s' (T c).call).2)
    {o o' : Option EndGame} : ∀ {cs : List GOp} {m m' : Nat} {g g' : Game} {s s' : State}, Sim dbg n m o g s → Sim dbg' n m' o' g' s' →
    s.passes ≤ 2 → s'.passes ≤ 2 → g.rule.flagIllegal = f → g'.rule.flagIllegal = f →
    g'.goban.chains.length = g.goban.chains.length → Q s s' → (∀ c ∈ cs, c.OnBoard n) →
    ((∃ r, g.run dbg cs = .ok r) ∧ ∃ r, g'.run dbg' (cs.map T) = .ok r) ∨
      (g.run dbg cs = panic ∧ g'.run dbg' (cs.map T) = panic)
  | [], _, _, _, _, _, _, _, _, _, _, _, _, _, _, _ => Or.inl ⟨⟨_, rfl⟩, ⟨_, rfl⟩⟩
  | c :: cs, m, m', g, g', s, s', h, h', hps, hps', hf, hf', hl, hq, hcs => by
    have hc := hcs c (by simp)
    obtain ⟨t1, p1⟩ := h.call_panics hps hc
    obtain ⟨t2, p2⟩ := h'.call_panics hps' (hT c hc)
    obtain ⟨ha, ha'⟩ := hans s s' c hq hc
    have hfull : g'.Full ↔ g.Full := by unfold Game.Full; rw [hl]
    have same : g'.call dbg' (T c) = panic ↔ g.call dbg c = panic := by
      rw [p1, p2, hf, hf', hfull]
      by_cases hne : ∀ x y, c ≠ .try_ (.play x y)
      · exact iff_of_false (fun ⟨x, y, h1, _⟩ => hother c hne x y h1) (fun ⟨x, y, h1, _⟩ => hne x y h1)
      · simp only [not_forall, ne_eq, not_not] at hne
        obtain ⟨x, y, rfl⟩ := hne
        obtain ⟨x', y', h1, h2⟩ := hplay x y
        rw [h1] at ha' ⊢
        have h2 := h2 s s' hq hc
        constructor
        · rintro ⟨a, b, h3, h4, h5, h6⟩
          cases h3
          exact ⟨x, y, rfl, h4, fun hj => h5 (h2.2 hj), ha'.symm.trans h6⟩
        · rintro ⟨a, b, h3, h4, h5, h6⟩
          cases h3
          exact ⟨x', y', rfl, h4, fun hj => h5 (h2.1 hj), ha'.trans h6⟩
    rw [List.map_cons, run_cons_eq, run_cons_eq]
    rcases t1 with ⟨⟨a, g1⟩, e1⟩ | e1
    · rcases t2 with ⟨⟨a', g1'⟩, e2⟩ | e2
      · obtain ⟨b1, ⟨m1, _, c1⟩, d1, f1⟩ := (h.call_seen (dbg := dbg) c hc hps).of_ok e1
        obtain ⟨b2, ⟨m2, _, c2⟩, d2, f2⟩ := (h'.call_seen (dbg := dbg') (T c) (hT c hc) hps').of_ok e2
        rw [hf] at b1 c1 f1
        rw [hf'] at b2 c2 f2
        have hfst : ∀ (s : State) c, (Spec.stepSeen n f.forbidden s c).1 = Spec.answerSeen n f.forbidden s c := by
          intro s c
          unfold Spec.stepSeen
          split
          · rename_i h0; exact h0.symm
          · rfl
        rw [hfst] at b1 b2
        have hab : a' = a := toAnswer_inj (b2.trans (ha.trans b1.symm))
        have hl1 : g1'.goban.chains.length = g1.goban.chains.length := by
          rw [h.call_length hc e1, h'.call_length (hT c hc) e2, hl, hab]
          congr 1
          have : (∃ x y, T c = .try_ (.play x y) ∧ ¬ Joins n s'.pos (x, y) s'.turn) ↔
              ∃ x y, c = .try_ (.play x y) ∧ ¬ Joins n s.pos (x, y) s.turn := by
            by_cases hne : ∀ x y, c ≠ .try_ (.play x y)
            · exact iff_of_false (fun ⟨x, y, h1, _⟩ => hother c hne x y h1) (fun ⟨x, y, h1, _⟩ => hne x y h1)
            · simp only [not_forall, ne_eq, not_not] at hne
              obtain ⟨x, y, rfl⟩ := hne
              obtain ⟨x', y', h1, h2⟩ := hplay x y
              rw [h1]
              have h2 := h2 s s' hq hc
              constructor
              · rintro ⟨a, b, h3, h5⟩
                cases h3
                exact ⟨x, y, rfl, fun hj => h5 (h2.2 hj)⟩
              · rintro ⟨a, b, h3, h5⟩
                cases h3
                exact ⟨x', y', rfl, fun hj => h5 (h2.1 hj)⟩
          by_cases hn : a = none ∧ ∃ x y, c = .try_ (.play x y) ∧ ¬ Joins n s.pos (x, y) s.turn
          · rw [if_pos hn, if_pos ⟨hn.1, this.2 hn.2⟩]
          · rw [if_neg hn, if_neg (fun h' => hn ⟨h'.1, this.1 h'.2⟩)]
        rcases lockstep hT hplay hother hans hstep (cs := cs) c1 c2 f1 f2 (by rw [d1, hf]) (by rw [d2, hf']) hl1
          (hstep s s' c hq hc) (fun c hc => hcs c (by simp [hc])) with ⟨⟨r, e3⟩, ⟨r', e4⟩⟩ | ⟨e3, e4⟩
        · rw [e1, e2, ok_bind, ok_bind, e3, e4]; exact Or.inl ⟨⟨_, rfl⟩, ⟨_, rfl⟩⟩
        · rw [e1, e2, ok_bind, ok_bind, e3, e4]; exact Or.inr ⟨rfl, rfl⟩
      · rw [same.1 e2] at e1; cases e1
    · rw [e1, same.2 e1]; exact Or.inr ⟨rfl, rfl⟩

/-- **C44**, however long the games: under the hypotheses of `C44_colour_symmetry`, if as many stones that did not join exactly one
group of their colour were put on the one board as on the other, then the exchanged calls return together, with the same answers
and games that are colour exchanges of each other, or panic together. -/
theorem C44_in_step {g0 g0' : Game} {m0 m0' r0 : Nat} (hf : Fresh dbg n m0 g0) (hf' : Fresh dbg n m0' g0')
    (hd : NoDead n g0.goban.view) (hr : g0'.rule.flagIllegal = g0.rule.flagIllegal) (h0 : Swapped n g0 g0')
    (hb : BoardRecords dbg n r0 g0.goban) (hb' : BoardRecords dbg n r0 g0'.goban) {cs : List GOp} (hcs : ∀ c ∈ cs, c.OnBoard n) :
    (∃ es g g', g0.run dbg cs = .ok (es, g) ∧ g0'.run dbg (cs.map GOp.swap) = .ok (es, g') ∧ Swapped n g g') ∨
    (g0.run dbg cs = panic ∧ g0'.run dbg (cs.map GOp.swap) = panic) := by
  have hv : SameOn n g0'.goban.view (swapPos g0.goban.view) := by
    intro p hp
    obtain ⟨c, h1, h2⟩ := h0.colours p hp
    unfold swapPos Goban.view
    rw [h1, h2]
  have hst : State.start (swapPos g0.goban.view) g0'.turn = swapState (State.start g0.goban.view g0.turn) := by
    rw [h0.turn]; rfl
  have s2 := hf'.sim_congr hv (noDead_swap.2 hd)
  rw [hst] at s2
  have key := lockstep (n := n) (dbg := dbg) (dbg' := dbg) (f := g0.rule.flagIllegal) (T := GOp.swap) (Q := fun s s' => s' = swapState s)
    (fun c hc => onBoard_swap hc)
    (fun x y => ⟨x, y, rfl, fun s s' hq _ => by subst hq; exact joins_swap⟩)
    (by
      intro c hne x y h
      cases c with
      | resume => cases h
      | setKomi k => cases h
      | try_ mv =>
        cases mv with
        | play a b => exact hne a b rfl
        | pass => cases h
        | resign c => cases h)
    (fun s s' c hq _ => by subst hq; rw [call_swap]; exact ⟨answerSeen_swap, answerSeen_swap⟩)
    (fun s s' c hq _ => by subst hq; rw [call_swap, stepSeen_swap])
    (hf.sim hd) s2 (Nat.zero_le _) (Nat.zero_le _) rfl hr (by rw [hb.length, hb'.length]) rfl hcs
  rcases key with ⟨⟨⟨es, g⟩, e1⟩, ⟨⟨es', g'⟩, e2⟩⟩ | h
  · obtain ⟨rfl, h2⟩ := C44_colour_symmetry hf hf' hd hr h0 hcs e1 e2
    exact Or.inl ⟨_, _, _, e1, e2, h2⟩
  · exact Or.inr h

theorem joins_sym (σ : Symmetry n) {pos : Pos} {p : Coord} {c : Color} (hp : OnBoard n p) :
    Joins n (σ.pos pos) (σ.map p) c ↔ Joins n pos p c := by
  unfold Joins
  rw [sym_exists σ]
  apply and_congr
  · apply exists_congr; intro q
    rw [σ.onBoard, sym_pos_map]
    apply and_congr_right; intro hq
    rw [σ.adj _ _ hp hq]
  · rw [sym_forall σ]
    apply forall_congr'; intro q
    rw [sym_forall σ]
    apply forall_congr'; intro r
    rw [σ.onBoard, σ.onBoard, sym_pos_map, sym_pos_map]
    apply forall_congr'; intro hq
    apply forall_congr'; intro hr
    rw [σ.adj _ _ hp hq, σ.adj _ _ hp hr, linked_sym σ hq]

/-- **C52**, however long the games, under the rules that do not forbid filling eyes (in particular both rules of the crate): if as
many stones that did not join exactly one group of their colour were put on the one board as on the other, then the turned calls
return together, with the same answers and games that are turned copies of each other, or panic together. -/
theorem C52_in_step_partial (σ : Symmetry n) {g0 g0' : Game} {m0 m0' r0 : Nat} (hf : Fresh dbg n m0 g0)
    (hf' : Fresh dbg n m0' g0') (hd : NoDead n g0.goban.view) (hr : g0'.rule.flagIllegal = g0.rule.flagIllegal)
    (hfe : g0.rule.flagIllegal.fillEye = false) (h0 : Turned σ g0 g0') (hb : BoardRecords dbg n r0 g0.goban)
    (hb' : BoardRecords dbg n r0 g0'.goban) {cs : List GOp} (hcs : ∀ c ∈ cs, c.OnBoard n) :
    (∃ es g g', g0.run dbg cs = .ok (es, g) ∧ g0'.run dbg (cs.map (GOp.turned σ)) = .ok (es, g') ∧ Turned σ g g') ∨
    (g0.run dbg cs = panic ∧ g0'.run dbg (cs.map (GOp.turned σ)) = panic) := by
  have hd1 : NoDead n (clip n g0.goban.view) := (noDead_congr (sameOn_clip _)).1 hd
  have hst : State.start (σ.pos (clip n g0.goban.view)) g0'.turn = symState σ (State.start (clip n g0.goban.view) g0.turn) := by
    rw [h0.turn]; rfl
  have s2 := hf'.sim_congr h0.view ((noDead_sym σ).2 hd1)
  rw [hst] at s2
  have key := lockstep (n := n) (dbg := dbg) (dbg' := dbg) (f := g0.rule.flagIllegal) (T := GOp.turned σ)
    (Q := fun s s' => Clip n s.pos ∧ s' = symState σ s)
    (fun c hc => onBoard_turned σ hc)
    (fun x y => ⟨(σ.map (x, y)).1, (σ.map (x, y)).2, rfl, fun s s' hq hp => by
      obtain ⟨_, rfl⟩ := hq; exact joins_sym σ hp⟩)
    (by
      intro c hne x y h
      cases c with
      | resume => cases h
      | setKomi k => cases h
      | try_ mv =>
        cases mv with
        | play a b => exact hne a b rfl
        | pass => cases h
        | resign c => cases h)
    (fun s s' c hq hc => by
      obtain ⟨hq, rfl⟩ := hq
      rw [call_turned]
      exact ⟨answerSeen_sym σ hfe hq (callOn hc), answerSeen_sym σ (r := { g0.rule.flagIllegal with superko := false }.forbidden) hfe hq (callOn hc)⟩)
    (fun s s' c hq hc => by
      obtain ⟨hq, rfl⟩ := hq
      rw [call_turned, stepSeen_sym σ hfe hq (callOn hc)]
      exact ⟨clip_stepSeen hq (callOn hc), rfl⟩)
    (hf.sim_congr (sameOn_clip _) hd1) s2 (Nat.zero_le _) (Nat.zero_le _) rfl hr (by rw [hb.length, hb'.length])
    ⟨clip_clip _, rfl⟩ hcs
  rcases key with ⟨⟨⟨es, g⟩, e1⟩, ⟨⟨es', g'⟩, e2⟩⟩ | h
  · obtain ⟨rfl, h2⟩ := C52_board_symmetry_partial σ hf hf' hd hr hfe h0 hcs e1 e2
    exact Or.inl ⟨_, _, _, e1, e2, h2⟩
  · exact Or.inr h

/-- In the life of the game, set-up stones and handicap included, `r` stones were put that did not join exactly one group of their
colour. -/
def Counted (dbg : Bool) (n : Dim) (r : Nat) (g : Game) : Prop :=
  ∃ g0 m0 r0, Fresh dbg n m0 g0 ∧ BoardRecords dbg n r0 g0.goban ∧ Records dbg n g0 r0 r g

theorem Counted.length {r : Nat} (h : Counted dbg n r g) : g.goban.chains.length = r := by
  obtain ⟨g0, m0, r0, h1, h2, h3⟩ := h
  exact h3.length h1 h2

/-- **C62**, however long the games: games that show the same, with the same number of stones put that did not join exactly one group
of their colour, give the same answers to every sequence of calls and show the same afterwards, or panic together. Each of them in
either build profile. -/
theorem C62_in_step (h : Legal dbg n m g) (h' : Legal dbg' n m' g') (hs : SameGame g g') {r : Nat} (hr : Counted dbg n r g)
    (hr' : Counted dbg' n r g') {cs : List GOp} (hcs : ∀ c ∈ cs, c.OnBoard n) :
    (∃ es k k', g.run dbg cs = .ok (es, k) ∧ g'.run dbg' cs = .ok (es, k') ∧ SameGame k k') ∨
    (g.run dbg cs = panic ∧ g'.run dbg' cs = panic) := by
  obtain ⟨o, s, m1, _, hps, hsim⟩ := h.sim
  obtain ⟨o', s', m1', _, hps', hsim'⟩ := h'.sim
  have hsim' := hsim.transfer hsim' hs
  have key := lockstep (n := n) (dbg := dbg) (dbg' := dbg') (f := g.rule.flagIllegal) (T := id) (Q := fun s s' => s' = s)
    (fun c hc => hc) (fun x y => ⟨x, y, rfl, fun s s' hq _ => by rw [hq]⟩) (fun c hc => hc)
    (fun s s' c hq _ => by subst hq; exact ⟨rfl, rfl⟩) (fun s s' c hq _ => by subst hq; rfl)
    hsim hsim' hps hps rfl hs.illegal.symm (by rw [hr.length, hr'.length]) rfl hcs
  rw [List.map_id] at key
  rcases key with ⟨⟨⟨es, k⟩, e1⟩, ⟨⟨es', k'⟩, e2⟩⟩ | h
  · obtain ⟨rfl, h2⟩ := C62_same_future h h' hs hcs e1 e2
    exact Or.inl ⟨_, _, _, e1, e2, h2⟩
  · exact Or.inr h

/-- `check_point_by` without super-ko answers the same in two games that simulate states with the same answers. -/
theorem check_plain {o o' : Option EndGame} {s s' : State} (h : Sim dbg n m o g s) (h' : Sim dbg' n m' o' g' s') {p : Coord}
    (hp : OnBoard n p) (he : s.pos p = none) (he' : s'.pos p = none) {f : IllegalRules} (hf : f.superko = false)
    (hR : refusalSeen n f s' p = refusalSeen n f s p) :
    ∃ a, g.checkPointBy dbg p f = .ok a ∧ g'.checkPointBy dbg' p f = .ok a := by
  have ret : ∀ {dbg : Bool} {m : Nat} {g : Game} {o : Option EndGame} {s : State}, Sim dbg n m o g s →
      ∃ a, g.checkPointBy dbg p f = .ok a := by
    intro dbg m g o s h
    obtain ⟨h1, h2, _⟩ := checkPointBy_stuck (dbg := dbg) h.inv h.hist.inv hp f
    exact h1.resolve_right (fun e => by have := (h2.1 e).2.1; rw [hf] at this; cases this)
  obtain ⟨a, ea⟩ := ret h
  obtain ⟨b, eb⟩ := ret h'
  have ha := (h.checkPointBy_seen hp he f).of_ok ea
  have hb := (h'.checkPointBy_seen hp he' f).of_ok eb
  exact ⟨a, ea, by rw [eb, ha, hb, hR]⟩

/-- `check_point_by` in two games that show the same and have as many group records. -/
theorem check_in_step {o o' : Option EndGame} {s : State} (h : Sim dbg n m o g s) (h' : Sim dbg' n m' o' g' s)
    (hl : g.goban.chains.length = g'.goban.chains.length) (hh : g.history.length = g'.history.length) {p : Coord}
    (hp : OnBoard n p) (he : s.pos p = none) (f : IllegalRules) : g.checkPointBy dbg p f = g'.checkPointBy dbg' p f := by
  obtain ⟨a, ea, ea'⟩ := check_plain h h' hp he he (f := { f with superko := false }) rfl rfl
  obtain ⟨h1, h2, _⟩ := checkPointBy_stuck (dbg := dbg) h.inv h.hist.inv hp f
  obtain ⟨h1', h2', _⟩ := checkPointBy_stuck (dbg := dbg') h'.inv h'.hist.inv hp f
  have hS : g.Stuck n p ↔ g'.Stuck n p := by
    unfold Game.Stuck Game.Full
    rw [hl, h.turn, h'.turn]
    refine and_congr_right (fun _ => not_congr ?_)
    exact ⟨fun j => joins_congr_mp (SameOn.symm h'.pos) (joins_congr_mp h.pos j),
      fun j => joins_congr_mp (SameOn.symm h.pos) (joins_congr_mp h'.pos j)⟩
  obtain ⟨b, eb, hb⟩ := h.willCapture hp he
  obtain ⟨b', eb', hb'⟩ := h'.willCapture hp he
  obtain rfl : b' = b := Bool.eq_iff_iff.2 (hb'.trans hb.symm)
  rw [ea, eb, hh, hS] at h2
  rw [ea', eb'] at h2'
  have hE := h2.trans h2'.symm
  rcases h1 with ⟨x, ex⟩ | e
  · rcases h1' with ⟨y, ey⟩ | e'
    · rw [ex, ey, (h.checkPointBy_seen hp he f).of_ok ex, (h'.checkPointBy_seen hp he f).of_ok ey]
    · rw [hE.2 e'] at ex; cases ex
  · rw [e, hE.1 e]

/-- `legals_by` panics exactly when `check_point_by` panics on an empty point it goes through. -/
theorem legals_panics (hr : Reach dbg n m g) (f : IllegalRules) :
    (g.legalsBy dbg f = panic ↔ ∃ p, OnBoard n p ∧ p.1 < n.w ∧ g.goban.getColor p = .ok none ∧ g.checkPointBy dbg p f = panic) ∧
    ((∃ l, g.legalsBy dbg f = .ok l) ∨ g.legalsBy dbg f = panic) := by
  have hI := hr.inv
  have key : ∀ p, OnBoard n p → _ := fun p hp => checkPointBy_stuck (dbg := dbg) hI hr.histories hp f
  obtain ⟨L, eL, _⟩ := getEmptyCoords_any hI
  have eP : g.pseudoLegals = .ok L := eL
  obtain ⟨hm1, hm2⟩ := pseudoLegals_mem hr eP
  unfold Game.legalsBy
  rw [eP, ok_bind]
  obtain ⟨h1, h2⟩ := mapM_panics (l := L)
    (f := fun c => do let e ← g.checkPointBy dbg c f; .ok (if e.isNone then some c else none)) (by
    intro p hp
    rcases (key p (hm1 p hp).1).1 with ⟨o, e⟩ | e
    · rw [e]; exact Or.inl ⟨_, rfl⟩
    · rw [e]; exact Or.inr rfl)
  have bindp : ∀ p, (do let e ← g.checkPointBy dbg p f; .ok (if e.isNone then some p else none) : M (Option Coord)) = panic ↔
      g.checkPointBy dbg p f = panic := by
    intro p
    cases g.checkPointBy dbg p f with
    | ok o => exact ⟨fun h => (by cases h), fun h => (by cases h)⟩
    | error e => exact ⟨fun h => (by cases h; rfl), fun h => (by cases h; rfl)⟩
  have h3 : (∃ p ∈ L,
      (do let e ← g.checkPointBy dbg p f; .ok (if e.isNone then some p else none) : M (Option Coord)) = panic) ↔
      ∃ p, OnBoard n p ∧ p.1 < n.w ∧ g.goban.getColor p = .ok none ∧ g.checkPointBy dbg p f = panic := by
    constructor
    · rintro ⟨p, hp, e⟩
      have e := (bindp p).1 e
      have hb := (hm1 p hp).1
      exact ⟨p, hb, (hm1 p hp).2, checkPointBy_empty ((key p hb).2.1.1 e).2.2.2.2, e⟩
    · rintro ⟨p, hp, hw, he, e⟩
      exact ⟨p, hm2 p hp hw he, (bindp p).2 e⟩
  rw [← h3, ← h2]
  rcases h1 with ⟨l, e⟩ | e
  · rw [e]; exact ⟨⟨fun h => (by cases h), fun h => (by cases h)⟩, Or.inl ⟨_, rfl⟩⟩
  · rw [e]; exact ⟨⟨fun _ => rfl, fun _ => rfl⟩, Or.inr rfl⟩

/-- What `try_play` answers at an empty point, when it is not paused. -/
theorem tryPlay_empty (h : Reach dbg n m g) (hps : g.passes ≠ 2) {p : Coord} (hp : OnBoard n p) (he : g.goban.getColor p = .ok none) :
    g.tryPlay dbg (.play p.1 p.2) = (do
      let e ← g.checkPointBy dbg p g.rule.flagIllegal
      match e with
      | some e => .ok (some e, g)
      | none => do
        let g' ← g.play dbg (.play p.1 p.2)
        .ok (none, g')) := by
  obtain ⟨x, y⟩ := p
  rw [h.tryPlay_play hp, if_neg hps, if_neg (by simpa using (getColor_none h.inv hp).1 he)]
  rfl

/-- **C17**, however long the game: while the game is not paused `legals()` lists exactly the points at which `try_play` does not
refuse, that is, where it accepts or where the group table has no room for the stone. If `legals()` panics itself, then so does
`try_play` at one of the points. -/
theorem C17_any_length (h : Reach dbg n m g) (hps : g.passes ≠ 2) :
    ((∃ l, g.legals dbg = .ok l) ∨ g.legals dbg = panic) ∧
    (∀ l, g.legals dbg = .ok l → ∀ p, OnBoard n p → p.1 < n.w →
      (p ∈ l ↔ g.Accepts dbg p ∨ g.tryPlay dbg (.play p.1 p.2) = panic)) ∧
    (g.legals dbg = panic → ∃ p, OnBoard n p ∧ g.tryPlay dbg (.play p.1 p.2) = panic) := by
  obtain ⟨h1, h2⟩ := legals_panics h g.rule.flagIllegal
  refine ⟨h2, fun l e p hp hw => ?_, fun e => ?_⟩
  · rw [(C91_legals_by h g.rule.flagIllegal).of_ok e, List.mem_filter, mem_scan h.inv.good, decide_eq_true_eq]
    constructor
    · rintro ⟨_, he, hc⟩
      unfold Game.Accepts
      rw [tryPlay_empty h hps hp he, hc, ok_bind]
      rcases play_room (dbg := dbg) h.inv h.histories (x := p.1) (y := p.2) hp he with ⟨g', e', _⟩ | ⟨e', _⟩
      · exact Or.inl ⟨g', by rw [e']; rfl⟩
      · exact Or.inr (by rw [e']; rfl)
    · intro ha
      have he : g.goban.getColor p = .ok none := by
        by_contra hne
        have hv : g.goban.view p ≠ none := fun hv => hne ((getColor_none h.inv hp).2 hv)
        unfold Game.Accepts at ha
        obtain ⟨x, y⟩ := p
        rw [h.tryPlay_play hp, if_neg hps, if_pos hv] at ha
        rcases ha with ⟨_, e⟩ | e <;> cases e
      refine ⟨⟨hp, hw⟩, he, ?_⟩
      unfold Game.Accepts at ha
      rw [tryPlay_empty h hps hp he] at ha
      rcases (checkPointBy_stuck (dbg := dbg) h.inv h.histories hp g.rule.flagIllegal).1 with ⟨o, e1⟩ | e1
      · rw [e1, ok_bind] at ha
        cases o with
        | none => exact e1
        | some x => rcases ha with ⟨_, e⟩ | e <;> cases e
      · have := h1.2 ⟨p, hp, hw, he, e1⟩
        rw [show g.legalsBy dbg g.rule.flagIllegal = .ok l from e] at this
        cases this
  · obtain ⟨p, hp, _, he, e⟩ := h1.1 e
    refine ⟨p, hp, ?_⟩
    rw [tryPlay_empty h hps hp he, e]
    rfl

theorem Records.flags {g0 g : Game} {r0 r : Nat} (h : Records dbg n g0 r0 r g) : g.rule.flagIllegal = g0.rule.flagIllegal := by
  have put : ∀ {g g' : Game} {x y : Nat}, g.play dbg (.play x y) = .ok g' → g'.rule = g.rule := by
    intro g g' x y e
    rw [play_eq] at e
    obtain ⟨_, _, e⟩ := bind_eq_ok e
    obtain ⟨_, _, e⟩ := bind_eq_ok e
    cases e; rfl
  induction h with
  | start => rfl
  | join _ _ _ _ e ih => rw [put e, ih]
  | other _ _ _ _ e ih => rw [put e, ih]
  | pass _ e ih =>
    unfold Game.play at e
    obtain ⟨_, _, e⟩ := bind_eq_ok e
    cases e; exact ih
  | resign _ e ih => cases e; exact ih
  | resume _ ih => exact ih
  | setKomi _ ih => exact ih

/-- The second case of `C17_any_length` occurs: some game on the 2 × 2 board under the Japanese rule lists a legal point whose
`try_play` panics. -/
theorem C17_listed_and_panics (dbg : Bool) : ∃ m g l p, Reach dbg 2 m g ∧ g.passes ≠ 2 ∧ g.legals dbg = .ok l ∧ OnBoard 2 p ∧ p ∈ l ∧
    g.tryPlay dbg (.play p.1 p.2) = panic := by
  obtain ⟨g0, e0, hf, g, x, y, hp, hR, he, _, e, _⟩ := C87_reached dbg
  obtain ⟨m, hr⟩ := hR.reach hf
  have hps : g.passes ≠ 2 := by
    intro h2
    rw [hr.tryPlay_play hp, if_pos h2] at e
    cases e
  have hrule : g.rule.flagIllegal.superko = false := by
    rw [hR.flags]
    have : okAnd (Game.new (.custom 2 2) JAPANESE) (fun g => decide (g.rule.flagIllegal.superko = false)) = true := by decide +kernel
    obtain ⟨_, e1, h1⟩ := okAnd_iff.1 this
    rw [e0] at e1
    cases e1
    exact of_decide_eq_true h1
  obtain ⟨h1, h2, _⟩ := C17_any_length hr hps
  rcases h1 with ⟨l, el⟩ | el
  · exact ⟨m, g, l, (x, y), hr, hps, el, hp, (h2 l el (x, y) hp hp.1).2 (Or.inr e), e⟩
  · obtain ⟨q, hq, _, _, e'⟩ := (legals_panics hr g.rule.flagIllegal).1.1 el
    have := ((checkPointBy_stuck (dbg := dbg) hr.inv hr.histories hq g.rule.flagIllegal).2.1.1 e').2.1
    rw [hrule] at this
    cases this

/-- Two games whose empty points are checked alike list the same legal moves, or both panic. -/
theorem legals_in_step (hr : Reach dbg n m g) (hr' : Reach dbg' n m' g') {f : IllegalRules}
    (hv : ∀ p, OnBoard n p → (g.goban.getColor p = .ok none ↔ g'.goban.getColor p = .ok none))
    (hc : ∀ p, OnBoard n p → g.goban.getColor p = .ok none → g.checkPointBy dbg p f = g'.checkPointBy dbg' p f) :
    (∃ l, g.legalsBy dbg f = .ok l ∧ g'.legalsBy dbg' f = .ok l) ∨ (g.legalsBy dbg f = panic ∧ g'.legalsBy dbg' f = panic) := by
  obtain ⟨h1, h2⟩ := legals_panics hr f
  obtain ⟨h1', h2'⟩ := legals_panics hr' f
  have hE : g.legalsBy dbg f = panic ↔ g'.legalsBy dbg' f = panic := by
    rw [h1, h1']
    refine exists_congr (fun p => and_congr_right (fun hp => and_congr_right (fun _ => ?_)))
    exact ⟨fun ⟨a, b⟩ => ⟨(hv p hp).1 a, by rw [← hc p hp a]; exact b⟩,
      fun ⟨a, b⟩ => ⟨(hv p hp).2 a, by rw [hc p hp ((hv p hp).2 a)]; exact b⟩⟩
  rcases h2 with ⟨l, e⟩ | e
  · rcases h2' with ⟨l', e'⟩ | e'
    · refine Or.inl ⟨l, e, ?_⟩
      rw [e', (C91_legals_by hr f).of_ok e, (C91_legals_by hr' f).of_ok e']
      congr 1
      apply List.filter_congr
      intro p hp
      have hp := ((mem_scan hr.inv.good).1 hp).1
      rw [decide_eq_decide]
      exact ⟨fun ⟨a, b⟩ => ⟨(hv p hp).2 a, by rw [hc p hp ((hv p hp).2 a)]; exact b⟩,
        fun ⟨a, b⟩ => ⟨(hv p hp).1 a, by rw [← hc p hp a]; exact b⟩⟩
    · rw [hE.2 e'] at e; cases e
  · exact Or.inr ⟨e, hE.1 e⟩

/-- **C62**, legal moves however long the games: with as many stones put that did not join exactly one group of their colour, games
that show the same have the same legal moves, or `legals_by` panics in both. -/
theorem C62_legals_in_step (h : Legal dbg n m g) (h' : Legal dbg' n m' g') (hs : SameGame g g') {r : Nat} (hr : Counted dbg n r g)
    (hr' : Counted dbg' n r g') (f : IllegalRules) :
    (∃ l, g.legalsBy dbg f = .ok l ∧ g'.legalsBy dbg' f = .ok l) ∨ (g.legalsBy dbg f = panic ∧ g'.legalsBy dbg' f = panic) := by
  obtain ⟨o, s, m1, _, hps, hsim⟩ := h.sim
  obtain ⟨o', s', m1', _, hps', hsim'⟩ := h'.sim
  have hsim' := hsim.transfer hsim' hs
  obtain ⟨m2, hm2, hR⟩ := h.reach
  obtain ⟨m2', hm2', hR'⟩ := h'.reach
  have view : ∀ p, OnBoard n p → (g.goban.getColor p = .ok none ↔ s.pos p = none) ∧ (g'.goban.getColor p = .ok none ↔ s.pos p = none) :=
    fun p hp => ⟨by rw [getColor_none hsim.inv hp, hsim.pos p hp], by rw [getColor_none hsim'.inv hp, hsim'.pos p hp]⟩
  exact legals_in_step hR hR' (fun p hp => (view p hp).1.trans (view p hp).2.symm) (fun p hp he =>
    check_in_step hsim hsim' (by rw [hr.length, hr'.length]) hs.historyLength hp ((view p hp).1.1 he) f)

/-- The states agree in all that matters for what is answered without super-ko. -/
structure Agree (n : Dim) (s s' : State) : Prop where
  pos : s'.pos = s.pos
  turn : s'.turn = s.turn
  passes : s'.passes = s.passes
  ko : ∀ p, OnBoard n p → (Spec.KoSeen n s' p ↔ Spec.KoSeen n s p)

theorem Agree.answer {s s' : State} (h : Agree n s s') {r : IllegalRules} (hr : r.superko = false) {c : GOp} (hc : c.OnBoard n) :
    Spec.answerSeen n r.forbidden s' c.call = Spec.answerSeen n r.forbidden s c.call := by
  cases c with
  | resume => rfl
  | setKomi k => rfl
  | try_ mv =>
    cases mv with
    | pass => show (if s'.passes = 2 then Spec.Answer.paused else .ok) = _; rw [h.passes]; rfl
    | resign c => show (if s'.passes = 2 then Spec.Answer.paused else .ok) = _; rw [h.passes]; rfl
    | play x y =>
      show Spec.answerSeen n r.forbidden s' (.play (x, y)) = Spec.answerSeen n r.forbidden s (.play (x, y))
      rw [answerSeen_play, answerSeen_play]
      unfold refusalSeen
      rw [hr, propext (h.ko (x, y) hc), h.pos, h.turn, h.passes]
      simp only [Bool.false_eq_true, false_and]

theorem Agree.step {s s' : State} (h : Agree n s s') {r : IllegalRules} (hr : r.superko = false) {c : GOp} (hc : c.OnBoard n) :
    Agree n (Spec.stepSeen n r.forbidden s c.call).2 (Spec.stepSeen n r.forbidden s' c.call).2 := by
  unfold Spec.stepSeen
  rw [h.answer hr hc]
  split
  · cases c with
    | resume => exact ⟨h.pos, h.turn, rfl, h.ko⟩
    | setKomi k => exact h
    | try_ mv =>
      cases mv with
      | resign c => exact ⟨h.pos, h.turn, h.passes, h.ko⟩
      | pass =>
        refine ⟨h.pos, congrArg Color.opp h.turn, congrArg (· + 1) h.passes, fun p _ => ?_⟩
        exact iff_of_false (fun ⟨⟨b, hb, _⟩, _⟩ => by cases hb) (fun ⟨⟨b, hb, _⟩, _⟩ => by cases hb)
      | play x y =>
        have e1 : ∀ t : State, (Spec.apply n r.forbidden t (.play (x, y))).pos = Spec.play n (!r.forbidden.suicide) t.pos (x, y) t.turn :=
          fun _ => rfl
        have e2 : ∀ t : State, (Spec.apply n r.forbidden t (.play (x, y))).turn = t.turn.opp := fun _ => rfl
        have e3 : ∀ t : State, (Spec.apply n r.forbidden t (.play (x, y))).before = some t.pos := fun _ => rfl
        refine ⟨?_, congrArg Color.opp h.turn, rfl, fun p _ => ?_⟩
        · show (Spec.apply n r.forbidden s' (.play (x, y))).pos = (Spec.apply n r.forbidden s (.play (x, y))).pos
          rw [e1, e1, h.pos, h.turn]
        · show Spec.KoSeen n (Spec.apply n r.forbidden s' (.play (x, y))) p ↔ Spec.KoSeen n (Spec.apply n r.forbidden s (.play (x, y))) p
          unfold Spec.KoSeen
          rw [e1, e1, e2, e2, e3, e3, h.pos, h.turn]
  · exact h

/-- **C116**, however long the games: without super-ko, games that show the same, with the same number of stones put that did not
join exactly one group of their colour, give the same answers to every sequence of calls and show the same afterwards, or panic
together. -/
theorem C116_in_step (h : Legal dbg n m g) (h' : Legal dbg' n m' g') (hsk : g.rule.flagIllegal.superko = false) (hs : ShowsSame g g')
    {r : Nat} (hr : Counted dbg n r g) (hr' : Counted dbg' n r g') {cs : List GOp} (hcs : ∀ c ∈ cs, c.OnBoard n) :
    (∃ es k k', g.run dbg cs = .ok (es, k) ∧ g'.run dbg' cs = .ok (es, k') ∧ ShowsSame k k') ∨
    (g.run dbg cs = panic ∧ g'.run dbg' cs = panic) := by
  obtain ⟨o, s, m1, _, hps, hsim⟩ := h.sim
  obtain ⟨o', s', m1', _, hps', hsim'⟩ := h'.sim
  have hsim' := hsim.transferPast hsim' hs
  have key := lockstep (n := n) (dbg := dbg) (dbg' := dbg') (f := g.rule.flagIllegal) (T := id) (Q := Agree n)
    (fun c hc => hc) (fun x y => ⟨x, y, rfl, fun s s' hq _ => by rw [hq.pos, hq.turn]⟩) (fun c hc => hc)
    (fun s s' c hq hc => ⟨hq.answer hsk hc, hq.answer rfl hc⟩) (fun s s' c hq hc => hq.step hsk hc)
    hsim hsim' hps hps rfl hs.illegal.symm (by rw [hr.length, hr'.length])
    ⟨rfl, rfl, rfl, fun p hp => by rw [hsim.koSeen_iff hp, hsim'.koSeen_iff hp, hs.koPoint]; rfl⟩ hcs
  rw [List.map_id] at key
  rcases key with ⟨⟨⟨es, k⟩, e1⟩, ⟨⟨es', k'⟩, e2⟩⟩ | h
  · obtain ⟨rfl, h2⟩ := C116_past h h' hsk hs hcs e1 e2
    exact Or.inl ⟨_, _, _, e1, e2, h2⟩
  · exact Or.inr h

/-- **C116**, legal moves however long the games, and whatever the numbers of their groups: under every set of forbidden moves without
super-ko `legals_by` returns, and lists the same moves in games that show the same. -/
theorem C116_all_legals (h : Legal dbg n m g) (h' : Legal dbg' n m' g') (hs : ShowsSame g g') {f : IllegalRules}
    (hsk : f.superko = false) : ∃ l, g.legalsBy dbg f = .ok l ∧ g'.legalsBy dbg' f = .ok l := by
  obtain ⟨o, s, m1, _, hps, hsim⟩ := h.sim
  obtain ⟨o', s', m1', _, hps', hsim'⟩ := h'.sim
  have hsim' := hsim.transferPast hsim' hs
  obtain ⟨m2, hm2, hR⟩ := h.reach
  obtain ⟨m2', hm2', hR'⟩ := h'.reach
  have view : ∀ p, OnBoard n p → (g.goban.getColor p = .ok none ↔ s.pos p = none) ∧ (g'.goban.getColor p = .ok none ↔ s.pos p = none) :=
    fun p hp => ⟨by rw [getColor_none hsim.inv hp, hsim.pos p hp], by rw [getColor_none hsim'.inv hp, hsim'.pos p hp]; rfl⟩
  have hc : ∀ p, OnBoard n p → g.goban.getColor p = .ok none →
      ∃ a, g.checkPointBy dbg p f = .ok a ∧ g'.checkPointBy dbg' p f = .ok a := by
    intro p hp he
    have he := (view p hp).1.1 he
    refine check_plain hsim hsim' hp he he hsk ?_
    have hko : Spec.KoSeen n (withPast s s'.played s'.before) p ↔ Spec.KoSeen n s p := by
      rw [hsim.koSeen_iff hp, hsim'.koSeen_iff hp, hs.koPoint]; rfl
    unfold refusalSeen
    rw [hsk, propext hko]
    simp only [Bool.false_eq_true, false_and]
    rfl
  refine (legals_in_step hR hR' (fun p hp => (view p hp).1.trans (view p hp).2.symm) (fun p hp he => ?_)).resolve_right (fun e => ?_)
  · obtain ⟨a, e1, e2⟩ := hc p hp he
    rw [e1, e2]
  · obtain ⟨p, hp, _, he, e⟩ := (legals_panics hR f).1.1 e.1
    obtain ⟨a, e1, _⟩ := hc p hp he
    rw [e1] at e; cases e

/-- Two games in the same state of the abstract game whose tables do not have the same room do not panic at the same call. -/
theorem out_of_step {o : Option EndGame} : ∀ {cs : List GOp} {m m' : Nat} {g g' : Game} {s : State}, Sim dbg n m o g s →
    Sim dbg' n m' o g' s → s.passes ≤ 2 → g.rule.flagIllegal = g'.rule.flagIllegal →
    g'.goban.chains.length ≠ g.goban.chains.length → (∀ c ∈ cs, c.OnBoard n) → (g.run dbg cs = panic ∨ g'.run dbg' cs = panic) →
    ∃ a, a <+: cs ∧ (((∃ r, g.run dbg a = .ok r) ∧ g'.run dbg' a = panic) ∨ (g.run dbg a = panic ∧ ∃ r, g'.run dbg' a = .ok r))
  | [], _, _, _, _, _, _, _, _, _, _, _, hp => by rcases hp with hp | hp <;> cases hp
  | c :: cs, m, m', g, g', s, h, h', hps, hf, hl, hcs, hp => by
    have hc := hcs c (by simp)
    obtain ⟨t1, p1⟩ := h.call_panics hps hc
    obtain ⟨t2, p2⟩ := h'.call_panics hps hc
    have one : ∀ {d : Bool} {k k1 : Game} {a : Option PlayError}, k.call d c = .ok (a, k1) → ∃ r, k.run d [c] = .ok r := by
      intro d k k1 a e
      rw [run_cons_eq, e, ok_bind]; exact ⟨_, rfl⟩
    have none' : ∀ {d : Bool} {k : Game}, k.call d c = panic → k.run d [c] = panic := by
      intro d k e
      rw [run_cons_eq, e]; rfl
    have pre : [c] <+: c :: cs := ⟨cs, rfl⟩
    rcases t1 with ⟨⟨a, g1⟩, e1⟩ | e1
    · rcases t2 with ⟨⟨a', g1'⟩, e2⟩ | e2
      · obtain ⟨b1, ⟨m1, _, c1⟩, d1, f1⟩ := (h.call_seen (dbg := dbg) c hc hps).of_ok e1
        obtain ⟨b2, ⟨m2, _, c2⟩, d2, f2⟩ := (h'.call_seen (dbg := dbg') c hc hps).of_ok e2
        rw [← hf] at b2 c2 f2
        have hab : a' = a := toAnswer_inj (b2.trans b1.symm)
        subst hab
        rw [run_cons_eq, run_cons_eq, e1, e2, ok_bind, ok_bind] at hp
        have hp' : g1.run dbg cs = panic ∨ g1'.run dbg' cs = panic := by
          have drop : ∀ {x : M (List (Option PlayError) × Game)} {f : List (Option PlayError) × Game → List (Option PlayError) × Game},
              (do let r ← x; .ok (f r) : M _) = panic → x = panic := by
            intro x f hx
            cases x with
            | ok r => cases hx
            | error e => cases hx; rfl
          rcases hp with hp | hp
          · exact Or.inl (drop hp)
          · exact Or.inr (drop hp)
        obtain ⟨b, hb, hb'⟩ := out_of_step (cs := cs) c1 c2 f1 (by rw [d1, d2, hf])
          (by rw [h.call_length hc e1, h'.call_length hc e2]; omega) (fun c hc => hcs c (by simp [hc])) hp'
        refine ⟨c :: b, List.cons_prefix_cons.2 ⟨rfl, hb⟩, ?_⟩
        rw [run_cons_eq, run_cons_eq, e1, e2, ok_bind, ok_bind]
        rcases hb' with ⟨⟨r, e3⟩, e4⟩ | ⟨e3, ⟨r, e4⟩⟩
        · exact Or.inl ⟨by rw [e3]; exact ⟨_, rfl⟩, by rw [e4]; rfl⟩
        · exact Or.inr ⟨by rw [e3]; rfl, by rw [e4]; exact ⟨_, rfl⟩⟩
      · exact ⟨[c], pre, Or.inl ⟨one e1, none' e2⟩⟩
    · rcases t2 with ⟨⟨a', g1'⟩, e2⟩ | e2
      · exact ⟨[c], pre, Or.inr ⟨none' e1, one e2⟩⟩
      · obtain ⟨_, _, _, q1, _⟩ := p1.1 e1
        obtain ⟨_, _, _, q2, _⟩ := p2.1 e2
        unfold Game.Full at q1 q2
        omega

/-- **C62**: the number of stones put that did not join exactly one group of their colour cannot be left out of `C62_in_step`. If it
is not the same in two games that show the same, then every sequence of calls on which one of them panics begins with one on which
exactly one of them does. -/
theorem C62_out_of_step (h : Legal dbg n m g) (h' : Legal dbg' n m' g') (hs : SameGame g g') {r r' : Nat} (hr : Counted dbg n r g)
    (hr' : Counted dbg' n r' g') (hne : r ≠ r') {cs : List GOp} (hcs : ∀ c ∈ cs, c.OnBoard n)
    (hp : g.run dbg cs = panic ∨ g'.run dbg' cs = panic) :
    ∃ a, a <+: cs ∧ (((∃ x, g.run dbg a = .ok x) ∧ g'.run dbg' a = panic) ∨ (g.run dbg a = panic ∧ ∃ x, g'.run dbg' a = .ok x)) := by
  obtain ⟨o, s, m1, _, hps, hsim⟩ := h.sim
  obtain ⟨o', s', m1', _, hps', hsim'⟩ := h'.sim
  exact out_of_step hsim (hsim.transfer hsim' hs) hps hs.illegal (by rw [hr.length, hr'.length]; exact hne.symm) hcs hp

theorem Fresh.counted (hf : Fresh dbg n m g) : Counted dbg n g.goban.chains.length g := by
  obtain ⟨r0, _, hb, _⟩ := C87_start hf
  rw [hb.length]
  exact ⟨g, m, r0, hf, hb, .start⟩

/-- From a game on the 2 × 2 board under the Japanese rule in which `exCycle` is accepted and leads back, some calls panic. -/
theorem cycle_panics {ga gb : Game} {eb : List (Option PlayError)} {m1 : Nat} {s0 : State} (a2 : Sim dbg 2 m1 none ga s0)
    (a4 : s0.passes ≤ 2) (hb0 : s0.before = none) (a3 : ga.rule.flagIllegal = JAPANESE.flagIllegal)
    (e2 : ga.run dbg exCycle = .ok (eb, gb)) (hb : ∀ x ∈ eb, x = none) (t1 : ga.turn = .black) (t2 : gb.turn = .black)
    (hps : ga.passes = gb.passes) (hv : ∀ p ∈ Spec.points 2, ga.goban.view p = gb.goban.view p)
    (v1 : ga.goban.view (0, 1) ≠ some .black) (v2 : ga.goban.view (1, 0) ≠ some .black) :
    ∃ cs : List GOp, (∀ c ∈ cs, c.OnBoard 2) ∧ ga.run dbg cs = panic := by
  obtain ⟨c1, ⟨m2, _, c2⟩, _, _⟩ := Sim.run exCycle a2 a4 (by rw [a3]; exact Or.inl rfl) (by decide) e2
  rw [a3] at c1 c2
  have hrun : ∀ a ∈ (Spec.run 2 JAPANESE.flagIllegal.forbidden s0 (exCycle.map GOp.call)).1, a = .ok := by
    intro a ha'
    rw [← c1] at ha'
    obtain ⟨x, hx, rfl⟩ := List.mem_map.1 ha'
    rw [hb x hx]; rfl
  have hback : Like 2 (Spec.run 2 JAPANESE.flagIllegal.forbidden s0 (exCycle.map GOp.call)).2 s0 := by
    refine ⟨?_, ?_, ?_, Or.inl ⟨?_, hb0⟩⟩
    · intro p hp
      rw [← c2.pos p hp, ← a2.pos p hp, hv p (mem_points.2 hp)]
    · rw [← c2.turn, ← a2.turn, t1, t2]
    · rw [← c2.passes, ← a2.passes, hps]
    · rw [run_all_ok _ hrun]; rfl
  have hst : s0.turn = .black := by rw [← a2.turn, t1]
  have hpos : s0.pos (0, 1) ≠ some .black ∧ s0.pos (1, 0) ≠ some .black := by
    rw [← a2.pos (0, 1) (by decide), ← a2.pos (1, 0) (by decide)]
    exact ⟨v1, v2⟩
  have bad : ∀ (j : Nat) (g : Game), InCycle dbg s0 g → 65536 - g.goban.chains.length ≤ j →
      ∃ cs : List GOp, (∀ c ∈ cs, c.OnBoard 2) ∧ g.run dbg cs = panic := by
    intro j
    induction j with
    | zero =>
      intro g ⟨m, s, hs, _⟩ hj
      have := hs.inv.rep.few
      omega
    | succ j ih =>
      intro g hg hj
      obtain ⟨m, s, hs, hp, _⟩ := id hg
      rcases Sim.run_safe (dbg := dbg) exCycle hs hp (by decide) with ⟨⟨es, g'⟩, e⟩ | e
      · obtain ⟨hg', hl⟩ := cycle_step hst hpos hrun hback hg e
        obtain ⟨cs, hcs, ecs⟩ := ih g' hg' (by omega)
        refine ⟨exCycle ++ cs, ?_, ?_⟩
        · intro c hc
          rcases List.mem_append.1 hc with hc | hc
          · exact (by decide : ∀ c ∈ exCycle, c.OnBoard 2) c hc
          · exact hcs c hc
        · rw [run_append, e, ok_bind]
          dsimp only
          rw [ecs]; rfl
      · exact ⟨exCycle, by decide, e⟩
  exact bad _ ga ⟨m1, s0, a2, a4, ⟨SameOn.refl _, rfl, rfl, Or.inl ⟨hb0, hb0⟩⟩, a3⟩ (Nat.le_refl _)

/-- White takes the three handicap stones and the whole lower row; two passes and a resumption. -/
def exHandicap : List GOp := [.try_ (.play 1 0), .try_ .pass, .try_ (.play 1 1), .try_ .pass, .try_ .pass, .resume]

/-- **C62**: two games that show the same and do not always panic together: three handicap stones on the 2 × 2 board in two orders,
one after the other along the row (one stone that joins none) and the two ends first (two that join none, and one that connects). -/
theorem C62_count_matters (dbg : Bool) : ∃ g g' a, Legal dbg 2 3 g ∧ Legal dbg 2 3 g' ∧ SameGame g g' ∧ Counted dbg 2 1 g ∧
    Counted dbg 2 3 g' ∧ (∀ c ∈ a, c.OnBoard 2) ∧
    (((∃ x, g.run dbg a = .ok x) ∧ g'.run dbg a = panic) ∨ (g.run dbg a = panic ∧ ∃ x, g'.run dbg a = .ok x)) := by
  have key : okAnd (do
      let g0 ← Game.new (.custom 2 2) JAPANESE
      let g ← g0.putHandicap dbg [(0, 0), (0, 1), (1, 1)]
      let g' ← g0.putHandicap dbg [(0, 0), (1, 1), (0, 1)]
      let r ← g.goban.beq g'.goban
      let a ← g.run dbg exHandicap
      let b ← a.2.run dbg exCycle
      .ok (g0, g, g', r, a, b)) (fun r => r.2.2.2.1 && decide (r.2.1.turn = r.2.2.1.turn) && decide (r.2.1.passes = r.2.2.1.passes) &&
        decide (r.2.1.prisoners = r.2.2.1.prisoners) && decide (r.2.1.outcome = r.2.2.1.outcome) &&
        decide (r.2.1.rule.flagIllegal = r.2.2.1.rule.flagIllegal) && decide (r.2.1.koPoint = r.2.2.1.koPoint) &&
        r.2.1.history.isEmpty && r.2.2.1.history.isEmpty && r.2.1.goban.allAlive && r.2.2.1.goban.allAlive &&
        [(0, 0), (0, 1), (1, 1)].all (fun p => decide (r.1.goban.getColor p = .ok none)) &&
        decide (r.2.1.goban.chains.length = 1) && decide (r.2.2.1.goban.chains.length = 3) &&
        decide (r.2.1.outcome = none ∧ r.2.1.rule = JAPANESE) &&
        (r.2.2.2.2.1.1.all (fun x => decide (x = none)) && r.2.2.2.2.2.1.all (fun x => decide (x = none))) &&
        decide (r.2.2.2.2.1.2.turn = .black ∧ r.2.2.2.2.2.2.turn = .black ∧ r.2.2.2.2.1.2.passes = r.2.2.2.2.2.2.passes ∧
        (∀ p ∈ Spec.points 2, r.2.2.2.2.1.2.goban.view p = r.2.2.2.2.2.2.goban.view p) ∧
        r.2.2.2.2.1.2.goban.view (0, 1) ≠ some .black ∧ r.2.2.2.2.1.2.goban.view (1, 0) ≠ some .black)) = true := by
    cases dbg <;> decide +kernel
  obtain ⟨r, e, hc⟩ := okAnd_iff.1 key
  obtain ⟨g0, e0, e⟩ := bind_eq_ok e
  obtain ⟨g, e1, e⟩ := bind_eq_ok e
  obtain ⟨g', e2, e⟩ := bind_eq_ok e
  obtain ⟨b, e3, e⟩ := bind_eq_ok e
  obtain ⟨⟨ea, ga⟩, e4, e⟩ := bind_eq_ok e
  obtain ⟨⟨eb, gb⟩, e5, e⟩ := bind_eq_ok e
  cases e
  simp only [Bool.and_eq_true, decide_eq_true_eq, List.all_eq_true, List.isEmpty_iff] at hc
  obtain ⟨⟨⟨⟨⟨⟨⟨⟨⟨⟨⟨⟨⟨⟨⟨⟨rfl, c1⟩, c2⟩, c3⟩, c4⟩, c5⟩, c6⟩, c7⟩, c8⟩, c9⟩, c10⟩, c11⟩, c12⟩, c13⟩, c14⟩, ha, hb⟩, t1, t2, hps, hv, v1, v2⟩ := hc
  have hon : ∀ p ∈ [((0 : Nat), (0 : Nat)), (0, 1), (1, 1)], OnBoard 2 p := by decide
  have f1 : Fresh dbg 2 3 g := .handicap (ps := [(0, 0), (0, 1), (1, 1)]) (new_fresh (by decide) e0) (by decide)
    (fun p hp => ⟨hon p hp, c11 p hp⟩) e1
  have hsub : ∀ p ∈ [((0 : Nat), (0 : Nat)), (1, 1), (0, 1)], p ∈ [((0 : Nat), (0 : Nat)), (0, 1), (1, 1)] := by decide
  have f2 : Fresh dbg 2 3 g' := .handicap (ps := [(0, 0), (1, 1), (0, 1)]) (new_fresh (by decide) e0) (by decide)
    (fun p hp => ⟨hon p (hsub p hp), c11 p (hsub p hp)⟩) e2
  have r1 : Reach dbg 2 3 g := .fresh f1
  have r2 : Reach dbg 2 3 g' := .fresh f2
  have hd := noDead_of_allAlive r1.inv c9
  have l1 : Legal dbg 2 3 g := .fresh f1 hd
  have l2 : Legal dbg 2 3 g' := .fresh f2 (noDead_of_allAlive r2.inv c10)
  have hs : SameGame g g' := ⟨e3, c1, c2, c3, c4, c5, c6, by rw [c7, c8], fun i a b h => by rw [c7] at h; simp at h⟩
  have k1 := f1.counted
  have k2 := f2.counted
  rw [c12] at k1
  rw [c13] at k2
  have hsim := f1.sim hd
  rw [c14.1] at hsim
  obtain ⟨a1, ⟨m1, _, a2⟩, a3, a4⟩ := Sim.run exHandicap hsim (Nat.zero_le _) (by rw [c14.2]; exact Or.inl rfl) (by decide) e4
  rw [c14.2] at a1 a2 a3 a4
  generalize hs0 : (Spec.run 2 JAPANESE.flagIllegal.forbidden (State.start g.goban.view g.turn) (exHandicap.map GOp.call)).2 = s0 at a2 a4
  have hb0 : s0.before = none := by
    rw [← hs0, run_all_ok]
    · rfl
    · intro a ha'
      rw [← a1] at ha'
      obtain ⟨x, hx, rfl⟩ := List.mem_map.1 ha'
      rw [ha x hx]; rfl
  obtain ⟨cs, hcs, ecs⟩ := cycle_panics a2 a4 hb0 a3 e5 hb t1 t2 hps hv v1 v2
  have hall : ∀ c ∈ exHandicap ++ cs, c.OnBoard 2 := by
    intro c hc
    rcases List.mem_append.1 hc with hc | hc
    · exact (by decide : ∀ c ∈ exHandicap, c.OnBoard 2) c hc
    · exact hcs c hc
  obtain ⟨a, hpre, h⟩ := C62_out_of_step l1 l2 hs k1 k2 (by decide) hall (Or.inl (by
    rw [run_append, e4, ok_bind]
    dsimp only
    rw [ecs]; rfl))
  exact ⟨g, g', a, l1, l2, hs, k1, k2, fun c hc => hall c (hpre.subset hc), h⟩

/-- Both cases of `C44_in_step` occur: on the empty 2 × 2 board under the Japanese rule, Black or White to begin (an empty handicap
gives White the move), some calls panic in both games. (That both return is in the example beside `C44_colour_symmetry`.) -/
theorem C44_both_panic (dbg : Bool) : ∃ g0 g0' cs, Fresh dbg 2 0 g0 ∧ Fresh dbg 2 0 g0' ∧ NoDead 2 g0.goban.view ∧
    g0'.rule.flagIllegal = g0.rule.flagIllegal ∧ Swapped 2 g0 g0' ∧ BoardRecords dbg 2 0 g0.goban ∧ BoardRecords dbg 2 0 g0'.goban ∧
    (∀ c ∈ cs, c.OnBoard 2) ∧ g0.run dbg cs = panic ∧ g0'.run dbg (cs.map GOp.swap) = panic := by
  obtain ⟨g0, hf, e0, cs, hcs, e⟩ := C27_false dbg
  have key : okAnd (do
      let g0 ← Game.new (.custom 2 2) JAPANESE
      let g0' ← g0.putHandicap dbg []
      .ok (g0, g0')) (fun r => decide (r.2.rule.flagIllegal = r.1.rule.flagIllegal ∧ r.2.turn = r.1.turn.opp ∧ r.2.passes = r.1.passes ∧
        r.2.prisoners = (r.1.prisoners.2, r.1.prisoners.1) ∧ r.2.outcome = r.1.outcome.map EndGame.swap ∧
        ∀ p ∈ Spec.points 2, r.1.goban.getColor p = .ok none ∧ r.2.goban.getColor p = .ok none)) = true := by
    cases dbg <;> decide +kernel
  obtain ⟨r, er, hr⟩ := okAnd_iff.1 key
  obtain ⟨g1, e1, er⟩ := bind_eq_ok er
  obtain ⟨g0', e2, er⟩ := bind_eq_ok er
  cases er
  rw [e0] at e1
  cases e1
  obtain ⟨h1, h2, h3, h4, h5, h6⟩ := of_decide_eq_true hr
  have hf' : Fresh dbg 2 0 g0' := .handicap (ps := []) hf (by decide) (by simp) e2
  obtain ⟨r0, hr0, hb, _⟩ := C87_start hf
  obtain ⟨r1, hr1, hb', _⟩ := C87_start hf'
  obtain rfl : r0 = 0 := by omega
  obtain rfl : r1 = 0 := by omega
  have hd : NoDead 2 g0.goban.view := by
    refine noDead_empty (fun p hp => ?_)
    unfold Goban.view
    rw [(h6 p (mem_points.2 hp)).1]
  have hs : Swapped 2 g0 g0' := ⟨fun p hp => ⟨none, h6 p (mem_points.2 hp)⟩, h2, h3, h4, h5⟩
  refine ⟨g0, g0', cs, hf, hf', hd, h1, hs, hb, hb', hcs, e, ?_⟩
  rcases C44_in_step hf hf' hd h1 hs hb hb' hcs with ⟨_, _, _, e', _⟩ | h
  · rw [e] at e'; cases e'
  · exact h.2

end Model
