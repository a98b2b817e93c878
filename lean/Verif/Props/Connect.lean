import Verif.Props.Atari
/-!
# Two groups with two common liberties cannot be cut: C126
-/

namespace Model
open Spec (OnBoard Adj Linked HasLiberty NoDead place SameOn Pos Suicide)

variable {dbg : Bool} {n : Dim} {m : Nat} {g g1 : Game}

theorem play_own {sa : Bool} {pos : Pos} {p : Coord} {c : Color} (h : ¬ Suicide n pos p c) : Spec.play n sa pos p c p = some c := by
  unfold Spec.play
  cases sa with
  | false => exact after_self
  | true =>
    show Spec.removeDead n (after n pos p c) c p = _
    unfold Spec.removeDead
    rw [if_neg (fun h' => h'.2 (Classical.not_not.1 h)), after_self]

/-- A call that hands the move over puts at most one stone, and no ko arises on a point that was empty. -/
theorem hand_over (h : Legal dbg n m g) {op : GOp} (hop : op.OnBoard n) (e : g.call dbg op = .ok (none, g1)) (ht : g1.turn = g.turn.opp) :
    ∃ S : List Coord, S.length ≤ 1 ∧ Later dbg n g S g1 ∧ ∀ p, OnBoard n p → g.goban.getColor p = .ok none →
      g1.goban.getColor p = .ok none → g1.checkKo dbg ⟨p, g1.turn⟩ = .ok false := by
  obtain ⟨o, s, m', _, hps, hs⟩ := h.sim
  obtain ⟨h1, ⟨m'', _, hs1⟩, hf, _⟩ := (hs.call_seen op hop hps).of_ok e
  dsimp only at hs1 hf h1
  unfold Spec.stepSeen at hs1 h1
  by_cases ha : Spec.answerSeen n g.rule.flagIllegal.forbidden s op.call = .ok
  swap
  · rw [if_neg ha] at h1
    exact absurd h1.symm ha
  rw [if_pos ha] at hs1
  have hko : ∀ p, OnBoard n p → g1.goban.getColor p = .ok none →
      ¬ Spec.KoSeen n (Spec.apply n g.rule.flagIllegal.forbidden s op.call) p → g1.checkKo dbg ⟨p, g1.turn⟩ = .ok false := by
    intro p hp he hk
    obtain ⟨b, eb, hb⟩ := hs1.checkKo_seen hp (by rw [← hs1.pos p hp]; exact (getColor_none hs1.inv hp).1 he)
    cases b with
    | false => exact eb
    | true => exact absurd (hb.1 rfl) hk
  have hturn := hs1.turn
  rw [ht, hs.turn] at hturn
  cases op with
  | resume => cases hc : s.turn <;> rw [show (Spec.apply n g.rule.flagIllegal.forbidden s (GOp.resume).call).turn = s.turn from rfl, hc] at hturn <;> cases hturn
  | setKomi k => cases hc : s.turn <;> rw [show (Spec.apply n g.rule.flagIllegal.forbidden s (GOp.setKomi k).call).turn = s.turn from rfl, hc] at hturn <;> cases hturn
  | try_ mv =>
    cases mv with
    | resign c => cases hc : s.turn <;> rw [show (Spec.apply n g.rule.flagIllegal.forbidden s (GOp.try_ (.resign c)).call).turn = s.turn from rfl, hc] at hturn <;> cases hturn
    | pass =>
      refine ⟨[], by simp, .pass .start (C13_accepted_is_play e), fun p hp _ he => hko p hp he ?_⟩
      rintro ⟨⟨b, hb, _⟩, _⟩
      cases hb
    | play x y =>
      refine ⟨[(x, y)], by simp, Later.tryPlay .start hop e, fun p hp he0 he => hko p hp he ?_⟩
      rintro ⟨⟨b, hb, hb'⟩, _⟩
      cases hb
      have h2 := ((hb' p hp).2 rfl).1
      rw [← hs.pos p hp, (getColor_none hs.inv hp).1 he0] at h2
      cases h2

/-- **C126**. Two groups of the player who is not to move have two common liberties `i` and `j`, and one of them has a third liberty `t`.
After any accepted call that hands the move over, one of the two points is empty. A stone of the player on an empty one of them is
accepted, or refused by the fill-eye rule or by super-ko, or panics in a game of at least 65,535 stones; once it is accepted, all stones of both groups are in one group. -/
theorem C126_connect (h : Legal dbg n m g) {k1 k2 : Nat} {grp1 grp2 : Group} {l1 l2 : List Stone}
    (hk1 : g.goban.chains.chainAt k1 = .ok grp1) (el1 : g.goban.chainStonesIdx dbg k1 = .ok l1)
    (hk2 : g.goban.chains.chainAt k2 = .ok grp2) (el2 : g.goban.chainStonesIdx dbg k2 = .ok l2)
    (hc1 : grp1.color = g.turn.opp) (hc2 : grp2.color = g.turn.opp) {i j t : Nat} (hij : i ≠ j) (hti : t ≠ i) (htj : t ≠ j)
    (hi1 : i ∈ grp1.libertiesVec) (hi2 : i ∈ grp2.libertiesVec) (hj1 : j ∈ grp1.libertiesVec) (hj2 : j ∈ grp2.libertiesVec)
    (ht : t ∈ grp1.libertiesVec ∨ t ∈ grp2.libertiesVec) {op : GOp} (hop : op.OnBoard n) (e : g.call dbg op = .ok (none, g1))
    (hturn : g1.turn = g.turn.opp) (hps : g1.passes ≠ 2) :
    (∃ x y, OnBoard n (x, y) ∧ (x * n.h + y = i ∨ x * n.h + y = j) ∧ g1.goban.getColor (x, y) = .ok none) ∧
    ∀ x y, OnBoard n (x, y) → (x * n.h + y = i ∨ x * n.h + y = j) → g1.goban.getColor (x, y) = .ok none →
      Safe (65535 ≤ m + 1) (g1.tryPlay dbg (.play x y)) fun (e, g2) =>
        (e = none → ∃ k' grp' l', g2.goban.chains.chainAt k' = .ok grp' ∧ g2.goban.chainStonesIdx dbg k' = .ok l' ∧
          grp'.color = g1.turn ∧ ∀ s, s ∈ l1 ∨ s ∈ l2 → s ∈ l') ∧
        (e ≠ none → (e = some .fillEye ∧ g1.rule.flagIllegal.fillEye = true) ∨
          (e = some .ko ∧ g1.rule.flagIllegal.superko = true ∧ g1.checkSuperKo dbg ⟨(x, y), g1.turn⟩ = .ok true)) := by
  obtain ⟨S, hS1, hlater, hnoko⟩ := hand_over h hop e hturn
  obtain ⟨m1, _, hrc⟩ := h.reach
  have hL1 : Legal dbg n (m + 1) g1 := by
    cases op with
    | try_ mv => exact .tryPlay h hop e
    | resume => cases e; cases hg : g.turn <;> rw [show g.resume.turn = g.turn from rfl, hg] at hturn <;> cases hturn
    | setKomi k => cases e; cases hg : g.turn <;> rw [show (g.setKomi k).turn = g.turn from rfl, hg] at hturn <;> cases hturn
  obtain ⟨m2, _, hrc1⟩ := hL1.reach
  obtain ⟨o1, s1, _, _, _, hs1⟩ := hL1.sim
  have hI1 := hrc1.inv
  -- at most one of the three points has been played on
  have hfree : ∀ {a b : Nat}, a ≠ b → (∀ p ∈ S, p.1 * n.h + p.2 ≠ a) ∨ (∀ p ∈ S, p.1 * n.h + p.2 ≠ b) := by
    intro a b hab
    match S, hS1 with
    | [], _ => exact Or.inl (by simp)
    | [p], _ =>
      by_cases hp : p.1 * n.h + p.2 = a
      · exact Or.inr (by intro q hq; rw [List.mem_singleton.1 hq, hp]; exact hab)
      · exact Or.inl (by intro q hq; rw [List.mem_singleton.1 hq]; exact hp)
  -- a group of `g` that keeps a liberty
  have hkeep : ∀ {k grp l a}, g.goban.chains.chainAt k = .ok grp → g.goban.chainStonesIdx dbg k = .ok l → a ∈ grp.libertiesVec →
      (∀ p ∈ S, p.1 * n.h + p.2 ≠ a) → ∃ k' grp' l', g1.goban.chains.chainAt k' = .ok grp' ∧ g1.goban.chainStonesIdx dbg k' = .ok l' ∧
        grp'.color = grp.color ∧ (∀ s ∈ l, s ∈ l') ∧
        ∀ j ∈ grp.libertiesVec, (∀ p ∈ S, p.1 * n.h + p.2 ≠ j) → j ∈ grp'.libertiesVec := by
    intro k grp l a b1 b2 b3 b4
    obtain ⟨k', grp', l', c1, c2, c3, c4, c5⟩ := C115_stands hrc hlater b1 b2 b3 b4
    exact ⟨k', grp', l', c1, c2, c3, fun s hs => (c4 s hs).1, c5⟩
  have hpoint : ∀ {k grp l a}, g1.goban.chains.chainAt k = .ok grp → g1.goban.chainStonesIdx dbg k = .ok l → a ∈ grp.libertiesVec →
      ∃ r, OnBoard n r ∧ r.1 * n.h + r.2 = a ∧ g1.goban.getColor r = .ok none ∧ ∃ s ∈ l, Adj s.coord r :=
    fun b1 b2 b3 => ((C03_liberties hrc1.spec.board b1 b2).2.1 _).1 b3
  have hempty0 : ∀ {k grp l a}, g.goban.chains.chainAt k = .ok grp → g.goban.chainStonesIdx dbg k = .ok l → a ∈ grp.libertiesVec →
      ∀ {r}, OnBoard n r → r.1 * n.h + r.2 = a → g.goban.getColor r = .ok none := by
    intro k grp l a b1 b2 b3 r hr hra
    obtain ⟨r', r1, r2, r3, _⟩ := ((C03_liberties hrc.spec.board b1 b2).2.1 _).1 b3
    obtain rfl := twoTo1_inj hrc.inv.good r1 hr (r2.trans hra.symm)
    exact r3
  constructor
  · rcases hfree hij with hf | hf
    · obtain ⟨k', grp', l', c1, c2, _, _, c5⟩ := hkeep hk1 el1 hi1 hf
      obtain ⟨⟨x, y⟩, r1, r2, r3, _⟩ := hpoint c1 c2 (c5 i hi1 hf)
      exact ⟨x, y, r1, Or.inl r2, r3⟩
    · obtain ⟨k', grp', l', c1, c2, _, _, c5⟩ := hkeep hk1 el1 hj1 hf
      obtain ⟨⟨x, y⟩, r1, r2, r3, _⟩ := hpoint c1 c2 (c5 j hj1 hf)
      exact ⟨x, y, r1, Or.inr r2, r3⟩
  · intro x y hp hxy he
    have hpos := (getColor_none hI1 hp).1 he
    have hc : ∀ {k grp}, g.goban.chains.chainAt k = .ok grp → i ∈ grp.libertiesVec → j ∈ grp.libertiesVec →
        x * n.h + y ∈ grp.libertiesVec := by
      rintro k grp _ b1 b2
      rcases hxy with h' | h' <;> rw [h'] <;> assumption
    -- both groups stand, next to the point
    have hstand : ∀ {k grp l}, g.goban.chains.chainAt k = .ok grp → g.goban.chainStonesIdx dbg k = .ok l → i ∈ grp.libertiesVec →
        j ∈ grp.libertiesVec → ∃ k' grp' l', g1.goban.chains.chainAt k' = .ok grp' ∧ g1.goban.chainStonesIdx dbg k' = .ok l' ∧
          grp'.color = grp.color ∧ (∀ s ∈ l, s ∈ l') ∧ (∃ s ∈ l', Adj s.coord (x, y)) ∧
          ∀ j ∈ grp.libertiesVec, (∀ p ∈ S, p.1 * n.h + p.2 ≠ j) → j ∈ grp'.libertiesVec := by
      intro k grp l b1 b2 b3 b4
      obtain ⟨r, r1, r2, _, s, r4, r5⟩ := ((C03_liberties hrc.spec.board b1 b2).2.1 _).1 (hc b1 b3 b4)
      obtain rfl := twoTo1_inj hrc.inv.good r1 hp r2
      rcases hfree hij with hf | hf
      · obtain ⟨k', grp', l', c1, c2, c3, c4, c5⟩ := hkeep b1 b2 b3 hf
        exact ⟨k', grp', l', c1, c2, c3, c4, ⟨s, c4 s r4, r5⟩, c5⟩
      · obtain ⟨k', grp', l', c1, c2, c3, c4, c5⟩ := hkeep b1 b2 b4 hf
        exact ⟨k', grp', l', c1, c2, c3, c4, ⟨s, c4 s r4, r5⟩, c5⟩
    obtain ⟨k1', grp1', l1', a1, a2, a3, a4, ⟨u1, a5, a6⟩, a7⟩ := hstand hk1 el1 hi1 hj1
    obtain ⟨k2', grp2', l2', b1, b2, b3, b4, ⟨u2, b5, b6⟩, b7⟩ := hstand hk2 el2 hi2 hj2
    have hns : ¬ Suicide n g1.goban.view (x, y) g1.turn := by
      have key : ∀ {k grp l u a}, g1.goban.chains.chainAt k = .ok grp → g1.goban.chainStonesIdx dbg k = .ok l → u ∈ l → Adj u.coord (x, y) →
          grp.color = g.turn.opp → a ∈ grp.libertiesVec → x * n.h + y ≠ a → ¬ Suicide n g1.goban.view (x, y) g1.turn := by
        intro k grp l u a c1 c2 c3 c4 c5 c6 c7
        obtain ⟨r, r1, r2, r3, v, r4, r5⟩ := hpoint c1 c2 c6
        have c1' := live_ch.1 c1
        obtain ⟨l3, hsp⟩ := group_spec (dbg := dbg) hI1 c1'
        rw [hsp.stones] at c2
        cases c2
        obtain ⟨d1, d2, _⟩ := hsp.view hI1 c1' c3
        rw [suicide_local hs1.noDead' hp hpos]
        refine Or.inr (Or.inl ⟨u.coord, r, adj_symm c4, d1, by rw [d2, c5, hturn], ⟨r1, (getColor_none hI1 r1).1 r3, v.coord,
          (hsp.linked hI1 c1' c3).1 (List.mem_map.2 ⟨v, r4, rfl⟩), r5⟩, ?_⟩)
        rintro rfl
        exact c7 r2
      have hb : ∃ b, x * n.h + y ≠ b ∧ b ≠ t ∧ b ∈ grp1.libertiesVec := by
        rcases hxy with h' | h'
        · exact ⟨j, by omega, htj.symm, hj1⟩
        · exact ⟨i, by omega, hti.symm, hi1⟩
      obtain ⟨b, hb1, hb2, hb3⟩ := hb
      have hbt : x * n.h + y ≠ t := by rcases hxy with h' | h' <;> omega
      rcases hfree hb2 with hf | hf
      · exact key a1 a2 a5 a6 (a3.trans hc1) (a7 b hb3 hf) hb1
      · rcases ht with ht | ht
        · exact key a1 a2 a5 a6 (a3.trans hc1) (a7 t ht hf) hbt
        · exact key b1 b2 b5 b6 (b3.trans hc2) (b7 t ht hf) hbt
    have he0 : g.goban.getColor (x, y) = .ok none := hempty0 hk1 el1 (hc hk1 hi1 hj1) hp rfl
    rcases C13_decision hL1 hps hp with ⟨⟨e, g2⟩, e2, hdec⟩ | hf
    · refine Or.inl ⟨(e, g2), e2, ?_, ?_⟩
      · rintro rfl
        have hp2 := C13_accepted_is_play e2
        have hr2 := Reach.play hrc1 hp he hp2
        have hv : g2.goban.view (x, y) = some g1.turn := by
          rw [(C09_play hrc1 hs1.noDead' hp he).of_ok hp2 _ hp, play_own hns]
        obtain ⟨k', grp', d1, d2, d3⟩ := hr2.inv.view_some hp hv
        obtain ⟨l', hs'⟩ := group_spec (dbg := dbg) hr2.inv d2
        have hown := C120_own hrc1 hp he hp2 (live_ch.2 d2) hs'.stones ((hs'.mem _).2 ⟨hp, d1⟩)
        refine ⟨k', grp', l', live_ch.2 d2, hs'.stones, hown.1, ?_⟩
        rintro s (hs | hs)
        · exact (hown.2.1 s).2 (Or.inr ⟨k1', grp1', l1', a1, a2, by rw [a3, hc1, hturn], ⟨u1, a5, a6⟩, a4 s hs⟩)
        · exact (hown.2.1 s).2 (Or.inr ⟨k2', grp2', l2', b1, b2, by rw [b3, hc2, hturn], ⟨u2, b5, b6⟩, b4 s hs⟩)
      · intro hen
        dsimp only at hdec
        rw [if_neg (by simp [hpos]), if_neg (fun h => hns h.2), if_neg] at hdec
        · split at hdec
          · rename_i h1
            exact Or.inl ⟨hdec, h1.1⟩
          · split at hdec
            · rename_i h2
              exact Or.inr ⟨hdec, h2⟩
            · exact absurd hdec hen
        · rintro ⟨_, h1⟩
          rw [hnoko (x, y) hp he0 he] at h1
          cases h1
    · exact Or.inr hf

/-- A bamboo joint on 5 × 5: black stones on (1, 1), (1, 2) and (3, 1), (3, 2) with the common liberties (2, 1) and (2, 2), White to move.
Each of the two points keeps the groups together when White plays on the other. -/
example : ∃ g, Legal true 5 7 g ∧ okAnd (do
      let at' (g : Game) (p : Coord) : M (Nat × Group) := do
        match g.goban.bd (twoTo1dim (5, 5) p) with
        | some k => .ok (k, ← g.goban.chains.chainAt k)
        | none => .error .panic
      let a ← at' g (1, 1)
      let b ← at' g (3, 1)
      let (_, g1) ← g.tryPlay true (.play 2 1)
      let r ← g1.tryPlay true (.play 2 2)
      let c ← at' r.2 (1, 1)
      let d ← at' r.2 (3, 1)
      .ok (decide (g.turn = .white ∧ a.1 ≠ b.1 ∧ r.1 = none ∧ c.1 = d.1), a.2.libertiesVec, b.2.libertiesVec))
    (fun r => decide (r = (true, [1, 2, 5, 8, 11, 12], [11, 12, 15, 18, 21, 22]))) = true :=
  mkGame_exists (rule := JAPANESE) (l := [.try_ (.play 1 1), .try_ (.play 0 0), .try_ (.play 1 2), .try_ (.play 4 4), .try_ (.play 3 1),
    .try_ (.play 0 4), .try_ (.play 3 2)]) (by decide) (by decide +kernel)

end Model
