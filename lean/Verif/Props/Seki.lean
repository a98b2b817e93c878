import Verif.Props.Connect
/-!
# Filling one's own second last liberty, and seki: C128
-/

namespace Model
open Spec (OnBoard Adj Linked HasLiberty NoDead place SameOn Pos Suicide)

variable {dbg : Bool} {n : Dim} {m : Nat} {g g1 : Game}

/-- **C128**, self-atari. A group of the player to move has two liberties, `(x, y)` and the point of index `j`; besides, a stone on
`(x, y)` has no empty neighbour, joins no other group and takes nothing. If the stone is accepted, the group and the stone are one group
with the one liberty `j`, and the opponent's stone there is accepted, or refused by super-ko, or panics in a game of at least
65,535 stones; if it is accepted all these stones are gone. -/
theorem C128_self_atari (h : Legal dbg n m g) {k : Nat} {grp : Group} {l : List Stone}
    (hk : g.goban.chains.chainAt k = .ok grp) (el : g.goban.chainStonesIdx dbg k = .ok l) (hc : grp.color = g.turn) {x y j : Nat}
    (hp : OnBoard n (x, y)) (hj : x * n.h + y ≠ j) (hl : ∀ a, a ∈ grp.libertiesVec ↔ a = x * n.h + y ∨ a = j)
    (hempty : ∀ r, OnBoard n r → Adj (x, y) r → g.goban.getColor r = .ok none → r.1 * n.h + r.2 = j)
    (hown : ∀ r, OnBoard n r → Adj (x, y) r → g.goban.getColor r = .ok (some g.turn) → r ∈ l.map Stone.coord)
    (hcap : g.willCapture dbg (x, y) = .ok false) (e : g.tryPlay dbg (.play x y) = .ok (none, g1)) :
    (∃ k1 grp1 l1, g1.goban.chains.chainAt k1 = .ok grp1 ∧ g1.goban.chainStonesIdx dbg k1 = .ok l1 ∧ grp1.isAtari = true ∧
      grp1.libertiesVec = [j] ∧ ∀ s, s ∈ l1 ↔ s = ⟨(x, y), g.turn⟩ ∨ s ∈ l) ∧
    ∃ x' y', OnBoard n (x', y') ∧ x' * n.h + y' = j ∧ Safe (65535 ≤ m + 1) (g1.tryPlay dbg (.play x' y')) fun (e2, g2) =>
      (e2 = none → g2.goban.getColor (x, y) = .ok none ∧ ∀ s ∈ l, g2.goban.getColor s.coord = .ok none) ∧
      (e2 ≠ none → e2 = some .ko ∧ g1.rule.flagIllegal.superko = true ∧ g1.checkSuperKo dbg ⟨(x', y'), g1.turn⟩ = .ok true) := by
  obtain ⟨m1, _, hrc⟩ := h.reach
  obtain ⟨o, s, _, _, _, hs⟩ := h.sim
  have hI := hrc.inv
  have he := (accepted_stone e).1
  have hpl := C13_accepted_is_play e
  have he0 := (getColor_none hI hp).1 he
  have hr1 := Reach.play hrc hp he hpl
  obtain ⟨ht1, hps1⟩ := C16_play hpl
  have hL1 : Legal dbg n (m + 1) g1 := .tryPlay (mv := .play x y) h hp e
  have hk' := live_ch.1 hk
  obtain ⟨l2, hsp⟩ := group_spec (dbg := dbg) hI hk'
  have el' := el
  rw [hsp.stones] at el'
  cases el'
  have hlib := (C03_liberties hrc.spec.board hk el).2.1
  obtain ⟨r0, a1, a2, a3, t0, a4, a5⟩ := (hlib j).1 ((hl j).2 (Or.inr rfl))
  obtain ⟨rp, b1, b2, _, t1, b4, b5⟩ := (hlib (x * n.h + y)).1 ((hl _).2 (Or.inl rfl))
  obtain rfl := twoTo1_inj hI.good b1 hp b2
  obtain ⟨c1, c2, _⟩ := hsp.view hI hk' b4
  have hns : ¬ Suicide n g.goban.view (x, y) g.turn := by
    rw [suicide_local hs.noDead' hp he0]
    refine Or.inr (Or.inl ⟨t1.coord, r0, adj_symm b5, c1, by rw [c2, hc], ⟨a1, (getColor_none hI a1).1 a3, t0.coord,
      (hsp.linked hI hk' b4).1 (List.mem_map.2 ⟨t0, a4, rfl⟩), a5⟩, ?_⟩)
    rintro rfl
    exact hj a2
  have hv : ∀ q, OnBoard n q → g1.goban.view q = after n g.goban.view (x, y) g.turn q := by
    intro q hq
    rw [(C09_play hrc hs.noDead' hp he).of_ok hpl _ hq]
    exact play_eq_after _ hs.noDead' hp he0 hns q hq
  obtain ⟨b, eb, hb⟩ := C39_will_capture (dbg := dbg) hrc hs.noDead' hp he
  rw [hcap] at eb
  cases eb
  have hb := hb g1 hpl
  have hnotake : ∀ q, OnBoard n q → ¬ GoneAt g g1 (x, y) q := by
    rintro q hq ⟨d1, d2⟩
    rcases d2 with d2 | ⟨c, d2⟩
    · rw [d2] at d1
      have d1 := (getColor_none hr1.inv hp).1 d1
      rw [hv _ hp, after_self] at d1
      cases d1
    · by_cases hcc : c = g.turn
      · have d1 := (getColor_none hr1.inv hq).1 d1
        rw [hI.getColor_view hq, hcc] at d2
        have d2 : g.goban.view q = some g.turn := by injection d2
        rw [hv q hq, after_own.2 (by rw [place_ne (by rintro rfl; rw [he0] at d2; cases d2), d2])] at d1
        cases d1
      · have hco : c = g.turn.opp := by
          revert hcc; cases c <;> cases g.turn <;> simp [Color.opp]
        exact absurd (hb.2 ⟨q, hq, by rw [d2, hco], d1⟩) (by decide)
  have hv1 : g1.goban.view (x, y) = some g.turn := by rw [hv _ hp, after_self]
  obtain ⟨k1, grp1, d1, d2, _⟩ := hr1.inv.view_some hp hv1
  obtain ⟨l1, hs1⟩ := group_spec (dbg := dbg) hr1.inv d2
  obtain ⟨o1, o2, o3⟩ := C120_own hrc hp he hpl (live_ch.2 d2) hs1.stones ((hs1.mem _).2 ⟨hp, d1⟩)
  -- a group of the player next to the point is this group
  have hsame : ∀ {k2 grp2 l3}, g.goban.chains.chainAt k2 = .ok grp2 → g.goban.chainStonesIdx dbg k2 = .ok l3 → grp2.color = g.turn →
      (∃ t ∈ l3, Adj t.coord (x, y)) → k2 = k := by
    rintro k2 grp2 l3 f1 f2 f3 ⟨t, f4, f5⟩
    have f1' := live_ch.1 f1
    obtain ⟨l4, hsp2⟩ := group_spec (dbg := dbg) hI f1'
    rw [hsp2.stones] at f2
    cases f2
    obtain ⟨g1', g2', _⟩ := hsp2.view hI f1' f4
    have hin := hown t.coord g1' (adj_symm f5) (by rw [hI.getColor_view g1', g2', f3])
    have h1 := ((hsp.mem _).1 hin).2
    have h2 := ((hsp2.mem _).1 (List.mem_map.2 ⟨t, f4, rfl⟩)).2
    rw [h2] at h1
    injection h1
  have hst : ∀ s, s ∈ l1 ↔ s = ⟨(x, y), g.turn⟩ ∨ s ∈ l := by
    intro s'
    rw [o2]
    constructor
    · rintro (h1 | ⟨k2, grp2, l3, f1, f2, f3, f4, f5⟩)
      · exact Or.inl h1
      · obtain rfl := hsame f1 f2 f3 f4
        rw [hsp.stones] at f2
        cases f2
        exact Or.inr f5
    · rintro (h1 | h1)
      · exact Or.inl h1
      · exact Or.inr ⟨k, grp, l, hk, hsp.stones, hc, ⟨t1, b4, b5⟩, h1⟩
  have hlibs : ∀ i, i ∈ grp1.libertiesVec ↔ i = j := by
    intro i
    rw [o3]
    constructor
    · rintro (⟨h1, ⟨r, r1, r2, r3, r4⟩ | ⟨k2, grp2, l3, f1, f2, f3, f4, f5⟩⟩ | ⟨r, r1, _, r3, _⟩)
      · rw [← r2]; exact hempty r r1 r4 r3
      · obtain rfl := hsame f1 f2 f3 f4
        rw [hk] at f1
        cases f1
        rcases (hl i).1 f5 with h2 | h2
        · exact absurd h2 h1
        · exact h2
      · exact absurd r3 (hnotake r r1)
    · rintro rfl
      exact Or.inl ⟨hj.symm, Or.inr ⟨k, grp, l, hk, hsp.stones, hc, ⟨t1, b4, b5⟩, (hl _).2 (Or.inr rfl)⟩⟩
  obtain ⟨hsort, _, _, _, hat, _⟩ := C03_liberties hr1.spec.board (live_ch.2 d2) hs1.stones
  have hvec : grp1.libertiesVec = [j] := by
    have hnd : grp1.libertiesVec.Nodup := hsort.imp (fun h => Nat.ne_of_lt h)
    cases hvv : grp1.libertiesVec with
    | nil => have := (hlibs j).2 rfl; rw [hvv] at this; cases this
    | cons a w =>
      rw [hvv] at hnd
      have ha := (hlibs a).1 (by rw [hvv]; exact List.mem_cons_self)
      subst ha
      cases w with
      | nil => rfl
      | cons b w =>
        have hb2 := (hlibs b).1 (by rw [hvv]; exact List.mem_cons_of_mem _ List.mem_cons_self)
        subst hb2
        exact absurd List.mem_cons_self (List.nodup_cons.1 hnd).1
  have hatari : grp1.isAtari = true := hat.2 (by rw [hvec]; rfl)
  refine ⟨⟨k1, grp1, l1, live_ch.2 d2, hs1.stones, hatari, hvec, hst⟩, ?_⟩
  obtain ⟨x', y', q1, q2, hsafe⟩ := C125_take hL1 (by rw [hps1]; decide) (live_ch.2 d2) hs1.stones
    (by rw [o1, ht1, Color.opp_opp]) hatari
  rw [hvec] at q2
  refine ⟨x', y', q1, by injection q2 with q2; exact q2.symm, ?_⟩
  rcases hsafe with ⟨⟨e2, g2⟩, q3, q4, q5⟩ | hf
  swap
  · exact Or.inr hf
  refine Or.inl ⟨(e2, g2), q3, ?_, ?_⟩
  · intro hn
    exact ⟨q4 hn ⟨(x, y), g.turn⟩ ((hst _).2 (Or.inl rfl)), fun s' hs' => q4 hn s' ((hst _).2 (Or.inr hs'))⟩
  · intro hn
    obtain ⟨q6, ⟨_, _, q7⟩ | q7⟩ := q5 hn
    · exfalso
      obtain ⟨w, hw⟩ := List.length_eq_one_iff.1 q7
      have h1 := (hst ⟨(x, y), g.turn⟩).2 (Or.inl rfl)
      have h2 := (hst t1).2 (Or.inr b4)
      rw [hw, List.mem_singleton] at h1 h2
      rw [← h1] at h2
      rw [h2] at c2
      rw [he0] at c2
      cases c2
    · exact ⟨q6, q7⟩

/-- **C128**, seki. A group of the player to move and one of the opponent have the same two liberties, `p` and `q`; the stones next to
these points belong to the two groups, and no other point next to them is empty. The player who begins loses the group: if a stone of
theirs on one of the points is accepted, the opponent's on the other is too, unless super-ko forbids it or the group table has no room
for it, and takes the group and the stone. And until stones have been put on both points, both groups stand. -/
theorem C128_seki (h : Legal dbg n m g) {k1 k2 : Nat} {grp1 grp2 : Group} {l1 l2 : List Stone}
    (hk1 : g.goban.chains.chainAt k1 = .ok grp1) (el1 : g.goban.chainStonesIdx dbg k1 = .ok l1) (hc1 : grp1.color = g.turn)
    (hk2 : g.goban.chains.chainAt k2 = .ok grp2) (el2 : g.goban.chainStonesIdx dbg k2 = .ok l2) (hc2 : grp2.color = g.turn.opp)
    {p q : Coord} (hp : OnBoard n p) (hq : OnBoard n q) (hpq : p ≠ q)
    (hl1 : ∀ a, a ∈ grp1.libertiesVec ↔ a = p.1 * n.h + p.2 ∨ a = q.1 * n.h + q.2)
    (hl2 : ∀ a, a ∈ grp2.libertiesVec ↔ a = p.1 * n.h + p.2 ∨ a = q.1 * n.h + q.2)
    (hempty : ∀ r, OnBoard n r → Adj p r ∨ Adj q r → g.goban.getColor r = .ok none → r = p ∨ r = q)
    (hstones : ∀ r c, OnBoard n r → Adj p r ∨ Adj q r → g.goban.getColor r = .ok (some c) →
      r ∈ l1.map Stone.coord ∨ r ∈ l2.map Stone.coord) :
    (∀ a b g1, (a = p ∧ b = q) ∨ (a = q ∧ b = p) → g.tryPlay dbg (.play a.1 a.2) = .ok (none, g1) →
      Safe (65535 ≤ m + 1) (g1.tryPlay dbg (.play b.1 b.2)) fun (e2, g2) =>
        (e2 = none → g2.goban.getColor a = .ok none ∧ ∀ s ∈ l1, g2.goban.getColor s.coord = .ok none) ∧
        (e2 ≠ none → e2 = some .ko ∧ g1.rule.flagIllegal.superko = true ∧ g1.checkSuperKo dbg ⟨b, g1.turn⟩ = .ok true)) ∧
    ∀ S g', Later dbg n g S g' → p ∉ S ∨ q ∉ S →
      ∀ s, s ∈ l1 ∨ s ∈ l2 → g'.goban.getColor s.coord = .ok (some s.color) := by
  obtain ⟨m1, _, hrc⟩ := h.reach
  obtain ⟨o, s, _, _, _, hs⟩ := h.sim
  have hI := hrc.inv
  have hk1' := live_ch.1 hk1
  have hk2' := live_ch.1 hk2
  obtain ⟨l3, hsp1⟩ := group_spec (dbg := dbg) hI hk1'
  obtain ⟨l4, hsp2⟩ := group_spec (dbg := dbg) hI hk2'
  have el1' := el1
  have el2' := el2
  rw [hsp1.stones] at el1'
  rw [hsp2.stones] at el2'
  cases el1'
  cases el2'
  have hinj : ∀ {a b : Coord}, OnBoard n a → OnBoard n b → a.1 * n.h + a.2 = b.1 * n.h + b.2 → a = b :=
    fun ha hb e => twoTo1_inj hI.good ha hb e
  constructor
  · -- one of the points
    have key : ∀ a b g1, OnBoard n a → OnBoard n b → a ≠ b → (∀ r, Adj a r → Adj p r ∨ Adj q r) →
        (∀ r, r = p ∨ r = q ↔ r = a ∨ r = b) → g.tryPlay dbg (.play a.1 a.2) = .ok (none, g1) →
        Safe (65535 ≤ m + 1) (g1.tryPlay dbg (.play b.1 b.2)) fun (e2, g2) =>
          (e2 = none → g2.goban.getColor a = .ok none ∧ ∀ s ∈ l1, g2.goban.getColor s.coord = .ok none) ∧
          (e2 ≠ none → e2 = some .ko ∧ g1.rule.flagIllegal.superko = true ∧ g1.checkSuperKo dbg ⟨b, g1.turn⟩ = .ok true) := by
      rintro ⟨x, y⟩ b g1 ha hb hab hadj hpts e
      have hidx : ∀ i, (i = p.1 * n.h + p.2 ∨ i = q.1 * n.h + q.2) ↔ i = x * n.h + y ∨ i = b.1 * n.h + b.2 := by
        intro i
        have h1 := (hpts p).1 (Or.inl rfl)
        have h2 := (hpts q).1 (Or.inr rfl)
        rcases h1 with rfl | rfl <;> rcases h2 with rfl | rfl
        · exact absurd rfl hpq
        · rfl
        · exact Or.comm
        · exact absurd rfl hpq
      have hne : x * n.h + y ≠ b.1 * n.h + b.2 := fun h => hab (hinj ha hb h)
      have he := (accepted_stone e).1
      have hpl := C13_accepted_is_play e
      obtain ⟨w, ew, hw⟩ := C39_will_capture (dbg := dbg) hrc hs.noDead' ha he
      have hcap : g.willCapture dbg (x, y) = .ok false := by
        cases w with
        | false => exact ew
        | true =>
          exfalso
          obtain ⟨r, r1, r2, r3⟩ := (hw g1 hpl).1 rfl
          rw [hI.getColor_view r1] at r2
          have r2 : g.goban.view r = some g.turn.opp := by injection r2
          obtain ⟨k5, grp5, d1, d2, d3⟩ := hI.view_some r1 r2
          obtain ⟨l5, hsp5⟩ := group_spec (dbg := dbg) hI d2
          obtain ⟨t, t1, t2⟩ := List.mem_map.1 ((hsp5.mem r).2 ⟨r1, d1⟩)
          obtain ⟨v1, _⟩ := C115_atari hrc ha he hpl (live_ch.2 d2) hsp5.stones t1 (by rw [t2, r3]; simp)
          obtain ⟨r', u1, u2, u3, t', u4, u5⟩ := ((C03_liberties hrc.spec.board (live_ch.2 d2) hsp5.stones).2.1 (x * n.h + y)).1
            (by rw [v1]; exact List.mem_singleton.2 rfl)
          obtain rfl := hinj u1 ha u2
          obtain ⟨w1, w2, _⟩ := hsp5.view hI d2 u4
          have hin := hstones t'.coord _ w1 (hadj _ (adj_symm u5)) (by rw [hI.getColor_view w1, w2])
          have hcol : grp5.color = g.turn.opp := d3
          have h5 := ((hsp5.mem _).1 (List.mem_map.2 ⟨t', u4, rfl⟩)).2
          rcases hin with hin | hin
          · have h6 := ((hsp1.mem _).1 hin).2
            rw [h5] at h6
            injection h6 with h6
            subst h6
            rw [d2] at hk1'
            injection hk1' with hk1'
            rw [hk1', hc1] at hcol
            exact Color.ne_opp _ hcol
          · have h6 := ((hsp2.mem _).1 hin).2
            rw [h5] at h6
            injection h6 with h6
            subst h6
            rw [d2] at hk2'
            injection hk2' with hk2'
            rw [hk2'] at v1
            have := (hl2 (b.1 * n.h + b.2)).2 ((hidx _).2 (Or.inr rfl))
            rw [v1, List.mem_singleton] at this
            exact hne this.symm
      obtain ⟨_, x', y', z1, z2, z3⟩ := C128_self_atari h hk1 el1 hc1 ha hne (fun i => (hl1 i).trans (hidx i))
        (by
          intro r hr har her
          have h7 := (hpts r).1 (hempty r hr (hadj r har) her)
          rcases h7 with rfl | rfl
          · exact absurd har adj_irrefl
          · rfl)
        (by
          intro r hr har hcr
          rcases hstones r _ hr (hadj r har) hcr with h7 | h7
          · exact h7
          · exfalso
            obtain ⟨t, t1, rfl⟩ := List.mem_map.1 h7
            obtain ⟨w1, w2, _⟩ := hsp2.view hI hk2' t1
            rw [hI.getColor_view w1, w2, hc2] at hcr
            injection hcr with hcr
            injection hcr with hcr
            exact Color.ne_opp _ hcr.symm) hcap e
      obtain rfl := hinj z1 hb z2
      exact z3
    rintro a b g1 (⟨rfl, rfl⟩ | ⟨rfl, rfl⟩) e
    · exact key a b g1 hp hq hpq (fun _ => Or.inl) (fun _ => Iff.rfl) e
    · exact key a b g1 hq hp hpq.symm (fun _ => Or.inr) (fun _ => Or.comm) e
  · intro S g' hlater hS s' hs'
    have hSb : ∀ t ∈ S, OnBoard n t := by
      clear hS
      induction hlater with
      | start => simp
      | play _ hp _ _ ih =>
        intro t ht
        rcases List.mem_cons.1 ht with rfl | ht
        · exact hp
        · exact ih t ht
      | pass _ _ ih => exact ih
      | resign _ _ ih => exact ih
      | resume _ ih => exact ih
      | setKomi _ ih => exact ih
    have hone : ∀ {r : Coord}, OnBoard n r → r ∉ S → ∀ t ∈ S, OnBoard n t → t.1 * n.h + t.2 ≠ r.1 * n.h + r.2 := by
      intro r hr hrS t ht htb e
      exact hrS (hinj htb hr e ▸ ht)
    have hstand : ∀ {k grp l}, g.goban.chains.chainAt k = .ok grp → g.goban.chainStonesIdx dbg k = .ok l →
        (∀ a, a ∈ grp.libertiesVec ↔ a = p.1 * n.h + p.2 ∨ a = q.1 * n.h + q.2) → ∀ s ∈ l,
        g'.goban.getColor s.coord = .ok (some s.color) := by
      intro k grp l f1 f2 f3 s hs
      rcases hS with hS | hS
      · obtain ⟨_, _, _, _, _, _, z, _⟩ := C115_stands hrc hlater f1 f2 ((f3 _).2 (Or.inl rfl)) (fun t ht => hone hp hS t ht (hSb t ht))
        exact (z s hs).2
      · obtain ⟨_, _, _, _, _, _, z, _⟩ := C115_stands hrc hlater f1 f2 ((f3 _).2 (Or.inr rfl)) (fun t ht => hone hq hS t ht (hSb t ht))
        exact (z s hs).2
    rcases hs' with hs' | hs'
    · exact hstand hk1 el1 hl1 s' hs'
    · exact hstand hk2 el2 hl2 s' hs'

/-- A seki on 4 × 4, Black to move: the black stones on the second line and the white ones on (0, 1) and (0, 2) have the liberties
(0, 0) and (0, 3), both. Black plays on one, White takes the five stones on the other. -/
example : ∃ g, Legal true 4 12 g ∧ okAnd (do
      let at' (g : Game) (p : Coord) : M Group := do
        match g.goban.bd (twoTo1dim (4, 4) p) with
        | some k => g.goban.chains.chainAt k
        | none => .error .panic
      let a ← at' g (1, 0)
      let b ← at' g (0, 1)
      let (e1, g1) ← g.tryPlay true (.play 0 0)
      let (e2, g2) ← g1.tryPlay true (.play 0 3)
      .ok (decide (g.turn = .black ∧ a.color = .black ∧ b.color = .white ∧ e1 = none ∧ e2 = none), a.libertiesVec, b.libertiesVec,
        g2.goban.numberOfStones))
    (fun r => decide (r = (true, [0, 3], [0, 3], (0, 7)))) = true :=
  mkGame_exists (rule := JAPANESE) (l := [.try_ (.play 1 0), .try_ (.play 0 1), .try_ (.play 1 1), .try_ (.play 0 2), .try_ (.play 1 2),
    .try_ (.play 2 0), .try_ (.play 1 3), .try_ (.play 2 1), .try_ .pass, .try_ (.play 2 2), .try_ .pass, .try_ (.play 2 3)])
    (by decide) (by decide +kernel)

end Model
