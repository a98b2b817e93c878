import Verif.Props.Race
/-!
# What a stone does to the groups and their liberties: C120
-/

namespace Model
open Spec (OnBoard Adj Linked HasLiberty NoDead place SameOn Pos playLocal captureAround removeGroupIfDead)

variable {dbg : Bool} {n : Dim} {m : Nat} {g g' : Game}

section
variable {pos : Pos} {p q r : Coord} {c d : Color} {sa : Bool}

theorem lift_linked {P : Pos} (hP : ∀ s, Linked n pos q s → P s = some d) {s : Coord} (hs : Linked n pos q s) : Linked n P q s := by
  induction hs with
  | refl => exact .refl _
  | step h1 h2 h3 h4 ih => exact .step ih h2 h3 (by rw [hP _ (.step h1 h2 h3 h4), hP _ h1])

/-- A stone that stands after the play stands with all stones it was connected with. -/
theorem stand_together (hq : OnBoard n q) (hd : playLocal n sa pos p c q = some d) {s : Coord} (hs : Linked n (place pos p c) q s) :
    playLocal n sa pos p c s = some d := by
  have hA : ∀ sa', playLocal n sa' pos p c q = some d → playLocal n false pos p c q = some d := by
    intro sa' h
    cases sa' with
    | false => exact h
    | true =>
      change removeGroupIfDead n (playLocal n false pos p c) p q = some d at h
      rcases removeGroupIfDead_sub (n := n) (pos := playLocal n false pos p c) (p := p) q with h' | h'
      · rw [h'] at h; cases h
      · rw [← h', h]
  have h0 := hA sa hd
  have hpl : place pos p c q = some d := by
    rcases local_sub (n := n) (pos := pos) (p := p) (c := c) (s := false) q with h' | h'
    · rw [h'] at h0; cases h0
    · rw [← h', h0]
  have hF : ∀ t, Linked n (place pos p c) q t → playLocal n false pos p c t = some d := by
    intro t ht
    have htc : place pos p c t = some d := (linked_same ht).trans hpl
    show captureAround n (place pos p c) p c.opp t = some d
    unfold captureAround
    rw [if_neg, htc]
    rintro ⟨a1, a2, a, a3, a4, a5, a6⟩
    change captureAround n (place pos p c) p c.opp q = some d at h0
    unfold captureAround at h0
    rw [if_pos] at h0
    · cases h0
    · refine ⟨by rw [hpl, ← htc]; exact a1, fun hl => a2 ((hasLiberty_linked hq ht).1 hl), a, a3, a4, a5, ?_⟩
      exact linked_trans a6 (linked_symm hq ht)
  cases sa with
  | false => exact hF s hs
  | true =>
    change removeGroupIfDead n (playLocal n false pos p c) p q = some d at hd
    show removeGroupIfDead n (playLocal n false pos p c) p s = some d
    have hl : Linked n (playLocal n false pos p c) q s := lift_linked hF hs
    unfold removeGroupIfDead at hd ⊢
    rw [if_neg, hF s hs]
    rintro ⟨a1, a2⟩
    rw [if_pos ⟨linked_trans a1 (linked_symm hq hl), a2⟩] at hd
    cases hd

/-- A group of the position after the play that does not have the stone played: the same stones before. -/
theorem other_stones (he : pos p = none) (hq : OnBoard n q) (hd : playLocal n sa pos p c q = some d)
    (hno : ¬ Linked n (playLocal n sa pos p c) q p) {s : Coord} :
    Linked n (playLocal n sa pos p c) q s ↔ Linked n pos q s := by
  have hsub : ∀ t, playLocal n sa pos p c t = some d → t ≠ p → pos t = some d := by
    intro t ht hne
    rcases local_sub (n := n) (pos := pos) (p := p) (c := c) (s := sa) t with h | h
    · rw [h] at ht; cases ht
    · rw [place_ne hne] at h; rw [← h, ht]
  have hqp : q ≠ p := by rintro rfl; exact hno (.refl _)
  have hq0 : pos q ≠ none := by rw [hsub q hd hqp]; simp
  constructor
  · intro h
    have hne : ∀ t, Linked n (playLocal n sa pos p c) q t → t ≠ p := by rintro t ht rfl; exact hno ht
    induction h with
    | refl => exact .refl _
    | step h1 h2 h3 h4 ih =>
      have e1 := (linked_same h1).trans hd
      exact .step ih h2 h3 (by rw [hsub _ e1 (hne _ h1), hsub _ (h4.trans e1) (hne _ (.step h1 h2 h3 h4))])
  · intro h
    refine lift_linked (d := d) (fun t ht => ?_) h
    exact stand_together hq hd (linked_place he hq0 ht)

/-- The group of the stone played: the stone and the groups of its colour next to it. -/
theorem own_stones (he : pos p = none) (hp : OnBoard n p) (hd : playLocal n sa pos p c p = some c) {s : Coord} :
    Linked n (playLocal n sa pos p c) p s ↔ s = p ∨ ∃ a, Adj p a ∧ OnBoard n a ∧ pos a = some c ∧ Linked n pos a s := by
  constructor
  · intro h
    have h' : Linked n (place pos p c) p s := linked_of_sub (fun x => local_sub x) (by rw [hd]; simp) h
    by_cases hs : s = p
    · exact Or.inl hs
    · exact Or.inr (linked_place_from h' hs)
  · rintro (rfl | ⟨a, a1, a2, a3, a4⟩)
    · exact .refl _
    · have h1 : Linked n (place pos p c) p a := by
        have hap : a ≠ p := by rintro rfl; rw [he] at a3; cases a3
        exact .step (.refl _) a1 a2 (by rw [place_self, place_ne hap, a3])
      have h2 : Linked n (place pos p c) p s := linked_trans h1 (linked_place he (by rw [a3]; simp) a4)
      exact lift_linked (d := c) (fun t ht => stand_together hp hd ht) h2

end

/-- After the play there is no stone on `r`, though there was one before or it is the point played on. -/
def GoneAt (g g' : Game) (p r : Coord) : Prop :=
  g'.goban.getColor r = .ok none ∧ (r = p ∨ ∃ c, g.goban.getColor r = .ok (some c))

theorem stone_eq {s t : Stone} (h1 : s.coord = t.coord) (h2 : s.color = t.color) : s = t := by
  cases s; cases t; cases h1; cases h2; rfl

/-- **C120**, the groups without the stone played: each has the same stones as one before, and its liberties are those from before
except the point played on, and the points that have become empty next to it. -/
theorem C120_other (h : Reach dbg n m g) {x y : Nat} (hp : OnBoard n (x, y)) (he : g.goban.getColor (x, y) = .ok none)
    (e : g.play dbg (.play x y) = .ok g') {k' : Nat} {grp' : Group} {l' : List Stone} (hk' : g'.goban.chains.chainAt k' = .ok grp')
    (el' : g'.goban.chainStonesIdx dbg k' = .ok l') (hno : ∀ s ∈ l', s.coord ≠ (x, y)) :
    ∃ k grp l, g.goban.chains.chainAt k = .ok grp ∧ g.goban.chainStonesIdx dbg k = .ok l ∧ grp.color = grp'.color ∧ l.Perm l' ∧
      ∀ i, i ∈ grp'.libertiesVec ↔ (i ∈ grp.libertiesVec ∧ i ≠ x * n.h + y) ∨
        ∃ r, OnBoard n r ∧ r.1 * n.h + r.2 = i ∧ GoneAt g g' (x, y) r ∧ ∃ s ∈ l', Adj s.coord r := by
  have hI := h.inv
  have hr' : Reach dbg n (m + 1) g' := .play h hp he e
  have hI' := hr'.inv
  have hv := (C09_play_local h hp he).of_ok e
  have he0 := (getColor_none hI hp).1 he
  have hk' := live_ch.1 hk'
  obtain ⟨l2, hs'⟩ := group_spec (dbg := dbg) hI' hk'
  rw [hs'.stones] at el'
  cases el'
  obtain ⟨s0, hs0⟩ := List.exists_mem_of_ne_nil _ hs'.ne
  obtain ⟨q1, q2, _⟩ := hs'.view hI' hk' hs0
  have hd : playLocal n (!g.rule.flagIllegal.suicide) g.goban.view (x, y) g.turn s0.coord = some grp'.color := by rw [← hv _ q1, q2]
  have hlv : ∀ {t}, Linked n g'.goban.view s0.coord t ↔
      Linked n (playLocal n (!g.rule.flagIllegal.suicide) g.goban.view (x, y) g.turn) s0.coord t :=
    ⟨linked_congr hv q1, linked_congr (SameOn.symm hv) q1⟩
  have hnp : ¬ Linked n (playLocal n (!g.rule.flagIllegal.suicide) g.goban.view (x, y) g.turn) s0.coord (x, y) := by
    intro hl
    obtain ⟨t, ht, et⟩ := List.mem_map.1 ((hs'.linked hI' hk' hs0).2 (hlv.2 hl))
    exact hno t ht et
  have hst : ∀ {t}, Linked n g'.goban.view s0.coord t ↔ Linked n g.goban.view s0.coord t :=
    hlv.trans (other_stones he0 q1 hd hnp)
  have hc0 : g.goban.view s0.coord = some grp'.color := by
    rcases local_sub (n := n) (pos := g.goban.view) (p := (x, y)) (c := g.turn) (s := !g.rule.flagIllegal.suicide) s0.coord with h1 | h1
    · rw [h1] at hd; cases hd
    · rw [place_ne (hno s0 hs0), hd] at h1; exact h1.symm
  obtain ⟨k, grp, a1, a2, a3⟩ := hI.view_some q1 hc0
  obtain ⟨l, hs⟩ := group_spec (dbg := dbg) hI a2
  obtain ⟨t0, ht0, et0⟩ := List.mem_map.1 ((hs.mem s0.coord).2 ⟨q1, a1⟩)
  have hmem : ∀ t, t ∈ l.map Stone.coord ↔ t ∈ l'.map Stone.coord := by
    intro t
    rw [hs.linked hI a2 ht0, et0, hs'.linked hI' hk' hs0, hst]
  have hmem2 : ∀ t, t ∈ l ↔ t ∈ l' := by
    intro t
    constructor
    · intro ht
      obtain ⟨u, hu, eu⟩ := List.mem_map.1 ((hmem t.coord).1 (List.mem_map.2 ⟨t, ht, rfl⟩))
      have : u = t := stone_eq eu (by rw [hs'.color u hu, hs.color t ht, a3])
      rwa [← this]
    · intro ht
      obtain ⟨u, hu, eu⟩ := List.mem_map.1 ((hmem t.coord).2 (List.mem_map.2 ⟨t, ht, rfl⟩))
      have : u = t := stone_eq eu (by rw [hs.color u hu, hs'.color t ht, a3])
      rwa [← this]
  refine ⟨k, grp, l, live_ch.2 a2, hs.stones, a3,
    (List.perm_ext_iff_of_nodup (nodup_of_map hs.nodup) (nodup_of_map hs'.nodup)).2 hmem2, fun i => ?_⟩
  rw [libs_spec hI' hk' hs', libs_spec hI a2 hs]
  constructor
  · rintro ⟨r, r1, r2, r3, s, r4, r5⟩
    by_cases hrp : r = (x, y)
    · exact Or.inr ⟨r, r1, r2, ⟨by rw [hI'.getColor_view r1, r3], Or.inl hrp⟩, s, r4, r5⟩
    · cases hc : g.goban.view r with
      | some c => exact Or.inr ⟨r, r1, r2, ⟨by rw [hI'.getColor_view r1, r3], Or.inr ⟨c, by rw [hI.getColor_view r1, hc]⟩⟩, s, r4, r5⟩
      | none =>
        refine Or.inl ⟨⟨r, r1, r2, hc, s, (hmem2 s).2 r4, r5⟩, ?_⟩
        rintro rfl
        exact hrp (twoTo1_inj hI.good r1 hp r2)
  · rintro (⟨⟨r, r1, r2, r3, s, r4, r5⟩, hi⟩ | ⟨r, r1, r2, ⟨r3, _⟩, s, r4, r5⟩)
    · refine ⟨r, r1, r2, ?_, s, (hmem2 s).1 r4, r5⟩
      rw [hv r r1]
      rcases local_sub (n := n) (pos := g.goban.view) (p := (x, y)) (c := g.turn) (s := !g.rule.flagIllegal.suicide) r with h1 | h1
      · exact h1
      · rw [h1, place_ne (by rintro rfl; exact hi r2.symm), r3]
    · exact ⟨r, r1, r2, (getColor_none hI' r1).1 r3, s, r4, r5⟩

/-- **C120**, far away nothing changes: a group that is next to neither the point played on nor a point that has become empty has the
same stones, the same liberties, and so the same number of them. -/
theorem C120_far (h : Reach dbg n m g) {x y : Nat} (hp : OnBoard n (x, y)) (he : g.goban.getColor (x, y) = .ok none)
    (e : g.play dbg (.play x y) = .ok g') {k' : Nat} {grp' : Group} {l' : List Stone} (hk' : g'.goban.chains.chainAt k' = .ok grp')
    (el' : g'.goban.chainStonesIdx dbg k' = .ok l') (hno : ∀ s ∈ l', s.coord ≠ (x, y) ∧ ¬ Adj s.coord (x, y))
    (hfar : ∀ s ∈ l', ∀ r, Adj s.coord r → ¬ GoneAt g g' (x, y) r) :
    ∃ k grp l, g.goban.chains.chainAt k = .ok grp ∧ g.goban.chainStonesIdx dbg k = .ok l ∧ grp.color = grp'.color ∧ l.Perm l' ∧
      grp.numStones = grp'.numStones ∧ grp.libertiesVec = grp'.libertiesVec ∧ grp.numberOfLiberties = grp'.numberOfLiberties ∧
      grp.isAtari = grp'.isAtari := by
  obtain ⟨k, grp, l, h1, h2, h3, h4, h5⟩ := C120_other h hp he e hk' el' (fun s hs => (hno s hs).1)
  have hr' : Reach dbg n (m + 1) g' := .play h hp he e
  obtain ⟨s1, c1, n1, _, t1, _⟩ := C03_liberties h.spec.board h1 h2
  obtain ⟨s2, c2, n2, _, t2, _⟩ := C03_liberties hr'.spec.board hk' el'
  have hiff : ∀ i, i ∈ grp.libertiesVec ↔ i ∈ grp'.libertiesVec := by
    intro i
    rw [h5]
    constructor
    · intro hi
      refine Or.inl ⟨hi, ?_⟩
      rintro rfl
      obtain ⟨r, r1, r2, r3, s, r4, r5⟩ := (c1 _).1 hi
      obtain rfl := twoTo1_inj h.inv.good r1 hp r2
      exact (hno s (h4.mem_iff.1 r4)).2 r5
    · rintro (hi | ⟨r, r1, r2, r3, s, r4, r5⟩)
      · exact hi.1
      · exact absurd r3 (hfar s r4 r r5)
  have heq : grp.libertiesVec = grp'.libertiesVec := by
    have hp : grp.libertiesVec.Perm grp'.libertiesVec :=
      (List.perm_ext_iff_of_nodup (s1.imp fun h => Nat.ne_of_lt h) (s2.imp fun h => Nat.ne_of_lt h)).2 hiff
    exact hp.eq_of_pairwise (fun a b _ _ h1 h2 => absurd h2 (Nat.lt_asymm h1)) s1 s2
  have hlen : ∀ {g : Game} {m : Nat} (_ : Reach dbg n m g) {k grp l}, g.goban.chains.chainAt k = .ok grp → g.goban.chainStonesIdx dbg k = .ok l →
      l.length = grp.numStones := by
    intro g m h k grp l hk el
    obtain ⟨l', hs⟩ := group_spec (dbg := dbg) h.inv (live_ch.1 hk)
    rw [hs.stones] at el
    cases el
    exact hs.len
  refine ⟨k, grp, l, h1, h2, h3, h4, ?_, heq, by rw [n1, n2, heq], ?_⟩
  · rw [← hlen h h1 h2, ← hlen hr' hk' el', h4.length_eq]
  · rw [Bool.eq_iff_iff, t1, t2, heq]

/-- **C120**, the group of the stone played, if it stands: the stone and the groups of its colour next to it; its liberties are theirs and
the empty points next to the stone, without the point played on, and the points that have become empty next to it. -/
theorem C120_own (h : Reach dbg n m g) {x y : Nat} (hp : OnBoard n (x, y)) (he : g.goban.getColor (x, y) = .ok none)
    (e : g.play dbg (.play x y) = .ok g') {k' : Nat} {grp' : Group} {l' : List Stone} (hk' : g'.goban.chains.chainAt k' = .ok grp')
    (el' : g'.goban.chainStonesIdx dbg k' = .ok l') (hin : (x, y) ∈ l'.map Stone.coord) :
    grp'.color = g.turn ∧
    (∀ s, s ∈ l' ↔ s = ⟨(x, y), g.turn⟩ ∨ ∃ k grp l, g.goban.chains.chainAt k = .ok grp ∧ g.goban.chainStonesIdx dbg k = .ok l ∧
      grp.color = g.turn ∧ (∃ t ∈ l, Adj t.coord (x, y)) ∧ s ∈ l) ∧
    ∀ i, i ∈ grp'.libertiesVec ↔
      (i ≠ x * n.h + y ∧ ((∃ r, OnBoard n r ∧ r.1 * n.h + r.2 = i ∧ g.goban.getColor r = .ok none ∧ Adj (x, y) r) ∨
        ∃ k grp l, g.goban.chains.chainAt k = .ok grp ∧ g.goban.chainStonesIdx dbg k = .ok l ∧ grp.color = g.turn ∧
          (∃ t ∈ l, Adj t.coord (x, y)) ∧ i ∈ grp.libertiesVec)) ∨
      ∃ r, OnBoard n r ∧ r.1 * n.h + r.2 = i ∧ GoneAt g g' (x, y) r ∧ ∃ s ∈ l', Adj s.coord r := by
  have hI := h.inv
  have hr' : Reach dbg n (m + 1) g' := .play h hp he e
  have hI' := hr'.inv
  have hv := (C09_play_local h hp he).of_ok e
  have he0 := (getColor_none hI hp).1 he
  have hk' := live_ch.1 hk'
  obtain ⟨l2, hs'⟩ := group_spec (dbg := dbg) hI' hk'
  rw [hs'.stones] at el'
  cases el'
  obtain ⟨s0, hs0, es0⟩ := List.mem_map.1 hin
  obtain ⟨q1, q2, _⟩ := hs'.view hI' hk' hs0
  rw [es0] at q1 q2
  have hd1 : playLocal n (!g.rule.flagIllegal.suicide) g.goban.view (x, y) g.turn (x, y) = some grp'.color := by rw [← hv _ q1, q2]
  have hcol : grp'.color = g.turn := by
    rcases local_sub (n := n) (pos := g.goban.view) (p := (x, y)) (c := g.turn) (s := !g.rule.flagIllegal.suicide) (x, y) with h1 | h1
    · rw [h1] at hd1; cases hd1
    · rw [hd1, place_self] at h1; exact Option.some.inj h1
  have hd := hd1
  rw [hcol] at hd
  have hst : ∀ {t}, t ∈ l'.map Stone.coord ↔ t = (x, y) ∨
      ∃ a, Adj (x, y) a ∧ OnBoard n a ∧ g.goban.view a = some g.turn ∧ Linked n g.goban.view a t := by
    intro t
    rw [hs'.linked hI' hk' hs0, es0]
    exact Iff.trans ⟨linked_congr hv q1, linked_congr (SameOn.symm hv) q1⟩ (own_stones he0 hp hd)
  have hgrp : ∀ {a t}, Adj (x, y) a → OnBoard n a → g.goban.view a = some g.turn → Linked n g.goban.view a t →
      ∃ k grp l, g.goban.ch k = some grp ∧ GroupSpec dbg n g.goban k grp l ∧ grp.color = g.turn ∧
        (∃ t ∈ l, Adj t.coord (x, y)) ∧ t ∈ l.map Stone.coord := by
    intro a t a1 a2 a3 a4
    obtain ⟨k, grp, b1, b2, b3⟩ := hI.view_some a2 a3
    obtain ⟨l, hs⟩ := group_spec (dbg := dbg) hI b2
    obtain ⟨t0, ht0, et0⟩ := List.mem_map.1 ((hs.mem a).2 ⟨a2, b1⟩)
    exact ⟨k, grp, l, b2, hs, b3, ⟨t0, ht0, by rw [et0]; exact adj_symm a1⟩, (hs.linked hI b2 ht0).2 (by rw [et0]; exact a4)⟩
  have hgrp' : ∀ {k grp l} {s : Stone}, g.goban.chains.chainAt k = .ok grp → g.goban.chainStonesIdx dbg k = .ok l → grp.color = g.turn →
      (∃ t ∈ l, Adj t.coord (x, y)) → s ∈ l → s ∈ l' := by
    rintro k grp l s b1 b2 b3 ⟨t, b4, b5⟩ b6
    have b1 := live_ch.1 b1
    obtain ⟨l3, hs⟩ := group_spec (dbg := dbg) hI b1
    rw [hs.stones] at b2
    cases b2
    obtain ⟨c1, c2, _⟩ := hs.view hI b1 b4
    obtain ⟨u, hu, eu⟩ := List.mem_map.1 (hst.2 (Or.inr ⟨t.coord, adj_symm b5, c1, by rw [c2, b3],
      (hs.linked hI b1 b4).1 (List.mem_map.2 ⟨s, b6, rfl⟩)⟩))
    have : u = s := stone_eq eu (by rw [hs'.color u hu, hs.color s b6, hcol, b3])
    rwa [← this]
  refine ⟨hcol, fun s => ⟨fun hs => ?_, ?_⟩, fun i => ?_⟩
  · have hc := hs'.color s hs
    rcases hst.1 (List.mem_map.2 ⟨s, hs, rfl⟩) with h1 | ⟨a, a1, a2, a3, a4⟩
    · exact Or.inl (stone_eq h1 (by rw [hc, hcol]))
    · obtain ⟨k, grp, l, b1, b2, b3, b4, b5⟩ := hgrp a1 a2 a3 a4
      obtain ⟨u, hu, eu⟩ := List.mem_map.1 b5
      have : u = s := stone_eq eu (by rw [b2.color u hu, hc, hcol, b3])
      exact Or.inr ⟨k, grp, l, live_ch.2 b1, b2.stones, b3, b4, by rwa [← this]⟩
  · rintro (rfl | ⟨k, grp, l, b1, b2, b3, b4, b5⟩)
    · have : s0 = ⟨(x, y), g.turn⟩ := stone_eq es0 (by rw [hs'.color s0 hs0, hcol])
      rwa [← this]
    · exact hgrp' b1 b2 b3 b4 b5
  · rw [libs_spec hI' hk' hs']
    constructor
    · rintro ⟨r, r1, r2, r3, s, r4, r5⟩
      by_cases hrp : r = (x, y)
      · exact Or.inr ⟨r, r1, r2, ⟨by rw [hI'.getColor_view r1, r3], Or.inl hrp⟩, s, r4, r5⟩
      · cases hc : g.goban.view r with
        | some c => exact Or.inr ⟨r, r1, r2, ⟨by rw [hI'.getColor_view r1, r3], Or.inr ⟨c, by rw [hI.getColor_view r1, hc]⟩⟩, s, r4, r5⟩
        | none =>
          refine Or.inl ⟨?_, ?_⟩
          · rintro rfl
            exact hrp (twoTo1_inj hI.good r1 hp r2)
          · rcases hst.1 (List.mem_map.2 ⟨s, r4, rfl⟩) with h1 | ⟨a, a1, a2, a3, a4⟩
            · exact Or.inl ⟨r, r1, r2, by rw [hI.getColor_view r1, hc], by rw [← h1]; exact r5⟩
            · obtain ⟨k, grp, l, b1, b2, b3, b4, b5⟩ := hgrp a1 a2 a3 a4
              obtain ⟨u, hu, eu⟩ := List.mem_map.1 b5
              exact Or.inr ⟨k, grp, l, live_ch.2 b1, b2.stones, b3, b4, (libs_spec hI b1 b2 i).2 ⟨r, r1, r2, hc, u, hu, by rw [eu]; exact r5⟩⟩
    · have hempty : ∀ {r}, OnBoard n r → g.goban.view r = none → r ≠ (x, y) → g'.goban.view r = none := by
        intro r r1 r3 hne
        rw [hv r r1]
        rcases local_sub (n := n) (pos := g.goban.view) (p := (x, y)) (c := g.turn) (s := !g.rule.flagIllegal.suicide) r with h1 | h1
        · exact h1
        · rw [h1, place_ne hne, r3]
      rintro (⟨hi, ⟨r, r1, r2, r3, r4⟩ | ⟨k, grp, l, b1, b2, b3, b4, b5⟩⟩ | ⟨r, r1, r2, ⟨r3, _⟩, s, r4, r5⟩)
      · exact ⟨r, r1, r2, hempty r1 ((getColor_none hI r1).1 r3) (by rintro rfl; exact hi r2.symm), s0, hs0, by rw [es0]; exact r4⟩
      · have b1' := live_ch.1 b1
        obtain ⟨l3, hs⟩ := group_spec (dbg := dbg) hI b1'
        have b2' := b2
        rw [hs.stones] at b2'
        cases b2'
        obtain ⟨r, r1, r2, r3, s, r4, r5⟩ := (libs_spec hI b1' hs i).1 b5
        exact ⟨r, r1, r2, hempty r1 r3 (by rintro rfl; exact hi r2.symm), s, hgrp' b1 b2 b3 b4 r4, r5⟩
      · exact ⟨r, r1, r2, (getColor_none hI' r1).1 r3, s, r4, r5⟩

/-- On 4 × 4 Black's stone on (1, 0) takes the white stone on (0, 0): the black stone on (0, 1) gains the point of the stone taken as a
liberty, the white one on (3, 3) keeps the two it had, and the new group has two empty neighbours and that point. -/
example : ∃ g, Legal true 4 4 g ∧ okAnd (do
      let g' ← g.play true (.play 1 0)
      let at' (g : Game) (p : Coord) : M (Group × List Stone) := do
        match g.goban.bd (twoTo1dim (4, 4) p) with
        | some k => .ok (← g.goban.chains.chainAt k, ← g.goban.chainStonesIdx true k)
        | none => .error .panic
      let a ← at' g (0, 1)
      let a' ← at' g' (0, 1)
      let b ← at' g (3, 3)
      let b' ← at' g' (3, 3)
      let c' ← at' g' (1, 0)
      .ok (a.1.libertiesVec, a'.1.libertiesVec, b.1.libertiesVec, b'.1.libertiesVec, c'.1.libertiesVec))
    (fun r => decide (r = ([2, 5], [0, 2, 5], [11, 14], [11, 14], [0, 5, 8]))) = true :=
  mkGame_exists (rule := JAPANESE) (l := [.try_ (.play 0 1), .try_ (.play 0 0), .try_ (.play 2 2), .try_ (.play 3 3)]) (by decide)
    (by decide +kernel)

end Model
