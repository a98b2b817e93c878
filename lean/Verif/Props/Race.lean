import Verif.Props.KoBan
/-!
# Liberties and the stones needed to take a group: C115
-/

namespace Model
open Spec (OnBoard Adj Linked HasLiberty NoDead place SameOn Pos playLocal captureAround removeGroupIfDead)

variable {dbg : Bool} {n : Dim} {m : Nat} {g g' : Game}

/-- Games reached from `g` by moves and calls that are carried out; stones have been put on the points `S`, which were empty then. -/
inductive Later (dbg : Bool) (n : Dim) (g : Game) : List Coord → Game → Prop
  | start : Later dbg n g [] g
  | play {S g1 g2 x y} : Later dbg n g S g1 → OnBoard n (x, y) → g1.goban.getColor (x, y) = .ok none →
      g1.play dbg (.play x y) = .ok g2 → Later dbg n g ((x, y) :: S) g2
  | pass {S g1 g2} : Later dbg n g S g1 → g1.play dbg .pass = .ok g2 → Later dbg n g S g2
  | resign {S g1 g2 c} : Later dbg n g S g1 → g1.play dbg (.resign c) = .ok g2 → Later dbg n g S g2
  | resume {S g1} : Later dbg n g S g1 → Later dbg n g S g1.resume
  | setKomi {S g1 k} : Later dbg n g S g1 → Later dbg n g S (g1.setKomi k)

/-- A stone that `try_play` accepts is such a move. -/
theorem Later.tryPlay {S : List Coord} {g1 g2 : Game} {x y : Nat} (h : Later dbg n g S g1) (hp : OnBoard n (x, y))
    (e : g1.tryPlay dbg (.play x y) = .ok (none, g2)) : Later dbg n g ((x, y) :: S) g2 :=
  .play h hp (accepted_stone e).1 (C13_accepted_is_play e)

section
variable {pos : Pos} {p q r : Coord} {c d : Color}

/-- A group with a liberty other than the point played on keeps its stones, and these liberties. -/
theorem keep_group (sa : Bool) (he : pos p = none) (hq : OnBoard n q) (hd : pos q = some d) (hr : LibAt n pos q r) (hne : r ≠ p) :
    (∀ s, Linked n pos q s → playLocal n sa pos p c s = some d ∧ Linked n (playLocal n sa pos p c) q s) ∧
      LibAt n (playLocal n sa pos p c) q r := by
  have hq0 : pos q ≠ none := by rw [hd]; simp
  obtain ⟨hrb, hr0, t, ht, hadj⟩ := hr
  have hpl : ∀ s, Linked n pos q s → Linked n (place pos p c) q s := fun s hs => linked_place he hq0 hs
  have hcol : ∀ s, Linked n pos q s → place pos p c s = some d := by
    intro s hs
    have h1 := linked_same hs
    rw [place_ne (by rintro rfl; rw [he] at h1; exact hq0 h1.symm), h1, hd]
  have hrp : place pos p c r = none := by rw [place_ne hne, hr0]
  have hlibq : HasLiberty n (place pos p c) q := ⟨t, r, hpl t ht, hadj, hrb, hrp⟩
  have hA : ∀ s, Linked n pos q s → captureAround n (place pos p c) p c.opp s = some d := by
    intro s hs
    unfold captureAround
    rw [if_neg (fun h => h.2.1 ((hasLiberty_linked hq (hpl s hs)).1 hlibq)), hcol s hs]
  have hAr : captureAround n (place pos p c) p c.opp r = none := by
    rcases captureAround_sub (n := n) (pos := place pos p c) (p := p) (c := c.opp) r with h | h
    · exact h
    · rw [h, hrp]
  have lift : ∀ (P : Pos), (∀ s, Linked n pos q s → P s = some d) → ∀ s, Linked n pos q s → Linked n P q s := by
    intro P hP s hs
    induction hs with
    | refl => exact .refl _
    | step h1 h2 h3 h4 ih => exact .step ih h2 h3 (by rw [hP _ (.step h1 h2 h3 h4), hP _ h1])
  have hAl := lift _ hA
  have hlibA : HasLiberty n (captureAround n (place pos p c) p c.opp) q := ⟨t, r, hAl t ht, hadj, hrb, hAr⟩
  have hB : ∀ s, Linked n pos q s → playLocal n sa pos p c s = some d := by
    intro s hs
    cases sa with
    | false => exact hA s hs
    | true =>
      show removeGroupIfDead n (captureAround n (place pos p c) p c.opp) p s = _
      unfold removeGroupIfDead
      rw [if_neg, hA s hs]
      rintro ⟨h1, h2⟩
      apply h2
      obtain ⟨a, b, h3, h4⟩ := hlibA
      exact ⟨a, b, linked_trans h1 (linked_trans (linked_symm hq (hAl s hs)) h3), h4⟩
  refine ⟨fun s hs => ⟨hB s hs, lift _ hB s hs⟩, hrb, ?_, t, lift _ hB t ht, hadj⟩
  rcases local_sub (n := n) (pos := pos) (p := p) (c := c) (s := sa) r with h | h
  · exact h
  · rw [h, hrp]

/-- A group that is not next to the point played on does not change. -/
theorem keep_far (sa : Bool) (he : pos p = none) (hd : pos q ≠ none) (hfar : ∀ t, Linked n pos q t → ¬ Adj t p) :
    playLocal n sa pos p c q = pos q := by
  have hqp : q ≠ p := by rintro rfl; exact hd he
  have h1 : playLocal n false pos p c q = pos q := by
    show captureAround n (place pos p c) p c.opp q = _
    unfold captureAround
    rw [if_neg, place_ne hqp]
    rintro ⟨_, _, r, a1, a2, a3, a4⟩
    exact hfar r (linked_symm a2 (linked_place_opp a3 a4)) (adj_symm a1)
  cases sa with
  | false => exact h1
  | true =>
    show removeGroupIfDead n (playLocal n false pos p c) p q = _
    unfold removeGroupIfDead
    rw [if_neg, h1]
    rintro ⟨a1, _⟩
    obtain ⟨s, b1, b2, _, b4⟩ := linked_place_from (linked_of_local a1) hqp
    exact hfar s (linked_symm b2 b4) (adj_symm b1)

end

theorem Later.reach {S : List Coord} (hl : Later dbg n g S g') (h : Reach dbg n m g) : ∃ m', Reach dbg n m' g' := by
  induction hl with
  | start => exact ⟨m, h⟩
  | play _ hp he e ih => obtain ⟨m', ih⟩ := ih; exact ⟨_, .play ih hp he e⟩
  | pass _ e ih => obtain ⟨m', ih⟩ := ih; exact ⟨_, .pass ih e⟩
  | resign _ e ih => obtain ⟨m', ih⟩ := ih; exact ⟨_, .resign ih e⟩
  | resume _ ih => obtain ⟨m', ih⟩ := ih; exact ⟨_, .resume ih⟩
  | setKomi _ ih => obtain ⟨m', ih⟩ := ih; exact ⟨_, .setKomi ih⟩

/-- A group with a liberty on which no stone has been put since stands, with all such liberties. -/
theorem later_group {S : List Coord} (h : Reach dbg n m g) (hl : Later dbg n g S g') {q r : Coord} {d : Color} (hq : OnBoard n q)
    (hd : g.goban.view q = some d) (hr : LibAt n g.goban.view q r) (hS : r ∉ S) :
    (∀ s, Linked n g.goban.view q s → g'.goban.view s = some d ∧ Linked n g'.goban.view q s) ∧ LibAt n g'.goban.view q r := by
  induction hl with
  | start => exact ⟨fun s hs => ⟨(linked_same hs).trans hd, hs⟩, hr⟩
  | @play S g1 g2 x y hl hp he e ih =>
    have hne : r ≠ (x, y) := fun h => hS (h ▸ List.mem_cons_self)
    have hS := fun h => hS (List.mem_cons_of_mem _ h)
    obtain ⟨h1, h2⟩ := ih hS
    obtain ⟨m1, hr1⟩ := hl.reach h
    have hv := (C09_play_local hr1 hp he).of_ok e
    have he0 := (getColor_none hr1.inv hp).1 he
    obtain ⟨k1, k2⟩ := keep_group (c := g1.turn) (!g1.rule.flagIllegal.suicide) he0 hq ((h1 q (.refl q)).1) h2 hne
    refine ⟨fun s hs => ?_, (libAt_congr (SameOn.symm hv) hq).1 k2⟩
    obtain ⟨a1, a2⟩ := h1 s hs
    obtain ⟨b1, b2⟩ := k1 s a2
    exact ⟨(hv s (linked_onBoard hs hq)).trans b1, linked_congr (SameOn.symm hv) hq b2⟩
  | @pass S g1 g2 hl e ih =>
    have : g2.goban = g1.goban := by
      unfold Game.play at e
      obtain ⟨_, _, e⟩ := bind_eq_ok e
      cases e; rfl
    rw [this]; exact ih hS
  | resign hl e ih => cases e; exact ih hS
  | resume _ ih => exact ih hS
  | setKomi _ ih => exact ih hS

/-- **C115**: a group can be taken only after a stone has been put on each of its liberties. If there is a liberty (given by its
index) on which none has been put since, all its stones stand, in one group, which has all these liberties. -/
theorem C115_stands {S : List Coord} (h : Reach dbg n m g) (hl : Later dbg n g S g') {k : Nat} {grp : Group} {l : List Stone}
    (hk : g.goban.chains.chainAt k = .ok grp) (el : g.goban.chainStonesIdx dbg k = .ok l) {i : Nat}
    (hi : i ∈ grp.libertiesVec) (hS : ∀ p ∈ S, p.1 * n.h + p.2 ≠ i) :
    ∃ k' grp' l', g'.goban.chains.chainAt k' = .ok grp' ∧ g'.goban.chainStonesIdx dbg k' = .ok l' ∧ grp'.color = grp.color ∧
      (∀ s ∈ l, s ∈ l' ∧ g'.goban.getColor s.coord = .ok (some s.color)) ∧
      ∀ j ∈ grp.libertiesVec, (∀ p ∈ S, p.1 * n.h + p.2 ≠ j) → j ∈ grp'.libertiesVec := by
  have hI := h.inv
  have hk := live_ch.1 hk
  obtain ⟨l2, hs⟩ := group_spec (dbg := dbg) hI hk
  rw [hs.stones] at el
  cases el
  obtain ⟨s0, hs0⟩ := List.exists_mem_of_ne_nil _ hs.ne
  obtain ⟨q1, q2, _⟩ := hs.view hI hk hs0
  have key : ∀ j ∈ grp.libertiesVec, (∀ p ∈ S, p.1 * n.h + p.2 ≠ j) →
      ∃ r, OnBoard n r ∧ twoTo1dim n.sz r = j ∧ LibAt n g.goban.view s0.coord r ∧ r ∉ S := by
    intro j hj hS
    obtain ⟨r, r1, r2, r3, s, r4, r5⟩ := (libs_spec hI hk hs j).1 hj
    exact ⟨r, r1, r2, ⟨r1, r3, s.coord, (hs.linked hI hk hs0).1 (List.mem_map.2 ⟨s, r4, rfl⟩), r5⟩, fun h => hS r h r2⟩
  obtain ⟨m', hr'⟩ := hl.reach h
  have hI' := hr'.inv
  obtain ⟨r0, _, _, r3, r4⟩ := key i hi hS
  have hstand := (later_group h hl q1 q2 r3 r4).1
  have hc0 := (hstand _ (.refl _)).1
  obtain ⟨k', grp', a1, a2, a3⟩ := hI'.view_some q1 hc0
  obtain ⟨l', hs'⟩ := group_spec (dbg := dbg) hI' a2
  have hm0 : s0.coord ∈ l'.map Stone.coord := (hs'.mem _).2 ⟨q1, a1⟩
  obtain ⟨t0, ht0, et0⟩ := List.mem_map.1 hm0
  have hcol : grp'.color = grp.color := by rw [← a3]
  have hin : ∀ s ∈ l, s ∈ l' ∧ g'.goban.view s.coord = some s.color := by
    intro s hsl
    obtain ⟨b1, b2, _⟩ := hs.view hI hk hsl
    obtain ⟨c1, c2⟩ := hstand s.coord ((hs.linked hI hk hs0).1 (List.mem_map.2 ⟨s, hsl, rfl⟩))
    have hm : s.coord ∈ l'.map Stone.coord := (hs'.linked hI' a2 ht0).2 (by rw [et0]; exact c2)
    obtain ⟨t, ht, et⟩ := List.mem_map.1 hm
    have : t = s := by
      have h1 := hs'.color t ht
      have h2 := hs.color s hsl
      have h3 : t.color = s.color := by rw [h1, h2, hcol]
      cases t; cases s
      simp only [Stone.mk.injEq]
      exact ⟨et, h3⟩
    rw [← this]
    exact ⟨ht, by rw [this, c1, hs.color s hsl]⟩
  refine ⟨k', grp', l', live_ch.2 a2, hs'.stones, hcol, fun s hsl => ⟨(hin s hsl).1, ?_⟩, fun j hj hSj => ?_⟩
  · obtain ⟨b1, _⟩ := hs.view hI hk hsl
    rw [hI'.getColor_view b1, (hin s hsl).2]
  · obtain ⟨r, r1, r2, r3, r4⟩ := key j hj hSj
    obtain ⟨_, e0, q', e1, e2⟩ := (later_group h hl q1 q2 r3 r4).2
    obtain ⟨t, ht, et⟩ := List.mem_map.1 ((hs'.linked hI' a2 ht0).2 (by rw [et0]; exact e1))
    exact (libs_spec hI' a2 hs' j).2 ⟨r, r1, r2, e0, t, ht, by rw [et]; exact e2⟩

/-- **C115**: it takes at least as many stones as a group has liberties to take it. While fewer have been put, all its stones
stand, in one group, and each stone put has cost it at most one liberty. -/
theorem C115_number {S : List Coord} (h : Reach dbg n m g) (hl : Later dbg n g S g') {k : Nat} {grp : Group} {l : List Stone}
    (hk : g.goban.chains.chainAt k = .ok grp) (el : g.goban.chainStonesIdx dbg k = .ok l) (hS : S.length < grp.numberOfLiberties) :
    ∃ k' grp' l', g'.goban.chains.chainAt k' = .ok grp' ∧ g'.goban.chainStonesIdx dbg k' = .ok l' ∧
      (∀ s ∈ l, s ∈ l' ∧ g'.goban.getColor s.coord = .ok (some s.color)) ∧
      grp.numberOfLiberties ≤ grp'.numberOfLiberties + S.length := by
  obtain ⟨hsort, _, hnum, _⟩ := C03_liberties h.spec.board hk el
  have hnd : grp.libertiesVec.Nodup := hsort.imp (fun h => Nat.ne_of_lt h)
  have hle : ∀ L : List Nat, (∀ j ∈ grp.libertiesVec, j ∈ L) → grp.libertiesVec.length ≤ L.length :=
    fun L hL => (List.subperm_of_subset hnd hL).length_le
  have hex : ∃ i ∈ grp.libertiesVec, ∀ p ∈ S, p.1 * n.h + p.2 ≠ i := by
    apply Classical.byContradiction
    intro hno
    have := hle (S.map (fun p => p.1 * n.h + p.2)) (fun j hj => by
      apply Classical.byContradiction
      intro hn
      exact hno ⟨j, hj, fun p hp e => hn (List.mem_map.2 ⟨p, hp, e⟩)⟩)
    rw [List.length_map] at this
    omega
  obtain ⟨i, hi, hSi⟩ := hex
  obtain ⟨k', grp', l', h1, h2, _, h4, h5⟩ := C115_stands h hl hk el hi hSi
  refine ⟨k', grp', l', h1, h2, h4, ?_⟩
  obtain ⟨m', hr'⟩ := hl.reach h
  have hnum' := (C03_liberties hr'.spec.board h1 h2).2.2.1
  rw [hnum, hnum']
  have := hle (grp'.libertiesVec ++ S.map (fun p => p.1 * n.h + p.2)) (fun j hj => by
    by_cases hn : ∀ p ∈ S, p.1 * n.h + p.2 ≠ j
    · exact List.mem_append_left _ (h5 j hj hn)
    · apply List.mem_append_right
      apply Classical.byContradiction
      intro h6
      exact hn (fun p hp e => h6 (List.mem_map.2 ⟨p, hp, e⟩)))
  rw [List.length_append, List.length_map] at this
  exact this

/-- **C115**: if a stone of the group is gone, every liberty the group had has been played on. -/
theorem C115_taken {S : List Coord} (h : Reach dbg n m g) (hl : Later dbg n g S g') {k : Nat} {grp : Group} {l : List Stone}
    (hk : g.goban.chains.chainAt k = .ok grp) (el : g.goban.chainStonesIdx dbg k = .ok l) {s : Stone} (hs : s ∈ l)
    (hgone : g'.goban.getColor s.coord ≠ .ok (some s.color)) :
    (∀ i ∈ grp.libertiesVec, ∃ p ∈ S, p.1 * n.h + p.2 = i) ∧ grp.numberOfLiberties ≤ S.length := by
  constructor
  · intro i hi
    apply Classical.byContradiction
    intro hn
    obtain ⟨_, _, _, _, _, _, h4, _⟩ := C115_stands h hl hk el hi (fun p hp e => hn ⟨p, hp, e⟩)
    exact hgone (h4 s hs).2
  · apply Classical.byContradiction
    intro hn
    obtain ⟨_, _, _, _, _, h4, _⟩ := C115_number h hl hk el (by omega)
    exact hgone (h4 s hs).2

/-- **C115**, one stone: only groups in atari are taken, and only on their last liberty. -/
theorem C115_atari (h : Reach dbg n m g) {x y : Nat} (hp : OnBoard n (x, y)) (he : g.goban.getColor (x, y) = .ok none)
    (e : g.play dbg (.play x y) = .ok g') {k : Nat} {grp : Group} {l : List Stone} (hk : g.goban.chains.chainAt k = .ok grp)
    (el : g.goban.chainStonesIdx dbg k = .ok l) {s : Stone} (hs : s ∈ l) (hgone : g'.goban.getColor s.coord ≠ .ok (some s.color)) :
    grp.libertiesVec = [x * n.h + y] ∧ grp.isAtari = true := by
  obtain ⟨h1, h2⟩ := C115_taken h (.play .start hp he e) hk el hs hgone
  obtain ⟨_, _, hnum, _, hatari, _⟩ := C03_liberties h.spec.board hk el
  have hvec : grp.libertiesVec = [x * n.h + y] := by
    have h1 : ∀ i ∈ grp.libertiesVec, i = x * n.h + y := by
      intro i hi
      obtain ⟨p, hp, e⟩ := h1 i hi
      rw [List.mem_singleton.1 hp] at e
      exact e.symm
    rw [hnum, List.length_singleton] at h2
    cases hv : grp.libertiesVec with
    | nil =>
      exfalso
      have hI := h.inv
      have hk := live_ch.1 hk
      obtain ⟨l2, hs2⟩ := group_spec (dbg := dbg) hI hk
      rw [hs2.stones] at el
      cases el
      obtain ⟨q1, q2, _⟩ := hs2.view hI hk hs
      have hr' : Reach dbg n (m + 1) g' := .play h hp he e
      have he0 := (getColor_none hI hp).1 he
      rw [hr'.inv.getColor_view q1, (C09_play_local h hp he).of_ok e _ q1, hs2.color s hs, ← q2] at hgone
      refine hgone (congrArg _ (keep_far _ he0 (by rw [q2]; simp) ?_))
      intro t ht hadj
      obtain ⟨s', hs', rfl⟩ := List.mem_map.1 ((hs2.linked hI hk hs).2 ht)
      have := (libs_spec hI hk hs2 _).2 ⟨(x, y), hp, rfl, he0, s', hs', hadj⟩
      rw [hv] at this
      cases this
    | cons a L =>
      rw [hv] at h1 h2
      have : L = [] := List.eq_nil_of_length_eq_zero (by simp only [List.length_cons] at h2; omega)
      rw [this, h1 a List.mem_cons_self]
  exact ⟨hvec, hatari.2 (by rw [hvec]; rfl)⟩

/-- In a game on 4 × 4 a black group has two liberties; after white stones on both it is gone. -/
example : ∃ g, Legal true 4 3 g ∧ okAnd (do
      let grp ← g.goban.chains.chainAt 0
      let g1 ← g.play true (.play 1 0)
      let g2 ← g1.play true (.play 3 3)
      let g3 ← g2.play true (.play 0 2)
      .ok (grp.libertiesVec, g1.goban.getColor (0, 0), g3.goban.getColor (0, 0), g3.goban.getColor (0, 1)))
    (fun r => decide (r = ([2, 4], .ok (some Color.black), .ok none, .ok none))) = true :=
  mkGame_exists (rule := JAPANESE) (l := [.try_ (.play 0 0), .try_ (.play 1 1), .try_ (.play 0 1)]) (by decide) (by decide +kernel)

end Model
