import Verif.Proofs.Damage
import Verif.Props.Occupied
import Verif.Props.Iter
import Verif.Props.Board
/-!
# C110: the stones of a group one of whose stones has been overwritten (release builds)
-/

namespace Model
open Spec (OnBoard Adj Linked HasLiberty NoDead place SameOn Pos)

variable {n : Dim} {m : Nat} {g : Game} {b b' : Goban} {k : Nat} {p : Coord} {c d : Color} {pre post : List Stone}

/-- A stone of a group, in the group's circle. -/
theorem group_split (h : Inv n b) (hl : b.chainStonesIdx false k = .ok (pre ++ ⟨p, d⟩ :: post)) :
    ∃ grp u v, b.ch k = some grp ∧ grp.color = d ∧ OnBoard n p ∧ b.bd (twoTo1dim n.sz p) = some k ∧
      IsChain b k grp (u ++ twoTo1dim n.sz p :: v) ∧ pre = u.map (fun i => ⟨ptOf n i, d⟩) ∧
      post = v.map (fun i => ⟨ptOf n i, d⟩) := by
  obtain ⟨grp, hk⟩ : ∃ grp, b.ch k = some grp := by
    unfold Goban.chainStonesIdx at hl
    obtain ⟨grp, e1, _⟩ := bind_eq_ok hl
    exact ⟨grp, live_ch.1 e1⟩
  obtain ⟨l, hc⟩ := h.rep.chain k grp hk
  rw [chainStones_ok h hk hc] at hl
  obtain ⟨u, l2, rfl, h1, h2⟩ := List.map_eq_append_iff.1 (Except.ok.inj hl)
  obtain ⟨i, v, rfl, h3, h4⟩ := List.map_eq_cons_iff.1 h2
  have hp : ptOf n i = p := congrArg Stone.coord h3
  have hd : grp.color = d := congrArg Stone.color h3
  have hb : b.bd i = some k := (hc.mem i).2 (by simp)
  have hi := h.off _ _ hb
  have hpi : twoTo1dim n.sz p = i := by rw [← hp, twoTo1_ptOf]
  subst hd
  refine ⟨grp, u, v, hk, rfl, by rw [← hp]; exact ptOf_onBoard hi, by rw [hpi]; exact hb, by rw [hpi]; exact hc, h1.symm, h4.symm⟩

/-- The points of a new stone and of the groups of its colour beside it. -/
theorem same_linked (h : Inv n b) (hp : OnBoard n p) {same : List Nat}
    (hs : ∀ j, j ∈ same ↔ ∃ i ∈ nbrs n (twoTo1dim n.sz p), b.bd i = some j ∧ b.col i = some c) (i : Nat) :
    (i = twoTo1dim n.sz p ∨ ∃ j ∈ same, b.bd i = some j) →
      Ix n i ∧ (b.view p ≠ some c → Linked n (place b.view p c) p (ptOf n i)) := by
  have hpN := twoTo1_lt h.good hp
  rintro (rfl | ⟨j, hj, hi⟩)
  · exact ⟨hpN, fun _ => by rw [ptOf_twoTo1 h.good hp]; exact .refl _⟩
  · have hiN := h.off _ _ hi
    refine ⟨hiN, fun hne => ?_⟩
    obtain ⟨a, ha, hba, hca⟩ := (hs j).1 hj
    obtain ⟨haN, hadj⟩ := (mem_nbrs h.good hpN).1 ha
    rw [ptOf_twoTo1 h.good hp] at hadj
    have hA := ptOf_onBoard haN
    have hva : b.view (ptOf n a) = some c := by rw [h.view_ptOf haN, hca]
    have hl : Linked n b.view (ptOf n a) (ptOf n i) :=
      (h.linked_iff hA (ptOf_onBoard hiN) (by rw [twoTo1_ptOf]; exact hba)).2 (by rw [twoTo1_ptOf]; exact hi)
    have hap : ptOf n a ≠ p := fun h' => hne (h' ▸ hva)
    have hfirst : Linked n (place b.view p c) p (ptOf n a) :=
      .step (.refl _) hadj hA (by rw [place_self, place_ne hap, hva])
    have key : ∀ x, Linked n b.view (ptOf n a) x → Linked n (place b.view p c) p x := by
      intro x hx
      induction hx with
      | refl => exact hfirst
      | @step q r hl ha hr hh ih =>
        have hq : b.view q = some c := (linked_same hl).trans hva
        have hr' : b.view r = some c := hh.trans hq
        refine .step ih ha hr ?_
        have h1 : r ≠ p := fun h' => hne (by rw [← h', hr'])
        have h2 : q ≠ p := fun h' => hne (by rw [← h', hq])
        rw [place_ne h1, place_ne h2, hh]
    exact key _ hl

theorem linked_same_conv (h : Inv n b) (hp : OnBoard n p) {same : List Nat}
    (hs : ∀ j, j ∈ same ↔ ∃ i ∈ nbrs n (twoTo1dim n.sz p), b.bd i = some j ∧ b.col i = some c) {q : Coord} (hq : OnBoard n q)
    (hl : Linked n (place b.view p c) p q) :
    twoTo1dim n.sz q = twoTo1dim n.sz p ∨ ∃ j ∈ same, b.bd (twoTo1dim n.sz q) = some j := by
  by_cases hqp : q = p
  · exact Or.inl (by rw [hqp])
  · right
    obtain ⟨s, ha, hS, hv, hl⟩ := linked_place_from hl hqp
    have hcol := h.view hS
    rw [hv] at hcol
    obtain ⟨j, hj⟩ := bd_of_view h hS hv
    refine ⟨j, (hs j).2 ⟨twoTo1dim n.sz s, (mem_nbrs h.good (twoTo1_lt h.good hp)).2 ⟨twoTo1_lt h.good hS, ?_⟩, hj, hcol.symm⟩,
      (h.linked_iff hS hq hj).1 hl⟩
    rw [ptOf_twoTo1 h.good hp, ptOf_twoTo1 h.good hS]; exact ha

/-- A walk that never comes back to its origin, item by item. -/
theorem trapped_steps {nx : List Nat} {o z : Nat} {C : Nat → Prop} (hn : n.Good)
    (h : ∀ a, C a → ∃ b, nx[a]? = some b ∧ b ≠ o ∧ C b) (hC : ∀ a, C a → Ix n a) : ∀ (j a : Nat), C a → ∃ (xs : List Stone) (it : ChainStones),
      ChainStones.steps false j ⟨⟨nx, o, some a, z⟩, n.sz, c⟩ = .ok (xs.map some, it) ∧ xs.length = j ∧
        ∀ s ∈ xs, s.color = c ∧ ∃ i, C i ∧ s.coord = ptOf n i
  | 0, a, _ => ⟨[], _, rfl, rfl, by simp⟩
  | j + 1, a, ha => by
    obtain ⟨b, e1, hb, hCb⟩ := h a ha
    obtain ⟨xs, it, e, hlen, hxs⟩ := trapped_steps (z := z) hn h hC j b hCb
    refine ⟨⟨ptOf n a, c⟩ :: xs, it, ?_, by rw [List.length_cons, hlen], ?_⟩
    · unfold ChainStones.steps ChainStones.step
      have : CircularGroupIter.step false ⟨nx, o, some a, z⟩ = .ok (some a, ⟨nx, o, some b, z⟩) := by
        unfold CircularGroupIter.step
        dsimp only
        rw [e1]
        simp [hb, debugAssert, Bind.bind, Except.bind]
      dsimp only
      rw [this, ok_bind]
      dsimp only
      rw [oneTo2_ok hn (hC a ha), ok_bind, ok_bind]
      dsimp only
      rw [e, ok_bind]
      rfl
    · intro s hs
      rcases List.mem_cons.1 hs with rfl | hs
      · exact ⟨rfl, a, ha, rfl⟩
      · exact hxs s hs

/-- **C110**, the stone overwritten by the other colour is not the first of its group in the order of `chain_stones`: afterwards
the stones of that group, in the same slot, never end. Every call of `next` returns one: a stone in the old colour, at a point
of the group that came before, or at a point of the new stone's group. `chain_stones` collected and the removal of the group do not
return. -/
theorem C110_hang (hb : Board false n m b) (hl : b.chainStonesIdx false k = .ok (pre ++ ⟨p, d⟩ :: post)) (hpre : pre ≠ [])
    (e : b.push false p d.opp = .ok b') :
    b'.chainStonesIdx false k = .error .diverge ∧ b'.removeChain false k = .error .diverge ∧
      ∃ it, b'.chainStonesIter k = .ok it ∧ ∀ j, ∃ (xs : List Stone) (it' : _), it.steps false j = .ok (xs.map some, it') ∧
        xs.length = j ∧ ∀ s ∈ xs, s.color = d ∧
          (s ∈ pre ∨ Linked n (place b.view p d.opp) p s.coord) := by
  have h := hb.inv.1
  obtain ⟨grp, u, v, hk, hd, hp, hbp, hc, hu, _⟩ := group_split h hl
  rw [push_eq h.size hp] at e
  obtain ⟨f, ef, e⟩ := bind_eq_ok e
  cases e
  have hne : grp.color ≠ d.opp := by rw [hd]; cases d <;> simp [Color.opp]
  obtain ⟨lib, same, C, hs⟩ := push_cut h hp hbp hk (fun _ _ _ => hne) ef
  have hks : k ∉ same := by
    intro hm
    obtain ⟨i, _, h1, h2⟩ := (hs k).1 hm
    rw [col_of_bd h1 hk] at h2
    exact hne (Option.some.inj h2)
  have hvp : b.view p ≠ some d.opp := by
    rw [h.view hp, col_of_bd hbp hk]
    exact fun h' => hne (Option.some.inj h')
  have hune : u ≠ [] := by rintro rfl; exact hpre hu
  have hmem : ∀ i ∈ u, b.bd i = some k := fun i hi => (hc.mem i).2 (by simp [hi])
  obtain ⟨ho, htrap⟩ := C.trap hc.walk hc.nodup hc.head hmem hune hks
  have hIx : ∀ a, (a ∈ u ∨ f.goban.bd a = some f.added) → Ix n a := by
    rintro a (ha | ha)
    · exact h.off _ _ (hmem a ha)
    · exact (same_linked h hp hs a ((C.cells a).1 ha)).1
  have hT : Tame n f.goban := ⟨C.size.trans h.size, C.blen, C.live, C.libs⟩
  refine ⟨?_, ?_, ?_⟩
  · unfold Goban.chainStonesIdx
    rw [Goban.chainAt_ok C.old, ok_bind]
    unfold Group.iter
    rw [iterFrom_trapped htrap _ _ (Or.inl ho)]
    rfl
  · unfold Goban.removeChain
    rw [Goban.chainAt_ok C.old, ok_bind]
    unfold Group.iterFold
    rw [iterFold_trapped (P := Tame n) htrap (fun s a hP ha => hP.removeStone h.good (hIx a ha) k) _ _ _ (Or.inl ho) hT]
    rfl
  · refine ⟨_, by unfold Goban.chainStonesIter; rw [Goban.chainAt_ok C.old, ok_bind], fun j => ?_⟩
    obtain ⟨xs, it', e1, e2, e3⟩ := trapped_steps (c := grp.color) (z := grp.numStones) h.good htrap hIx j _ (Or.inl ho)
    refine ⟨xs, it', ?_, e2, ?_⟩
    · rw [← e1, hT.size]
      rfl
    · intro s hsx
      obtain ⟨h1, i, hi, h2⟩ := e3 s hsx
      refine ⟨h1.trans hd, ?_⟩
      rcases hi with hi | hi
      · left
        rw [hu]
        refine List.mem_map.2 ⟨i, hi, ?_⟩
        obtain ⟨_, _⟩ := s
        exact (Stone.mk.injEq _ _ _ _).mpr ⟨h2.symm, (h1.trans hd).symm⟩
      · right
        rw [h2]
        exact (same_linked h hp hs i ((C.cells i).1 hi)).2 hvp

/-- **C110**, the stone overwritten by the other colour is the first of its group: afterwards the slot of that group lists exactly the
points of the new stone's group, each once and with the wrong colour, and none of the old group's other stones. -/
theorem C110_first (hb : Board false n m b) (hl : b.chainStonesIdx false k = .ok (⟨p, d⟩ :: post))
    (e : b.push false p d.opp = .ok b') :
    ∃ l, b'.chainStonesIdx false k = .ok l ∧ (l.map Stone.coord).Nodup ∧ (∀ s ∈ l, s.color = d) ∧
      (∀ q, q ∈ l.map Stone.coord ↔ OnBoard n q ∧ Linked n (place b.view p d.opp) p q) ∧ ∀ s ∈ post, s ∉ l := by
  have h := hb.inv.1
  obtain ⟨grp, u, v, hk, hd, hp, hbp, hc, hu, hv⟩ := group_split (pre := []) h hl
  obtain rfl : u = [] := by simpa using hu.symm
  rw [push_eq h.size hp] at e
  obtain ⟨f, ef, e⟩ := bind_eq_ok e
  cases e
  have hne : grp.color ≠ d.opp := by rw [hd]; cases d <;> simp [Color.opp]
  obtain ⟨lib, same, C, hs⟩ := push_cut h hp hbp hk (fun _ _ _ => hne) ef
  have hvp : b.view p ≠ some d.opp := by
    rw [h.view hp, col_of_bd hbp hk]
    exact fun h' => hne (Option.some.inj h')
  have ho : grp.origin = twoTo1dim n.sz p := by
    have := hc.head
    simpa using this.symm
  obtain ⟨l, h1, h2, h3⟩ := C.first (dbg := false) ho
  have hIx : ∀ i ∈ l, Ix n i := fun i hi => (same_linked h hp hs i ((h3 i).1 hi)).1
  have hmem : ∀ q, q ∈ (l.map (fun i => ({ coord := ptOf n i, color := grp.color } : Stone))).map Stone.coord ↔
      OnBoard n q ∧ Linked n (place b.view p d.opp) p q := by
    intro q
    rw [List.map_map, List.mem_map]
    constructor
    · rintro ⟨i, hi, rfl⟩
      exact ⟨ptOf_onBoard (hIx i hi), (same_linked h hp hs i ((h3 i).1 hi)).2 hvp⟩
    · rintro ⟨hq, hl⟩
      exact ⟨twoTo1dim n.sz q, (h3 _).2 (linked_same_conv h hp hs hq hl), ptOf_twoTo1 h.good hq⟩
  refine ⟨l.map (fun i => { coord := ptOf n i, color := grp.color }), ?_, ?_, ?_, hmem, ?_⟩
  · unfold Goban.chainStonesIdx
    rw [Goban.chainAt_ok C.old, ok_bind, h1, ok_bind]
    apply mapM_ok
    intro i hi
    rw [C.size, h.size, oneTo2_ok h.good (hIx i hi)]
    rfl
  · rw [List.map_map]
    exact List.Pairwise.map _ (fun a b hab h' => hab (ptOf_inj h')) h2
  · intro s hs
    obtain ⟨i, _, rfl⟩ := List.mem_map.1 hs
    exact hd
  · intro s hs hsl
    obtain ⟨_, hlk⟩ := (hmem s.coord).1 (List.mem_map_of_mem hsl)
    have h4 := linked_same hlk
    rw [place_self] at h4
    rw [hv] at hs
    obtain ⟨i, hi, rfl⟩ := List.mem_map.1 hs
    dsimp only at h4
    have hbi : b.bd i = some k := (hc.mem i).2 (by simp [hi])
    have hip : ptOf n i ≠ p := by
      intro h'
      have h5 : i = twoTo1dim n.sz p := by rw [← h', twoTo1_ptOf]
      have := hc.nodup
      rw [List.nil_append, List.nodup_cons] at this
      exact this.1 (h5 ▸ hi)
    rw [place_ne hip, h.view_ptOf (h.off _ _ hbi), col_of_bd hbi hk] at h4
    exact hne (Option.some.inj h4)

/-- A stone with no neighbour of its group is alone in it. -/
theorem linked_alone {pos : Pos} {q : Coord} (hl : Linked n pos p q) : q = p ∨ ∃ s, Adj p s ∧ OnBoard n s ∧ pos s = pos p := by
  induction hl with
  | refl => exact Or.inl rfl
  | @step q r hl ha hr hh ih =>
    rcases ih with rfl | ih
    · exact Or.inr ⟨r, ha, hr, hh⟩
    · exact Or.inr ih

/-- **C110**, the stone is overwritten by its own colour: afterwards the slot of the group lists the stones up to that one, and none
of those after it, though every point of the board shows what it showed before. -/
theorem C110_own (hb : Board false n m b) (hl : b.chainStonesIdx false k = .ok (pre ++ ⟨p, d⟩ :: post))
    (e : b.push false p d = .ok b') :
    b'.chainStonesIdx false k = .ok (pre ++ [⟨p, d⟩]) ∧ (∀ s ∈ post, s ∉ pre ++ [⟨p, d⟩]) ∧
      ∀ q, OnBoard n q → b'.getColor q = b.getColor q := by
  have h := hb.inv.1
  obtain ⟨grp, u, v, hk, hd, hp, hbp, hc, hu, hv⟩ := group_split h hl
  have hvp : b.getColor p = .ok (some d) := by rw [h.getColor hp, col_of_bd hbp hk, hd]
  have hview : b.view p = some d := by unfold Goban.view; rw [hvp]
  have hsame := C76_push_occupied hb hp d hvp (by simp)
  rcases hsame with ⟨b2, e2, hsame, _⟩ | ⟨e2, _⟩
  swap
  · rw [e] at e2; cases e2
  rw [e] at e2; cases e2
  rw [push_eq h.size hp] at e
  obtain ⟨f, ef, e⟩ := bind_eq_ok e
  cases e
  have hmem : ∀ i ∈ u ++ [twoTo1dim n.sz p], Ix n i := by
    intro i hi
    refine h.off i k ((hc.mem i).2 ?_)
    simp only [List.mem_append, List.mem_cons, List.not_mem_nil, or_false] at hi ⊢
    tauto
  refine ⟨?_, ?_, ?_⟩
  · by_cases hj : ∃ j ∈ nbrs n (twoTo1dim n.sz p), b.bd j = some k
    · obtain ⟨grp', h1, h2, _, _, _, h3, _, _, hsz⟩ := push_same h hp hk hc hd hj ef
      unfold Goban.chainStonesIdx
      rw [Goban.chainAt_ok h1, ok_bind, h3, ok_bind]
      rw [mapM_ok (h := fun i => ({ coord := ptOf n i, color := grp'.color } : Stone))]
      · rw [hu, List.map_append, h2]
        simp [ptOf_twoTo1 h.good hp]
      · intro i hi
        rw [hsz, h.size, oneTo2_ok h.good (hmem i hi)]
        rfl
    · have hno : ∀ s, Adj p s → OnBoard n s → b.view s ≠ b.view p := by
        intro s ha hS hs
        refine hj ⟨twoTo1dim n.sz s, (mem_nbrs h.good (twoTo1_lt h.good hp)).2 ⟨twoTo1_lt h.good hS, ?_⟩,
          (h.linked_iff hp hS hbp).1 (.step (.refl _) ha hS hs)⟩
        rw [ptOf_twoTo1 h.good hp, ptOf_twoTo1 h.good hS]; exact ha
      have halone : ∀ i ∈ u ++ twoTo1dim n.sz p :: v, i = twoTo1dim n.sz p := by
        intro i hi
        have hbi := (hc.mem i).2 hi
        have hI := ptOf_onBoard (h.off _ _ hbi)
        rcases linked_alone ((h.linked_iff hp hI hbp).2 (by rw [twoTo1_ptOf]; exact hbi)) with h1 | ⟨s, h1, h2, h3⟩
        · rw [← h1, twoTo1_ptOf]
        · exact absurd h3 (hno s h1 h2)
      obtain rfl : u = [] := by
        cases u with
        | nil => rfl
        | cons a u =>
          have := hc.nodup
          rw [halone a (by simp), List.cons_append, List.nodup_cons] at this
          exact absurd (by simp) this.1
      obtain ⟨lib, same, C, hs⟩ := push_cut h hp hbp hk (fun j h1 h2 => absurd ⟨j, h1, h2⟩ hj) ef
      have hs0 : ∀ j, j ∉ same := by
        intro j hm
        obtain ⟨i, hi, h1, h2⟩ := (hs j).1 hm
        obtain ⟨hiN, hadj⟩ := (mem_nbrs h.good (twoTo1_lt h.good hp)).1 hi
        rw [ptOf_twoTo1 h.good hp] at hadj
        exact hno _ hadj (ptOf_onBoard hiN) (by rw [h.view_ptOf hiN, h2, hview])
      have ho : grp.origin = twoTo1dim n.sz p := by
        have := hc.head
        simpa using this.symm
      obtain ⟨l, h1, h2, h3⟩ := C.first (dbg := false) ho
      obtain rfl : l = [twoTo1dim n.sz p] := by
        have h4 : ∀ i, i ∈ l ↔ i = twoTo1dim n.sz p := by
          intro i
          rw [h3]
          exact ⟨fun h' => h'.elim id (fun ⟨j, hj, _⟩ => absurd hj (hs0 j)), Or.inl⟩
        rcases l with _ | ⟨a, _ | ⟨a', l⟩⟩
        · exact absurd ((h4 _).2 rfl) (by simp)
        · rw [(h4 a).1 (by simp)]
        · rw [(h4 a).1 (by simp), (h4 a').1 (by simp)] at h2
          simp at h2
      unfold Goban.chainStonesIdx
      rw [Goban.chainAt_ok C.old, ok_bind, h1, ok_bind]
      rw [mapM_ok (h := fun i => ({ coord := ptOf n i, color := grp.color } : Stone))]
      · rw [hu]
        simp [ptOf_twoTo1 h.good hp, hd]
      · intro i hi
        rw [C.size, h.size, oneTo2_ok h.good (hmem i hi)]
        rfl
  · intro s hs hs'
    rw [hv] at hs
    obtain ⟨i, hi, rfl⟩ := List.mem_map.1 hs
    have hnd := List.nodup_append.1 hc.nodup
    rcases List.mem_append.1 hs' with h1 | h1
    · rw [hu] at h1
      obtain ⟨j, hj, h2⟩ := List.mem_map.1 h1
      have : j = i := by
        have := congrArg Stone.coord h2
        exact ptOf_inj this
      exact hnd.2.2 j hj i (List.mem_cons_of_mem _ hi) this
    · have h2 : ptOf n i = p := congrArg Stone.coord (List.mem_singleton.1 h1)
      have h3 : i = twoTo1dim n.sz p := by rw [← h2, twoTo1_ptOf]
      exact (List.nodup_cons.1 hnd.2.1).1 (h3 ▸ hi)
  · intro q hq
    rw [hsame q hq, h.getColor hq, ← h.view hq]
    by_cases hqp : q = p
    · rw [hqp, place_self, hview]
    · rw [place_ne hqp]

/-- **C110**, `play` in place of `push`: on a reachable game without dead groups, `play` on an occupied point, unless it is a suicide that
the rule allows, leaves the board that `push` with the colour to move gives. -/
theorem C110_play (hr : Reach false n m g) (hn : NoDead n g.goban.view) {x y : Nat} (hp : OnBoard n (x, y))
    (hd : g.goban.getColor (x, y) = .ok (some d))
    (hs : g.rule.flagIllegal.suicide = true ∨
      ∃ q, OnBoard n q ∧ Adj (x, y) q ∧ g.goban.getColor q ≠ .ok (some g.turn.opp))
    {g' : Game} (e : g.play false (.play x y) = .ok g') :
    Board false n m g.goban ∧ g.goban.push false (x, y) g.turn = .ok g'.goban := by
  have h := hr.inv
  have hv : ∀ {q o}, g.goban.getColor q = .ok o → g.goban.view q = o := fun e => by unfold Goban.view; rw [e]
  refine ⟨hr.spec.board, ?_⟩
  rw [play_eq] at e
  obtain ⟨l', el, _⟩ := historyInsert_ok h g.history (fun b hb => by
    obtain ⟨m', _, hb'⟩ := hr.spec.history b hb
    exact hb'.inv.1)
  rw [el, ok_bind] at e
  unfold Goban.move at e
  rw [push_eq h.size hp]
  rcases pushWth_occupied (dbg := false) (c := g.turn) h hp (hv hd) (by simp) with
    ⟨f, ef, h1, h2, h3, ⟨gt, h4, h5⟩, _⟩ | ⟨ef, hf⟩
  · rw [ef, ok_bind, h3 hn] at e
    unfold Goban.removeCapturedStonesAux at e
    dsimp only at e
    rw [show ([] : List Nat).foldlM (Goban.captureStep false ([].length == 1)) { removed := (0, 0), ko := none, goban := f.goban } =
      (.ok { removed := (0, 0), ko := none, goban := f.goban } : M Goban.Captures) from rfl, ok_bind, Goban.chainAt_ok h4, ok_bind, if_neg] at e
    · cases e
      rw [ef]; rfl
    · rcases hs with hs | ⟨q, hq, ha, hqe⟩
      · rw [hs]; simp
      · rw [h5 ⟨q, hq, ha, ?_⟩]
        · simp
        rw [h.getColor_view hq] at hqe
        rcases hv' : g.goban.view q with _ | e
        · exact Or.inl rfl
        · right
          rw [hv'] at hqe
          refine ⟨?_, hn⟩
          by_cases h' : e = g.turn
          · rw [h']
          · exact absurd (by rw [Color.eq_opp_of_ne h']) hqe
  · rw [ef] at e
    cases e

/-! ### Cases -/

/-- The stones of slot `k` before and after `push`. -/
def pushStones (b : Goban) (p : Coord) (c : Color) (k : Nat) : M (List Stone) × M (List Stone) :=
  (b.chainStonesIdx false k, do let b ← b.push false p c; b.chainStonesIdx false k)

/-- A black group of three with a white stone beside it. White on the second or third of them: the iterator never ends. White on the
first: the iterator of the black group lists the two white stones as black ones. Black on the second: the third is lost. -/
example : ∃ b, Board false 5 4 b ∧ (
    pushStones b (1, 1) .white 0 = (.ok [⟨(0, 1), .black⟩, ⟨(1, 1), .black⟩, ⟨(2, 1), .black⟩], .error .diverge) ∧
    (pushStones b (2, 1) .white 0).2 = .error .diverge ∧
    (pushStones b (0, 1) .white 0).2 = .ok [⟨(0, 1), .black⟩, ⟨(0, 2), .black⟩] ∧
    (pushStones b (1, 1) .black 0).2 = .ok [⟨(0, 1), .black⟩, ⟨(1, 1), .black⟩] ∧
    b.getColor (0, 2) = .ok (some .white) : Bool) = true :=
  mkBoard_exists (l := [.push 0 1 .black, .push 1 1 .black, .push 2 1 .black, .push 0 2 .white]) (by decide +kernel)

/-- The same in a game: White plays on the second of two black stones. -/
example : ∃ g, Legal false 5 3 g ∧ (okAnd (g.play false (.play 1 1)) (fun g' => g'.goban.chainStonesIdx false 0 == .error .diverge) ∧
    g.goban.chainStonesIdx false 0 = .ok [⟨(0, 1), .black⟩, ⟨(1, 1), .black⟩] ∧ g.turn = .white ∧
    g.goban.getColor (1, 1) = .ok (some .black) ∧ g.rule.flagIllegal.suicide = true : Bool) = true :=
  mkGame_exists (rule := CHINESE) (l := [.try_ (.play 0 1), .try_ (.play 4 4), .try_ (.play 1 1)]) (by decide) (by decide +kernel)

/-- A game of plays on a board of the given size, in a release build. -/
def playAll (n : Dim) (l : List Coord) : M Game := do
  let g ← Game.new (.custom n.h n.w) CHINESE
  l.foldlM (fun (g : Game) (p : Coord) => g.play false (.play p.1 p.2)) g

/-- **C110**, `play` itself: on a 2×2 board White plays on the second of Black's two stones; Black's next move, on the remaining empty
point, does not return. In another order the last move returns, and the board can no longer be read. -/
theorem C110_play_hangs :
    okAnd (playAll 2 [(0, 1), (1, 0), (1, 1), (1, 1)]) (fun g => g.goban.getColor (0, 0) == .ok none) = true ∧
    playAll 2 [(0, 1), (1, 0), (1, 1), (1, 1), (0, 0)] = .error .diverge ∧
    okAnd (playAll 2 [(0, 0), (1, 1), (0, 1), (0, 1), (1, 0)]) (fun g => g.goban.toVec == panic) = true := by
  refine ⟨?_, ?_, ?_⟩
  · decide +kernel
  · have h : (match playAll 2 [(0, 1), (1, 0), (1, 1), (1, 1), (0, 0)] with | .error .diverge => true | _ => false) = true := by
      decide +kernel
    revert h
    cases playAll 2 [(0, 1), (1, 0), (1, 1), (1, 1), (0, 0)] with
    | ok g => intro h; cases h
    | error f => cases f <;> intro h <;> first | rfl | cases h
  · decide +kernel

end Model
