import Verif.Spec.Groups
import Verif.Proofs.AnySize
import Verif.Props.Board
/-!
# The listing of the groups: C101
-/

namespace Model
open Spec (OnBoard Adj Linked HasLiberty NoDead place SameOn Pos FirstOfGroup)

variable {dbg : Bool} {n : Dim} {m : Nat} {g : Goban}

theorem iterWithIndex_snd (cs : Groups) : cs.iterWithIndex.map Prod.snd = cs.iter := by
  unfold Groups.iterWithIndex Groups.iter
  suffices ∀ (cs : Groups) (j : Nat), ((cs.zipIdx j).filterMap (fun (e, i) => e.map (fun g => (i, g)))).map Prod.snd =
      cs.filterMap id from this cs 0
  intro cs
  induction cs with
  | nil => intro j; rfl
  | cons a cs ih =>
    intro j
    rw [List.zipIdx_cons]
    cases a with
    | none => simpa using ih (j + 1)
    | some x => simpa using ih (j + 1)

theorem iterWithIndex_lt (cs : Groups) : cs.iterWithIndex.Pairwise (fun a b => a.1 < b.1) := by
  unfold Groups.iterWithIndex
  suffices ∀ (cs : Groups) (j : Nat), ((cs.zipIdx j).filterMap (fun (e, i) => e.map (fun g => (i, g)))).Pairwise (fun a b => a.1 < b.1) ∧
      ∀ a ∈ (cs.zipIdx j).filterMap (fun (e, i) => e.map (fun g => (i, g))), j ≤ a.1 from (this cs 0).1
  intro cs
  induction cs with
  | nil => intro j; exact ⟨.nil, by simp⟩
  | cons a cs ih =>
    intro j
    obtain ⟨h1, h2⟩ := ih (j + 1)
    rw [List.zipIdx_cons]
    cases a with
    | none => exact ⟨by simpa using h1, fun a ha => by have := h2 a (by simpa using ha); omega⟩
    | some x =>
      rw [List.filterMap_cons]
      refine ⟨List.pairwise_cons.2 ⟨fun a ha => h2 a ha, h1⟩, fun a ha => ?_⟩
      rcases List.mem_cons.1 ha with rfl | ha
      · exact Nat.le_refl _
      · have := h2 a ha; omega

theorem mem_chainsIter {grp : Group} : grp ∈ g.chainsIter ↔ ∃ k, g.ch k = some grp := by
  unfold Goban.chainsIter
  rw [← iterWithIndex_snd, List.mem_map]
  constructor
  · rintro ⟨⟨k, x⟩, hm, rfl⟩; exact ⟨k, mem_iterWithIndex.1 hm⟩
  · rintro ⟨k, hk⟩; exact ⟨(k, grp), mem_iterWithIndex.2 hk, rfl⟩

/-- On an admissible board indices grow row by row. -/
theorem index_le_iff (hn : n.Good) {p q : Coord} (hp : OnBoard n p) (hq : OnBoard n q) :
    twoTo1dim n.sz p ≤ twoTo1dim n.sz q ↔ p.1 < q.1 ∨ (p.1 = q.1 ∧ p.2 ≤ q.2) := by
  have hp2 : p.2 < n.h := Nat.lt_of_lt_of_le hp.2 (onBoard_w19 hn hp).1
  have hq2 : q.2 < n.h := Nat.lt_of_lt_of_le hq.2 (onBoard_w19 hn hq).1
  show p.1 * n.h + p.2 ≤ q.1 * n.h + q.2 ↔ _
  rcases Nat.lt_trichotomy p.1 q.1 with h | h | h
  · have : (p.1 + 1) * n.h ≤ q.1 * n.h := Nat.mul_le_mul_right _ h
    rw [Nat.succ_mul] at this
    constructor
    · intro _; exact Or.inl h
    · intro _; omega
  · rw [h]
    constructor
    · intro h'; exact Or.inr ⟨rfl, by omega⟩
    · intro h'; omega
  · have : (q.1 + 1) * n.h ≤ p.1 * n.h := Nat.mul_le_mul_right _ h
    rw [Nat.succ_mul] at this
    constructor
    · intro _; omega
    · intro _; omega

theorem GroupSpec.origin {k : Nat} {grp : Group} {l : List Stone} (hs : GroupSpec dbg n g k grp l) (h : Inv n g)
    (hk : g.ch k = some grp) : ∃ s ∈ l, twoTo1dim n.sz s.coord = grp.origin ∧ FirstOfGroup n g.view s.coord := by
  have hh := List.mem_of_head? hs.head
  obtain ⟨s, hs1, e⟩ := List.mem_map.1 hh
  obtain ⟨h1, h2, _⟩ := hs.view h hk hs1
  refine ⟨s, hs1, e, h1, by rw [h2]; simp, fun q hq => ?_⟩
  have hq1 := (hs.linked h hk hs1).2 hq
  obtain ⟨t, ht, rfl⟩ := List.mem_map.1 hq1
  refine (index_le_iff h.good h1 (hs.view h hk ht).1).1 ?_
  rw [e]; exact hs.min t ht

theorem chains_perm (hi : Inv n g) :
    (g.chainsIter.map Group.origin).Perm ((Spec.groupFirsts n g.view).map (fun p => p.1 * n.h + p.2)) := by
  classical
  have hnd : (g.chainsIter.map Group.origin).Nodup := by
    unfold Goban.chainsIter
    rw [← iterWithIndex_snd, List.map_map]
    refine List.Pairwise.map (R := fun a b => a ∈ g.chains.iterWithIndex ∧ b ∈ g.chains.iterWithIndex ∧ a.1 < b.1) _ ?_
      ((iterWithIndex_lt g.chains).imp_of_mem (fun ha hb hab => ⟨ha, hb, hab⟩))
    rintro ⟨i, x⟩ ⟨j, y⟩ ⟨hx, hy, hlt⟩ e
    obtain ⟨lx, cx⟩ := hi.rep.chain i x (mem_iterWithIndex.1 hx)
    obtain ⟨ly, cy⟩ := hi.rep.chain j y (mem_iterWithIndex.1 hy)
    have h1 := (cx.mem _).2 (List.mem_of_head? cx.head)
    have h2 := (cy.mem _).2 (List.mem_of_head? cy.head)
    have e : x.origin = y.origin := e
    rw [e, h2] at h1
    have : j = i := Option.some.inj h1
    dsimp only at hlt
    omega
  have hnd2 : ((Spec.groupFirsts n g.view).map (fun p => p.1 * n.h + p.2)).Nodup := by
    refine List.Pairwise.map (R := fun a b => OnBoard n a ∧ OnBoard n b ∧ a ≠ b) _ ?_
      (((points_nodup n).filter _).imp_of_mem (fun ha hb hab => ⟨mem_points.1 (List.mem_filter.1 ha).1,
        mem_points.1 (List.mem_filter.1 hb).1, hab⟩))
    rintro a b ⟨ha, hb, hab⟩ e
    apply hab
    have e : twoTo1dim n.sz a = twoTo1dim n.sz b := e
    rw [← ptOf_twoTo1 hi.good ha, e, ptOf_twoTo1 hi.good hb]
  refine (List.perm_ext_iff_of_nodup hnd hnd2).2 (fun x => ?_)
  rw [List.mem_map, List.mem_map]
  constructor
  · rintro ⟨grp, hg, rfl⟩
    obtain ⟨k, hk⟩ := mem_chainsIter.1 hg
    obtain ⟨l, hs⟩ := group_spec (dbg := true) hi hk
    obtain ⟨s, _, e, hf⟩ := hs.origin hi hk
    refine ⟨s.coord, ?_, e⟩
    unfold Spec.groupFirsts
    rw [List.mem_filter, decide_eq_true_eq]
    exact ⟨mem_points.2 hf.1, hf⟩
  · rintro ⟨p, hp, rfl⟩
    unfold Spec.groupFirsts at hp
    rw [List.mem_filter, decide_eq_true_eq] at hp
    obtain ⟨hp1, hp2, hp3⟩ := hp.2
    obtain ⟨c, hc⟩ := Option.ne_none_iff_exists'.1 hp2
    obtain ⟨k, hb⟩ : ∃ k, g.bd (twoTo1dim n.sz p) = some k := by
      cases hb : g.bd (twoTo1dim n.sz p) with
      | none => rw [hi.view hp1, col_none hb] at hc; cases hc
      | some k => exact ⟨k, rfl⟩
    obtain ⟨grp, hk⟩ := hi.rep.live _ _ hb
    obtain ⟨l, hs⟩ := group_spec (dbg := true) hi hk
    obtain ⟨t, hm, rfl⟩ := List.mem_map.1 ((hs.mem p).2 ⟨hp1, hb⟩)
    obtain ⟨s, hs1, e1, hf⟩ := hs.origin hi hk
    refine ⟨grp, mem_chainsIter.2 ⟨k, hk⟩, ?_⟩
    have h1 : Linked n g.view t.coord s.coord := (hs.linked hi hk hm).1 (List.mem_map_of_mem hs1)
    have h2 := (index_le_iff hi.good hp1 hf.1).2 (hp3 _ h1)
    have h3 := hs.min _ hm
    rw [e1] at h2
    exact Nat.le_antisymm h3 h2

/-- **C101**. The groups listed by `chains()`, told by their first stones, are the groups of the position, each once. -/
theorem C101_chains (h : Board dbg n m g) :
    (g.chainsIter.map Group.origin).Perm ((Spec.groupFirsts n g.view).map (fun p => p.1 * n.h + p.2)) := chains_perm h.inv.1

theorem chains_number (h : Inv n g) : g.chainsIter.length = Spec.groupCount n g.view := by
  have := (chains_perm h).length_eq
  rwa [List.length_map, List.length_map] at this

/-- **C101**. `chains()` lists as many groups as there are on the board. -/
theorem C101_number (h : Board dbg n m g) : g.chainsIter.length = Spec.groupCount n g.view := chains_number h.inv.1

/-- **C101**. What each of the listed groups records: with `p` its first stone, the colour of `p`, the number of stones of its
group and, in increasing order, its liberties. -/
theorem C101_record (h : Board dbg n m g) {grp : Group} (hg : grp ∈ g.chainsIter) :
    ∃ p, FirstOfGroup n g.view p ∧ grp.origin = p.1 * n.h + p.2 ∧ g.getColor p = .ok (some grp.color) ∧
      grp.numStones = Spec.groupSize n g.view p ∧ grp.libertiesVec.Pairwise (· < ·) ∧
      (∀ x, x ∈ grp.libertiesVec ↔ ∃ q r, Linked n g.view p q ∧ Adj q r ∧ OnBoard n r ∧ g.getColor r = .ok none ∧
        r.1 * n.h + r.2 = x) ∧
      (grp.isDead = true ↔ ¬ HasLiberty n g.view p) ∧
      (grp.isAtari = true ↔ ∃ r, OnBoard n r ∧ ∀ r', (∃ q, Linked n g.view p q ∧ Adj q r' ∧ OnBoard n r' ∧ g.view r' = none) ↔ r' = r) := by
  classical
  have hi := h.inv.1
  obtain ⟨k, hk⟩ := mem_chainsIter.1 hg
  obtain ⟨l, hs⟩ := group_spec (dbg := dbg) hi hk
  obtain ⟨s, hs1, e, hf⟩ := hs.origin hi hk
  obtain ⟨c1, c2, _, c4, c5, _⟩ := C03_liberties h (chainAt_iff.2 hk) hs.stones
  obtain ⟨_, v2, _⟩ := hs.view hi hk hs1
  have hlib : ∀ x, x ∈ grp.libertiesVec ↔ ∃ q r, Linked n g.view s.coord q ∧ Adj q r ∧ OnBoard n r ∧ g.getColor r = .ok none ∧
        r.1 * n.h + r.2 = x := by
    intro x
    rw [c2]
    constructor
    · rintro ⟨r, h1, h2, h3, t, ht, h4⟩
      exact ⟨t.coord, r, (hs.linked hi hk hs1).1 (List.mem_map_of_mem ht), h4, h1, h3, h2⟩
    · rintro ⟨q, r, h1, h2, h3, h4, h5⟩
      obtain ⟨t, ht, rfl⟩ := List.mem_map.1 ((hs.linked hi hk hs1).2 h1)
      exact ⟨r, h3, h5, h4, t, ht, h2⟩
  refine ⟨s.coord, hf, e.symm, by rw [hi.getColor_view hf.1, v2], ?_, c1, hlib, ?_, ?_⟩
  · rw [← hs.len]
    unfold Spec.groupSize
    rw [← List.length_map (f := Stone.coord)]
    apply List.Perm.length_eq
    refine (List.perm_ext_iff_of_nodup hs.nodup ((points_nodup n).filter _)).2 (fun q => ?_)
    rw [List.mem_filter, decide_eq_true_eq, hs.linked hi hk hs1, mem_points]
    exact ⟨fun h1 => ⟨linked_onBoard h1 hf.1, h1⟩, fun h1 => h1.2⟩
  · rw [c4, List.eq_nil_iff_forall_not_mem]
    constructor
    · rintro h1 ⟨q, r, h2, h3, h4, h5⟩
      exact h1 _ ((hlib _).2 ⟨q, r, h2, h3, h4, (getColor_none hi h4).2 h5, rfl⟩)
    · intro h1 x hx
      obtain ⟨q, r, h2, h3, h4, h5, _⟩ := (hlib x).1 hx
      exact h1 ⟨q, r, h2, h3, h4, (getColor_none hi h4).1 h5⟩
  · rw [c5]
    constructor
    · intro h1
      obtain ⟨x, hx⟩ := List.length_eq_one_iff.1 h1
      obtain ⟨q, r, h2, h3, h4, h5, h6⟩ := (hlib x).1 (by rw [hx]; simp)
      refine ⟨r, h4, fun r' => ⟨?_, ?_⟩⟩
      · rintro ⟨q', h2', h3', h4', h5'⟩
        have := (hlib (r'.1 * n.h + r'.2)).2 ⟨q', r', h2', h3', h4', (getColor_none hi h4').2 h5', rfl⟩
        rw [hx, List.mem_singleton, ← h6] at this
        have e' : twoTo1dim n.sz r' = twoTo1dim n.sz r := this
        rw [← ptOf_twoTo1 hi.good h4', e', ptOf_twoTo1 hi.good h4]
      · rintro rfl
        exact ⟨q, h2, h3, h4, (getColor_none hi h4).1 h5⟩
    · rintro ⟨r, hr, h1⟩
      obtain ⟨q, h2, h3, h4, h5⟩ := (h1 r).2 rfl
      have hm := (hlib (r.1 * n.h + r.2)).2 ⟨q, r, h2, h3, h4, (getColor_none hi h4).2 h5, rfl⟩
      have hall : ∀ x ∈ grp.libertiesVec, x = r.1 * n.h + r.2 := by
        intro x hx
        obtain ⟨q', r', a1, a2, a3, a4, rfl⟩ := (hlib x).1 hx
        rw [(h1 r').1 ⟨q', a1, a2, a3, (getColor_none hi a3).1 a4⟩]
      cases hl : grp.libertiesVec with
      | nil => rw [hl] at hm; cases hm
      | cons a t =>
        rw [hl] at hall c1
        cases t with
        | nil => rfl
        | cons b t =>
          have h1 := hall a (by simp)
          have h2 := hall b (by simp)
          have := (List.pairwise_cons.1 c1).1 b (by simp)
          omega

/-- A board with three groups: one with three liberties, one with none, one in atari. -/
theorem C101_example : ∃ g, Board true 3 5 g ∧ (g.chainsIter.map (fun x => (x.origin, x.color, x.numStones, x.libertiesVec)) =
    [(3, .black, 2, [5, 6, 7]), (0, .white, 2, []), (2, .black, 1, [5])] : Bool) = true :=
  mkBoard_exists (n := 3) (l := [.push 1 0 .black, .push 1 1 .black, .push 0 0 .white, .push 0 1 .white, .push 0 2 .black])
    (by decide +kernel)

end Model
