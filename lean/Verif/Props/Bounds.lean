import Verif.Props.Chains
import Verif.Props.Return
import Verif.Props.Transpose
/-!
# How many liberties, groups and stones there can be: C122
-/

namespace Model
open Spec (OnBoard Adj Linked HasLiberty NoDead SameOn Pos)

variable {dbg : Bool} {n : Dim} {m : Nat}

/-- The points next to `p`, on the board or not. -/
def sides (p : Coord) : List Coord :=
  [(p.1 + 1, p.2), (p.1, p.2 + 1)] ++ (if p.1 = 0 then [] else [(p.1 - 1, p.2)]) ++ (if p.2 = 0 then [] else [(p.1, p.2 - 1)])

theorem mem_sides {p q : Coord} : q ∈ sides p ↔ Adj p q := by
  obtain ⟨a, b⟩ := p
  obtain ⟨c, d⟩ := q
  unfold sides Adj
  by_cases ha : a = 0 <;> by_cases hb : b = 0 <;> simp [ha, hb] <;> omega

theorem sides_length (p : Coord) : (sides p).length ≤ 4 := by
  unfold sides
  by_cases ha : p.1 = 0 <;> by_cases hb : p.2 = 0 <;> simp [ha, hb]

theorem adj_comm' {p q : Coord} (h : Adj p q) : Adj q p := by unfold Adj at *; omega

/-- Points joined one after the other, each next to one of those before it. -/
inductive Joined : List Coord → Prop
  | one (p : Coord) : Joined [p]
  | more {p q : Coord} {T : List Coord} : Joined T → q ∈ T → Adj q p → p ∉ T → Joined (p :: T)

/-- Points outside that are next to `k` joined points: at most `2 * k + 2`. -/
theorem Joined.border {T : List Coord} (h : Joined T) : ∀ D : List Coord, D.Nodup → (∀ d ∈ D, d ∉ T ∧ ∃ t ∈ T, Adj t d) →
    D.length ≤ 2 * T.length + 2 := by
  classical
  induction h with
  | one p =>
    intro D hn hD
    have := (List.subperm_of_subset hn (l₂ := sides p) (fun d hd => by
      obtain ⟨_, t, ht, ha⟩ := hD d hd
      rw [List.mem_singleton] at ht
      exact mem_sides.2 (ht ▸ ha))).length_le
    have := sides_length p
    simp only [List.length_singleton]
    omega
  | @more p q T _ hq ha hp ih =>
    intro D hn hD
    obtain ⟨f, hf⟩ : ∃ f : Coord → Bool, ∀ d, f d = true ↔ ∃ t ∈ T, Adj t d := ⟨fun d => decide (∃ t ∈ T, Adj t d), by simp⟩
    have h1 := ih (p :: D.filter f)
      (List.nodup_cons.2 ⟨fun hm => (hD p (List.mem_filter.1 hm).1).1 List.mem_cons_self, hn.filter _⟩) (by
        intro d hd
        rcases List.mem_cons.1 hd with rfl | hd
        · exact ⟨hp, q, hq, ha⟩
        · obtain ⟨hd, ht⟩ := List.mem_filter.1 hd
          exact ⟨fun hm => (hD d hd).1 (List.mem_cons_of_mem _ hm), (hf d).1 ht⟩)
    have h2 := (List.subperm_of_subset (hn.filter (fun d => !f d)) (l₂ := (sides p).erase q) (by
      intro d hd
      obtain ⟨hd, ht⟩ := List.mem_filter.1 hd
      have ht : ¬ ∃ t ∈ T, Adj t d := by rw [← hf]; simpa using ht
      obtain ⟨hn, t, ht', ha'⟩ := hD d hd
      rcases List.mem_cons.1 ht' with rfl | ht'
      · refine (List.mem_erase_of_ne ?_).2 (mem_sides.2 ha')
        rintro rfl
        exact hn (List.mem_cons_of_mem _ hq)
      · exact absurd ⟨t, ht', ha'⟩ ht)).length_le
    rw [List.length_erase_of_mem (mem_sides.2 (adj_comm' ha))] at h2
    have h3 := sides_length p
    have h4 : D.length = (D.filter f).length + (D.filter (fun d => !f d)).length := by
      rw [← List.countP_eq_length_filter, ← List.countP_eq_length_filter, List.length_eq_countP_add_countP f]
      simp
    simp only [List.length_cons] at h1 ⊢
    omega

theorem Joined.nodup {T : List Coord} (h : Joined T) : T.Nodup := by
  induction h with
  | one => simp
  | more _ _ _ hp ih => exact List.nodup_cons.2 ⟨hp, ih⟩

theorem step_out {pos : Pos} {T : List Coord} {p q : Coord} (hp : p ∈ T) (hl : Linked n pos p q) (hq : q ∉ T) :
    ∃ a b, a ∈ T ∧ b ∉ T ∧ Adj a b ∧ Linked n pos p b := by
  induction hl with
  | refl => exact absurd hp hq
  | @step x y h1 h2 h3 h4 ih =>
    by_cases hx : x ∈ T
    · exact ⟨x, y, hx, hq, h2, .step h1 h2 h3 h4⟩
    · exact ih hx

/-- The points linked with one of them can be joined one after the other. -/
theorem joined_order {pos : Pos} {p : Coord} {S : List Coord} (hS : ∀ q, q ∈ S ↔ Linked n pos p q) (hn : S.Nodup) :
    ∃ T, Joined T ∧ T.Perm S := by
  suffices ∀ k T, S.length - T.length = k → Joined T → p ∈ T → (∀ q ∈ T, q ∈ S) → ∃ T, Joined T ∧ T.Perm S from
    this _ [p] rfl (.one p) List.mem_cons_self (fun q hq => by rw [List.mem_singleton.1 hq, hS]; exact .refl _)
  intro k
  induction k with
  | zero =>
    intro T hk hT _ hsub
    have hsp := List.subperm_of_subset hT.nodup hsub
    exact ⟨T, hT, hsp.perm_of_length_le (by omega)⟩
  | succ k ih =>
    intro T hk hT hp hsub
    by_cases hall : ∀ q ∈ S, q ∈ T
    · have := (List.subperm_of_subset hn hall).length_le
      omega
    · obtain ⟨q, hq1, hq2⟩ : ∃ q, q ∈ S ∧ q ∉ T := by
        apply Classical.byContradiction
        intro hno
        exact hall (fun q hq => Classical.byContradiction fun h => hno ⟨q, hq, h⟩)
      obtain ⟨a, b, ha, hb, hab, hl⟩ := step_out hp ((hS q).1 hq1) hq2
      refine ih (b :: T) (by simp only [List.length_cons]; omega) (.more hT ha hab hb) (List.mem_cons_of_mem _ hp) ?_
      intro x hx
      rcases List.mem_cons.1 hx with rfl | hx
      · exact (hS _).2 hl
      · exact hsub x hx

theorem libs_nodup (grp : Group) : grp.libertiesVec.Nodup := by
  unfold Group.libertiesVec
  rw [Bits.iterOnes_eq]
  exact Bits.members_nodup _

/-- **C122**: a group of `k` stones has at most `2 * k + 2` liberties. -/
theorem C122_liberties {g : Goban} (h : Board dbg n m g) {grp : Group} (hg : grp ∈ g.chainsIter) :
    1 ≤ grp.numStones ∧ grp.numberOfLiberties ≤ 2 * grp.numStones + 2 := by
  have hi := h.inv.1
  obtain ⟨k, hk⟩ := mem_chainsIter.1 hg
  obtain ⟨l, hs⟩ := group_spec (dbg := dbg) hi hk
  obtain ⟨s, hsl⟩ := List.exists_mem_of_ne_nil _ hs.ne
  obtain ⟨T, hT, hp⟩ := joined_order (n := n) (pos := g.view) (p := s.coord) (fun q => hs.linked hi hk hsl) hs.nodup
  have hlen : T.length = grp.numStones := by rw [hp.length_eq, List.length_map, hs.len]
  have e : grp.numberOfLiberties = grp.libertiesVec.length := (C03_liberties h (live_ch.2 hk) hs.stones).2.2.1
  refine ⟨by rw [← hs.len]; exact List.length_pos_of_mem hsl, ?_⟩
  rw [e, ← hlen]
  have hb := hT.border (grp.libertiesVec.map (ptOf n)) ?_ ?_
  · rwa [List.length_map] at hb
  · refine List.pairwise_map.2 ((libs_nodup grp).imp_of_mem ?_)
    intro x y hx hy hne exy
    apply hne
    obtain ⟨r, hr, rfl, _⟩ := (libs_spec hi hk hs x).1 hx
    obtain ⟨r', hr', rfl, _⟩ := (libs_spec hi hk hs y).1 hy
    rw [ptOf_twoTo1 hi.good hr, ptOf_twoTo1 hi.good hr'] at exy
    rw [exy]
  · intro d hd
    obtain ⟨x, hx, rfl⟩ := List.mem_map.1 hd
    obtain ⟨r, hr, rfl, he, t, ht, ha⟩ := (libs_spec hi hk hs x).1 hx
    rw [ptOf_twoTo1 hi.good hr]
    refine ⟨fun hm => ?_, t.coord, hp.mem_iff.2 (List.mem_map_of_mem ht), ha⟩
    obtain ⟨u, hu, e⟩ := List.mem_map.1 (hp.mem_iff.1 hm)
    have := (hs.view hi hk hu).2.1
    rw [e, he] at this
    cases this

/-- **C122**: the liberties of all groups together are at most four for each empty point. -/
theorem C122_total {g : Goban} (h : Board dbg n m g) :
    (g.chainsIter.map Group.numberOfLiberties).sum ≤ 4 * Spec.count n g.view none := by
  have hi := h.inv.1
  let E := (Spec.points n).filter (fun p => decide (g.view p = none))
  let L := g.chains.iterWithIndex
  let P : List (Option Nat × Nat) := L.flatMap (fun a => a.2.libertiesVec.map (fun x => (some a.1, x)))
  let Q : List (Option Nat × Nat) := E.flatMap (fun r => (sides r).map (fun q => (g.bd (twoTo1dim n.sz q), twoTo1dim n.sz r)))
  have hP : P.length = (g.chainsIter.map Group.numberOfLiberties).sum := by
    show (L.flatMap _).length = _
    unfold Goban.chainsIter
    rw [← iterWithIndex_snd, List.length_flatMap, List.map_map]
    congr 1
    refine List.map_congr_left (fun a ha => ?_)
    obtain ⟨k, grp⟩ := a
    have hk := mem_iterWithIndex.1 ha
    obtain ⟨l, hs⟩ := group_spec (dbg := dbg) hi hk
    rw [List.length_map]
    exact (C03_liberties h (live_ch.2 hk) hs.stones).2.2.1.symm
  have hQ : ∀ E : List Coord, (E.flatMap (fun r => (sides r).map (fun q => (g.bd (twoTo1dim n.sz q), twoTo1dim n.sz r)))).length ≤
      4 * E.length := by
    intro E
    induction E with
    | nil => exact Nat.le_refl _
    | cons r E ih =>
      rw [List.flatMap_cons, List.length_append, List.length_map, List.length_cons]
      have := sides_length r
      omega
  have hn : P.Nodup := by
    show (L.flatMap _).Nodup
    refine List.pairwise_flatMap.2 ⟨fun a _ => List.pairwise_map.2 ((libs_nodup a.2).imp (fun hne e => hne (Prod.mk.inj e).2)), ?_⟩
    refine (iterWithIndex_lt g.chains).imp ?_
    intro a b hab x hx y hy e
    obtain ⟨_, _, rfl⟩ := List.mem_map.1 hx
    obtain ⟨_, _, rfl⟩ := List.mem_map.1 hy
    have := Option.some.inj (Prod.mk.inj e).1
    omega
  have hsub : ∀ x ∈ P, x ∈ Q := by
    intro x hx
    obtain ⟨⟨k, grp⟩, ha, hx⟩ := List.mem_flatMap.1 hx
    obtain ⟨y, hy, rfl⟩ := List.mem_map.1 hx
    have hk := mem_iterWithIndex.1 ha
    obtain ⟨l, hs⟩ := group_spec (dbg := dbg) hi hk
    obtain ⟨r, hr, rfl, he, t, ht, hadj⟩ := (libs_spec hi hk hs y).1 hy
    refine List.mem_flatMap.2 ⟨r, List.mem_filter.2 ⟨mem_points.2 hr, decide_eq_true he⟩, ?_⟩
    refine List.mem_map.2 ⟨t.coord, mem_sides.2 (adj_comm' hadj), ?_⟩
    rw [(hs.view hi hk ht).2.2]
  have := (List.subperm_of_subset hn hsub).length_le
  rw [hP] at this
  exact Nat.le_trans this (hQ E)

/-- **C122**: in a game in which no group without liberties was set up there is always room: an empty point, and groups are at most
four times as many as the empty points. -/
theorem C122_room {g : Game} (h : Legal dbg n m g) (hn : 0 < n.area) :
    g.goban.numberOfStones.1 + g.goban.numberOfStones.2 < n.area ∧
    g.goban.chainsIter.length ≤ 4 * (n.area - (g.goban.numberOfStones.1 + g.goban.numberOfStones.2)) := by
  obtain ⟨_, _, hr⟩ := h.reach
  have hb := hr.spec.board
  have hd := C10_no_dead_groups h
  have hc := count_total (n := n) g.goban.view
  rw [(C05_number_of_stones hb).1]
  dsimp only
  constructor
  · obtain ⟨p, hp, he⟩ : ∃ p, OnBoard n p ∧ g.goban.view p = none := by
      have h0 : OnBoard n (0, 0) := by
        unfold Dim.area at hn
        exact ⟨Nat.pos_of_mul_pos_right hn, Nat.pos_of_mul_pos_left hn⟩
      by_cases he : g.goban.view (0, 0) = none
      · exact ⟨_, h0, he⟩
      · obtain ⟨_, r, _, _, hr, he⟩ := hd _ h0 he
        exact ⟨r, hr, he⟩
    have : 0 < Spec.count n g.goban.view none :=
      List.length_pos_of_mem (List.mem_filter.2 ⟨mem_points.2 hp, decide_eq_true he⟩)
    omega
  · have ht := C122_total hb
    have : g.goban.chainsIter.length ≤ (g.goban.chainsIter.map Group.numberOfLiberties).sum := by
      have key : ∀ l : List Group, (∀ x ∈ l, 1 ≤ x.numberOfLiberties) → l.length ≤ (l.map Group.numberOfLiberties).sum := by
        intro l
        induction l with
        | nil => intro _; exact Nat.le_refl _
        | cons a l ih =>
          intro hl
          rw [List.length_cons, List.map_cons, List.sum_cons]
          have := hl a List.mem_cons_self
          have := ih (fun x hx => hl x (List.mem_cons_of_mem _ hx))
          omega
      refine key _ (fun grp hg => ?_)
      obtain ⟨p, hf, _, _, _, _, hm, _⟩ := C101_record hb hg
      obtain ⟨q, r, h1, h2, h3, h4⟩ := hd p hf.1 hf.2.1
      obtain ⟨k, hk⟩ := mem_chainsIter.1 hg
      obtain ⟨l, hs⟩ := group_spec (dbg := dbg) hb.inv.1 hk
      rw [(C03_liberties hb (live_ch.2 hk) hs.stones).2.2.1]
      exact List.length_pos_of_mem ((hm _).2 ⟨q, r, h1, h2, h3, by rw [hb.inv.1.getColor_view h3, h4], rfl⟩)
    omega

theorem Puts.plays {g g' : Game} {L : List Stone} (hl : Puts dbg n g L g') : ∃ b w, Plays dbg n g b w g' ∧ b + w = L.length := by
  induction hl with
  | start => exact ⟨0, 0, .start, rfl⟩
  | @stone L g1 g2 x y _ hp e ih =>
    obtain ⟨b, w, ih, h1⟩ := ih
    refine ⟨_, _, .play ih hp (accepted_stone e).1 (C13_accepted_is_play e), ?_⟩
    cases g1.turn <;> simp [← h1] <;> omega
  | pass _ e ih =>
    obtain ⟨b, w, ih, h1⟩ := ih
    exact ⟨_, _, .pass ih (C13_accepted_is_play e), h1⟩

/-- **C122**: stones that do not fit on the board have been taken. If as many stones have been accepted as the board had empty points,
or more, the prisoners have grown, and at least by the difference plus one. -/
theorem C122_taken {g g' : Game} (h : Legal dbg n m g) (hn : 0 < n.area) {L : List Stone} (hl : Puts dbg n g L g') :
    g.goban.numberOfStones.1 + g.goban.numberOfStones.2 + L.length + (g.prisoners.1 + g.prisoners.2) <
      n.area + (g'.prisoners.1 + g'.prisoners.2) := by
  obtain ⟨_, h'⟩ := hl.legal h
  obtain ⟨b, w, hp, e⟩ := hl.plays
  obtain ⟨c1, c2⟩ := hp.conserve h.reach.choose_spec.2
  have := (C122_room h' hn).1
  omega

/-- The bounds are met: on 5 × 5 three stones in a row have 8 liberties, one stone 4. -/
theorem C122_example : ∃ g, Legal true 5 6 g ∧ (g.goban.chainsIter.map (fun x => (x.numStones, x.numberOfLiberties)) ==
    [(1, 4), (3, 8)] : Bool) = true :=
  mkGame_exists (rule := CHINESE) (l := [.try_ (.play 1 1), .try_ (.play 3 1), .try_ .pass, .try_ (.play 3 2), .try_ .pass, .try_ (.play 3 3)]) (by decide) (by decide +kernel)

/-- On 2 × 2, five stones accepted: four of them have been taken, one is on the board. -/
example : ∃ g, Legal true 2 6 g ∧ (decide (g.prisoners = (1, 3) ∧ g.goban.numberOfStones = (0, 1)) : Bool) = true :=
  mkGame_exists (rule := CHINESE) (l := [.try_ (.play 0 0), .try_ (.play 0 1), .try_ (.play 1 1), .try_ .pass, .try_ (.play 0 1),
    .try_ (.play 1 0)]) (by decide) (by decide +kernel)

end Model
