import Verif.Proofs.Lazy
import Verif.Proofs.Rules
import Verif.Proofs.Capture
import Verif.Proofs.Reach
/-!
# The query functions on boards satisfying the invariant
-/

namespace Model
open Bits (has)
open Spec (OnBoard Adj Linked HasLiberty NoDead place SameOn Pos)

theorem mapM_ok {α β} {f : α → M β} {h : α → β} : ∀ {l : List α}, (∀ a ∈ l, f a = .ok (h a)) → l.mapM f = .ok (l.map h)
  | [], _ => rfl
  | a :: l, hf => by
    rw [List.mapM_cons, hf a (by simp), ok_bind, mapM_ok (fun b hb => hf b (by simp [hb]))]
    rfl

theorem filterMap_map_id {α β} (f : α → Option β) (l : List α) : (l.map f).filterMap id = l.filterMap f := by
  rw [List.filterMap_map]; rfl

theorem filterMap_if {α β} (P : α → Bool) (f : α → β) (l : List α) :
    l.filterMap (fun a => if P a then some (f a) else none) = (l.filter P).map f := by
  induction l with
  | nil => rfl
  | cons a l ih =>
    rw [List.filterMap_cons, List.filter_cons]
    cases P a <;> simp [ih]

theorem connectedPoints_ok {dbg : Bool} {n : Dim} {g : Goban} {p : Coord} (h : Inv n g) (hp : OnBoard n p) :
    g.connectedPoints dbg p = .ok ((adjList n p).map (fun q => { coord := q, color := g.view q })) := by
  unfold Goban.connectedPoints Goban.neighborsCoords
  rw [h.size, validCoords_ok h.good hp, ok_bind]
  apply mapM_ok
  intro q hq
  rw [h.getColor_view ((mem_adjList h.good hp).1 hq).1]
  rfl

theorem connectedStones_ok {dbg : Bool} {n : Dim} {g : Goban} {p : Coord} (h : Inv n g) (hp : OnBoard n p) :
    g.connectedStones dbg p =
      .ok ((adjList n p).filterMap (fun q => (g.view q).map (fun c => { coord := q, color := c }))) := by
  unfold Goban.connectedStones
  rw [connectedPoints_ok h hp, ok_bind, List.filterMap_map]
  rfl

theorem getLiberties_ok {dbg : Bool} {n : Dim} {g : Goban} {p : Coord} (h : Inv n g) (hp : OnBoard n p) :
    g.getLiberties dbg p = .ok ((adjList n p).filter (fun q => (g.view q).isNone)) := by
  unfold Goban.getLiberties Goban.neighborsCoords
  rw [h.size, validCoords_ok h.good hp, ok_bind,
    mapM_ok (h := fun q => if (g.view q).isNone then some q else none), ok_bind]
  · rw [filterMap_map_id]
    congr 1
    rw [filterMap_if (P := fun q => (g.view q).isNone) (f := fun q => q), List.map_id']
  · intro q hq
    rw [h.getColor_view ((mem_adjList h.good hp).1 hq).1]
    rfl

theorem hasLiberties_ok {dbg : Bool} {n : Dim} {g : Goban} {p : Coord} (h : Inv n g) (hp : OnBoard n p) :
    ∃ b, g.hasLiberties dbg p = .ok b ∧ (b = true ↔ ∃ r, Adj p r ∧ OnBoard n r ∧ g.view r = none) := by
  refine ⟨_, Goban.hasLiberties_of (getLiberties_ok h hp), ?_⟩
  rw [Bool.not_eq_true', ← Bool.not_eq_true, List.isEmpty_iff, List.filter_eq_nil_iff]
  constructor
  · intro h'
    apply Classical.byContradiction
    intro hne
    apply h'
    intro a ha hv
    obtain ⟨h1, h2⟩ := (mem_adjList h.good hp).1 ha
    exact hne ⟨a, h2, h1, Option.isNone_iff_eq_none.1 hv⟩
  · rintro ⟨r, h1, h2, h3⟩ h'
    exact h' r ((mem_adjList h.good hp).2 ⟨h2, h1⟩) (by rw [h3]; rfl)

theorem connectedGroups_ok {dbg : Bool} {n : Dim} {g : Goban} {p : Coord} (h : Inv n g) (hp : OnBoard n p) :
    ∃ gs, g.connectedGroups dbg p = .ok gs ∧ ∀ grp, grp ∈ gs ↔
      ∃ s k, Adj p s ∧ OnBoard n s ∧ g.bd (twoTo1dim n.sz s) = some k ∧ g.ch k = some grp := by
  have hpN := twoTo1_lt h.good hp
  obtain ⟨ks, e, hnd, hks⟩ := connectedGroupsIdx_ok (dbg := dbg) h.size h.good h.rep.blen hpN
  have hlive : ∀ k ∈ ks, ∃ grp, g.ch k = some grp := by
    intro k hk
    obtain ⟨j, _, hj⟩ := (hks k).1 hk
    exact h.rep.live _ _ hj
  refine ⟨ks.filterMap g.ch, ?_, ?_⟩
  · unfold Goban.connectedGroups
    rw [h.size, e, ok_bind]
    clear e hks hnd
    induction ks with
    | nil => rfl
    | cons k ks ih =>
      obtain ⟨grp, hg⟩ := hlive k (by simp)
      rw [List.mapM_cons, Goban.chainAt_ok hg, ok_bind, ih (fun j hj => hlive j (by simp [hj])), ok_bind,
        List.filterMap_cons, hg]
      rfl
  · intro grp
    rw [List.mem_filterMap]
    constructor
    · rintro ⟨k, hk, hg⟩
      obtain ⟨j, hj, hb⟩ := (hks k).1 hk
      obtain ⟨h1, h2⟩ := (mem_nbrs h.good hpN).1 hj
      rw [ptOf_twoTo1 h.good hp] at h2
      exact ⟨ptOf n j, k, h2, ptOf_onBoard h1, by rw [twoTo1_ptOf]; exact hb, hg⟩
    · rintro ⟨s, k, h1, h2, h3, h4⟩
      exact ⟨k, (hks k).2 ⟨_, adj_mem_nbrs h.good hp h2 h1, h3⟩, h4⟩

/-- Membership in the recorded liberties is being a liberty. -/
theorem Inv.has_libAt {n g} (h : Inv n g) {k : Nat} {grp : Group} (hg : g.ch k = some grp) {s : Coord} (hs : OnBoard n s)
    (hk : g.bd (twoTo1dim n.sz s) = some k) {r : Coord} (hr : OnBoard n r) :
    has (twoTo1dim n.sz r) grp.liberties = true ↔ LibAt n g.view s r := by
  rw [h.has_iff hg hs hk hr]
  unfold LibAt
  constructor
  · rintro ⟨a, q, b, d, e⟩; exact ⟨hr, a, q, e, d⟩
  · rintro ⟨_, a, q, e, d⟩; exact ⟨a, q, linked_onBoard e hs, d, e⟩

theorem Inv.mem_libs {n g} (h : Inv n g) {k : Nat} {grp : Group} (hg : g.ch k = some grp) {s : Coord} (hs : OnBoard n s)
    (hk : g.bd (twoTo1dim n.sz s) = some k) (x : Nat) :
    x ∈ Bits.members grp.liberties ↔ Ix n x ∧ LibAt n g.view s (ptOf n x) := by
  rw [Bits.mem_members]
  constructor
  · intro hx
    have hxN := ((h.libs k grp hg x).1 hx).1
    refine ⟨hxN, ?_⟩
    rw [← h.has_libAt hg hs hk (ptOf_onBoard hxN), twoTo1_ptOf]; exact hx
  · rintro ⟨hxN, hl⟩
    rw [← h.has_libAt hg hs hk (ptOf_onBoard hxN), twoTo1_ptOf] at hl; exact hl

theorem Inv.atari_iff {n g} (h : Inv n g) {k : Nat} {grp : Group} (hg : g.ch k = some grp) {s : Coord} (hs : OnBoard n s)
    (hk : g.bd (twoTo1dim n.sz s) = some k) : grp.isAtari = true ↔ ∃ r, ∀ x, LibAt n g.view s x ↔ x = r := by
  have hm := h.mem_libs hg hs hk
  unfold Group.isAtari Group.numberOfLiberties
  rw [Bits.countOnes_eq, beq_iff_eq, List.length_eq_one_iff]
  constructor
  · rintro ⟨a, ha⟩
    refine ⟨ptOf n a, fun x => ?_⟩
    constructor
    · intro hx
      have := (hm (twoTo1dim n.sz x)).2 ⟨twoTo1_lt h.good hx.1, by rw [ptOf_twoTo1 h.good hx.1]; exact hx⟩
      rw [ha, List.mem_singleton] at this
      rw [← this, ptOf_twoTo1 h.good hx.1]
    · rintro rfl
      exact ((hm a).1 (by rw [ha]; simp)).2
  · rintro ⟨r, hr⟩
    have hrl := (hr r).2 rfl
    have hall : ∀ x ∈ Bits.members grp.liberties, x = twoTo1dim n.sz r := by
      intro x hx
      have := (hr _).1 ((hm x).1 hx).2
      rw [← this, twoTo1_ptOf]
    have hmem : twoTo1dim n.sz r ∈ Bits.members grp.liberties :=
      (hm _).2 ⟨twoTo1_lt h.good hrl.1, by rw [ptOf_twoTo1 h.good hrl.1]; exact hrl⟩
    have hnd := Bits.members_nodup grp.liberties
    match hml : Bits.members grp.liberties, hmem, hnd with
    | [], hmem, _ => cases hmem
    | [a], _, _ => exact ⟨a, rfl⟩
    | a :: b :: t, _, hnd =>
      exfalso
      rw [List.nodup_cons] at hnd
      apply hnd.1
      rw [hall a (by rw [hml]; simp), ← hall b (by rw [hml]; simp)]
      simp

/-- For a group next to the empty point `p`: in atari iff `p` is its only liberty. -/
theorem Inv.atari_adj {n g} (h : Inv n g) {k : Nat} {grp : Group} (hg : g.ch k = some grp) {s p : Coord} (hs : OnBoard n s)
    (hk : g.bd (twoTo1dim n.sz s) = some k) (hp : OnBoard n p) (he : g.view p = none) (ha : Adj p s) :
    grp.isAtari = true ↔ ∀ x, LibAt n g.view s x → x = p := by
  have hl : LibAt n g.view s p := ⟨hp, he, s, .refl _, adj_symm ha⟩
  rw [h.atari_iff hg hs hk]
  constructor
  · rintro ⟨r, hr⟩ x hx
    rw [(hr x).1 hx, ← (hr p).1 hl]
  · intro hx
    exact ⟨p, fun x => ⟨hx x, by rintro rfl; exact hl⟩⟩

theorem Inv.num_gt_one {n g} (h : Inv n g) {k : Nat} {grp : Group} (hg : g.ch k = some grp) {s : Coord} (hs : OnBoard n s)
    (hk : g.bd (twoTo1dim n.sz s) = some k) : grp.numStones > 1 ↔ ∃ t, Linked n g.view s t ∧ t ≠ s := by
  obtain ⟨l, hc⟩ := h.rep.chain k grp hg
  have hms := (hc.mem _).1 hk
  rw [hc.num]
  constructor
  · intro hl
    have : ∃ x ∈ l, x ≠ twoTo1dim n.sz s := by
      apply Classical.byContradiction
      intro hne
      have hall : ∀ x ∈ l, x = twoTo1dim n.sz s := fun x hx => Classical.byContradiction fun h' => hne ⟨x, hx, h'⟩
      match l, hl, hc.nodup, hall with
      | a :: b :: t, _, hnd, hall =>
        rw [List.nodup_cons] at hnd
        exact hnd.1 (by rw [hall a (by simp), ← hall b (by simp)]; simp)
    obtain ⟨x, hx, hne⟩ := this
    have hbx := (hc.mem x).2 hx
    have hxN := h.off _ _ hbx
    refine ⟨ptOf n x, (h.linked_iff hs (ptOf_onBoard hxN) hk).2 (by rw [twoTo1_ptOf]; exact hbx), ?_⟩
    intro h'; exact hne (by rw [← h', twoTo1_ptOf])
  · rintro ⟨t, ht, hne⟩
    have htb := linked_onBoard ht hs
    have hmt := (hc.mem _).1 ((h.linked_iff hs htb hk).1 ht)
    match l, hms, hmt with
    | [a], hms, hmt =>
      exfalso
      rw [List.mem_singleton] at hms hmt
      exact hne (twoTo1_inj h.good htb hs (hmt.trans hms.symm))
    | a :: b :: t, _, _ => simp

/-! ### The checks of `Game` -/

theorem any_iff {α} {l : List α} {f : α → Bool} : l.any f = true ↔ ∃ a ∈ l, f a = true := List.any_eq_true

theorem checkSuicide_ok {dbg : Bool} {n : Dim} {g : Game} {p : Coord} {c : Color} (h : Inv n g.goban)
    (hd : NoDead n g.goban.view) (hp : OnBoard n p) (he : g.goban.view p = none) :
    ∃ b, g.checkSuicide dbg { coord := p, color := c } = .ok b ∧ (b = true ↔ Spec.Suicide n g.goban.view p c) := by
  obtain ⟨b1, e1, h1⟩ := hasLiberties_ok (dbg := dbg) h hp
  obtain ⟨gs, e2, h2⟩ := connectedGroups_ok (dbg := dbg) h hp
  unfold Game.checkSuicide
  rw [e1, ok_bind]
  cases b1 with
  | true =>
    refine ⟨false, rfl, ?_⟩
    have := (suicide_local (c := c) hd hp he).2 (Or.inl (h1.1 rfl))
    simp [this]
  | false =>
    rw [if_neg (by simp), e2, ok_bind]
    refine ⟨_, rfl, ?_⟩
    rw [Bool.not_eq_true', ← Bool.not_eq_true, any_iff]
    have hkey : (∃ a ∈ gs, (if a.color = c then !a.isAtari else a.isAtari) = true) ↔ ¬ Spec.Suicide n g.goban.view p c := by
      rw [suicide_local hd hp he]
      constructor
      · rintro ⟨grp, hm, hP⟩
        obtain ⟨s, k, a1, a2, a3, a4⟩ := (h2 grp).1 hm
        have hv : g.goban.view s = some grp.color := by rw [h.view a2, col_of_bd a3 a4]
        have hat := h.atari_adj a4 a2 a3 hp he a1
        by_cases hc : grp.color = c
        · rw [if_pos hc, Bool.not_eq_true', ← Bool.not_eq_true, hat] at hP
          have : ∃ r, LibAt n g.goban.view s r ∧ r ≠ p := by
            apply Classical.byContradiction
            intro hne; apply hP
            intro x hx; apply Classical.byContradiction; intro hxp; exact hne ⟨x, hx, hxp⟩
          obtain ⟨r, hr, hrp⟩ := this
          exact Or.inr (Or.inl ⟨s, r, a1, a2, by rw [hv, hc], hr, hrp⟩)
        · rw [if_neg hc, hat] at hP
          exact Or.inr (Or.inr ⟨s, a1, a2, by rw [hv, Color.eq_opp_of_ne hc], hP⟩)
      · rintro (h' | ⟨s, r, a, b, d, e, f⟩ | ⟨s, a, b, d, e⟩)
        · have := h1.2 h'; cases this
        · obtain ⟨k, grp, b1, b2, b3⟩ := h.view_some b d
          refine ⟨grp, (h2 grp).2 ⟨s, k, a, b, b1, b2⟩, ?_⟩
          rw [if_pos b3, Bool.not_eq_true', ← Bool.not_eq_true, h.atari_adj b2 b b1 hp he a]
          intro h'; exact f (h' r e)
        · obtain ⟨k, grp, b1, b2, b3⟩ := h.view_some b d
          refine ⟨grp, (h2 grp).2 ⟨s, k, a, b, b1, b2⟩, ?_⟩
          rw [if_neg (by rw [b3]; exact Color.opp_ne c), h.atari_adj b2 b b1 hp he a]
          exact e
    rw [hkey, Classical.not_not]

theorem willCapture_ok {dbg : Bool} {n : Dim} {g : Game} {p : Coord} (h : Inv n g.goban)
    (hd : NoDead n g.goban.view) (hp : OnBoard n p) (he : g.goban.view p = none) :
    ∃ b, g.willCapture dbg p = .ok b ∧ (b = true ↔
      ∃ q, OnBoard n q ∧ g.goban.view q = some g.turn.opp ∧ after n g.goban.view p g.turn q = none) := by
  obtain ⟨gs, e2, h2⟩ := connectedGroups_ok (dbg := dbg) h hp
  unfold Game.willCapture
  rw [e2, ok_bind]
  refine ⟨_, rfl, ?_⟩
  rw [any_iff, capture_iff hd he]
  constructor
  · rintro ⟨grp, hm, hP⟩
    obtain ⟨s, k, a1, a2, a3, a4⟩ := (h2 grp).1 hm
    have hv : g.goban.view s = some grp.color := by rw [h.view a2, col_of_bd a3 a4]
    rw [Bool.and_eq_true, decide_eq_true_eq, h.atari_adj a4 a2 a3 hp he a1] at hP
    exact ⟨s, a1, a2, by rw [hv, Color.eq_opp_of_ne hP.1], hP.2⟩
  · rintro ⟨s, a, b, d, e⟩
    obtain ⟨k, grp, b1, b2, b3⟩ := h.view_some b d
    refine ⟨grp, (h2 grp).2 ⟨s, k, a, b, b1, b2⟩, ?_⟩
    rw [Bool.and_eq_true, decide_eq_true_eq, h.atari_adj b2 b b1 hp he a, b3]
    exact ⟨Color.opp_ne _, e⟩

/-- `check_ko` on the board: the ko point is asked for and no neighbouring group in atari has two stones. -/
theorem checkKo_ok {dbg : Bool} {n : Dim} {g : Game} {p : Coord} {c : Color} (h : Inv n g.goban)
    (hp : OnBoard n p) (he : g.goban.view p = none) :
    ∃ b, g.checkKo dbg { coord := p, color := c } = .ok b ∧ (b = true ↔ g.koPoint = some p ∧
      ∀ s, Adj p s → OnBoard n s → g.goban.view s ≠ none → (∀ r, LibAt n g.goban.view s r → r = p) →
        ∀ t, Linked n g.goban.view s t → t = s) := by
  obtain ⟨gs, e2, h2⟩ := connectedGroups_ok (dbg := dbg) h hp
  unfold Game.checkKo
  by_cases hk : g.koPoint = some p
  · rw [if_pos hk, e2, ok_bind]
    refine ⟨_, rfl, ?_⟩
    rw [Bool.not_eq_true', ← Bool.not_eq_true, any_iff]
    constructor
    · intro hno
      refine ⟨hk, ?_⟩
      intro s a b hv hat t ht
      apply Classical.byContradiction
      intro hne
      apply hno
      cases hvs : g.goban.view s with
      | none => exact absurd hvs hv
      | some d =>
        obtain ⟨k, grp, b1, b2, b3⟩ := h.view_some b hvs
        refine ⟨grp, (h2 grp).2 ⟨s, k, a, b, b1, b2⟩, ?_⟩
        rw [Bool.and_eq_true, decide_eq_true_eq, h.atari_adj b2 b b1 hp he a, h.num_gt_one b2 b b1]
        exact ⟨hat, t, ht, hne⟩
    · rintro ⟨_, hall⟩ ⟨grp, hm, hP⟩
      obtain ⟨s, k, a1, a2, a3, a4⟩ := (h2 grp).1 hm
      rw [Bool.and_eq_true, decide_eq_true_eq, h.atari_adj a4 a2 a3 hp he a1, h.num_gt_one a4 a2 a3] at hP
      obtain ⟨hat, t, ht, hne⟩ := hP
      exact hne (hall s a1 a2 (by rw [h.view a2, col_of_bd a3 a4]; simp) hat t ht)
  · rw [if_neg hk]
    exact ⟨false, rfl, by simp [hk]⟩

/-! ### Listing points -/

theorem filter_range_lt {a b : Nat} (h : a ≤ b) : (List.range b).filter (fun i => decide (i < a)) = List.range a := by
  rw [show b = a + (b - a) by omega, List.range_add, List.filter_append, List.filter_eq_self.2, List.filter_eq_nil_iff.2,
    List.append_nil]
  · intro x hx
    obtain ⟨y, _, rfl⟩ := List.mem_map.1 hx
    simp
  · intro x hx; simpa using hx

theorem range_mul_map {n : Dim} (hw : n.w ≤ n.h) : ∀ m, m ≤ n.h → ((List.range (m * n.h)).filter (fun i => Ix n i)).map (ptOf n) =
    (List.range m).flatMap (fun r => (List.range n.w).map (fun c => (r, c)))
  | 0, _ => by simp
  | m + 1, hm => by
    rw [Nat.succ_mul, List.range_add, List.filter_append, List.map_append, range_mul_map hw m (by omega), List.range_succ,
      List.flatMap_append]
    congr 1
    have hn : 0 < n.h := by omega
    have hpt : ∀ a, a < n.h → ptOf n (m * n.h + a) = (m, a) := by
      intro a ha
      unfold ptOf
      rw [Nat.mul_comm, Nat.mul_add_div hn, Nat.div_eq_of_lt ha, Nat.mul_add_mod, Nat.mod_eq_of_lt ha, Nat.add_zero]
    rw [List.flatMap_singleton, List.filter_map, List.map_map, ← filter_range_lt hw]
    rw [List.filter_congr (q := fun i => decide (i < n.w))]
    · apply List.map_congr_left
      intro a ha
      exact hpt a (List.mem_range.1 (List.mem_of_mem_filter ha))
    · intro a ha
      have ha := List.mem_range.1 ha
      have : Ix n (m * n.h + a) ↔ a < n.w := by
        show OnBoard n (ptOf n _) ↔ _
        rw [hpt a ha]
        exact ⟨fun h => h.2, fun h => ⟨by show m < n.h; omega, h⟩⟩
      show decide (Ix n (m * n.h + a)) = _
      rw [decide_eq_decide]; exact this

/-- The points, row by row, are the points of the valid indices in increasing order. -/
theorem points_filter {n : Dim} (hn : n.Good) : Spec.points n = ((List.range 361).filter (fun i => Ix n i)).map (ptOf n) := by
  have hle : n.h * n.h ≤ 361 := Nat.mul_le_mul hn.h19 hn.h19
  rw [show (361 : Nat) = n.h * n.h + (361 - n.h * n.h) by omega, List.range_add, List.filter_append,
    (List.filter_eq_nil_iff (l := List.map _ _)).2, List.append_nil]
  · rcases Nat.eq_zero_or_pos n.h with h0 | h0
    · unfold Spec.points; rw [h0]; rfl
    · exact (range_mul_map (hn.w_le h0) _ (Nat.le_refl _)).symm
  · intro x hx
    obtain ⟨y, _, rfl⟩ := List.mem_map.1 hx
    intro h'
    have := (of_decide_eq_true h').lt
    omega

theorem ix_square {n i : Nat} : Ix n i ↔ i < n * n := by
  constructor
  · exact fun h => h.lt
  · intro h
    have h0 : 0 < n := by
      rcases Nat.eq_zero_or_pos n with rfl | h'
      · simp at h
      · exact h'
    exact ⟨Nat.div_lt_of_lt_mul h, Nat.mod_lt _ h0⟩

theorem points_eq (n : Nat) : Spec.points n = (List.range (n * n)).map (ptOf n) := by
  have := range_mul_map (n := (n : Dim)) (Nat.le_refl n) n (Nat.le_refl n)
  rw [List.filter_eq_self.2 (fun i hi => decide_eq_true (ix_square.2 (List.mem_range.1 hi)))] at this
  exact this.symm

theorem points_length (n : Dim) : (Spec.points n).length = n.area := by
  unfold Spec.points Dim.area
  rw [List.length_flatMap]
  simp

theorem mem_points {n : Dim} {p : Coord} : p ∈ Spec.points n ↔ OnBoard n p := by
  unfold Spec.points
  obtain ⟨a, b⟩ := p
  simp [OnBoard]

theorem points_nodup (n : Dim) : (Spec.points n).Nodup := by
  unfold Spec.points List.Nodup
  rw [List.pairwise_flatMap]
  refine ⟨fun r _ => List.Pairwise.map _ (fun a b hab h => hab (Prod.mk.inj h).2) List.nodup_range, ?_⟩
  refine List.Pairwise.imp_of_mem ?_ (List.nodup_range (n := n.h))
  intro a b _ _ hab x hx y hy e
  obtain ⟨c, _, rfl⟩ := List.mem_map.1 hx
  obtain ⟨d, _, rfl⟩ := List.mem_map.1 hy
  exact hab (Prod.mk.inj e).1

theorem allCoords_eq (n : Dim) : Goban.allCoords n.sz = Spec.points n := rfl

theorem Inv.getElem?_board {n g} (h : Inv n g) {i : Nat} (hi : i < 361) : g.board[i]? = some (g.bd i) := by
  have hl : i < g.board.length := by rw [h.rep.blen]; exact hi
  unfold Goban.bd
  rw [List.getElem?_eq_getElem hl]
  rfl

theorem Inv.board_take {n g} (h : Inv n g) (m : Nat) (hm : m ≤ 361) : g.board.take m = (List.range m).map g.bd := by
  apply List.ext_getElem?
  intro i
  rw [List.getElem?_take, List.getElem?_map]
  by_cases hi : i < m
  · rw [if_pos hi, h.getElem?_board (by omega), List.getElem?_range hi]; rfl
  · rw [if_neg hi, List.getElem?_eq_none (by simpa using hi)]; rfl

theorem Inv.board_eq {n g} (h : Inv n g) : g.board = (List.range 361).map g.bd := by
  have := h.board_take 361 (Nat.le_refl _)
  rwa [List.take_of_length_le (by rw [h.rep.blen]; exact Nat.le_refl _)] at this

theorem zipIdx_map_range {β} (f : Nat → β) (m : Nat) : ((List.range m).map f).zipIdx = (List.range m).map (fun i => (f i, i)) := by
  apply List.ext_getElem?
  intro i
  rw [List.getElem?_zipIdx, List.getElem?_map, List.getElem?_map]
  by_cases hi : i < m
  · rw [List.getElem?_range hi]; simp
  · rw [List.getElem?_eq_none (by simpa using hi)]; rfl

theorem filter_map_comm {α β} (f : α → β) (P : β → Bool) (l : List α) : (l.map f).filter P = (l.filter (P ∘ f)).map f :=
  List.filter_map

theorem filter_congr' {α} {P Q : α → Bool} : ∀ {l : List α}, (∀ a ∈ l, P a = Q a) → l.filter P = l.filter Q :=
  fun h => List.filter_congr h

theorem emptyCoords_ok {n : Nat} {g : Goban} (h : Inv n g) :
    g.getEmptyCoords = .ok ((Spec.points n).filter (fun p => (g.view p).isNone)) := by
  unfold Goban.getEmptyCoords
  rw [h.size]
  dsimp only [Dim.sz]
  have hle : n * n ≤ 361 := Nat.mul_le_mul h.good.h19 h.good.h19
  rw [show assertM (decide (n * n ≤ g.board.length)) = .ok () by rw [h.rep.blen]; unfold assertM; simp [hle], ok_bind,
    h.board_take _ hle, zipIdx_map_range,
    mapM_ok (h := fun x : Option Nat × Nat => if x.1.isNone then some (ptOf n x.2) else none), ok_bind]
  · rw [filterMap_map_id, List.filterMap_map, points_eq, filter_map_comm]
    congr 1
    show List.filterMap (fun i => if (g.bd i).isNone then some (ptOf n i) else none) _ = _
    rw [filterMap_if]
    congr 1
    apply filter_congr'
    intro i hi
    have hi := ix_square.2 (List.mem_range.1 hi)
    show (g.bd i).isNone = (g.view (ptOf n i)).isNone
    rw [h.view_ptOf hi]
    rw [Bool.eq_iff_iff, Option.isNone_iff_eq_none, Option.isNone_iff_eq_none, h.rep.col_none_iff]
  · intro x hx
    obtain ⟨i, hi, rfl⟩ := List.mem_map.1 hx
    have hi := ix_square.2 (List.mem_range.1 hi)
    dsimp only
    cases g.bd i with
    | none =>
      dsimp only
      rw [show oneTo2dim (n, n) i = .ok (ptOf n i) from oneTo2_ok h.good hi]
      rfl
    | some k => rfl

/-! ### Equality -/

theorem beqFrom_ok {n : Dim} {a b : Goban} (ha : Inv n a) (hb : Inv n b) : ∀ (l : List Coord), (∀ p ∈ l, OnBoard n p) →
    ∃ r, a.beqFrom b l = .ok r ∧ (r = true ↔ ∀ p ∈ l, a.view p = b.view p)
  | [], _ => ⟨true, rfl, by simp⟩
  | p :: l, h => by
    unfold Goban.beqFrom
    rw [ha.getColor_view (h p (by simp)), ok_bind, hb.getColor_view (h p (by simp)), ok_bind]
    by_cases hv : a.view p = b.view p
    · rw [if_pos hv]
      obtain ⟨r, e, hr⟩ := beqFrom_ok ha hb l (fun q hq => h q (by simp [hq]))
      exact ⟨r, e, by rw [hr]; simp [hv]⟩
    · rw [if_neg hv]
      exact ⟨false, rfl, by simp [hv]⟩

theorem col_eq_of_view {n : Dim} {a b : Goban} (ha : Inv n a) (hb : Inv n b) (h : SameOn n a.view b.view) (i : Nat) :
    a.col i = b.col i := by
  by_cases hi : Ix n i
  · rw [← ha.view_ptOf hi, ← hb.view_ptOf hi]; exact h _ (ptOf_onBoard hi)
  · rw [ha.col_off hi, hb.col_off hi]

theorem hash_eq_of_view {n : Dim} {a b : Goban} (ha : Inv n a) (hb : Inv n b) (h : SameOn n a.view b.view) :
    a.zobristHash = b.zobristHash := by
  rw [ha.hash, hb.hash]
  exact hashFn_congr (fun i _ => col_eq_of_view ha hb h i)

theorem beq_ok {n : Dim} {a b : Goban} (ha : Inv n a) (hb : Inv n b) :
    ∃ r, a.beq b = .ok r ∧ (r = true ↔ SameOn n a.view b.view) := by
  unfold Goban.beq
  by_cases hh : a.zobristHash = b.zobristHash
  · rw [if_neg (by rw [ha.size, hb.size]; simp [hh]), ha.size, allCoords_eq]
    obtain ⟨r, e, hr⟩ := beqFrom_ok ha hb (Spec.points n) (fun p hp => mem_points.1 hp)
    refine ⟨r, e, hr.trans ?_⟩
    exact ⟨fun h p hp => h p (mem_points.2 hp), fun h p hp => h p (mem_points.1 hp)⟩
  · rw [if_pos (Or.inr hh)]
    refine ⟨false, rfl, ?_⟩
    constructor
    · intro h; cases h
    · intro h; exact absurd (hash_eq_of_view ha hb h) hh

theorem sz_inj {n n' : Dim} (h : n.sz = n'.sz) : n = n' := by
  cases n; cases n'; cases h; rfl

theorem beq_size {n n' : Dim} {a b : Goban} (ha : Inv n a) (hb : Inv n' b) (hne : n ≠ n') : a.beq b = .ok false := by
  unfold Goban.beq
  rw [if_pos (Or.inl (by rw [ha.size, hb.size]; exact fun e => hne (sz_inj e)))]

theorem historyContains_ok {n : Dim} {g : Goban} (hg : Inv n g) : ∀ (l : List Goban), (∀ b ∈ l, Inv n b) →
    ∃ r, historyContains l g = .ok r ∧ (r = true ↔ ∃ b ∈ l, SameOn n b.view g.view)
  | [], _ => ⟨false, rfl, by simp⟩
  | b :: l, h => by
    unfold historyContains
    obtain ⟨r, e, hr⟩ := beq_ok (h b (by simp)) hg
    rw [e, ok_bind]
    cases r with
    | true => exact ⟨true, rfl, by simp [hr.1 rfl]⟩
    | false =>
      rw [if_neg (by simp)]
      obtain ⟨r, e, hr'⟩ := historyContains_ok hg l (fun b hb => h b (by simp [hb]))
      refine ⟨r, e, hr'.trans ?_⟩
      have : ¬ SameOn n b.view g.view := fun h' => by cases hr.2 h'
      simp [this]

theorem historyInsert_ok {n : Dim} {g : Goban} (hg : Inv n g) (l : List Goban) (hl : ∀ b ∈ l, Inv n b) :
    ∃ l', historyInsert l g = .ok l' ∧ ((l' = l ∧ ∃ b ∈ l, SameOn n b.view g.view) ∨
      (l' = l ++ [g] ∧ ¬ ∃ b ∈ l, SameOn n b.view g.view)) := by
  obtain ⟨r, e, hr⟩ := historyContains_ok hg l hl
  unfold historyInsert
  rw [e, ok_bind]
  cases r with
  | true => exact ⟨l, rfl, Or.inl ⟨rfl, hr.1 rfl⟩⟩
  | false => exact ⟨l ++ [g], rfl, Or.inr ⟨rfl, fun h' => by cases hr.2 h'⟩⟩

end Model
