import Verif.Proofs.Groups
import Verif.Proofs.Total
import Verif.Props.Support
/-!
# Properties of boards: C01–C08, C18 (boards), C23, C24, C32–C37, C47

`Board dbg n m g` says that `g` was obtained from `Goban::new(n.sz)` by `m` calls of `push` on empty on-board points and
any number of `remove_chain` calls on live groups; `dbg` says whether debug assertions are compiled in. The theorems hold
for both values of `dbg`, every `n` that `Goban::new` accepts (`n ≤ 19`) and every such sequence of calls.
-/

namespace Model
open Spec (OnBoard Adj Linked HasLiberty NoDead place SameOn Pos)

/-- The script used by most examples below: two black groups, a white group with one liberty left, a removed group. -/
def exScript : List BOp :=
  [.push 0 0 .black, .push 0 1 .black, .push 1 1 .white, .push 2 2 .white, .push 1 2 .black, .push 2 1 .white,
   .push 1 0 .white, .remove 1 2, .push 0 2 .black]

/-! ## C01 -/

/-- **C01** (as amended: fewer than 65,535 stones have been pushed; see C27). `push` on an empty on-board point does not
panic, sets that point and changes no other. -/
theorem C01_push {dbg : Bool} {n : Dim} {m : Nat} {g : Goban} {p : Coord} {c : Color} (h : Board dbg n m g) (hm : m < 65535)
    (hp : OnBoard n p) (he : g.getColor p = .ok none) :
    ∃ g', g.push dbg p c = .ok g' ∧ g'.getColor p = .ok (some c) ∧
      ∀ q, OnBoard n q → q ≠ p → g'.getColor q = g.getColor q := by
  obtain ⟨hI, hl⟩ := h.inv
  rcases hI.push_total (dbg := dbg) (c := c) hp ((getColor_none hI hp).1 he) with ⟨g', e, hI', _, hc⟩ | ⟨_, h'⟩
  · refine ⟨g', e, ?_, ?_⟩
    · rw [hI'.getColor hp, hc, if_pos rfl]
    · intro q hq hne
      rw [hI'.getColor hq, hI.getColor hq, hc, if_neg (fun h' => hne (twoTo1_inj hI.good hq hp h'))]
  · omega

/-- **C01**, complement: `get_color` never panics on the board. -/
theorem C01_get_color {dbg : Bool} {n : Dim} {m : Nat} {g : Goban} {p : Coord} (h : Board dbg n m g) (hp : OnBoard n p) :
    ∃ o, g.getColor p = .ok o := ⟨_, h.inv.1.getColor hp⟩

example : ∃ g, Board true 3 8 g ∧ (g.getColor (2, 0) = .ok none ∧ g.getColor (0, 0) = .ok (some .black) : Bool) = true :=
  mkBoard_exists (l := exScript) (by decide +kernel)

/-! ## C02 -/

/-- **C02**. The stones listed for a live group are one connected component of its colour. -/
theorem C02_group_is_component {dbg : Bool} {n : Dim} {m : Nat} {g : Goban} {k : Nat} {grp : Group} (h : Board dbg n m g)
    (hk : g.chains.chainAt k = .ok grp) :
    ∃ l, g.chainStonesIdx dbg k = .ok l ∧ l ≠ [] ∧ (l.map Stone.coord).Nodup ∧
      ∀ s ∈ l, OnBoard n s.coord ∧ s.color = grp.color ∧ g.getColor s.coord = .ok (some grp.color) ∧
        ∀ q, q ∈ l.map Stone.coord ↔ Linked n g.view s.coord q := by
  have hI := h.inv.1
  have hk := live_ch.1 hk
  obtain ⟨l, hs⟩ := group_spec (dbg := dbg) hI hk
  refine ⟨l, hs.stones, hs.ne, hs.nodup, ?_⟩
  intro s hsl
  obtain ⟨h1, h2, _⟩ := hs.view hI hk hsl
  exact ⟨h1, hs.color s hsl, by rw [hI.getColor_view h1, h2], fun q => hs.linked hI hk hsl⟩

/-- **C02**. Every stone belongs to exactly one live group. -/
theorem C02_stone_in_one_group {dbg : Bool} {n : Dim} {m : Nat} {g : Goban} {p : Coord} {c : Color} (h : Board dbg n m g)
    (hp : OnBoard n p) (hc : g.getColor p = .ok (some c)) :
    ∃ k l, g.Live k ∧ g.chainStonesIdx dbg k = .ok l ∧ { coord := p, color := c } ∈ l ∧
      ∀ k' l', g.chainStonesIdx dbg k' = .ok l' → p ∈ l'.map Stone.coord → k' = k := by
  have hI := h.inv.1
  rw [hI.getColor_view hp] at hc
  obtain ⟨k, grp, h1, h2, h3⟩ := hI.view_some hp (Except.ok.inj hc)
  obtain ⟨l, hs⟩ := group_spec (dbg := dbg) hI h2
  refine ⟨k, l, ⟨grp, live_ch.2 h2⟩, hs.stones, hs.mem_stone ((hs.mem p).2 ⟨hp, h1⟩) h3.symm, ?_⟩
  intro k' l' e' hp'
  have : ∃ grp', g.chains.chainAt k' = .ok grp' := by
    unfold Goban.chainStonesIdx at e'
    obtain ⟨grp', e1, _⟩ := bind_eq_ok e'
    exact ⟨grp', e1⟩
  obtain ⟨grp', hg'⟩ := this
  obtain ⟨l2, hs'⟩ := group_spec (dbg := dbg) hI (live_ch.1 hg')
  rw [hs'.stones] at e'
  cases e'
  have := ((hs'.mem p).1 hp').2
  rw [h1] at this
  exact (Option.some.inj this).symm

/-- **C02**. Two stones are listed in the same group iff they are connected through stones of their colour. -/
theorem C02_same_group_iff_linked {dbg : Bool} {n : Dim} {m : Nat} {g : Goban} {p q : Coord} {c : Color} (h : Board dbg n m g)
    (hp : OnBoard n p) (hc : g.getColor p = .ok (some c)) :
    (∃ k l, g.chainStonesIdx dbg k = .ok l ∧ p ∈ l.map Stone.coord ∧ q ∈ l.map Stone.coord) ↔ Linked n g.view p q := by
  obtain ⟨k, l, ⟨grp, hk⟩, hl, hm, hu⟩ := C02_stone_in_one_group h hp hc
  obtain ⟨l2, hl2, _, _, hcomp⟩ := C02_group_is_component h hk
  rw [hl] at hl2; cases hl2
  have hiff := (hcomp _ hm).2.2.2 q
  rw [← hiff]
  constructor
  · rintro ⟨k', l', e, h1, h2⟩
    have := hu k' l' e h1
    subst this
    rw [hl] at e; cases e
    exact h2
  · intro hq
    exact ⟨k, l, hl, List.mem_map_of_mem hm, hq⟩

example : ∃ g, Board true 3 8 g ∧ (g.getColor (0, 0) = .ok (some .black) ∧
    okAnd (g.chainStonesIdx true 0) (fun l => decide ((0, 2) ∈ l.map Stone.coord)) = true : Bool) = true :=
  mkBoard_exists (l := exScript) (by decide +kernel)

/-! ## C03 -/

/-- **C03**. The recorded liberties of a live group are listed in increasing order and are exactly the empty on-board
points next to one of its stones; the other liberty queries agree with that list. -/
theorem C03_liberties {dbg : Bool} {n : Dim} {m : Nat} {g : Goban} {k : Nat} {grp : Group} {l : List Stone} (h : Board dbg n m g)
    (hk : g.chains.chainAt k = .ok grp) (hl : g.chainStonesIdx dbg k = .ok l) :
    grp.libertiesVec.Pairwise (· < ·) ∧
    (∀ x, x ∈ grp.libertiesVec ↔ ∃ r, OnBoard n r ∧ r.1 * n.h + r.2 = x ∧ g.getColor r = .ok none ∧ ∃ s ∈ l, Adj s.coord r) ∧
    grp.numberOfLiberties = grp.libertiesVec.length ∧
    (grp.isDead = true ↔ grp.libertiesVec = []) ∧
    (grp.isAtari = true ↔ grp.libertiesVec.length = 1) ∧
    (∀ x, x < 368 → grp.containsLiberty x = .ok (decide (x ∈ grp.libertiesVec))) := by
  have hI := h.inv.1
  have hk := live_ch.1 hk
  obtain ⟨l2, hs⟩ := group_spec (dbg := dbg) hI hk
  rw [hs.stones] at hl; cases hl
  have hnum : grp.numberOfLiberties = grp.libertiesVec.length := by
    unfold Group.numberOfLiberties Group.libertiesVec
    rw [Bits.countOnes_eq, Bits.iterOnes_eq]
  refine ⟨?_, ?_, hnum, ?_, ?_, ?_⟩
  · unfold Group.libertiesVec; rw [Bits.iterOnes_eq]; exact Bits.members_sorted _
  · intro x
    rw [libs_spec hI hk hs]
    constructor
    · rintro ⟨r, h1, h2, h3, h4⟩; exact ⟨r, h1, h2, (getColor_none hI h1).2 h3, h4⟩
    · rintro ⟨r, h1, h2, h3, h4⟩; exact ⟨r, h1, h2, (getColor_none hI h1).1 h3, h4⟩
  · rw [isDead_iff, List.eq_nil_iff_forall_not_mem]
    unfold Group.libertiesVec
    simp only [Bits.iterOnes_eq, Bits.mem_members, Bool.not_eq_true]
  · unfold Group.isAtari; rw [hnum]; simp
  · intro x hx
    unfold Group.containsLiberty Group.libertiesVec
    rw [Bits.get_ok (by rw [libs_len hI.rep hk]; exact hx), Bits.iterOnes_eq]
    congr 1
    rw [Bool.eq_iff_iff, decide_eq_true_eq, Bits.mem_members]

example : ∃ g, Board true 3 8 g ∧ okAnd (g.chains.chainAt 0) (fun grp => grp.isAtari && grp.libertiesVec == [5]) = true :=
  mkBoard_exists (l := exScript) (by decide +kernel)

/-! ## C04 -/

/-- **C04**. The circular iterator of a live group ends; it lists the indices of the points of one connected component,
each once, from the smallest to `last`, `num_stones` of them. -/
theorem C04_iter_stones {dbg : Bool} {n : Dim} {m : Nat} {g : Goban} {k : Nat} {grp : Group} (h : Board dbg n m g)
    (hk : g.chains.chainAt k = .ok grp) :
    ∃ l o, g.iterStones dbg k = .ok l ∧ l.Nodup ∧ l.head? = some grp.origin ∧ l.getLast? = some grp.last ∧
      l.length = grp.numStones ∧ (∀ i ∈ l, grp.origin ≤ i) ∧
      OnBoard n o ∧ o.1 * n.h + o.2 = grp.origin ∧ g.getColor o = .ok (some grp.color) ∧
      ∀ i, i ∈ l ↔ ∃ q, Linked n g.view o q ∧ q.1 * n.h + q.2 = i := by
  have hI := h.inv.1
  have hk := live_ch.1 hk
  obtain ⟨l, hs⟩ := group_spec (dbg := dbg) hI hk
  obtain ⟨s, l', rfl⟩ : ∃ s l', l = s :: l' := by
    cases l with
    | nil => exact absurd rfl hs.ne
    | cons s l' => exact ⟨s, l', rfl⟩
  have ho : twoTo1dim n.sz s.coord = grp.origin := Option.some.inj hs.head
  obtain ⟨h1, h2, h3⟩ := hs.view hI hk (List.mem_cons_self ..)
  refine ⟨_, s.coord, hs.iter, ?_, hs.head, hs.last, ?_, ?_, h1, ho, ?_, ?_⟩
  · have hnd := hs.nodup
    have : (((s :: l').map Stone.coord).map (twoTo1dim n.sz)).Nodup := by
      apply List.Pairwise.map _ _ (List.Pairwise.and_mem.1 hnd)
      rintro a b ⟨ha, hb, hne⟩ he
      exact hne (twoTo1_inj hI.good ((hs.mem a).1 ha).1 ((hs.mem b).1 hb).1 he)
    rwa [List.map_map] at this
  · rw [List.length_map]; exact hs.len
  · intro i hi
    obtain ⟨t, ht, rfl⟩ := List.mem_map.1 hi
    exact hs.min t ht
  · rw [hI.getColor_view h1, h2]
  · intro i
    rw [List.mem_map]
    constructor
    · rintro ⟨t, ht, rfl⟩
      exact ⟨t.coord, (hs.linked hI hk (List.mem_cons_self ..)).1 (List.mem_map_of_mem ht), rfl⟩
    · rintro ⟨q, hq, rfl⟩
      obtain ⟨t, ht, rfl⟩ := List.mem_map.1 ((hs.linked hI hk (List.mem_cons_self ..)).2 hq)
      exact ⟨t, ht, rfl⟩

example : ∃ g, Board true 3 8 g ∧ okAnd (g.iterStones true 0) (fun l => l == [0, 1, 2]) = true :=
  mkBoard_exists (l := exScript) (by decide +kernel)

/-! ## C05 -/

/-- **C05**. `number_of_stones` counts the points showing each colour. -/
theorem C05_number_of_stones {dbg : Bool} {n : Dim} {m : Nat} {g : Goban} (h : Board dbg n m g) :
    g.numberOfStones = (Spec.count n g.view (some .black), Spec.count n g.view (some .white)) ∧
      g.numberOfStones.1 + g.numberOfStones.2 ≤ n.area := by
  have := numberOfStones_ok h.inv.1
  refine ⟨this, ?_⟩
  rw [this]
  exact count_le g.view _ _ (by decide)

example : ∃ g, Board true 3 8 g ∧ (g.numberOfStones == (3, 4)) = true :=
  mkBoard_exists (l := exScript) (by decide +kernel)

/-! ## C06, C07 -/

/-- **C06**. The hash is the XOR over the stones of their `index_zobrist` value. -/
theorem C06_hash {dbg : Bool} {n : Dim} {m : Nat} {g : Goban} (h : Board dbg n m g) : g.zobristHash = zobristOf n g.view :=
  hash_ok h.inv.1

/-- **C06**. The hash depends on the position only, not on how it arose. -/
theorem C06_hash_of_position {dbg dbg' : Bool} {n : Dim} {m m' : Nat} {a b : Goban} (ha : Board dbg n m a) (hb : Board dbg' n m' b)
    (h : ∀ p, OnBoard n p → a.getColor p = b.getColor p) : a.zobristHash = b.zobristHash := by
  apply hash_eq_of_view ha.inv.1 hb.inv.1
  intro p hp
  unfold Goban.view
  rw [h p hp]

/-- **C07**. `==` is equality of size and of the colours shown, and implies equal hashes. -/
theorem C07_eq {dbg dbg' : Bool} {n n' : Dim} {m m' : Nat} {a b : Goban} (ha : Board dbg n m a) (hb : Board dbg' n' m' b) :
    ∃ r, a.beq b = .ok r ∧ (r = true ↔ n = n' ∧ ∀ p, OnBoard n p → a.getColor p = b.getColor p) ∧
      (r = true → a.hashValue = b.hashValue) := by
  by_cases hn : n = n'
  · subst hn
    obtain ⟨r, e, hr⟩ := beq_ok ha.inv.1 hb.inv.1
    refine ⟨r, e, ?_, ?_⟩
    · rw [hr]
      constructor
      · intro h
        refine ⟨rfl, fun p hp => ?_⟩
        rw [ha.inv.1.getColor_view hp, hb.inv.1.getColor_view hp, h p hp]
      · rintro ⟨_, h⟩ p hp
        have := h p hp
        rw [ha.inv.1.getColor_view hp, hb.inv.1.getColor_view hp] at this
        exact Except.ok.inj this
    · intro h
      exact hash_eq_of_view ha.inv.1 hb.inv.1 (hr.1 h)
  · exact ⟨false, beq_size ha.inv.1 hb.inv.1 hn, by simp [hn], by simp⟩

/-- **C07**. `==` is reflexive. -/
theorem C07_refl {dbg : Bool} {n : Dim} {m : Nat} {a : Goban} (ha : Board dbg n m a) : a.beq a = .ok true := by
  obtain ⟨r, e, hr, _⟩ := C07_eq ha ha
  rw [e, hr.2 ⟨rfl, fun _ _ => rfl⟩]

/-- **C07**. `==` is symmetric. -/
theorem C07_symm {dbg dbg' : Bool} {n n' : Dim} {m m' : Nat} {a b : Goban} (ha : Board dbg n m a) (hb : Board dbg' n' m' b) :
    a.beq b = b.beq a := by
  obtain ⟨r, e, hr, _⟩ := C07_eq ha hb
  obtain ⟨r', e', hr', _⟩ := C07_eq hb ha
  rw [e, e']
  congr 1
  rw [Bool.eq_iff_iff, hr, hr']
  constructor <;> rintro ⟨rfl, h⟩ <;> exact ⟨rfl, fun p hp => (h p hp).symm⟩

/-- **C07**. `==` is transitive. -/
theorem C07_trans {dbg dbg' dbg'' : Bool} {n n' n'' : Dim} {m m' m'' : Nat} {a b c : Goban} (ha : Board dbg n m a)
    (hb : Board dbg' n' m' b) (hc : Board dbg'' n'' m'' c) (h1 : a.beq b = .ok true) (h2 : b.beq c = .ok true) :
    a.beq c = .ok true := by
  obtain ⟨r, e, hr, _⟩ := C07_eq ha hb
  obtain ⟨r', e', hr', _⟩ := C07_eq hb hc
  obtain ⟨r'', e'', hr'', _⟩ := C07_eq ha hc
  rw [e] at h1; rw [e'] at h2
  obtain ⟨rfl, h1⟩ := hr.1 (Except.ok.inj h1)
  obtain ⟨rfl, h2⟩ := hr'.1 (Except.ok.inj h2)
  rw [e'', hr''.2 ⟨rfl, fun p hp => (h1 p hp).trans (h2 p hp)⟩]

/-- Two boards with different histories and the same position. -/
example : ∃ a b, Board true 3 8 a ∧ Board true 3 7 b ∧ a ≠ b ∧ a.beq b = .ok true := by
  obtain ⟨a, ha, h⟩ := mkBoard_exists (dbg := true) (n := 3) (l := exScript) (f := fun a =>
    okAnd (mkBoard true 3 [.push 0 0 .black, .push 0 2 .black, .push 1 1 .white, .push 1 0 .white, .push 2 1 .white,
      .push 2 2 .white, .push 0 1 .black]) (fun b => decide (a ≠ b) && okAnd (a.beq b) id)) (by decide +kernel)
  obtain ⟨b, eb, h⟩ := okAnd_iff.1 h
  rw [Bool.and_eq_true, decide_eq_true_eq, okAnd_iff] at h
  obtain ⟨h1, r, h2, h3⟩ := h
  exact ⟨a, b, ha, mkBoard_board eb, h1, by rw [h2, show r = true from h3]⟩

/-! ## C08 -/

/-- **C08**. `remove_chain` of a live group empties exactly its points, frees its index, and gives each other group exactly
the freed points next to it as new liberties. -/
theorem C08_remove_chain {dbg : Bool} {n : Dim} {m : Nat} {g : Goban} {k : Nat} {l : List Stone} (h : Board dbg n m g)
    (hl : g.chainStonesIdx dbg k = .ok l) :
    ∃ g', g.removeChain dbg k = .ok g' ∧
      (∀ q, OnBoard n q → g'.getColor q = if q ∈ l.map Stone.coord then .ok none else g.getColor q) ∧
      ¬ g'.Live k ∧
      (∀ j, j ≠ k → ∀ gj, g.chains.chainAt j = .ok gj → ∃ gj' lj, g'.chains.chainAt j = .ok gj' ∧ gj'.color = gj.color ∧
        g.chainStonesIdx dbg j = .ok lj ∧ g'.chainStonesIdx dbg j = .ok lj ∧
        ∀ x, x ∈ gj'.libertiesVec ↔ x ∈ gj.libertiesVec ∨
          ∃ s ∈ l, s.coord.1 * n.h + s.coord.2 = x ∧ ∃ t ∈ lj, Adj t.coord s.coord) ∧
      (∀ j, g'.Live j → g.Live j) := by
  have hI := h.inv.1
  obtain ⟨grp, hk⟩ : ∃ grp, g.ch k = some grp := by
    unfold Goban.chainStonesIdx at hl
    obtain ⟨grp, e1, _⟩ := bind_eq_ok hl
    exact ⟨grp, live_ch.1 e1⟩
  obtain ⟨l2, hs⟩ := group_spec (dbg := dbg) hI hk
  rw [hs.stones] at hl; cases hl
  obtain ⟨g', e, hr⟩ := remove_spec (dbg := dbg) hI hk
  refine ⟨g', e, ?_, ?_, ?_, ?_⟩
  · intro q hq
    rw [hr.inv.getColor hq, hr.col hI, hI.getColor hq]
    by_cases hb : g.bd (twoTo1dim n.sz q) = some k
    · rw [if_pos hb, if_pos ((hs.mem q).2 ⟨hq, hb⟩)]
    · rw [if_neg hb, if_neg (fun h' => hb ((hs.mem q).1 h').2)]
  · rintro ⟨grp', hg'⟩
    rw [live_ch, hr.chk] at hg'; cases hg'
  · intro j hj gj hgj
    have hgj := live_ch.1 hgj
    obtain ⟨l', h1, h2⟩ := hr.ch j gj hj hgj
    obtain ⟨lj, hsj⟩ := group_spec (dbg := dbg) hI hgj
    refine ⟨_, lj, live_ch.2 h1, rfl, hsj.stones, ?_, ?_⟩
    · rw [← hsj.stones]
      unfold Goban.chainStonesIdx
      rw [live_ch.2 h1, live_ch.2 hgj, ok_bind, ok_bind, hr.nxt, hr.inv.size, hI.size]
      rfl
    · intro x
      unfold Group.libertiesVec
      rw [Bits.iterOnes_eq, Bits.iterOnes_eq, Bits.mem_members, Bits.mem_members]
      show Bits.has x l' = true ↔ _
      rw [h2]
      apply or_congr_right
      constructor
      · rintro ⟨hx, y, hy, hby⟩
        have hxN := hI.off _ _ hx
        have hyN := hI.off _ _ hby
        have hxm : ptOf n x ∈ l.map Stone.coord := (hs.mem _).2 ⟨ptOf_onBoard hxN, by rw [twoTo1_ptOf]; exact hx⟩
        have hym : ptOf n y ∈ lj.map Stone.coord := (hsj.mem _).2 ⟨ptOf_onBoard hyN, by rw [twoTo1_ptOf]; exact hby⟩
        obtain ⟨s, hs1, hs2⟩ := List.mem_map.1 hxm
        obtain ⟨t, ht1, ht2⟩ := List.mem_map.1 hym
        refine ⟨s, hs1, ?_, t, ht1, ?_⟩
        · rw [hs2]; exact twoTo1_ptOf
        · rw [hs2, ht2]; exact adj_symm ((mem_nbrs hI.good hxN).1 hy).2
      · rintro ⟨s, hs1, rfl, t, ht1, ha⟩
        obtain ⟨p1, _, p3⟩ := hs.view hI hk hs1
        obtain ⟨q1, _, q3⟩ := hsj.view hI hgj ht1
        exact ⟨p3, _, adj_mem_nbrs hI.good p1 q1 (adj_symm ha), q3⟩
  · rintro j ⟨gj, hgj⟩
    cases hg : g.ch j with
    | none => rw [live_ch, hr.chn j hg] at hgj; cases hgj
    | some g0 => exact ⟨g0, live_ch.2 hg⟩

example : ∃ g, Board true 3 8 g ∧ okAnd (g.chainStonesIdx true 0) (fun l => l.length == 3) = true :=
  mkBoard_exists (l := exScript) (by decide +kernel)

/-! ## C18 (board part) -/

/-- **C18**. `get_empty_coords` lists the empty points, each once, row by row. -/
theorem C18_get_empty_coords {dbg : Bool} {n m : Nat} {g : Goban} (h : Board dbg n m g) :
    g.getEmptyCoords = .ok ((Spec.points n).filter (fun p => g.getColor p = .ok none)) := by
  rw [emptyCoords_ok h.inv.1]
  congr 1
  apply filter_congr'
  intro p hp
  rw [Bool.eq_iff_iff, decide_eq_true_eq, getColor_none h.inv.1 (mem_points.1 hp), Option.isNone_iff_eq_none]

/-! ## C23 -/

/-- What `Goban::from(&[MaybeColor])` does on `n²` cells: an `n × n` board showing exactly these cells. -/
theorem C23_from_slice {dbg : Bool} {n : Nat} {l : List MaybeColor} (hn : n ≤ 19) (hl : l.length = n * n) :
    ∃ g m, Goban.ofSlice dbg l = .ok g ∧ Board dbg n m g ∧
      ∀ p, OnBoard n p → g.getColor p = .ok (l[p.1 * n + p.2]?).join := by
  obtain ⟨g, m, e, hb, _, hv⟩ := ofSlice_ok (dbg := dbg) (good_sq hn) hl
  refine ⟨g, m, e, hb, ?_⟩
  intro p hp
  rw [hb.inv.1.getColor_view hp, hv p hp]
  rfl

/-- **C23**: the first `n²` cells of `to_vec` do round-trip, on every size. -/
theorem C23_round_trip_prefix_partial {dbg dbg' : Bool} {n m : Nat} {g : Goban} (h : Board dbg n m g) :
    ∃ v g', g.toVec = .ok v ∧ Goban.ofSlice dbg' (v.take (n * n)) = .ok g' ∧ g'.beq g = .ok true := by
  have hI := h.inv.1
  have hle := sq_le hI.good
  have htake : ((List.range 361).map g.col).take (n * n) = (List.range (n * n)).map g.col := by
    rw [← List.map_take, List.take_range, Nat.min_eq_left hle]
  obtain ⟨g', m', e, hb, _, hv⟩ := ofSlice_ok (dbg := dbg') (n := n) (l := (List.range (n * n)).map g.col) hI.good (by
    rw [List.length_map, List.length_range])
  refine ⟨_, g', toVec_ok hI, by rw [htake]; exact e, ?_⟩
  obtain ⟨r, e2, hr⟩ := beq_ok hb.inv.1 hI
  rw [e2]
  congr 1
  rw [hr]
  intro p hp
  rw [hv p hp, hI.view hp, List.getElem?_map, List.getElem?_range (show twoTo1dim (n, n) p < n * n from ix_square.1 (twoTo1_lt hI.good hp))]
  rfl

/-- **C23**, the part that holds: on a 19 × 19 board the round trip gives an equal board.
Missing: every other size, for which it is false (`C23_false`). -/
theorem C23_round_trip_partial {dbg dbg' : Bool} {m : Nat} {g : Goban} (h : Board dbg 19 m g) :
    ∃ v g', g.toVec = .ok v ∧ Goban.ofSlice dbg' v = .ok g' ∧ g'.beq g = .ok true := by
  obtain ⟨v, g', e1, e2, e3⟩ := C23_round_trip_prefix_partial (dbg' := dbg') h
  have hv : v.length ≤ 19 * 19 := by
    rw [toVec_ok h.inv.1] at e1
    rw [← Except.ok.inj e1, List.length_map, List.length_range]
    decide
  rw [List.take_of_length_le hv] at e2
  exact ⟨v, g', e1, e2, e3⟩

/-- **C23** is false on every size but 19: `to_vec` always has 361 entries, so the board read back is 19 × 19. -/
theorem C23_false {dbg dbg' : Bool} {n : Dim} {m : Nat} {g : Goban} (h : Board dbg n m g) (hn : n ≠ 19) :
    ∃ v, g.toVec = .ok v ∧ ∀ g', Goban.ofSlice dbg' v = .ok g' → g'.beq g = .ok false := by
  have hI := h.inv.1
  refine ⟨_, toVec_ok hI, ?_⟩
  intro g' e
  obtain ⟨g2, m', e2, hb, _, _⟩ := ofSlice_ok (dbg := dbg') (n := 19) (l := (List.range 361).map g.col) (good_sq (Nat.le_refl _)) (by
    rw [List.length_map, List.length_range])
  rw [e] at e2; cases e2
  exact beq_size hb.inv.1 hI (fun h' => hn h'.symm)

example : ∃ g, Board true 19 3 g ∧ okAnd g.toVec (fun v => v.length == 361) = true :=
  mkBoard_exists (l := [.push 0 0 .black, .push 18 18 .white, .push 3 15 .black]) (by decide +kernel)

/-! ## C24 -/

/-- **C24**. Putting the same stones on distinct empty points in two orders gives equal boards with the same groups and
liberties. -/
theorem C24_order_independent {dbg : Bool} {n : Dim} {m : Nat} {g : Goban} {l l' : List Stone} (h : Board dbg n m g)
    (hm : m + l.length ≤ 65535) (hnd : (l.map Stone.coord).Nodup)
    (hl : ∀ s ∈ l, OnBoard n s.coord ∧ g.getColor s.coord = .ok none) (hp : l.Perm l') :
    ∃ a b, l.foldlM (fun g s => g.pushStone dbg s) g = .ok a ∧ l'.foldlM (fun g s => g.pushStone dbg s) g = .ok b ∧
      a.beq b = .ok true ∧ a.zobristHash = b.zobristHash ∧
      ∀ p c, OnBoard n p → a.getColor p = .ok (some c) →
        ∃ ka kb ga gb la lb, a.chains.chainAt ka = .ok ga ∧ b.chains.chainAt kb = .ok gb ∧
          a.chainStonesIdx dbg ka = .ok la ∧ b.chainStonesIdx dbg kb = .ok lb ∧
          { coord := p, color := c } ∈ la ∧ la.Perm lb ∧ ga.libertiesVec = gb.libertiesVec := by
  have hI := h.inv.1
  have hl1 : ∀ s ∈ l, OnBoard n s.coord ∧ g.view s.coord = none := fun s hs =>
    ⟨(hl s hs).1, (getColor_none hI (hl s hs).1).1 (hl s hs).2⟩
  rcases pushAll_total (dbg := dbg) l h hnd hl1 with ⟨a, ea, ha, hva⟩ | ⟨_, h'⟩
  rotate_left
  · omega
  rcases pushAll_total (dbg := dbg) l' h ((hp.map Stone.coord).nodup_iff.1 hnd) (fun s hs => hl1 s (hp.mem_iff.2 hs)) with
    ⟨b, eb, hb, hvb⟩ | ⟨_, h'⟩
  rotate_left
  · rw [← hp.length_eq] at h'; omega
  have hsame : SameOn n a.view b.view := by
    rw [← putAll_perm hp hnd] at hvb
    exact SameOn.trans hva (SameOn.symm hvb)
  refine ⟨a, b, ea, eb, ?_, hash_eq_of_view ha.inv.1 hb.inv.1 hsame, ?_⟩
  · obtain ⟨r, e2, hr⟩ := beq_ok ha.inv.1 hb.inv.1
    rw [e2, hr.2 hsame]
  · intro p c hpb hc
    rw [ha.inv.1.getColor_view hpb] at hc
    have hc := Except.ok.inj hc
    obtain ⟨ka, ga, a1, a2, a3⟩ := ha.inv.1.view_some hpb hc
    obtain ⟨kb, gb, b1, b2, _⟩ := hb.inv.1.view_some hpb ((hsame p hpb).symm.trans hc)
    obtain ⟨la, hla⟩ := group_spec (dbg := dbg) ha.inv.1 a2
    obtain ⟨lb, hlb⟩ := group_spec (dbg := dbg) hb.inv.1 b2
    obtain ⟨h1, h2, _, _⟩ := same_groups ha.inv.1 hb.inv.1 hsame hpb a1 b1 a2 b2 hla hlb
    exact ⟨ka, kb, ga, gb, la, lb, live_ch.2 a2, live_ch.2 b2, hla.stones, hlb.stones,
      hla.mem_stone ((hla.mem p).2 ⟨hpb, a1⟩) a3.symm, h1, h2⟩

example : ∃ g, Board true 3 8 g ∧ (g.getColor (1, 2) = .ok none ∧ g.getColor (2, 0) = .ok none : Bool) = true :=
  mkBoard_exists (l := exScript) (by decide +kernel)

/-! ## C32 -/

/-- **C32**. `get_connected_points` lists the on-board neighbours, each once, with the colour each shows; the other
neighbour queries are derived from that list. -/
theorem C32_connected_points {dbg : Bool} {n : Dim} {m : Nat} {g : Goban} {p : Coord} (h : Board dbg n m g) (hp : OnBoard n p) :
    ∃ l : List Coord, l.Nodup ∧ (∀ q, q ∈ l ↔ OnBoard n q ∧ Adj p q) ∧ l.length ≤ 4 ∧
      g.connectedPoints dbg p = .ok (l.map (fun q => { coord := q, color := g.view q })) ∧
      g.connectedStones dbg p = .ok (l.filterMap (fun q => (g.view q).map (fun c => { coord := q, color := c }))) ∧
      g.getLiberties dbg p = .ok (l.filter (fun q => (g.view q).isNone)) ∧
      g.hasLiberties dbg p = .ok (l.any (fun q => (g.view q).isNone)) := by
  have hI := h.inv.1
  refine ⟨adjList n p, adjList_nodup hI.good hp, fun q => mem_adjList hI.good hp, adjList_length_le,
    connectedPoints_ok hI hp, connectedStones_ok hI hp, getLiberties_ok hI hp, ?_⟩
  rw [Goban.hasLiberties_of (getLiberties_ok hI hp)]
  congr 1
  rw [Bool.eq_iff_iff, Bool.not_eq_true', ← Bool.not_eq_true, List.isEmpty_iff, List.filter_eq_nil_iff, List.any_eq_true]
  constructor
  · intro h'
    apply Classical.byContradiction
    intro h2
    exact h' (fun a ha hn => h2 ⟨a, ha, hn⟩)
  · rintro ⟨a, ha, hn⟩ h'
    exact h' a ha hn

/-- **C32**. A point of a board of side at least two has at least two neighbours. -/
theorem C32_at_least_two {n : Dim} {p : Coord} (hh : 2 ≤ n.h) (hw : 2 ≤ n.w) (hp : OnBoard n p) :
    ∃ q r, q ≠ r ∧ OnBoard n q ∧ OnBoard n r ∧ Adj p q ∧ Adj p r := by
  obtain ⟨x, y⟩ := p
  obtain ⟨hx, hy⟩ := hp
  dsimp only at hx hy
  refine ⟨if x = 0 then (1, y) else (x - 1, y), if y = 0 then (x, 1) else (x, y - 1), ?_, ?_, ?_, ?_, ?_⟩
  all_goals split <;> (try split) <;> simp [OnBoard, Adj] <;> omega

/-- **C32**. `get_connected_groups_idx` lists, each once, the indices of the groups of the neighbouring stones. -/
theorem C32_connected_groups {dbg : Bool} {n : Dim} {m : Nat} {g : Goban} {p : Coord} (h : Board dbg n m g) (hp : OnBoard n p) :
    ∃ ks, g.connectedGroupsIdx dbg (twoTo1dim g.size p) = .ok ks ∧ ks.Nodup ∧
      ∀ k, k ∈ ks ↔ ∃ l s, g.chainStonesIdx dbg k = .ok l ∧ s ∈ l ∧ Adj p s.coord := by
  have hI := h.inv.1
  rw [hI.size]
  obtain ⟨ks, e, hnd, hk⟩ := connectedGroupsIdx_ok (dbg := dbg) hI.size hI.good hI.rep.blen (twoTo1_lt hI.good hp)
  refine ⟨ks, e, hnd, ?_⟩
  intro k
  rw [hk]
  constructor
  · rintro ⟨j, hj, hb⟩
    obtain ⟨hjN, ha⟩ := (mem_nbrs hI.good (twoTo1_lt hI.good hp)).1 hj
    rw [ptOf_twoTo1 hI.good hp] at ha
    obtain ⟨grp, hg⟩ := hI.rep.live _ _ hb
    obtain ⟨l, hs⟩ := group_spec (dbg := dbg) hI hg
    obtain ⟨s, h1, h2⟩ := List.mem_map.1 ((hs.mem (ptOf n j)).2 ⟨ptOf_onBoard hjN, by rw [twoTo1_ptOf]; exact hb⟩)
    exact ⟨l, s, hs.stones, h1, by rw [h2]; exact ha⟩
  · rintro ⟨l, s, e', hsl, ha⟩
    have : ∃ grp, g.chains.chainAt k = .ok grp := by
      unfold Goban.chainStonesIdx at e'
      obtain ⟨grp', e1, _⟩ := bind_eq_ok e'
      exact ⟨grp', e1⟩
    obtain ⟨grp, hg⟩ := this
    obtain ⟨l2, hs⟩ := group_spec (dbg := dbg) hI (live_ch.1 hg)
    rw [hs.stones] at e'; cases e'
    obtain ⟨h1, _, h3⟩ := hs.view hI (live_ch.1 hg) hsl
    exact ⟨_, adj_mem_nbrs hI.good hp h1 ha, h3⟩

example : ∃ g, Board true 3 8 g ∧ okAnd (g.connectedGroupsIdx true 5) (fun l => l.length == 2) = true :=
  mkBoard_exists (l := exScript) (by decide +kernel)

/-! ## C33 -/

/-- **C33**, the part that holds: for a colour and a side of at most 15, `get_coords_by_color` lists exactly the points
showing it, row by row. Missing: `EMPTY`, and sides 16 to 19 (false there, see below). -/
theorem C33_coords_by_color_partial {dbg : Bool} {n m : Nat} {g : Goban} {c : Color} (h : Board dbg n m g) (hn : n ≤ 15) :
    g.getCoordsByColor dbg (some c) = .ok ((Spec.points n).filter (fun p => g.getColor p = .ok (some c))) ∧
    g.getStonesByColor dbg (some c) = .ok (((Spec.points n).filter (fun p => g.getColor p = .ok (some c))).map
      (fun p => { coord := p, color := some c })) := by
  have hsq : n * n < 256 := by
    have := Nat.mul_le_mul hn hn; omega
  have key : g.getCoordsByColor dbg (some c) = .ok ((Spec.points n).filter (fun p => g.getColor p = .ok (some c))) := by
    rw [coordsByColor_ok h.inv.1 (mulU8_small hsq) (Nat.le_refl _), List.take_of_length_le]
    · congr 1
      apply filter_congr'
      intro p hp
      rw [h.inv.1.getColor_view (mem_points.1 hp)]
      rw [Bool.eq_iff_iff, decide_eq_true_eq, decide_eq_true_eq]
      exact ⟨fun h => by rw [h], fun h => Except.ok.inj h⟩
    · rw [points_eq, List.length_map, List.length_range]; exact Nat.le_refl _
  refine ⟨key, ?_⟩
  unfold Goban.getStonesByColor
  rw [key]; rfl

/-- **C33** is false for `EMPTY`: every point is listed, whatever the position (side at most 15). -/
theorem C33_false_empty {dbg : Bool} {n m : Nat} {g : Goban} (h : Board dbg n m g) (hn : n ≤ 15) :
    g.getCoordsByColor dbg none = .ok (Spec.points n) := by
  have hsq : n * n < 256 := by
    have := Nat.mul_le_mul hn hn; omega
  rw [coordsByColor_empty h.inv.1 (mulU8_small hsq) (Nat.le_refl _), List.take_of_length_le]
  rw [points_eq, List.length_map, List.length_range]; exact Nat.le_refl _

/-- **C33** is false on sides 16 to 19, whatever the colour asked for: a debug build panics, a release build only looks
at the first `n² mod 256` points (none at all on a 16 × 16 board), and for `EMPTY` lists them all. -/
theorem C33_false_large {n m m' : Nat} {g g' : Goban} {color : MaybeColor} (h : Board true n m g) (h' : Board false n m' g')
    (hn : 16 ≤ n) :
    g.getCoordsByColor true color = panic ∧ g.getStonesByColor true color = panic ∧
    g'.getCoordsByColor false color =
      .ok (((Spec.points n).take (n * n % 256)).filter (fun p => decide (color = none ∨ g'.view p = color))) := by
  have hsq : ¬ n * n < 256 := by
    have := Nat.mul_le_mul hn hn; omega
  have hp : g.getCoordsByColor true color = panic := by
    unfold Goban.getCoordsByColor
    rw [h.inv.1.size]
    dsimp only [Dim.sz]
    rw [mulU8_big hsq]; rfl
  refine ⟨hp, by unfold Goban.getStonesByColor; rw [hp]; rfl, ?_⟩
  cases color with
  | none =>
    rw [coordsByColor_empty h'.inv.1 mulU8_release (Nat.mod_le _ _)]
    congr 1
    exact (List.filter_eq_self.2 (fun _ _ => by simp)).symm
  | some c =>
    rw [coordsByColor_ok h'.inv.1 mulU8_release (Nat.mod_le _ _)]
    congr 1
    apply filter_congr'
    intro p _
    simp

/-- The listing is really wrong on a reachable board: a stone at (10, 0) of a 19 × 19 board is not listed. -/
theorem C33_false_witness : ∃ g, Board false 19 1 g ∧
    (g.getColor (10, 0) = .ok (some .black) ∧ g.getCoordsByColor false (some .black) = .ok [] : Bool) = true :=
  mkBoard_exists (l := [.push 10 0 .black]) (by decide +kernel)

/-! ## C34 -/

/-- **C34**. `get_stones` lists the stones, each once, row by row. -/
theorem C34_get_stones {dbg : Bool} {n : Dim} {m : Nat} {g : Goban} (h : Board dbg n m g) :
    g.getStones = .ok ((Spec.points n).filterMap (fun p => (g.view p).map (fun c => { coord := p, color := c }))) :=
  getStones_ok h.inv.1

/-- **C34**. `to_vec` starts with the colours of the points row by row; the rest of its 361 entries are empty. -/
theorem C34_to_vec {dbg : Bool} {n m : Nat} {g : Goban} (h : Board dbg n m g) :
    g.toVec = .ok ((Spec.points n).map g.view ++ List.replicate (361 - n * n) none) := toVec_view h.inv.1

example : ∃ g, Board true 3 8 g ∧ okAnd g.getStones (fun l => l.length == 7) = true :=
  mkBoard_exists (l := exScript) (by decide +kernel)

/-! ## C35 -/

/-- **C35**, what `get_empty_idx` does: it lists the indices of the *occupied* points.
Missing: the claim itself, which is false (`C35_false`). -/
theorem C35_get_empty_idx_partial {dbg : Bool} {n : Dim} {m : Nat} {g : Goban} (h : Board dbg n m g) :
    g.getEmptyIdx.Pairwise (· < ·) ∧
    ∀ i, i ∈ g.getEmptyIdx ↔ ∃ p c, OnBoard n p ∧ p.1 * n.h + p.2 = i ∧ g.getColor p = .ok (some c) := by
  have hI := h.inv.1
  rw [getEmptyIdx_ok hI]
  refine ⟨List.Pairwise.filter _ List.pairwise_lt_range, ?_⟩
  intro i
  rw [List.mem_filter, List.mem_range, Option.isSome_iff_exists]
  constructor
  · rintro ⟨_, c, hc⟩
    have hi : Ix n i := Classical.byContradiction fun h' => by rw [hI.col_off h'] at hc; cases hc
    exact ⟨ptOf n i, c, ptOf_onBoard hi, twoTo1_ptOf, by
      rw [hI.getColor_view (ptOf_onBoard hi), hI.view_ptOf hi, hc]⟩
  · rintro ⟨p, c, hp, rfl, hc⟩
    rw [hI.getColor_view hp, hI.view hp] at hc
    exact ⟨hI.lt361 (twoTo1_lt hI.good hp), c, Except.ok.inj hc⟩

/-- **C35** is false on every non-trivial board: an index is listed iff its point is *not* empty. -/
theorem C35_false {dbg : Bool} {n : Dim} {m : Nat} {g : Goban} {p : Coord} (h : Board dbg n m g) (hp : OnBoard n p) :
    p.1 * n.h + p.2 ∈ g.getEmptyIdx ↔ g.getColor p ≠ .ok none := by
  have hI := h.inv.1
  rw [(C35_get_empty_idx_partial h).2]
  constructor
  · rintro ⟨q, c, hq, he, hc⟩
    rw [← twoTo1_inj hI.good hq hp he, hc]
    intro h'; cases h'
  · intro hne
    rw [hI.getColor_view hp] at hne
    cases hv : g.view p with
    | none => rw [hv] at hne; exact absurd rfl hne
    | some c => exact ⟨p, c, hp, rfl, by rw [hI.getColor_view hp, hv]⟩

example : ∃ g, Board true 3 8 g ∧ (g.getEmptyIdx == [0, 1, 2, 3, 4, 7, 8]) = true :=
  mkBoard_exists (l := exScript) (by decide +kernel)

/-! ## C36 -/

theorem mapM_length {α β} {f : α → M β} : ∀ {l : List α} {l' : List β}, l.mapM f = .ok l' → l'.length = l.length
  | [], l', h => by
    rw [List.mapM_nil] at h; cases h; rfl
  | a :: l, l', h => by
    rw [List.mapM_cons] at h
    obtain ⟨b, _, h⟩ := bind_eq_ok h
    obtain ⟨l2, e, h⟩ := bind_eq_ok h
    cases h
    rw [List.length_cons, List.length_cons, mapM_length e]

/-- **C36**, the part that holds: every row has `n` entries, the first `n` rows are the board, the rest is empty.
Missing: the number of rows, which is `361 / n` and not `n`. -/
theorem C36_matrix_partial {dbg : Bool} {n m : Nat} {g : Goban} (h : Board dbg n m g) (hn : 0 < n) :
    ∃ rows, g.matrix = .ok rows ∧ rows.length = 361 / n ∧ n ≤ rows.length ∧ (∀ row ∈ rows, row.length = n) ∧
      (∀ p, OnBoard n p → ∃ row, rows[p.1]? = some row ∧ row[p.2]? = some (g.view p)) ∧
      ∀ r row, n ≤ r → rows[r]? = some row → row = List.replicate n none := by
  have hI := h.inv.1
  refine ⟨_, matrix_ok hI hn, by simp, ?_, ?_, ?_, ?_⟩
  · rw [List.length_map, List.length_range]
    exact (Nat.le_div_iff_mul_le hn).2 (sq_le hI.good)
  · intro row hr
    obtain ⟨r, _, rfl⟩ := List.mem_map.1 hr
    simp
  · intro p hp
    have h1 : p.1 < 361 / n := Nat.lt_of_lt_of_le hp.1 ((Nat.le_div_iff_mul_le hn).2 (sq_le hI.good))
    refine ⟨(List.range n).map (fun c => g.col (p.1 * n + c)), ?_, ?_⟩
    · rw [List.getElem?_map, List.getElem?_range h1]; rfl
    · rw [List.getElem?_map, List.getElem?_range hp.2, hI.view hp]; rfl
  · intro r row hr hrow
    rw [List.getElem?_map, Option.map_eq_some_iff] at hrow
    obtain ⟨r', hr', rfl⟩ := hrow
    obtain ⟨_, rfl⟩ := List.getElem?_eq_some_iff.1 hr'
    rw [List.getElem_range, List.eq_replicate_iff]
    refine ⟨by simp, ?_⟩
    intro c hc
    obtain ⟨j, _, rfl⟩ := List.mem_map.1 hc
    apply hI.col_off
    rw [ix_square]
    have := Nat.mul_le_mul_right n hr
    omega

/-- On a 19 × 19 board the claim holds fully: `matrix` has 19 rows of 19. -/
theorem C36_matrix_19 {dbg : Bool} {m : Nat} {g : Goban} (h : Board dbg 19 m g) :
    g.matrix = .ok ((List.range 19).map (fun r => (List.range 19).map (fun c => g.view (r, c)))) := by
  rw [matrix_ok h.inv.1 (by decide)]
  congr 1
  apply List.map_congr_left
  intro r hr
  apply List.map_congr_left
  intro c hc
  rw [h.inv.1.view (p := (r, c)) ⟨List.mem_range.1 hr, List.mem_range.1 hc⟩]
  rfl

/-- **C36** is false on every other size, square or not: the number of rows is `361 / w`, which is the height only on the
19 × 19 board. -/
theorem C36_false {dbg : Bool} {n : Dim} {m : Nat} {g : Goban} (h : Board dbg n m g) (hn : 0 < n.w)
    (h19 : ¬ (n.h = 19 ∧ n.w = 19)) :
    ∃ rows, g.matrix = .ok rows ∧ rows.length = 361 / n.w ∧ rows.length ≠ n.h := by
  have hI := h.inv.1
  obtain ⟨rows, e⟩ := matrix_any hI (by omega)
  have hlen : rows.length = 361 / n.w := by
    unfold Goban.matrix at e
    obtain ⟨_, _, e⟩ := bind_eq_ok e
    rw [mapM_length e, hI.size]
    dsimp only [Dim.sz]
    rw [chunksExact_eq n.w hn _ _ (Nat.le_refl _), List.length_map, List.length_range, hI.rep.blen]
  refine ⟨rows, e, hlen, ?_⟩
  rw [hlen]
  have hh : n.h ≤ 19 := hI.good.h19
  have hw : n.w ≤ 19 := hI.good.w19
  by_cases hw' : n.w = 19
  · rw [hw']; omega
  · have : 20 ≤ 361 / n.w := by
      rw [Nat.le_div_iff_mul_le hn]; omega
    omega

example : ∃ g, Board true 9 1 g ∧ okAnd g.matrix (fun l => l.length == 40) = true :=
  mkBoard_exists (l := [.push 8 8 .black]) (by decide +kernel)

example : ∃ g, Board true ⟨6, 3⟩ 1 g ∧ okAnd g.matrix (fun l => l.length == 120) = true :=
  mkBoard_exists (l := [.push 5 2 .black]) (by decide +kernel)

/-! ## C37 -/

/-- The drawing of an empty point: by row (top, bottom, between) and column (left, right, between). -/
def gridGlyph (n : Dim) (r c : Nat) : Char :=
  if r = 0 then if c = 0 then '┏' else if c + 1 = n.w then '┓' else '┯'
  else if r + 1 = n.h then if c = 0 then '┗' else if c + 1 = n.w then '┛' else '┷'
  else if c = 0 then '┠' else if c + 1 = n.w then '┨' else '┼'

theorem glyph_grid {n : Dim} {r c : Nat} (hp : OnBoard n (r, c)) : Goban.glyph n.sz r c none = gridGlyph n r c := by
  obtain ⟨hr, hc⟩ := hp
  dsimp only at hr hc
  unfold Goban.glyph gridGlyph
  dsimp only [Dim.sz]
  have e1 : (r == 0) = decide (r = 0) := rfl
  have e2 : (r == n.h - 1) = decide (r + 1 = n.h) := by
    rw [Bool.eq_iff_iff, beq_iff_eq, decide_eq_true_eq]; omega
  have e3 : (c == 0) = decide (c = 0) := rfl
  have e4 : (c == n.w - 1) = decide (c + 1 = n.w) := by
    rw [Bool.eq_iff_iff, beq_iff_eq, decide_eq_true_eq]; omega
  rw [e1, e2, e3, e4]
  by_cases h1 : r = 0 <;> by_cases h2 : r + 1 = n.h <;> by_cases h3 : c = 0 <;> by_cases h4 : c + 1 = n.w <;> simp only [h1, h2, h3, h4, decide_true, decide_false, if_true, if_false]

/-- **C37**. `pretty_string` is one line per row with one character per column; the character at `(r, c)` is a disc exactly when the point
shows that colour, and the piece of grid that belongs there if the point is empty. -/
theorem C37_pretty_string {dbg : Bool} {n : Dim} {m : Nat} {g : Goban} (h : Board dbg n m g) :
    ∃ rows : List (List Char), g.prettyString = .ok ((rows.map (· ++ ['\n'])).flatten) ∧ rows.length = n.h ∧
      (∀ row ∈ rows, row.length = n.w) ∧
      ∀ p, OnBoard n p → ∃ row ch, rows[p.1]? = some row ∧ row[p.2]? = some ch ∧
        (ch = '●' ↔ g.getColor p = .ok (some .black)) ∧ (ch = '○' ↔ g.getColor p = .ok (some .white)) ∧
        (g.getColor p = .ok none → ch = gridGlyph n p.1 p.2) := by
  have hI := h.inv.1
  refine ⟨(List.range n.h).map (fun i => (List.range n.w).map (fun j => Goban.glyph n.sz i j (g.view (i, j)))), ?_, by simp, ?_, ?_⟩
  · rw [prettyString_ok hI, List.map_map]; rfl
  · intro row hr
    obtain ⟨r, _, rfl⟩ := List.mem_map.1 hr
    simp
  · intro p hp
    refine ⟨_, _, by rw [List.getElem?_map, List.getElem?_range hp.1]; rfl,
      by rw [List.getElem?_map, List.getElem?_range hp.2]; rfl, ?_⟩
    have hg := glyph_cases n.sz p.1 p.2 (g.view p)
    rw [hI.getColor_view hp]
    refine ⟨hg.1.trans ⟨fun h => by rw [h], fun h => Except.ok.inj h⟩, hg.2.trans ⟨fun h => by rw [h], fun h => Except.ok.inj h⟩, ?_⟩
    intro he
    show Goban.glyph n.sz p.1 p.2 (g.view p) = _
    rw [Except.ok.inj he, glyph_grid hp]

/-- **C37**. Two boards of one size print alike iff they are `==`. -/
theorem C37_inj {dbg dbg' : Bool} {n : Dim} {m m' : Nat} {a b : Goban} (ha : Board dbg n m a) (hb : Board dbg' n m' b) :
    a.prettyString = b.prettyString ↔ a.beq b = .ok true := by
  rw [prettyString_inj ha.inv.1 hb.inv.1]
  obtain ⟨r, e, hr⟩ := beq_ok ha.inv.1 hb.inv.1
  rw [e, ← hr]
  constructor
  · intro h; rw [h]
  · intro h; exact Except.ok.inj h

example : ∃ g, Board true 3 8 g ∧ okAnd g.prettyString (fun l => l == "●●●\n○○┨\n┗○○\n".toList) = true :=
  mkBoard_exists (l := exScript) (by decide +kernel)

/-! ## C47 -/

/-- **C47**, the part that holds: with a live group index, `chain_stones` lists each stone of that group once.
Missing: the variant taking a coordinate, which is false (`C47_false`). -/
theorem C47_chain_stones_partial {dbg : Bool} {n : Dim} {m : Nat} {g : Goban} {k : Nat} {grp : Group} (h : Board dbg n m g)
    (hk : g.chains.chainAt k = .ok grp) :
    ∃ l, g.chainStonesIdx dbg k = .ok l ∧ (l.map Stone.coord).Nodup ∧ l.length = grp.numStones ∧
      (∀ s ∈ l, s.color = grp.color) ∧ ∀ q, q ∈ l.map Stone.coord ↔ OnBoard n q ∧ g.boardAt (q.1 * n.h + q.2) = .ok (some k) := by
  have hI := h.inv.1
  obtain ⟨l, hs⟩ := group_spec (dbg := dbg) hI (live_ch.1 hk)
  refine ⟨l, hs.stones, hs.nodup, hs.len, hs.color, ?_⟩
  intro q
  rw [hs.mem]
  apply and_congr_right
  intro hq
  have : g.boardAt (q.1 * n.h + q.2) = .ok (g.bd (twoTo1dim n.sz q)) :=
    Goban.boardAt_ok (by rw [hI.rep.blen]; exact hI.lt361 (twoTo1_lt hI.good hq))
  rw [this]
  exact ⟨fun h => by rw [h], fun h => Except.ok.inj h⟩

/-- **C47** is false for coordinates: the point (0, 0) holds group 1, but `chain_stones((0, 0))` lists group 0, the stone
at (1, 1); and `chain_stones((1, 1))` panics though a stone is there. -/
theorem C47_false : ∃ g, Board true 2 2 g ∧ (g.getColor (0, 0) = .ok (some .white) ∧ g.getColor (1, 1) = .ok (some .black) ∧
    g.chainStonesCoord true (0, 0) = .ok [{ coord := (1, 1), color := .black }] ∧
    g.chainStonesCoord true (1, 1) = panic : Bool) = true :=
  mkBoard_exists (l := [.push 1 1 .black, .push 0 0 .white]) (by decide +kernel)

end Model
