import Verif.Proofs.Lists
/-!
# Groups as seen through the public calls
-/

namespace Model
open Bits (has)
open Spec (OnBoard Adj Linked HasLiberty NoDead place SameOn Pos)

/-- Everything about one live group. -/
structure GroupSpec (dbg : Bool) (n : Dim) (g : Goban) (k : Nat) (grp : Group) (l : List Stone) : Prop where
  stones : g.chainStonesIdx dbg k = .ok l
  ne : l ≠ []
  nodup : (l.map Stone.coord).Nodup
  color : ∀ s ∈ l, s.color = grp.color
  mem : ∀ q, q ∈ l.map Stone.coord ↔ OnBoard n q ∧ g.bd (twoTo1dim n.sz q) = some k
  len : l.length = grp.numStones
  iter : g.iterStones dbg k = .ok (l.map (fun s => twoTo1dim n.sz s.coord))
  head : (l.map (fun s => twoTo1dim n.sz s.coord)).head? = some grp.origin
  last : (l.map (fun s => twoTo1dim n.sz s.coord)).getLast? = some grp.last
  min : ∀ s ∈ l, grp.origin ≤ twoTo1dim n.sz s.coord

theorem group_spec {dbg : Bool} {n : Dim} {g : Goban} {k : Nat} {grp : Group} (h : Inv n g) (hk : g.ch k = some grp) :
    ∃ l, GroupSpec dbg n g k grp l := by
  obtain ⟨l, hc⟩ := h.rep.chain k grp hk
  have hmap : (l.map (fun i => ({ coord := ptOf n i, color := grp.color } : Stone))).map
      (fun s => twoTo1dim n.sz s.coord) = l := by
    rw [List.map_map]
    conv => rhs; rw [← List.map_id l]
    apply List.map_congr_left
    intro i _
    exact twoTo1_ptOf
  refine ⟨_, chainStones_ok h hk hc, ?_, ?_, ?_, ?_, ?_, ?_, ?_, ?_, ?_⟩
  · intro he
    exact hc.walk.ne_nil (List.map_eq_nil_iff.1 he)
  · rw [List.map_map]
    exact List.Pairwise.map _ (fun a b hab h' => hab (ptOf_inj h')) hc.nodup
  · intro s hs
    obtain ⟨i, _, rfl⟩ := List.mem_map.1 hs
    rfl
  · intro q
    rw [List.map_map, List.mem_map]
    constructor
    · rintro ⟨i, hi, rfl⟩
      have hb := (hc.mem i).2 hi
      refine ⟨ptOf_onBoard (h.off _ _ hb), ?_⟩
      show g.bd (twoTo1dim n.sz (ptOf n i)) = _
      rw [twoTo1_ptOf]; exact hb
    · rintro ⟨hq, hb⟩
      exact ⟨_, (hc.mem _).1 hb, ptOf_twoTo1 h.good hq⟩
  · rw [List.length_map, hc.num]
  · unfold Goban.iterStones
    rw [Goban.chainAt_ok hk, ok_bind, hc.iter h.rep.nlen, hmap]
  · rw [hmap]; exact hc.head
  · rw [hmap]; exact hc.last
  · intro s hs
    obtain ⟨i, hi, rfl⟩ := List.mem_map.1 hs
    show _ ≤ twoTo1dim n.sz (ptOf n i)
    rw [twoTo1_ptOf]; exact hc.min i hi

theorem GroupSpec.view {dbg n g k grp l} (hs : GroupSpec dbg n g k grp l) (h : Inv n g) (hk : g.ch k = some grp) {s : Stone}
    (hm : s ∈ l) : OnBoard n s.coord ∧ g.view s.coord = some grp.color ∧ g.bd (twoTo1dim n.sz s.coord) = some k := by
  obtain ⟨h1, h2⟩ := (hs.mem s.coord).1 (List.mem_map_of_mem hm)
  refine ⟨h1, ?_, h2⟩
  rw [h.view h1, col_of_bd h2 hk]

theorem GroupSpec.linked {dbg n g k grp l} (hs : GroupSpec dbg n g k grp l) (h : Inv n g) (hk : g.ch k = some grp) {s : Stone}
    (hm : s ∈ l) {q : Coord} : q ∈ l.map Stone.coord ↔ Linked n g.view s.coord q := by
  obtain ⟨h1, _, h2⟩ := hs.view h hk hm
  rw [hs.mem]
  constructor
  · rintro ⟨hq, hb⟩; exact (h.linked_iff h1 hq h2).2 hb
  · intro hl
    have hq := linked_onBoard hl h1
    exact ⟨hq, (h.linked_iff h1 hq h2).1 hl⟩

theorem GroupSpec.mem_stone {dbg n g k grp l} (hs : GroupSpec dbg n g k grp l) {p : Coord} {c : Color}
    (hp : p ∈ l.map Stone.coord) (hc : c = grp.color) : ({ coord := p, color := c } : Stone) ∈ l := by
  obtain ⟨s, hs1, rfl⟩ := List.mem_map.1 hp
  rw [hc, ← hs.color s hs1]; exact hs1

/-- Recorded liberties. -/
theorem libs_spec {dbg : Bool} {n : Dim} {g : Goban} {k : Nat} {grp : Group} {l : List Stone} (h : Inv n g) (hk : g.ch k = some grp)
    (hs : GroupSpec dbg n g k grp l) (x : Nat) : x ∈ grp.libertiesVec ↔
      ∃ r, OnBoard n r ∧ twoTo1dim n.sz r = x ∧ g.view r = none ∧ ∃ s ∈ l, Adj s.coord r := by
  unfold Group.libertiesVec
  rw [Bits.iterOnes_eq, Bits.mem_members]
  obtain ⟨s, hsl⟩ := List.exists_mem_of_ne_nil _ hs.ne
  obtain ⟨h1, _, h2⟩ := hs.view h hk hsl
  constructor
  · intro hx
    have hxN := ((h.libs k grp hk x).1 hx).1
    have hr := ptOf_onBoard hxN
    obtain ⟨h3, q, hq, ha, hl⟩ := (h.has_iff hk h1 h2 hr).1 (by rw [twoTo1_ptOf]; exact hx)
    have hm := (hs.linked h hk hsl).2 hl
    obtain ⟨t, ht, rfl⟩ := List.mem_map.1 hm
    exact ⟨_, hr, twoTo1_ptOf, h3, t, ht, ha⟩
  · rintro ⟨r, hr, rfl, hv, t, ht, ha⟩
    rw [h.has_iff hk h1 h2 hr]
    exact ⟨hv, t.coord, (hs.view h hk ht).1, ha, (hs.linked h hk hsl).1 (List.mem_map_of_mem ht)⟩

theorem libs_len {g : Goban} (h : Rep g) {k : Nat} {grp : Group} (hk : g.ch k = some grp) : grp.liberties.length = 46 := by
  obtain ⟨l, hc⟩ := h.chain k grp hk
  exact hc.libs

theorem nodup_of_map {α β} {f : α → β} {l : List α} (h : (l.map f).Nodup) : l.Nodup :=
  List.Pairwise.of_map f (fun _ _ hab h' => hab (by rw [h'])) h

/-- Two boards of one size showing the same position record the same groups with the same liberties. -/
theorem same_groups {dbg dbg' : Bool} {n : Dim} {a b : Goban} (ha : Inv n a) (hb : Inv n b) (hv : SameOn n a.view b.view)
    {p : Coord} (hp : OnBoard n p) {ka kb : Nat} {ga gb : Group} {la lb : List Stone} (hka : a.bd (twoTo1dim n.sz p) = some ka)
    (hkb : b.bd (twoTo1dim n.sz p) = some kb) (hga : a.ch ka = some ga) (hgb : b.ch kb = some gb)
    (hla : GroupSpec dbg n a ka ga la) (hlb : GroupSpec dbg' n b kb gb lb) :
    la.Perm lb ∧ ga.libertiesVec = gb.libertiesVec ∧ ga.color = gb.color ∧ ga.numStones = gb.numStones := by
  have hcol : ga.color = gb.color := by
    have h1 := ha.view hp
    have h2 := hb.view hp
    rw [col_of_bd hka hga] at h1
    rw [col_of_bd hkb hgb] at h2
    have := hv p hp
    rw [h1, h2] at this
    exact Option.some.inj this
  have hpa := hla.mem_stone (c := ga.color) ((hla.mem p).2 ⟨hp, hka⟩) rfl
  have hpb := hlb.mem_stone (c := gb.color) ((hlb.mem p).2 ⟨hp, hkb⟩) rfl
  have hmem : ∀ q, q ∈ la.map Stone.coord ↔ q ∈ lb.map Stone.coord := by
    intro q
    rw [hla.linked ha hga hpa, hlb.linked hb hgb hpb]
    exact ⟨linked_congr hv hp, linked_congr (SameOn.symm hv) hp⟩
  have hmem' : ∀ s, s ∈ la ↔ s ∈ lb := by
    intro s
    constructor
    · intro hs
      exact hlb.mem_stone ((hmem _).1 (List.mem_map_of_mem hs)) (by rw [hla.color s hs, hcol])
    · intro hs
      exact hla.mem_stone ((hmem _).2 (List.mem_map_of_mem hs)) (by rw [hlb.color s hs, hcol])
  have hperm : la.Perm lb := (List.perm_ext_iff_of_nodup (nodup_of_map hla.nodup) (nodup_of_map hlb.nodup)).2 hmem'
  refine ⟨hperm, ?_, hcol, ?_⟩
  · apply List.Perm.eq_of_pairwise (le := (· < ·))
    · intro x y _ _ h1 h2; omega
    · unfold Group.libertiesVec; rw [Bits.iterOnes_eq]; exact Bits.members_sorted _
    · unfold Group.libertiesVec; rw [Bits.iterOnes_eq]; exact Bits.members_sorted _
    · apply (List.perm_ext_iff_of_nodup _ _).2
      · intro x
        rw [libs_spec ha hga hla, libs_spec hb hgb hlb]
        constructor
        · rintro ⟨r, h1, h2, h3, s, h4, h5⟩
          exact ⟨r, h1, h2, by rw [← hv r h1]; exact h3, s, (hmem' s).1 h4, h5⟩
        · rintro ⟨r, h1, h2, h3, s, h4, h5⟩
          exact ⟨r, h1, h2, by rw [hv r h1]; exact h3, s, (hmem' s).2 h4, h5⟩
      · unfold Group.libertiesVec; rw [Bits.iterOnes_eq]; exact Bits.members_nodup _
      · unfold Group.libertiesVec; rw [Bits.iterOnes_eq]; exact Bits.members_nodup _
  · rw [← hla.len, ← hlb.len]; exact hperm.length_eq

/-- The position after putting stones on distinct points does not depend on the order. -/
theorem putAll_apply : ∀ (l : List Stone) (pos : Pos) (q : Coord), (l.map Stone.coord).Nodup →
    (∀ s ∈ l, s.coord = q → putAll pos l q = some s.color) ∧ (q ∉ l.map Stone.coord → putAll pos l q = pos q)
  | [], pos, q, _ => by simp [putAll]
  | s :: l, pos, q, hnd => by
    rw [List.map_cons, List.nodup_cons] at hnd
    have ih := putAll_apply l (place pos s.coord s.color) q hnd.2
    have he : putAll pos (s :: l) q = putAll (place pos s.coord s.color) l q := rfl
    constructor
    · intro t ht htq
      rw [he]
      rcases List.mem_cons.1 ht with rfl | ht
      · rw [ih.2 (htq ▸ hnd.1), ← htq]; simp [place]
      · exact ih.1 t ht htq
    · intro hq
      rw [List.map_cons, List.mem_cons, not_or] at hq
      rw [he, ih.2 hq.2]
      unfold place
      rw [if_neg hq.1]

theorem putAll_perm {l l' : List Stone} (hp : l.Perm l') (hnd : (l.map Stone.coord).Nodup) (pos : Pos) :
    putAll pos l = putAll pos l' := by
  funext q
  have hnd' : (l'.map Stone.coord).Nodup := (hp.map Stone.coord).nodup_iff.1 hnd
  by_cases hq : q ∈ l.map Stone.coord
  · obtain ⟨s, hs, rfl⟩ := List.mem_map.1 hq
    rw [(putAll_apply l pos _ hnd).1 s hs rfl, (putAll_apply l' pos _ hnd').1 s (hp.mem_iff.1 hs) rfl]
  · rw [(putAll_apply l pos _ hnd).2 hq, (putAll_apply l' pos _ hnd').2 (fun h => hq ((hp.map Stone.coord).mem_iff.2 h))]

end Model
