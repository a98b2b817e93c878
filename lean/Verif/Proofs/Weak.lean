import Verif.Proofs.Hidden
import Verif.Proofs.Profile
import Verif.Proofs.Capture
/-!
# Boards of every size

What the board code does whatever its size is (also when the width does not divide the height, so that the two index
conversions do not match) and wherever the stones were put.
-/

namespace Model
open Bits (has)

/-- The arrays fit together, the hash is that of the cells and the sides are between 1 and 19. -/
structure Weak (g : Goban) : Prop where
  rep : Rep g
  hash : g.zobristHash = hashFn g.col 361
  h0 : g.size.1 ≠ 0
  w0 : g.size.2 ≠ 0
  h19 : g.size.1 ≤ 19
  w19 : g.size.2 ≤ 19

theorem twoTo1_lt_any {s : Size} (h : s.1 ≤ 19) (w : s.2 ≤ 19) {c : Coord} (hc : isCoordValid s c = true) :
    twoTo1dim s c < 361 := by
  unfold isCoordValid at hc
  rw [Bool.and_eq_true, decide_eq_true_iff, decide_eq_true_iff] at hc
  unfold twoTo1dim
  have h1 : c.1 * s.1 ≤ 18 * 19 := Nat.mul_le_mul (by omega) h
  omega

/-- In a release build `neighbor_coords` never fails. -/
theorem validCoords_release (c : Coord) (s : Size) : ∃ l, validCoords false c s = .ok l ∧ ∀ q ∈ l, isCoordValid s q = true := by
  have ha : ∀ x y, ∃ z, addU8 false x y = .ok z := by
    intro x y
    unfold addU8
    split
    · exact ⟨_, rfl⟩
    · exact ⟨_, rfl⟩
  obtain ⟨d, hd⟩ := ha c.1 1
  obtain ⟨r, hr⟩ := ha c.2 1
  unfold validCoords neighborCoords
  rw [hd, ok_bind, hr, ok_bind, ok_bind]
  refine ⟨_, rfl, ?_⟩
  intro q hq
  exact (List.mem_filter.1 hq).2

theorem neighborsIdx_release {g : Goban} (h0 : g.size.1 ≠ 0) (w0 : g.size.2 ≠ 0) (h19 : g.size.1 ≤ 19) (w19 : g.size.2 ≤ 19) (i : Nat) :
    ∃ l, g.neighborsIdx false i = .ok l ∧ ∀ x ∈ l, x < 361 := by
  unfold Goban.neighborsIdx oneTo2dim Goban.neighborsCoords
  rw [if_neg (by simp [h0, w0]), ok_bind]
  obtain ⟨l, e, hl⟩ := validCoords_release (u8 (i / g.size.1), u8 (i % g.size.2)) g.size
  rw [e, ok_bind]
  refine ⟨_, rfl, ?_⟩
  intro x hx
  obtain ⟨q, hq, rfl⟩ := List.mem_map.1 hx
  exact twoTo1_lt_any h19 w19 (hl q hq)

/-- `attach` when the stored liberties may be anything. -/
theorem attach_release {g : Goban} {p : Nat} {c : Color} {same libs : List Nat} (h0 : Rep g) (hp : p < 361)
    (hb : g.bd p = none) (hl : ∀ i ∈ libs, i < 368) (hk : g.chains.length < 65535 ∨ same.length = 1) (hnd : same.Nodup)
    (hs : ∀ k ∈ same, ∃ gk, g.ch k = some gk ∧ gk.color = c) :
    ∃ g' t L, g.attach false p c same libs = .ok (t, g') ∧ Att g g' p c same t L := by
  by_cases hpl : p ∈ libs
  swap
  · obtain ⟨g', t, e, h⟩ := attach_att (dbg := false) (c := c) (same := same) h0 hp hb hl hpl hk hnd
      (fun k hk => let ⟨gk, h1, h2⟩ := hs k hk; ⟨gk, h1, h2, fun h' => by cases h'⟩)
    exact ⟨g', t, _, e, h⟩
  rcases same with _ | ⟨a, _ | ⟨b, rest⟩⟩
  · obtain ⟨g', e, h⟩ := create_att (dbg := false) (c := c) h0 hp hb hl (hk.resolve_right (by simp))
    exact ⟨g', _, _, e, h⟩
  · obtain ⟨ga, ha, hca⟩ := hs a (by simp)
    obtain ⟨la, hcha⟩ := h0.chain a ga ha
    have hlt := Goban.ch_lt ha
    obtain ⟨l1, e1, hl1, hh1⟩ := removeLiberty_ok (dbg := false) (i := p) hcha.libs (by omega) (fun h' => by cases h')
    obtain ⟨l2, e2, hl2, hh2⟩ := unionSlice_ok libs { ga with liberties := l1 } hl1 hl
    let ga2 : Group := { ga with liberties := l2 }
    have hrep1 : Rep (g.setChain a ga2) := h0.setLibs ha hl2
    have hch1 : (g.setChain a ga2).ch a = some ga2 := by rw [Goban.ch_setChain hlt, if_pos rfl]
    obtain ⟨nx, o, z, m, e3, hrep2⟩ := add_ok (dbg := false) hrep1 hp hb hch1
    have hbd : ∀ i, ((g.board.set p (some a))[i]?).join = if i = p then some a else g.bd i :=
      fun i => Goban.bd_set (by rw [h0.blen]; exact hp)
    have hch : ∀ (x : Group) j, (((g.chains.set a (some ga2)).set a (some x))[j]?).join = if j = a then some x else g.ch j := by
      intro x j
      rw [Goban.ch_set (by rw [List.length_set]; exact hlt), Goban.ch_set hlt]
      by_cases hj : j = a <;> simp [hj, Goban.ch]
    refine ⟨_, a, fun x => has x l2 = true, ?_, hrep2, rfl, rfl, ?_, ?_, ?_, ?_, ?_, ?_, Or.inl (by simp)⟩
    · unfold Goban.attach
      dsimp only
      rw [Goban.chainAt_ok ha, ok_bind, e1, ok_bind, e2, ok_bind]
      show ((g.setChain a ga2).addStoneToChain false a p >>= _) = _
      cases hadd : (g.setChain a ga2).addStoneToChain false a p with
      | error er => rw [hadd] at e3; cases e3
      | ok g3 =>
        rw [hadd, ok_bind] at e3
        rw [ok_bind]
        split at e3
        · cases e3
        · rename_i hne
          rw [if_neg hne, e3, ok_bind]
    · show ((g.chains.set a _).set a _).length ≤ _
      rw [List.length_set, List.length_set]; omega
    · rintro i (rfl | ⟨k, hk, hk'⟩)
      · exact (hbd i).trans (if_pos rfl)
      · rw [List.mem_singleton] at hk; subst hk
        refine (hbd i).trans ?_
        rw [hk']; simp
    · intro i hi _
      exact (hbd i).trans (if_neg hi)
    · exact ⟨_, (hch _ a).trans (if_pos rfl), hca, fun x => Iff.rfl⟩
    · intro j hj _
      exact (hch _ j).trans (if_neg hj)
    · intro j hj hja
      rw [List.mem_singleton] at hja; exact absurd hja hj
  · obtain ⟨g1, e1, h1⟩ := create_att (dbg := false) (c := c) h0 hp hb hl (hk.resolve_right (by simp))
    have h1' : Att g g1 p c [] g.chains.length (fun x => x ∈ libs ∨ LibOf g [] x) := h1.congr (by
      intro x
      constructor
      · exact Or.inl
      · rintro (h' | ⟨k, hk, _⟩)
        · exact h'
        · simp at hk)
    obtain ⟨g2, t, e2, h2⟩ := mergeFold_att (dbg := false) h0 hb (a :: b :: rest) [] g1 _ h1' (by simpa using hnd) hs
    rw [List.nil_append] at h2
    obtain ⟨gt, ht, hct, hL⟩ := h2.added
    obtain ⟨lt, hcht⟩ := h2.rep.chain t gt ht
    obtain ⟨l1, e3, hl1, hh1⟩ := removeLiberty_ok (dbg := false) (i := p) hcht.libs (by omega) (fun h' => by cases h')
    have hlt := Goban.ch_lt ht
    refine ⟨g2.setChain t { gt with liberties := l1 }, t, fun x => has x l1 = true, ?_, h2.rep.setLibs ht hl1, h2.size, h2.hash, ?_,
      h2.bdt, h2.bdo, ?_, ?_, ?_, h2.new⟩
    · unfold Goban.attach
      dsimp only
      rw [e1, ok_bind]
      dsimp only
      rw [e2, ok_bind]
      dsimp only
      rw [Goban.chainAt_ok ht, ok_bind, e3, ok_bind]
    · show (g2.chains.set _ _).length ≤ _
      rw [List.length_set]; exact h2.clen
    · exact ⟨{ gt with liberties := l1 }, by rw [Goban.ch_setChain hlt, if_pos rfl], hct, fun x => Iff.rfl⟩
    · intro j hj hjn
      rw [Goban.ch_setChain hlt, if_neg hj]; exact h2.other j hj hjn
    · intro j hj hjn
      rw [Goban.ch_setChain hlt, if_neg hj]; exact h2.gone j hj hjn

/-- The board after a stone of colour `c` has been pushed on the cell `p`. -/
structure WPush (g : Goban) (p : Nat) (c : Color) (f : Goban.Feedback) : Prop where
  weak : Weak f.goban
  size : f.goban.size = g.size
  col : ∀ i, f.goban.col i = if i = p then some c else g.col i
  added : f.goban.bd p = some f.added
  own : ∃ gt, f.goban.ch f.added = some gt ∧ gt.color = c
  dnd : f.dead.Nodup
  dead : ∀ k ∈ f.dead, ∃ gk, f.goban.ch k = some gk ∧ gk.color = c.opp ∧ g.bd p = none
  clen : f.goban.chains.length ≤ g.chains.length + 1
  keep : ∀ i j k, g.bd i = some k → g.bd j = some k → f.goban.bd i = f.goban.bd j

theorem Weak.of_hash {g r : Goban} {p : Nat} {c : Color} (hw : Weak g) (hp : p < 361) (hb : g.bd p = none) (hrep : Rep r)
    (hs : r.size = g.size) (hh : r.zobristHash = g.zobristHash) (hcol : ∀ i, r.col i = if i = p then some c else g.col i) :
    Weak { r with zobristHash := r.zobristHash ^^^ zkey p (some c) } := by
  refine ⟨⟨hrep.blen, hrep.nlen, ?_, hrep.live, hrep.few⟩, ?_, ?_, ?_, ?_, ?_⟩
  · intro k grp hg
    obtain ⟨l, hc⟩ := hrep.chain k grp hg
    exact ⟨l, hc.nodup, hc.walk, hc.head, hc.last, hc.num, hc.min, hc.libs, hc.mem⟩
  · show r.zobristHash ^^^ _ = hashFn r.col 361
    rw [hh, hw.hash, hashFn_update (f := g.col) (f' := r.col) (p := p) (fun i hi => by rw [hcol, if_neg hi]) hp, hcol, if_pos rfl,
      col_none hb]
    show _ = _ ^^^ (0#64 ^^^ _)
    rw [BitVec.zero_xor]
  · show r.size.1 ≠ 0
    rw [hs]; exact hw.h0
  · show r.size.2 ≠ 0
    rw [hs]; exact hw.w0
  · show r.size.1 ≤ 19
    rw [hs]; exact hw.h19
  · show r.size.2 ≤ 19
    rw [hs]; exact hw.w19

theorem push_release {g : Goban} {pt : Coord} {p : Nat} {c : Color} (h : Weak g) (hpe : twoTo1dim g.size pt = p)
    (hp : p < 361) (hb : g.bd p = none) :
    (∃ f, g.pushWthFeedback false pt c = .ok f ∧ WPush g p c f) ∨
      (g.pushWthFeedback false pt c = panic ∧ g.chains.length = 65535) := by
  have hr := h.rep
  obtain ⟨nbs, en, hnb361⟩ := neighborsIdx_release h.h0 h.w0 h.h19 h.w19 p
  obtain ⟨a, ea, ha⟩ := around_ok (c := c) hr hnb361
  have hsame : ∀ j ∈ a.same, ∃ gj, g.ch j = some gj ∧ gj.color = c := by
    intro j hj
    obtain ⟨i, hi, hbi, hci⟩ := (ha.same j).1 hj
    obtain ⟨gj, hgj⟩ := hr.live i j hbi
    rw [col_of_bd hbi hgj] at hci
    exact ⟨gj, hgj, Option.some.inj hci⟩
  have hopp : ∀ j ∈ a.opp, ∃ gj, g.ch j = some gj ∧ gj.color = c.opp := by
    intro j hj
    obtain ⟨i, hi, hbi, hci⟩ := (ha.opp j).1 hj
    obtain ⟨gj, hgj⟩ := hr.live i j hbi
    rw [col_of_bd hbi hgj] at hci
    exact ⟨gj, hgj, Option.some.inj hci⟩
  have hso : ∀ j, j ∈ a.same → j ∈ a.opp → False := by
    intro j h1 h2
    obtain ⟨gk, e1, e2⟩ := hsame j h1
    obtain ⟨gk', e1', e2'⟩ := hopp j h2
    rw [e1] at e1'; cases e1'
    rw [e2] at e2'; exact Color.ne_opp c e2'
  obtain ⟨g1, dead, e1, ht⟩ := take_ok (dbg := false) hr (show p < 368 by omega) ha.ond (fun j hj => by
    obtain ⟨gj, h1, _⟩ := hopp j hj
    exact ⟨gj, h1, fun hdb => by cases hdb⟩)
  have hlibs368 : ∀ i ∈ a.libs, i < 368 := by
    intro i hi
    have := hnb361 i ((ha.libs i).1 hi).1
    omega
  have hz := indexZobrist_ok (c := c) hp
  have hrun : ∀ x, g1.attach false p c a.same a.libs = x → g.pushWthFeedback false pt c = (do
      let (added, g) ← x
      let g := { g with zobristHash := g.zobristHash ^^^ zkey p (some c) }
      .ok { dead := dead, added := added, goban := g }) := by
    intro x hx
    unfold Goban.pushWthFeedback
    rw [hpe]
    dsimp only
    rw [en, ok_bind, ea, ok_bind, e1, ok_bind]
    dsimp only
    rw [hx, hz]
    rfl
  by_cases hroom : ¬ (g.chains.length < 65535 ∨ a.same.length = 1)
  · rw [not_or] at hroom
    have hfull : g.chains.length = 65535 := by have := hr.few; omega
    refine Or.inr ⟨?_, hfull⟩
    rw [hrun _ (attach_panic ht.rep hp hlibs368 (by rw [ht.clen]; exact hfull) hroom.2)]; rfl
  rw [Classical.not_not] at hroom
  left
  have hs1 : ∀ j ∈ a.same, ∃ gj, g1.ch j = some gj ∧ gj.color = c := fun j hj => by
    obtain ⟨gj, h1, h2⟩ := hsame j hj
    exact ⟨gj, (ht.other j (fun h' => hso j hj h')).trans h1, h2⟩
  obtain ⟨r, t, L, er, hA⟩ := attach_release (c := c) (same := a.same) (libs := a.libs) ht.rep hp
    (by rw [ht.bd, hb]) hlibs368 (by rw [ht.clen]; exact hroom) ha.snd hs1
  have hcol : ∀ i, r.col i = if i = p then some c else g.col i := fun i => by
    rw [hA.col ht.rep hs1 i, ht.col hr]
  obtain ⟨gt, hgt, hct, hLt⟩ := hA.added
  refine ⟨{ dead := dead, added := t, goban := { r with zobristHash := r.zobristHash ^^^ zkey p (some c) } },
    (hrun _ er).trans rfl, Weak.of_hash h hp hb hA.rep (hA.size.trans ht.size) (hA.hash.trans ht.hash) hcol,
    hA.size.trans ht.size, hcol, hA.bdt p (Or.inl rfl), ⟨gt, hgt, hct⟩, ?_, ?_, ?_, ?_⟩
  · exact ht.sub.nodup ha.ond
  · intro j hj
    have hjo := ht.sub.subset hj
    obtain ⟨gj, h1, h2⟩ := hopp j hjo
    obtain ⟨gj', h3, h4⟩ := (ht.dead j hjo).1 hj
    obtain ⟨l', h5, h6⟩ := ht.taken j hjo gj h1
    have hjs : j ∉ a.same := fun h' => hso j h' hjo
    have hjt : j ≠ t := by
      rintro rfl
      rcases hA.new with h' | h'
      · exact hjs h'
      · have := Goban.ch_lt h1
        rw [ht.clen] at h'; omega
    exact ⟨_, (hA.other j hjt hjs).trans h5, h2, hb⟩
  · show r.chains.length ≤ _
    have := hA.clen
    rw [ht.clen] at this; exact this
  · intro i j k hi hj
    show r.bd i = r.bd j
    have hi1 : g1.bd i = some k := (ht.bd i).trans hi
    have hj1 : g1.bd j = some k := (ht.bd j).trans hj
    by_cases hk : k ∈ a.same
    · rw [hA.bdt i (Or.inr ⟨k, hk, hi1⟩), hA.bdt j (Or.inr ⟨k, hk, hj1⟩)]
    · have hne : ∀ x, g1.bd x = some k → x ≠ p ∧ ∀ k' ∈ a.same, g1.bd x ≠ some k' := by
        intro x hx
        refine ⟨?_, ?_⟩
        · rintro rfl
          rw [ht.bd, hb] at hx; cases hx
        · intro k' hk' h'
          rw [hx] at h'
          exact hk (Option.some.inj h' ▸ hk')
      rw [hA.bdo i (hne i hi1).1 (hne i hi1).2, hA.bdo j (hne j hj1).1 (hne j hj1).2, hi1, hj1]

/-! ### Removing a group -/

/-- `addLiberty` in a release build, whether or not the point is already stored. -/
theorem give_release {g : Goban} {i : Nat} (hi : i < 368) : ∀ (todo done : List Nat) (g' : Goban),
    Gave g g' i done → (done ++ todo).Nodup →
    (∀ k ∈ todo, ∃ gk, g.ch k = some gk ∧ gk.liberties.length = 46) →
    ∃ g'', todo.foldlM (fun (g : Goban) n => do
      let ch ← g.chains.chainAt n
      let ch ← ch.addLiberty false i
      .ok (g.setChain n ch)) g' = (.ok g'' : M Goban) ∧ Gave g g'' i (done ++ todo) := by
  intro todo
  induction todo with
  | nil => intro done g' h _ _; exact ⟨g', rfl, by simpa using h⟩
  | cons k todo ih =>
    intro done g' h hnd hk
    obtain ⟨gk, h1, h2⟩ := hk k (by simp)
    have hnew : k ∉ done := by
      intro h'
      rw [List.nodup_append] at hnd
      exact hnd.2.2 k h' k (by simp) rfl
    have hk' : g'.ch k = some gk := (h.other k hnew).trans h1
    obtain ⟨l1, e1, hl1, hh1⟩ := addLiberty_ok (dbg := false) h2 hi (fun h' => by cases h')
    have hlt := Goban.ch_lt hk'
    have hG : Gave g (g'.setChain k { gk with liberties := l1 }) i (done ++ [k]) := by
      refine ⟨h.brd, h.nxt, h.size, h.hash, ?_, ?_, ?_⟩
      · show (g'.chains.set _ _).length = _
        rw [List.length_set, h.clen]
      · intro j hj
        rw [Goban.ch_setChain hlt, if_neg (fun h' => hj (by simp [h']))]
        exact h.other j (fun h' => hj (by simp [h']))
      · intro j hj gj hgj
        by_cases hjk : j = k
        · subst hjk
          rw [h1] at hgj; cases hgj
          refine ⟨l1, by rw [Goban.ch_setChain hlt, if_pos rfl], hl1, ?_⟩
          intro x; rw [hh1]
          by_cases hx : x = i <;> simp [hx]
        · have hjd : j ∈ done := by
            rcases List.mem_append.1 hj with h' | h'
            · exact h'
            · rw [List.mem_singleton] at h'; exact absurd h' hjk
          rw [Goban.ch_setChain hlt, if_neg hjk]
          exact h.given j hjd gj hgj
    obtain ⟨g2, e2, t2⟩ := ih (done ++ [k]) _ hG (by simpa using hnd) (fun k hk' => hk k (by simp [hk']))
    refine ⟨g2, ?_, by simpa using t2⟩
    rw [List.foldlM_cons, Goban.chainAt_ok hk', ok_bind, e1, ok_bind, ok_bind, e2]

/-- State of `remove_chain` after the stones `d` have been processed. -/
structure WRem (g g' : Goban) (d : List Nat) : Prop where
  blen : g'.board.length = 361
  nxt : g'.nextStone = g.nextStone
  size : g'.size = g.size
  clen : g'.chains.length = g.chains.length
  bd : ∀ i, g'.bd i = if i ∈ d then none else g.bd i
  chn : ∀ j, g.ch j = none → g'.ch j = none
  ch : ∀ j gj, g.ch j = some gj → ∃ l', g'.ch j = some { gj with liberties := l' } ∧ l'.length = 46
  hash : g'.zobristHash = hashFn (fun i => if i ∈ d then none else g.col i) 361

theorem removeStone_release {g g' : Goban} {k : Nat} {gk : Group} {d : List Nat} {i : Nat} (h : Weak g)
    (hk : g.ch k = some gk) (hr : WRem g g' d) (hi : g.bd i = some k) (hid : i ∉ d) :
    ∃ g'', Goban.removeStoneStep false k gk.color g' i = .ok g'' ∧ WRem g g'' (d ++ [i]) := by
  have hi361 := h.rep.bd_lt hi
  obtain ⟨nbs, en, hnb⟩ := neighborsIdx_release (g := g') (by rw [hr.size]; exact h.h0) (by rw [hr.size]; exact h.w0)
    (by rw [hr.size]; exact h.h19) (by rw [hr.size]; exact h.w19) i
  obtain ⟨ks, e1, hnd, hks⟩ := connectedGroupsIdx_of en hr.blen hnb
  let ns := ks.filter (fun x => x != k)
  have hlive : ∀ j ∈ ns, ∃ gj, g'.ch j = some gj ∧ gj.liberties.length = 46 := by
    intro j hj
    obtain ⟨y, _, hy⟩ := (hks j).1 (List.mem_filter.1 hj).1
    rw [hr.bd] at hy
    split at hy
    · cases hy
    obtain ⟨gj, hgj⟩ := h.rep.live y j hy
    obtain ⟨l', h1, h2⟩ := hr.ch j gj hgj
    exact ⟨_, h1, h2⟩
  obtain ⟨g1, e2, hG⟩ := give_release (show i < 368 by omega) ns [] g'
    ⟨rfl, rfl, rfl, rfl, rfl, fun _ _ => rfl, by simp⟩ (show ([] ++ ns).Nodup from List.Pairwise.filter _ hnd) hlive
  rw [List.nil_append] at hG
  have hz := indexZobrist_ok (c := gk.color) hi361
  refine ⟨{ g1 with zobristHash := g1.zobristHash ^^^ zkey i (some gk.color), board := g1.board.set i none }, ?_, ?_⟩
  · unfold Goban.removeStoneStep
    rw [e1, ok_bind]
    dsimp only
    rw [e2, ok_bind, hz, ok_bind]
    exact Goban.setBoard_ok (by show i < g1.board.length; rw [hG.brd, hr.blen]; exact hi361)
  · refine ⟨?_, hG.nxt.trans hr.nxt, hG.size.trans hr.size, hG.clen.trans hr.clen, ?_, ?_, ?_, ?_⟩
    · show (g1.board.set i none).length = _
      rw [List.length_set, hG.brd, hr.blen]
    · intro x
      show ((g1.board.set i none)[x]?).join = _
      rw [Goban.bd_set (by rw [hG.brd, hr.blen]; exact hi361)]
      by_cases hx : x = i
      · simp [hx]
      · rw [if_neg hx, hG.brd]
        show g'.bd x = _
        rw [hr.bd]
        simp [hx]
    · intro j hj
      show g1.ch j = none
      rw [hG.other j]
      · exact hr.chn j hj
      · intro h'
        obtain ⟨gj, h1, _⟩ := hlive j h'
        rw [hr.chn j hj] at h1; cases h1
    · intro j gj hgj
      show ∃ l', g1.ch j = _ ∧ _
      obtain ⟨l1, h1, h2⟩ := hr.ch j gj hgj
      by_cases hjn : j ∈ ns
      · obtain ⟨l2, h4, h5, h6⟩ := hG.given j hjn _ h1
        exact ⟨l2, h4, h5⟩
      · exact ⟨l1, by rw [hG.other j hjn]; exact h1, h2⟩
    · show g1.zobristHash ^^^ _ = _
      rw [hG.hash, hr.hash]
      rw [hashFn_update (f := fun x => if x ∈ d then none else g.col x)
        (f' := fun x => if x ∈ d ++ [i] then none else g.col x) (p := i) (by
          intro x hx
          simp [hx]) hi361]
      simp only [if_neg hid, List.mem_append, List.mem_singleton, or_true, if_true]
      rw [col_of_bd hi hk]
      show _ = _ ^^^ (_ ^^^ 0#64)
      rw [BitVec.xor_zero]

theorem removeStones_release {g : Goban} {k : Nat} {gk : Group} (h : Weak g) (hk : g.ch k = some gk) :
    ∀ (todo d : List Nat) (g' : Goban), WRem g g' d → (d ++ todo).Nodup → (∀ x ∈ d ++ todo, g.bd x = some k) →
      ∃ g'', todo.foldlM (Goban.removeStoneStep false k gk.color) g' = .ok g'' ∧ WRem g g'' (d ++ todo) := by
  intro todo
  induction todo with
  | nil => intro d g' hr _ _; exact ⟨g', rfl, by simpa using hr⟩
  | cons i todo ih =>
    intro d g' hr hnd hx
    have hid : i ∉ d := by
      intro h'
      rw [List.nodup_append] at hnd
      exact hnd.2.2 i h' i (by simp) rfl
    obtain ⟨g1, e1, h1⟩ := removeStone_release h hk hr (hx i (by simp)) hid
    obtain ⟨g2, e2, h2⟩ := ih (d ++ [i]) g1 h1 (by simpa using hnd) (by simpa using hx)
    exact ⟨g2, by rw [List.foldlM_cons, e1, ok_bind, e2], by simpa using h2⟩

/-- Effect of `remove_chain`. -/
structure WRemSpec (g g' : Goban) (k : Nat) : Prop where
  weak : Weak g'
  size : g'.size = g.size
  bd : ∀ i, g'.bd i = if g.bd i = some k then none else g.bd i
  chk : g'.ch k = none
  chn : ∀ j, g.ch j = none → g'.ch j = none
  ch : ∀ j gj, j ≠ k → g.ch j = some gj → ∃ l', g'.ch j = some { gj with liberties := l' }
  clen : g'.chains.length = g.chains.length
  col : ∀ i, g'.col i = if g.bd i = some k then none else g.col i

theorem remove_release {g : Goban} {k : Nat} {gk : Group} (h : Weak g) (hk : g.ch k = some gk) :
    ∃ g', g.removeChain false k = .ok g' ∧ WRemSpec g g' k := by
  obtain ⟨l, hc⟩ := h.rep.chain k gk hk
  have hkl := Goban.ch_lt hk
  have hr0 : WRem g g [] := by
    refine ⟨h.rep.blen, rfl, rfl, rfl, by simp, fun _ h' => h', ?_, ?_⟩
    · intro j gj hgj
      obtain ⟨lj, hcj⟩ := h.rep.chain j gj hgj
      exact ⟨gj.liberties, hgj, hcj.libs⟩
    · rw [h.hash]; simp
  obtain ⟨g1, e1, hr⟩ := removeStones_release h hk l [] g hr0 (by simpa using hc.nodup)
    (by intro x hx; exact (hc.mem x).2 (by simpa using hx))
  rw [List.nil_append] at hr
  let g2 : Goban := { g1 with chains := g1.chains.set k none }
  have hch2 : ∀ j, g2.ch j = if j = k then none else g1.ch j := fun j =>
    Goban.ch_set (by rw [hr.clen]; exact hkl)
  have hbd2 : ∀ i, g2.bd i = if g.bd i = some k then none else g.bd i := by
    intro i
    show g1.bd i = _
    rw [hr.bd]
    by_cases hi : i ∈ l
    · rw [if_pos hi, if_pos ((hc.mem i).2 hi)]
    · rw [if_neg hi, if_neg (fun h' => hi ((hc.mem i).1 h'))]
  have hbdj : ∀ i j, j ≠ k → (g2.bd i = some j ↔ g.bd i = some j) := by
    intro i j hj
    rw [hbd2]
    by_cases hi : g.bd i = some k
    · rw [if_pos hi, hi]
      constructor
      · intro h'; cases h'
      · intro h'; exact absurd (Option.some.inj h').symm hj
    · rw [if_neg hi]
  have hbdk : ∀ i, g2.bd i ≠ some k := by
    intro i
    rw [hbd2]
    by_cases hi : g.bd i = some k
    · rw [if_pos hi]; intro h'; cases h'
    · rw [if_neg hi]; exact hi
  have hchj : ∀ j gj, j ≠ k → g.ch j = some gj → ∃ l', g2.ch j = some { gj with liberties := l' } ∧ l'.length = 46 := by
    intro j gj hj hgj
    obtain ⟨l', h1, h2⟩ := hr.ch j gj hgj
    exact ⟨l', by rw [hch2, if_neg hj]; exact h1, h2⟩
  have hcol2 : ∀ i, g2.col i = if g.bd i = some k then none else g.col i := by
    intro i
    have hb := hbd2 i
    by_cases hi : g.bd i = some k
    · rw [if_pos hi] at hb ⊢; exact col_none hb
    · rw [if_neg hi] at hb ⊢
      cases hgi : g.bd i with
      | none => rw [col_none hgi, col_none (hb.trans hgi)]
      | some j =>
        obtain ⟨gj, hgj⟩ := h.rep.live i j hgi
        obtain ⟨l', h1, _⟩ := hchj j gj (fun h' => hi (h' ▸ hgi)) hgj
        rw [col_of_bd hgi hgj, col_of_bd (hb.trans hgi) h1]
  have hback : ∀ j gj, g2.ch j = some gj → j ≠ k ∧ ∃ g0, g.ch j = some g0 := by
    intro j gj hgj
    have hjk : j ≠ k := by rintro rfl; rw [hch2, if_pos rfl] at hgj; cases hgj
    refine ⟨hjk, ?_⟩
    cases hg0 : g.ch j with
    | none => rw [hch2, if_neg hjk, hr.chn j hg0] at hgj; cases hgj
    | some g0 => exact ⟨g0, rfl⟩
  have hsz : g2.size = g.size := hr.size
  refine ⟨g2, ?_, ⟨⟨?_, ?_, ?_, ?_, ?_⟩, ?_, by rw [hsz]; exact h.h0, by rw [hsz]; exact h.w0, by rw [hsz]; exact h.h19,
    by rw [hsz]; exact h.w19⟩, hsz, hbd2, by rw [hch2, if_pos rfl], ?_, ?_, ?_, hcol2⟩
  · unfold Goban.removeChain
    rw [Goban.chainAt_ok hk, ok_bind, Group.iterFold_of (hc.iter h.rep.nlen), e1, ok_bind]
    unfold Groups.remove
    rw [if_pos (by rw [hr.clen]; exact hkl), ok_bind]
  · exact hr.blen
  · show g1.nextStone.length = _
    rw [hr.nxt]; exact h.rep.nlen
  · intro j gj hgj
    obtain ⟨hjk, g0, hg0⟩ := hback j gj hgj
    obtain ⟨l', h1, h2⟩ := hchj j g0 hjk hg0
    rw [hgj] at h1; cases h1
    obtain ⟨lj, hcj⟩ := h.rep.chain j g0 hg0
    refine ⟨lj, hcj.nodup, ?_, hcj.head, hcj.last, hcj.num, hcj.min, h2, ?_⟩
    · show Walk g1.nextStone _ _
      rw [hr.nxt]; exact hcj.walk
    · intro i; rw [hbdj i j hjk]; exact hcj.mem i
  · intro i j hj
    have hjk : j ≠ k := fun h' => hbdk i (h' ▸ hj)
    obtain ⟨g0, hg0⟩ := h.rep.live i j ((hbdj i j hjk).1 hj)
    obtain ⟨l', h1, _⟩ := hchj j g0 hjk hg0
    exact ⟨_, h1⟩
  · show (g1.chains.set k none).length ≤ _
    rw [List.length_set, hr.clen]; exact h.rep.few
  · show g1.zobristHash = _
    rw [hr.hash]
    apply hashFn_congr
    intro i _
    rw [hcol2]
    by_cases hi : i ∈ l
    · rw [if_pos hi, if_pos ((hc.mem i).2 hi)]
    · rw [if_neg hi, if_neg (fun h' => hi ((hc.mem i).1 h'))]
  · intro j hj
    by_cases hjk : j = k
    · rw [hch2, if_pos hjk]
    · rw [hch2, if_neg hjk]; exact hr.chn j hj
  · intro j gj hj hgj
    obtain ⟨l', h1, _⟩ := hchj j gj hj hgj
    exact ⟨l', h1⟩
  · show (g1.chains.set k none).length = _
    rw [List.length_set, hr.clen]

theorem WRemSpec.cnt {g g' : Goban} {k : Nat} {grp : Group} (h : WRemSpec g g' k) (hI : Rep g) (hk : g.ch k = some grp) (c : Color) :
    cnt g.col c 361 = cnt g'.col c 361 + (if grp.color = c then grp.numStones else 0) := by
  unfold Model.cnt
  rw [countP_split (p := fun i => decide (g.col i = some c)) (q := fun i => decide (g'.col i = some c))
    (r := fun i => decide (g.bd i = some k) && decide (grp.color = c))]
  · congr 1
    by_cases hc : grp.color = c
    · rw [if_pos hc, hI.numStones hk]; simp [hc]
    · rw [if_neg hc]; simp [hc]
  · intro i _
    rw [h.col i]
    by_cases hi : g.bd i = some k
    · rw [if_pos hi, col_of_bd hi hk]; simp [hi]
    · rw [if_neg hi]; simp [hi]
  · intro i _
    rw [h.col i]
    by_cases hi : g.bd i = some k
    · rw [if_pos hi]; simp
    · rw [if_neg hi]; simp [hi]

/-! ### The capture loop -/

structure WCapt (g : Goban) (done : List Nat) (s : Goban.Captures) : Prop where
  weak : Weak s.goban
  size : s.goban.size = g.size
  bd : ∀ i, s.goban.bd i = if (∃ k ∈ done, g.bd i = some k) then none else g.bd i
  ch : ∀ j gj, j ∉ done → g.ch j = some gj → ∃ l', s.goban.ch j = some { gj with liberties := l' }
  cnt : ∀ c, cnt g.col c 361 = cnt s.goban.col c 361 + removedOf s.removed c
  clen : s.goban.chains.length = g.chains.length

theorem WCapt.remove {g g' : Goban} {done : List Nat} {s : Goban.Captures} {k : Nat} {gk gk' : Group} {ko : Option Coord}
    (h : WCapt g done s) (hk' : s.goban.ch k = some gk') (hr : WRemSpec s.goban g' k)
    (hc : gk'.color = gk.color) (hn : gk'.numStones = gk.numStones) :
    WCapt g (done ++ [k]) { removed := Goban.addRemoved s.removed gk.color gk.numStones, ko := ko, goban := g' } := by
  refine ⟨hr.weak, hr.size.trans h.size, ?_, ?_, ?_, hr.clen.trans h.clen⟩
  · intro i
    show g'.bd i = _
    rw [hr.bd]
    have hb := h.bd i
    by_cases hi : ∃ m ∈ done, g.bd i = some m
    · rw [if_pos hi] at hb
      rw [hb]
      obtain ⟨m, hm, hm'⟩ := hi
      rw [if_neg (by intro h'; cases h'), if_pos ⟨m, by simp [hm], hm'⟩]
    · rw [if_neg hi] at hb
      rw [hb]
      by_cases hik : g.bd i = some k
      · rw [if_pos hik, if_pos ⟨k, by simp, hik⟩]
      · rw [if_neg hik, if_neg]
        rintro ⟨m, hm, hm'⟩
        rcases List.mem_append.1 hm with hm | hm
        · exact hi ⟨m, hm, hm'⟩
        · rw [List.mem_singleton] at hm; subst hm; exact hik hm'
  · intro j gj hj hgj
    obtain ⟨l1, h1⟩ := h.ch j gj (fun h' => hj (by simp [h'])) hgj
    obtain ⟨l2, h3⟩ := hr.ch j _ (fun h' => hj (by simp [h'])) h1
    exact ⟨l2, h3⟩
  · intro c
    show _ = Model.cnt g'.col c 361 + _
    rw [h.cnt c, hr.cnt h.weak.rep hk' c, removedOf_add, hc, hn]
    omega

theorem captureStep_release {only1 : Bool} {g : Goban} {done : List Nat} {s : Goban.Captures} {k : Nat} {gk : Group}
    (h : WCapt g done s) (hk : g.ch k = some gk) (hnew : k ∉ done) :
    ∃ s', Goban.captureStep false only1 s k = .ok s' ∧ WCapt g (done ++ [k]) s' := by
  obtain ⟨l', hk'⟩ := h.ch k gk hnew hk
  obtain ⟨g', e, hr⟩ := remove_release h.weak hk'
  have ho : ∃ q, oneTo2dim s.goban.size gk.origin = .ok q := by
    unfold oneTo2dim
    rw [if_neg (by simp [h.weak.h0, h.weak.w0])]
    exact ⟨_, rfl⟩
  obtain ⟨q, hq⟩ := ho
  unfold Goban.captureStep
  rw [Goban.chainAt_ok hk', ok_bind]
  dsimp only
  rw [hq]
  split
  · rw [map_ok, ok_bind, e, ok_bind]
    exact ⟨_, rfl, h.remove (gk := gk) hk' hr rfl rfl⟩
  · rw [pure_bind', e, ok_bind]
    exact ⟨_, rfl, h.remove (gk := gk) hk' hr rfl rfl⟩

theorem capture_release {only1 : Bool} {g : Goban} : ∀ (todo done : List Nat) (s : Goban.Captures),
    WCapt g done s → (done ++ todo).Nodup → (∀ k ∈ todo, ∃ gk, g.ch k = some gk) →
    ∃ s', todo.foldlM (Goban.captureStep false only1) s = .ok s' ∧ WCapt g (done ++ todo) s' := by
  intro todo
  induction todo with
  | nil => intro done s h _ _; exact ⟨s, rfl, by simpa using h⟩
  | cons k todo ih =>
    intro done s h hnd hk
    obtain ⟨gk, hgk⟩ := hk k (by simp)
    have hnew : k ∉ done := by
      intro h'
      rw [List.nodup_append] at hnd
      exact hnd.2.2 k h' k (by simp) rfl
    obtain ⟨s1, e1, h1⟩ := captureStep_release (only1 := only1) h hgk hnew
    obtain ⟨s2, e2, h2⟩ := ih (done ++ [k]) s1 h1 (by simpa using hnd) (fun j hj => hk j (by simp [hj]))
    exact ⟨s2, by rw [List.foldlM_cons, e1, ok_bind, e2], by simpa using h2⟩

/-- `remove_captured_stones_aux` after a push. The removed groups `gone` are those of the opponent, or all of the own group. -/
structure WMove (g : Goban) (suicide : Bool) (p : Nat) (c : Color) (s : Goban.Captures) : Prop where
  weak : Weak s.goban
  size : s.goban.size = g.size
  clen : s.goban.chains.length ≤ g.chains.length + 1
  cnt : ∀ x, cnt g.col x 361 + (if x = c then 1 else 0) = cnt s.goban.col x 361 + removedOf s.removed x
  col : ∀ i, s.goban.col i = none ∨ s.goban.col i = if i = p then some c else g.col i
  own : suicide = false → s.goban.col p = some c ∧ ∀ i, g.col i = some c → s.goban.col i = some c
  sui : s.goban.col p = none → suicide = true
  keepOwn : s.goban.col p = some c → ∀ i, g.col i = some c → s.goban.col i = some c
  whole : ∀ i j k, g.bd i = some k → g.bd j = some k → (s.goban.bd i = s.goban.bd j)

theorem cnt_put {f f' : Nat → Option Color} {p : Nat} {c : Color} (hf : ∀ i, f' i = if i = p then some c else f i) (hp : p < 361)
    (hb : f p = none) (x : Color) : cnt f' x 361 = cnt f x 361 + (if x = c then 1 else 0) := by
  unfold cnt
  rw [countP_split (p := fun i => decide (f' i = some x)) (q := fun i => decide (f i = some x))
    (r := fun i => decide (i = p) && decide (x = c))]
  · congr 1
    by_cases hc : x = c
    · rw [if_pos hc]
      simp only [hc, decide_true, Bool.and_true]
      rw [← nodup_length_countP (l := [p]) (by simp) (by simpa using hp) (by simp)]
      rfl
    · rw [if_neg hc]; simp [hc]
  · intro i _
    rw [hf]
    by_cases hi : i = p
    · subst hi; rw [if_pos rfl, hb]; simp [eq_comm]
    · rw [if_neg hi]; simp [hi]
  · intro i _
    rintro ⟨h1, h2⟩
    simp only [decide_eq_true_eq, Bool.and_eq_true] at h1 h2
    rw [h2.1, hb] at h1; cases h1

theorem WCapt.col {g : Goban} {done : List Nat} {s : Goban.Captures} (h : WCapt g done s) (hr : Rep g) (i : Nat) :
    s.goban.col i = if (∃ k ∈ done, g.bd i = some k) then none else g.col i := by
  have hb := h.bd i
  by_cases hi : ∃ k ∈ done, g.bd i = some k
  · rw [if_pos hi] at hb ⊢; exact col_none hb
  · rw [if_neg hi] at hb ⊢
    cases hgi : g.bd i with
    | none => rw [col_none hgi, col_none (hb.trans hgi)]
    | some j =>
      obtain ⟨gj, hgj⟩ := hr.live i j hgi
      obtain ⟨l', h1⟩ := h.ch j gj (fun h' => hi ⟨j, h', hgi⟩) hgj
      rw [col_of_bd hgi hgj, col_of_bd (hb.trans hgi) h1]

theorem WCapt.same {g : Goban} {done : List Nat} {s : Goban.Captures} (h : WCapt g done s) {i j : Nat} (e : g.bd i = g.bd j) :
    s.goban.bd i = s.goban.bd j := by rw [h.bd, h.bd, e]

theorem captured_release {g : Goban} {p : Nat} {c : Color} {f : Goban.Feedback} {sui : Bool} (hf : WPush g p c f) (hp : p < 361)
    (hb : g.bd p = none) : ∃ s, f.goban.removeCapturedStonesAux false sui f.dead f.added = .ok s ∧ WMove g sui p c s := by
  obtain ⟨s, e, h⟩ := capture_release (only1 := f.dead.length == 1) f.dead [] { removed := (0, 0), ko := none, goban := f.goban }
    ⟨hf.weak, rfl, by simp, fun j gj _ hj => ⟨gj.liberties, hj⟩, fun x => by cases x <;> rfl, rfl⟩ (by simpa using hf.dnd)
    (fun k hk => let ⟨gk, h1, _⟩ := hf.dead k hk; ⟨gk, h1⟩)
  rw [List.nil_append] at h
  obtain ⟨gt, hgt, hct⟩ := hf.own
  have hnd : f.added ∉ f.dead := by
    intro h'
    obtain ⟨gk, h1, h2, _⟩ := hf.dead _ h'
    rw [hgt] at h1; cases h1
    rw [hct] at h2; exact Color.ne_opp c h2
  obtain ⟨l', ht'⟩ := h.ch _ gt hnd hgt
  have hown : ∀ i, f.goban.col i = some c → s.goban.col i = some c := by
    intro i hi
    rw [h.col hf.weak.rep, if_neg, hi]
    rintro ⟨k, hk, hk'⟩
    obtain ⟨gk, h1, h2, _⟩ := hf.dead k hk
    rw [col_of_bd hk' h1, h2] at hi
    exact Color.opp_ne c (Option.some.inj hi)
  have hcnt : ∀ x, cnt g.col x 361 + (if x = c then 1 else 0) = cnt f.goban.col x 361 :=
    fun x => (cnt_put hf.col hp (col_none hb) x).symm
  have hold : ∀ i, g.col i = some c → f.goban.col i = some c := by
    intro i hi
    rw [hf.col]
    split
    · rfl
    · exact hi
  unfold Goban.removeCapturedStonesAux
  dsimp only
  rw [e, ok_bind, Goban.chainAt_ok ht', ok_bind]
  by_cases hs : (sui && ({ gt with liberties := l' } : Group).isDead) = true
  · rw [if_pos hs]
    obtain ⟨g', e2, hr⟩ := remove_release h.weak ht'
    rw [e2, ok_bind]
    have hsui : sui = true := (Bool.and_eq_true _ _ ▸ hs).1
    have h2 : WCapt f.goban (f.dead ++ [f.added]) _ := h.remove (ko := none) (gk := gt) ht' hr rfl rfl
    have hpn : g'.col p = none := by
      have := h2.col hf.weak.rep p
      rw [if_pos ⟨f.added, by simp, hf.added⟩] at this
      exact this
    refine ⟨_, rfl, h2.weak, h2.size.trans hf.size, ?_, ?_, ?_, ?_, ?_, ?_, ?_⟩
    · rw [h2.clen]; exact hf.clen
    · intro x; rw [hcnt, h2.cnt x]
    · intro i
      show g'.col i = none ∨ g'.col i = _
      have := h2.col hf.weak.rep i
      rw [← hf.col]
      split at this
      · exact Or.inl this
      · exact Or.inr this
    · intro h'; rw [hsui] at h'; cases h'
    · intro _; exact hsui
    · intro h'
      exact absurd (hpn.symm.trans h') (by simp)
    · intro i j k hi hj
      exact h2.same (hf.keep i j k hi hj)
  · rw [if_neg hs]
    have hpc : s.goban.col p = some c := hown p (by rw [hf.col, if_pos rfl])
    refine ⟨s, rfl, h.weak, h.size.trans hf.size, ?_, ?_, ?_, ?_, ?_, ?_, ?_⟩
    · rw [h.clen]; exact hf.clen
    · intro x; rw [hcnt, h.cnt x]
    · intro i
      have := h.col hf.weak.rep i
      rw [← hf.col]
      split at this
      · exact Or.inl this
      · exact Or.inr this
    · intro _
      exact ⟨hpc, fun i hi => hown i (hold i hi)⟩
    · intro h'; rw [hpc] at h'; cases h'
    · intro _ i hi
      exact hown i (hold i hi)
    · intro i j k hi hj
      exact h.same (hf.keep i j k hi hj)

end Model
