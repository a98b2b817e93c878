import Verif.Proofs.Hidden
/-!
# Taking off a lone stone that was put on an occupied point

The board is not well formed any more at that time: the old group still lists the point among its stones.
-/

namespace Model
open Bits (has)
open Spec (OnBoard Adj)

variable {dbg : Bool} {n : Dim}

theorem slots_congr {cs cs' : Groups} (c : Color) (hl : cs'.length = cs.length)
    (h : ∀ j : Nat, slotCount c (cs'[j]?).join = slotCount c (cs[j]?).join) : (cs'.map (slotCount c)).sum = (cs.map (slotCount c)).sum := by
  congr 1
  apply List.ext_getElem
  · simpa using hl
  · intro j h1 h2
    have := h j
    rw [List.length_map] at h1 h2
    rw [List.getElem?_eq_getElem h1, List.getElem?_eq_getElem h2] at this
    simpa using this

/-- What is left after the lone stone is taken off again. -/
structure OffSpec (r r' : Goban) (p : Nat) (c : Color) : Prop where
  size : r'.size = r.size
  blen : r'.board.length = 361
  live : ∀ i j, r'.bd i = some j → ∃ gj, r'.ch j = some gj
  col : ∀ i, r'.col i = if i = p then none else r.col i
  slots : ∀ c', (r'.chains.map (slotCount c')).sum + (if c' = c then 1 else 0) = (r.chains.map (slotCount c')).sum

theorem remove_lone {g1 r : Goban} {p t : Nat} {c : Color} (hs : r.size = n.sz) (hn : n.Good) (hpN : Ix n p) (hp : p < 361)
    (hbl : r.board.length = 361) (hlive : ∀ i j, r.bd i = some j → ∃ gj, r.ch j = some gj) (hL : Lone g1 r p c [] t)
    (hno : ∀ j gj, g1.ch j = some gj → gj.liberties.length = 46 ∧ has p gj.liberties = false) :
    ∃ r', r.removeChain dbg t = .ok r' ∧ OffSpec r r' p c := by
  obtain ⟨lib, ht, _⟩ := hL.grp
  have hpu : u16 p = p := u16_lt (by omega)
  have hlt := Goban.ch_lt ht
  have hit : (Group.newWithLiberties c p lib).iter dbg r.nextStone = .ok [p] := by
    show Group.iterFrom dbg r.nextStone (u16 p) (r.nextStone.length + 1) (u16 p) = _
    rw [hpu]
    exact Walk.iterFrom [] p _ hL.next (by simp) (by simp) (by simp)
  have hs361 : ∀ x ∈ nbrs n p, x < 361 := fun x hx => (nbrs_lt hn hpN hx).lt361 hn
  obtain ⟨ks, ek, hknd, hks⟩ := connected_fold hbl (nbrs n p) [] [] hs361 (by simp) (by simp)
  rw [List.nil_append] at hks
  let ns := ks.filter (fun x => x != t)
  have hns : ∀ j ∈ ns, j ≠ t ∧ ∃ gj, r.ch j = some gj := by
    intro j hj
    have := List.mem_filter.1 hj
    obtain ⟨y, _, hy⟩ := (hks j).1 this.1
    exact ⟨by simpa using this.2, hlive y j hy⟩
  obtain ⟨g2, e2, hG⟩ := give_fold (dbg := dbg) (show p < 368 by omega) ns [] r
    ⟨rfl, rfl, rfl, rfl, rfl, fun _ _ => rfl, by simp⟩ (show ([] ++ ns).Nodup from List.Pairwise.filter _ hknd) (fun j hj => by
      obtain ⟨h3, gj, h4⟩ := hns j hj
      obtain ⟨h5, h6⟩ := hno j gj ((hL.other j h3).symm.trans h4)
      exact ⟨gj, h4, h5, h6⟩)
  rw [List.nil_append] at hG
  have hz := indexZobrist_ok (c := c) hp
  let r' : Goban := { g2 with zobristHash := g2.zobristHash ^^^ zkey p (some c), board := g2.board.set p none,
                              chains := g2.chains.set t none }
  have hbd : ∀ i, r'.bd i = if i = p then none else r.bd i := by
    intro i
    show ((g2.board.set p none)[i]?).join = _
    rw [Goban.bd_set (by rw [hG.brd, hbl]; exact hp), hG.brd]
    rfl
  have hch : ∀ j, r'.ch j = if j = t then none else g2.ch j := fun j => Goban.ch_set (by rw [hG.clen]; exact hlt)
  have hg2 : ∀ j gj, r.ch j = some gj → ∃ l', g2.ch j = some { gj with liberties := l' } := by
    intro j gj hgj
    by_cases hjn : j ∈ ns
    · obtain ⟨l', h3, _⟩ := hG.given j hjn gj hgj
      exact ⟨l', h3⟩
    · exact ⟨gj.liberties, (hG.other j hjn).trans hgj⟩
  have hnt : ∀ i j, i ≠ p → r.bd i = some j → j ≠ t := fun i j hi hj h' => hi ((hL.bd i).1 (h' ▸ hj))
  refine ⟨r', ?_, hG.size, ?_, ?_, ?_, ?_⟩
  · unfold Goban.removeChain
    rw [Goban.chainAt_ok ht, ok_bind, Group.iterFold_of hit, List.foldlM_cons]
    unfold Goban.removeStoneStep Goban.connectedGroupsIdx
    rw [neighborsIdx_ok hs hn hpN, ok_bind, ek, ok_bind]
    dsimp only
    rw [e2, ok_bind, show (Group.newWithLiberties c p lib).color = c from rfl, hz, ok_bind,
      Goban.setBoard_ok (by show p < g2.board.length; rw [hG.brd, hbl]; exact hp), ok_bind]
    rw [List.foldlM_nil, pure_bind']
    unfold Groups.remove
    dsimp only
    rw [if_pos (by rw [hG.clen]; exact hlt), ok_bind]
  · show (g2.board.set p none).length = _
    rw [List.length_set, hG.brd, hbl]
  · intro i j hj
    rw [hbd] at hj
    by_cases hi : i = p
    · rw [if_pos hi] at hj; cases hj
    · rw [if_neg hi] at hj
      obtain ⟨gj, hgj⟩ := hlive i j hj
      obtain ⟨l', h3⟩ := hg2 j gj hgj
      exact ⟨_, by rw [hch, if_neg (hnt i j hi hj)]; exact h3⟩
  · intro i
    by_cases hi : i = p
    · rw [if_pos hi]; exact col_none (by rw [hbd, if_pos hi])
    · rw [if_neg hi]
      cases hgi : r.bd i with
      | none => rw [col_none hgi, col_none (by rw [hbd, if_neg hi, hgi])]
      | some j =>
        obtain ⟨gj, hgj⟩ := hlive i j hgi
        obtain ⟨l', h3⟩ := hg2 j gj hgj
        rw [col_of_bd hgi hgj, col_of_bd (k := j) (by rw [hbd, if_neg hi]; exact hgi) (by rw [hch, if_neg (hnt i j hi hgi)]; exact h3)]
  · intro c'
    have h1 := slots_set c' none g2.chains t (by rw [hG.clen]; exact hlt)
    obtain ⟨l', h3⟩ := hg2 t _ ht
    rw [show (g2.chains[t]?).join = _ from h3] at h1
    have h2 : (g2.chains.map (slotCount c')).sum = (r.chains.map (slotCount c')).sum := by
      refine slots_congr c' hG.clen (fun j => ?_)
      show slotCount c' (g2.ch j) = slotCount c' (r.ch j)
      cases hj : r.ch j with
      | some gj => obtain ⟨l', h3⟩ := hg2 j gj hj; rw [h3]; rfl
      | none =>
        by_cases hjn : j ∈ ns
        · obtain ⟨_, gj, h4⟩ := hns j hjn
          rw [hj] at h4; cases h4
        · rw [hG.other j hjn, hj]
    show ((g2.chains.set t none).map _).sum + _ = _
    simp only [slotCount, Group.newWithLiberties] at h1
    rcases eq_or_ne c c' with rfl | hcc
    · simp at h1 ⊢; omega
    · simp [hcc, hcc.symm] at h1 ⊢; omega

end Model
