import Verif.Proofs.Lazy
import Verif.Proofs.Inv
/-!
# `remove_chain` and the capture loop
-/

namespace Model
open Bits (has)

/-- `get_connected_groups_idx`: the distinct groups of the neighbouring stones. -/
theorem connectedGroupsIdx_of {dbg : Bool} {g : Goban} {i : Nat} {l : List Nat} (e : g.neighborsIdx dbg i = .ok l)
    (hb : g.board.length = 361) (hnb : ∀ x ∈ l, x < 361) :
    ∃ ks, g.connectedGroupsIdx dbg i = .ok ks ∧ ks.Nodup ∧ ∀ k, k ∈ ks ↔ ∃ j ∈ l, g.bd j = some k := by
  unfold Goban.connectedGroupsIdx
  rw [e, ok_bind]
  have key : ∀ (l d acc : List Nat), (∀ x ∈ l, x < 361) → acc.Nodup →
      (∀ k, k ∈ acc ↔ ∃ j ∈ d, g.bd j = some k) →
      ∃ ks, l.foldlM g.connectedStep acc = .ok ks ∧ ks.Nodup ∧ ∀ k, k ∈ ks ↔ ∃ j ∈ d ++ l, g.bd j = some k := by
    intro l
    induction l with
    | nil => intro d acc _ h1 h2; exact ⟨acc, rfl, h1, by simpa using h2⟩
    | cons x l ih =>
      intro d acc hl h1 h2
      rw [List.foldlM_cons, Goban.connectedStep, Goban.boardAt_ok (by rw [hb]; exact hl x (by simp)), ok_bind]
      have step : ∀ acc' : List Nat, acc'.Nodup → (∀ k, k ∈ acc' ↔ ∃ j ∈ d ++ [x], g.bd j = some k) → _ :=
        fun acc' a b => ih (d ++ [x]) acc' (fun y hy => hl y (List.mem_cons_of_mem _ hy)) a b
      simp only [List.append_assoc, List.singleton_append] at step
      cases hx : g.bd x with
      | none =>
        simp only [ok_bind]
        apply step acc h1
        intro k
        rw [h2]
        constructor
        · rintro ⟨j, hj, h'⟩; exact ⟨j, by simp [hj], h'⟩
        · rintro ⟨j, hj, h'⟩
          rcases List.mem_append.1 hj with hj | hj
          · exact ⟨j, hj, h'⟩
          · rw [List.mem_singleton] at hj; subst hj; rw [hx] at h'; cases h'
      | some m =>
        simp only [ok_bind]
        by_cases hm : m ∈ acc
        · rw [if_pos (by simpa using hm)]
          apply step acc h1
          intro k
          rw [h2]
          constructor
          · rintro ⟨j, hj, h'⟩; exact ⟨j, by simp [hj], h'⟩
          · rintro ⟨j, hj, h'⟩
            rcases List.mem_append.1 hj with hj | hj
            · exact ⟨j, hj, h'⟩
            · rw [List.mem_singleton] at hj; subst hj
              rw [hx] at h'; cases h'
              exact (h2 _).1 hm
        · rw [if_neg (by simpa using hm)]
          apply step
          · rw [List.nodup_append]
            exact ⟨h1, by simp, by intro a ha b hb' hab; rw [List.mem_singleton] at hb'; exact hm (hb' ▸ hab ▸ ha)⟩
          · intro k
            rw [List.mem_append, List.mem_singleton, h2]
            constructor
            · rintro (⟨j, hj, h'⟩ | rfl)
              · exact ⟨j, by simp [hj], h'⟩
              · exact ⟨x, by simp, hx⟩
            · rintro ⟨j, hj, h'⟩
              rcases List.mem_append.1 hj with hj | hj
              · exact Or.inl ⟨j, hj, h'⟩
              · rw [List.mem_singleton] at hj; subst hj
                rw [hx] at h'; cases h'; exact Or.inr rfl
  have := key l [] [] hnb (by simp) (by simp)
  simpa using this

theorem connectedGroupsIdx_ok {dbg : Bool} {n : Dim} {g : Goban} {i : Nat} (hs : g.size = n.sz) (hn : n.Good)
    (hb : g.board.length = 361) (hi : Ix n i) :
    ∃ ks, g.connectedGroupsIdx dbg i = .ok ks ∧ ks.Nodup ∧ ∀ k, k ∈ ks ↔ ∃ j ∈ nbrs n i, g.bd j = some k :=
  connectedGroupsIdx_of (neighborsIdx_ok hs hn hi) hb (fun _ hx => (nbrs_lt hn hi hx).lt361 hn)

/-- Adding the freed point `i` as a liberty to the groups `todo`. -/
structure Gave (g g' : Goban) (i : Nat) (done : List Nat) : Prop where
  brd : g'.board = g.board
  nxt : g'.nextStone = g.nextStone
  size : g'.size = g.size
  hash : g'.zobristHash = g.zobristHash
  clen : g'.chains.length = g.chains.length
  other : ∀ j, j ∉ done → g'.ch j = g.ch j
  given : ∀ j ∈ done, ∀ gj, g.ch j = some gj → ∃ l', g'.ch j = some { gj with liberties := l' } ∧ l'.length = 46 ∧
    ∀ x, has x l' = true ↔ has x gj.liberties = true ∨ x = i

theorem give_fold {dbg : Bool} {g : Goban} {i : Nat} (hi : i < 368) : ∀ (todo done : List Nat) (g' : Goban),
    Gave g g' i done → (done ++ todo).Nodup →
    (∀ k ∈ todo, ∃ gk, g.ch k = some gk ∧ gk.liberties.length = 46 ∧ has i gk.liberties = false) →
    ∃ g'', todo.foldlM (fun (g : Goban) n => do
      let ch ← g.chains.chainAt n
      let ch ← ch.addLiberty dbg i
      .ok (g.setChain n ch)) g' = (.ok g'' : M Goban) ∧ Gave g g'' i (done ++ todo) := by
  intro todo
  induction todo with
  | nil => intro done g' h _ _; exact ⟨g', rfl, by simpa using h⟩
  | cons k todo ih =>
    intro done g' h hnd hk
    obtain ⟨gk, h1, h2, h3⟩ := hk k (by simp)
    have hnew : k ∉ done := by
      intro h'
      rw [List.nodup_append] at hnd
      exact hnd.2.2 k h' k (by simp) rfl
    have hk' : g'.ch k = some gk := (h.other k hnew).trans h1
    obtain ⟨l1, e1, hl1, hh1⟩ := addLiberty_ok (dbg := dbg) h2 hi (fun _ => h3)
    have hlt := Goban.ch_lt hk'
    have hG : Gave g (g'.setChain k { gk with liberties := l1 }) i (done ++ [k]) := by
      refine ⟨h.brd, h.nxt, h.size, h.hash, ?_, ?_, ?_⟩
      · show (g'.chains.set _ _).length = _
        rw [List.length_set, h.clen]
      · intro j hj
        rw [Goban.ch_setChain hlt, if_neg (fun h' => hj (by simp [h']))]
        exact h.other j (fun h' => hj (by simp [h']))
      · intro j hj gj hgj
        by_cases hjk : j = k
        · subst hjk
          rw [h1] at hgj; cases hgj
          refine ⟨l1, by rw [Goban.ch_setChain hlt, if_pos rfl], hl1, ?_⟩
          intro x; rw [hh1]
          by_cases hx : x = i <;> simp [hx]
        · have hjd : j ∈ done := by
            rcases List.mem_append.1 hj with h' | h'
            · exact h'
            · rw [List.mem_singleton] at h'; exact absurd h' hjk
          rw [Goban.ch_setChain hlt, if_neg hjk]
          exact h.given j hjd gj hgj
    obtain ⟨g2, e2, t2⟩ := ih (done ++ [k]) _ hG (by simpa using hnd) (fun k hk' => hk k (by simp [hk']))
    refine ⟨g2, ?_, by simpa using t2⟩
    rw [List.foldlM_cons, Goban.chainAt_ok hk', ok_bind, e1, ok_bind, ok_bind, e2]

/-- State of `remove_chain` on group `k` after the stones `d` have been processed. -/
structure Rem (n : Dim) (g g' : Goban) (k : Nat) (d : List Nat) : Prop where
  blen : g'.board.length = 361
  nxt : g'.nextStone = g.nextStone
  size : g'.size = g.size
  clen : g'.chains.length = g.chains.length
  bd : ∀ i, g'.bd i = if i ∈ d then none else g.bd i
  chn : ∀ j, g.ch j = none → g'.ch j = none
  ch : ∀ j gj, g.ch j = some gj → ∃ l', g'.ch j = some { gj with liberties := l' } ∧ l'.length = 46 ∧
    ∀ x, has x l' = true ↔ has x gj.liberties = true ∨ (j ≠ k ∧ x ∈ d ∧ ∃ y ∈ nbrs n x, g.bd y = some j)
  hash : g'.zobristHash = hashFn (fun i => if i ∈ d then none else g.col i) 361

theorem removeStone_ok {dbg : Bool} {n : Dim} {g g' : Goban} {k : Nat} {gk : Group} {d : List Nat} {i : Nat} (h : Inv n g)
    (hk : g.ch k = some gk) (hr : Rem n g g' k d) (hd : ∀ x ∈ d, g.bd x = some k) (hi : g.bd i = some k) (hid : i ∉ d) :
    ∃ g'', Goban.removeStoneStep dbg k gk.color g' i = .ok g'' ∧ Rem n g g'' k (d ++ [i]) := by
  have hiN := h.off i k hi
  have hi361 := h.lt361 hiN
  obtain ⟨ks, e1, hnd, hks⟩ := connectedGroupsIdx_ok (dbg := dbg) (g := g') (hr.size.trans h.size) h.good hr.blen hiN
  have hother : ∀ y j, j ≠ k → (g'.bd y = some j ↔ g.bd y = some j) := by
    intro y j hj
    rw [hr.bd]
    by_cases hy : y ∈ d
    · rw [if_pos hy, hd y hy]
      constructor
      · intro h'; cases h'
      · intro h'; exact absurd (Option.some.inj h').symm hj
    · rw [if_neg hy]
  let ns := ks.filter (fun x => x != k)
  have hns : ∀ j, j ∈ ns ↔ j ≠ k ∧ ∃ y ∈ nbrs n i, g.bd y = some j := by
    intro j
    show j ∈ ks.filter _ ↔ _
    rw [List.mem_filter, hks]
    simp only [bne_iff_ne, ne_eq]
    constructor
    · rintro ⟨⟨y, hy, h1⟩, h2⟩; exact ⟨h2, y, hy, (hother y j h2).1 h1⟩
    · rintro ⟨h2, y, hy, h1⟩; exact ⟨⟨y, hy, (hother y j h2).2 h1⟩, h2⟩
  have hnsnd : ns.Nodup := List.Pairwise.filter _ hnd
  have hlive : ∀ j ∈ ns, ∃ gj, g'.ch j = some gj ∧ gj.liberties.length = 46 ∧ has i gj.liberties = false := by
    intro j hj
    obtain ⟨hjk, y, _, hy⟩ := (hns j).1 hj
    obtain ⟨gj, hgj⟩ := h.rep.live y j hy
    obtain ⟨l', h1, h2, h3⟩ := hr.ch j gj hgj
    refine ⟨_, h1, h2, ?_⟩
    rw [← Bool.not_eq_true]
    intro h4
    rcases (h3 i).1 h4 with h5 | ⟨_, h5, _⟩
    · have := ((h.libs j gj hgj i).1 h5).2.1
      rw [hi] at this; cases this
    · exact hid h5
  obtain ⟨g1, e2, hG⟩ := give_fold (dbg := dbg) (show i < 368 by omega) ns [] g'
    ⟨rfl, rfl, rfl, rfl, rfl, fun _ _ => rfl, by simp⟩ (by simpa using hnsnd) hlive
  rw [List.nil_append] at hG
  have hz := indexZobrist_ok (c := gk.color) hi361
  refine ⟨{ g1 with zobristHash := g1.zobristHash ^^^ zkey i (some gk.color), board := g1.board.set i none }, ?_, ?_⟩
  · unfold Goban.removeStoneStep
    rw [e1, ok_bind]
    dsimp only
    rw [e2, ok_bind, hz, ok_bind]
    exact Goban.setBoard_ok (by show i < g1.board.length; rw [hG.brd, hr.blen]; exact hi361)
  · refine ⟨?_, hG.nxt.trans hr.nxt, hG.size.trans hr.size, hG.clen.trans hr.clen, ?_, ?_, ?_, ?_⟩
    · show (g1.board.set i none).length = _
      rw [List.length_set, hG.brd, hr.blen]
    · intro x
      show ((g1.board.set i none)[x]?).join = _
      rw [Goban.bd_set (by rw [hG.brd, hr.blen]; exact hi361)]
      by_cases hx : x = i
      · simp [hx]
      · rw [if_neg hx, hG.brd]
        show g'.bd x = _
        rw [hr.bd]
        simp [hx]
    · intro j hj
      show g1.ch j = none
      rw [hG.other j]
      · exact hr.chn j hj
      · intro h'
        obtain ⟨gj, h1, _⟩ := hlive j h'
        rw [hr.chn j hj] at h1; cases h1
    · intro j gj hgj
      show ∃ l', g1.ch j = _ ∧ _
      obtain ⟨l1, h1, h2, h3⟩ := hr.ch j gj hgj
      by_cases hjn : j ∈ ns
      · obtain ⟨l2, h4, h5, h6⟩ := hG.given j hjn _ h1
        refine ⟨l2, h4, h5, ?_⟩
        intro x
        rw [h6, h3, List.mem_append, List.mem_singleton]
        obtain ⟨hjk, hyy⟩ := (hns j).1 hjn
        constructor
        · rintro ((h' | ⟨a, b, c⟩) | rfl)
          · exact Or.inl h'
          · exact Or.inr ⟨a, Or.inl b, c⟩
          · exact Or.inr ⟨hjk, Or.inr rfl, hyy⟩
        · rintro (h' | ⟨a, b | b, c⟩)
          · exact Or.inl (Or.inl h')
          · exact Or.inl (Or.inr ⟨a, b, c⟩)
          · exact Or.inr b
      · refine ⟨l1, by rw [hG.other j hjn]; exact h1, h2, ?_⟩
        intro x
        rw [h3, List.mem_append, List.mem_singleton]
        constructor
        · rintro (h' | ⟨a, b, c⟩)
          · exact Or.inl h'
          · exact Or.inr ⟨a, Or.inl b, c⟩
        · rintro (h' | ⟨a, b | rfl, c⟩)
          · exact Or.inl h'
          · exact Or.inr ⟨a, b, c⟩
          · exact absurd ((hns j).2 ⟨a, c⟩) hjn
    · show g1.zobristHash ^^^ _ = _
      rw [hG.hash, hr.hash]
      rw [hashFn_update (f := fun x => if x ∈ d then none else g.col x)
        (f' := fun x => if x ∈ d ++ [i] then none else g.col x) (p := i) (by
          intro x hx
          simp [hx]) hi361]
      simp only [if_neg hid, List.mem_append, List.mem_singleton, or_true, if_true]
      rw [col_of_bd hi hk]
      show _ = _ ^^^ (_ ^^^ 0#64)
      rw [BitVec.xor_zero]

theorem removeStones_ok {dbg : Bool} {n : Dim} {g : Goban} {k : Nat} {gk : Group} (h : Inv n g) (hk : g.ch k = some gk) :
    ∀ (todo d : List Nat) (g' : Goban), Rem n g g' k d → (d ++ todo).Nodup → (∀ x ∈ d ++ todo, g.bd x = some k) →
      ∃ g'', todo.foldlM (Goban.removeStoneStep dbg k gk.color) g' = .ok g'' ∧ Rem n g g'' k (d ++ todo) := by
  intro todo
  induction todo with
  | nil => intro d g' hr _ _; exact ⟨g', rfl, by simpa using hr⟩
  | cons i todo ih =>
    intro d g' hr hnd hx
    have hid : i ∉ d := by
      intro h'
      rw [List.nodup_append] at hnd
      exact hnd.2.2 i h' i (by simp) rfl
    obtain ⟨g1, e1, h1⟩ := removeStone_ok (dbg := dbg) h hk hr (fun x hx' => hx x (by simp [hx'])) (hx i (by simp)) hid
    obtain ⟨g2, e2, h2⟩ := ih (d ++ [i]) g1 h1 (by simpa using hnd) (by simpa using hx)
    exact ⟨g2, by rw [List.foldlM_cons, e1, ok_bind, e2], by simpa using h2⟩

/-- Effect of `remove_chain`. -/
structure RemSpec (n : Dim) (g g' : Goban) (k : Nat) : Prop where
  inv : Inv n g'
  bd : ∀ i, g'.bd i = if g.bd i = some k then none else g.bd i
  chk : g'.ch k = none
  chn : ∀ j, g.ch j = none → g'.ch j = none
  ch : ∀ j gj, j ≠ k → g.ch j = some gj → ∃ l', g'.ch j = some { gj with liberties := l' } ∧
    ∀ x, has x l' = true ↔ has x gj.liberties = true ∨ (g.bd x = some k ∧ ∃ y ∈ nbrs n x, g.bd y = some j)
  clen : g'.chains.length = g.chains.length
  nxt : g'.nextStone = g.nextStone

theorem RemSpec.col {n g g' k} (h : RemSpec n g g' k) (hI : Inv n g) (i : Nat) :
    g'.col i = if g.bd i = some k then none else g.col i := by
  have hb := h.bd i
  by_cases hi : g.bd i = some k
  · rw [if_pos hi] at hb ⊢; exact col_none hb
  · rw [if_neg hi] at hb ⊢
    cases hgi : g.bd i with
    | none => rw [col_none hgi, col_none (hb.trans hgi)]
    | some j =>
      obtain ⟨gj, hgj⟩ := hI.rep.live i j hgi
      obtain ⟨l', h1, _⟩ := h.ch j gj (fun h' => hi (h' ▸ hgi)) hgj
      rw [col_of_bd hgi hgj, col_of_bd (hb.trans hgi) h1]

theorem remove_spec {dbg : Bool} {n : Dim} {g : Goban} {k : Nat} {gk : Group} (h : Inv n g) (hk : g.ch k = some gk) :
    ∃ g', g.removeChain dbg k = .ok g' ∧ RemSpec n g g' k := by
  obtain ⟨l, hc⟩ := h.rep.chain k gk hk
  have hkl := Goban.ch_lt hk
  have hr0 : Rem n g g k [] := by
    refine ⟨h.rep.blen, rfl, rfl, rfl, by simp, fun _ h' => h', ?_, ?_⟩
    · intro j gj hgj
      obtain ⟨lj, hcj⟩ := h.rep.chain j gj hgj
      exact ⟨gj.liberties, hgj, hcj.libs, by simp⟩
    · rw [h.hash]; simp
  obtain ⟨g1, e1, hr⟩ := removeStones_ok (dbg := dbg) h hk l [] g hr0 (by simpa using hc.nodup)
    (by intro x hx; exact (hc.mem x).2 (by simpa using hx))
  rw [List.nil_append] at hr
  let g2 : Goban := { g1 with chains := g1.chains.set k none }
  have hch2 : ∀ j, g2.ch j = if j = k then none else g1.ch j := fun j =>
    Goban.ch_set (by rw [hr.clen]; exact hkl)
  have hbd2 : ∀ i, g2.bd i = if g.bd i = some k then none else g.bd i := by
    intro i
    show g1.bd i = _
    rw [hr.bd]
    by_cases hi : i ∈ l
    · rw [if_pos hi, if_pos ((hc.mem i).2 hi)]
    · rw [if_neg hi, if_neg (fun h' => hi ((hc.mem i).1 h'))]
  have hbdj : ∀ i j, j ≠ k → (g2.bd i = some j ↔ g.bd i = some j) := by
    intro i j hj
    rw [hbd2]
    by_cases hi : g.bd i = some k
    · rw [if_pos hi, hi]
      constructor
      · intro h'; cases h'
      · intro h'; exact absurd (Option.some.inj h').symm hj
    · rw [if_neg hi]
  have hbdk : ∀ i, g2.bd i ≠ some k := by
    intro i
    rw [hbd2]
    by_cases hi : g.bd i = some k
    · rw [if_pos hi]; intro h'; cases h'
    · rw [if_neg hi]; exact hi
  have hchj : ∀ j gj, j ≠ k → g.ch j = some gj → ∃ l', g2.ch j = some { gj with liberties := l' } ∧ l'.length = 46 ∧
      ∀ x, has x l' = true ↔ has x gj.liberties = true ∨ (g.bd x = some k ∧ ∃ y ∈ nbrs n x, g.bd y = some j) := by
    intro j gj hj hgj
    obtain ⟨l', h1, h2, h3⟩ := hr.ch j gj hgj
    refine ⟨l', by rw [hch2, if_neg hj]; exact h1, h2, ?_⟩
    intro x
    rw [h3, ← hc.mem]
    simp [hj]
  have hcol2 : ∀ i, g2.col i = if g.bd i = some k then none else g.col i := by
    intro i
    have hb := hbd2 i
    by_cases hi : g.bd i = some k
    · rw [if_pos hi] at hb ⊢; exact col_none hb
    · rw [if_neg hi] at hb ⊢
      cases hgi : g.bd i with
      | none => rw [col_none hgi, col_none (hb.trans hgi)]
      | some j =>
        obtain ⟨gj, hgj⟩ := h.rep.live i j hgi
        obtain ⟨l', h1, _⟩ := hchj j gj (fun h' => hi (h' ▸ hgi)) hgj
        rw [col_of_bd hgi hgj, col_of_bd (hb.trans hgi) h1]
  have hback : ∀ j gj, g2.ch j = some gj → j ≠ k ∧ ∃ g0, g.ch j = some g0 := by
    intro j gj hgj
    have hjk : j ≠ k := by rintro rfl; rw [hch2, if_pos rfl] at hgj; cases hgj
    refine ⟨hjk, ?_⟩
    cases hg0 : g.ch j with
    | none => rw [hch2, if_neg hjk, hr.chn j hg0] at hgj; cases hgj
    | some g0 => exact ⟨g0, rfl⟩
  refine ⟨g2, ?_, ⟨⟨?_, ?_, ?_, ?_, ?_⟩, hr.size.trans h.size, h.good, ?_, ?_, ?_, ?_, ?_⟩, hbd2, by rw [hch2, if_pos rfl], ?_, ?_, ?_, hr.nxt⟩
  · unfold Goban.removeChain
    rw [Goban.chainAt_ok hk, ok_bind, Group.iterFold_of (hc.iter h.rep.nlen), e1, ok_bind]
    unfold Groups.remove
    rw [if_pos (by rw [hr.clen]; exact hkl), ok_bind]
  · exact hr.blen
  · show g1.nextStone.length = _
    rw [hr.nxt]; exact h.rep.nlen
  · intro j gj hgj
    obtain ⟨hjk, g0, hg0⟩ := hback j gj hgj
    obtain ⟨l', h1, h2, _⟩ := hchj j g0 hjk hg0
    rw [hgj] at h1; cases h1
    obtain ⟨lj, hcj⟩ := h.rep.chain j g0 hg0
    refine ⟨lj, hcj.nodup, ?_, hcj.head, hcj.last, hcj.num, hcj.min, h2, ?_⟩
    · show Walk g1.nextStone _ _
      rw [hr.nxt]; exact hcj.walk
    · intro i; rw [hbdj i j hjk]; exact hcj.mem i
  · intro i j hj
    have hjk : j ≠ k := fun h' => hbdk i (h' ▸ hj)
    obtain ⟨g0, hg0⟩ := h.rep.live i j ((hbdj i j hjk).1 hj)
    obtain ⟨l', h1, _⟩ := hchj j g0 hjk hg0
    exact ⟨_, h1⟩
  · show (g1.chains.set k none).length ≤ _
    rw [List.length_set, hr.clen]; exact h.rep.few
  · intro i j hj
    exact h.off i j ((hbdj i j (fun h' => hbdk i (h' ▸ hj))).1 hj)
  · intro i j m hj him hcji
    have hmk : m ≠ k := fun h' => hbdk i (h' ▸ him)
    have him' := (hbdj i m hmk).1 him
    rw [hbdj j m hmk]
    obtain ⟨g0, hg0⟩ := h.rep.live i m him'
    rw [hcol2, hcol2, if_neg (show ¬ g.bd i = some k by rw [him']; intro h'; exact hmk (Option.some.inj h'))] at hcji
    have hci := col_of_bd him' hg0
    by_cases hjk : g.bd j = some k
    · rw [if_pos hjk, hci] at hcji; cases hcji
    · rw [if_neg hjk] at hcji
      exact h.closed i j m hj him' hcji
  · intro m i j hi hj
    have hmk : m ≠ k := fun h' => hbdk i (h' ▸ hi)
    exact (h.conn m i j ((hbdj i m hmk).1 hi) ((hbdj j m hmk).1 hj)).mono (fun x hx => (hbdj x m hmk).2 hx)
  · intro j gj hgj x
    obtain ⟨hjk, g0, hg0⟩ := hback j gj hgj
    obtain ⟨l', h1, _, h3⟩ := hchj j g0 hjk hg0
    rw [hgj] at h1; cases h1
    show has x l' = true ↔ _
    rw [h3, h.libs j g0 hg0 x]
    have hex : (∃ y ∈ nbrs n x, g2.bd y = some j) ↔ ∃ y ∈ nbrs n x, g.bd y = some j := by
      constructor
      · rintro ⟨y, a, b⟩; exact ⟨y, a, (hbdj y j hjk).1 b⟩
      · rintro ⟨y, a, b⟩; exact ⟨y, a, (hbdj y j hjk).2 b⟩
    rw [hex, hbd2]
    by_cases hx : g.bd x = some k
    · rw [if_pos hx, hx]
      have hxN := h.off x k hx
      simp [hxN]
    · rw [if_neg hx]
      simp [hx]
  · show g1.zobristHash = _
    rw [hr.hash]
    apply hashFn_congr
    intro i _
    rw [hcol2]
    by_cases hi : i ∈ l
    · rw [if_pos hi, if_pos ((hc.mem i).2 hi)]
    · rw [if_neg hi, if_neg (fun h' => hi ((hc.mem i).1 h'))]
  · intro j hj
    rw [hch2]
    split
    · rfl
    · exact hr.chn j hj
  · intro j gj hjk hgj
    obtain ⟨l', h1, _, h3⟩ := hchj j gj hjk hgj
    exact ⟨l', h1, h3⟩
  · show (g1.chains.set k none).length = _
    rw [List.length_set, hr.clen]

end Model
