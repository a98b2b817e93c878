import Verif.Proofs.Stones
/-!
# Pushing on an occupied point

What `push_wth_feedback` does when the point already holds a stone. The old stone's group keeps its slot, so the group table
afterwards counts one stone more than the board shows.
-/

namespace Model
open Bits (has)
open Spec (OnBoard Adj)

/-! ### A board with one group more -/

/-- `y` is `x` with the group `grp` put in the free slot `k` and shown at those cells of `f` that are empty in `x`. -/
structure Gr (k : Nat) (grp : Group) (f : Nat → Option Nat) (x y : Goban) : Prop where
  next : y.nextStone = x.nextStone
  size : y.size = x.size
  hash : y.zobristHash = x.zobristHash
  blen : y.board.length = x.board.length
  chains : y.chains = x.chains.set k (some grp)
  klt : k < x.chains.length
  free : x.ch k = none
  bd : ∀ i, y.bd i = (x.bd i).or (f i)

variable {k : Nat} {grp : Group} {f : Nat → Option Nat} {x y r : Goban} {dbg : Bool}

theorem chainAt_ok_iff {cs : Groups} {j : Nat} {g : Group} : cs.chainAt j = .ok g ↔ cs[j]? = some (some g) := by
  unfold Groups.chainAt
  split <;> simp_all [panic]

theorem Gr.ne (h : Gr k grp f x y) {j : Nat} {g : Group} (hj : x.chains.chainAt j = .ok g) : j ≠ k := by
  rintro rfl
  have := chainAt_ok_iff.1 hj
  have h2 := h.free
  unfold Goban.ch at h2
  rw [this] at h2
  cases h2

theorem Gr.chainAt (h : Gr k grp f x y) {j : Nat} {g : Group} (hj : x.chains.chainAt j = .ok g) :
    y.chains.chainAt j = .ok g := by
  have hne := h.ne hj
  rw [chainAt_ok_iff] at hj ⊢
  rw [h.chains, List.getElem?_set_ne (Ne.symm hne)]; exact hj

theorem Gr.setChain (h : Gr k grp f x y) {j : Nat} (hj : j ≠ k) (g : Group) :
    Gr k grp f (x.setChain j g) (y.setChain j g) := by
  refine ⟨h.next, h.size, h.hash, h.blen, ?_, ?_, ?_, h.bd⟩
  · show y.chains.set j _ = (x.chains.set j _).set k _
    rw [h.chains, List.set_comm _ _ (Ne.symm hj)]
  · show k < (x.chains.set j _).length
    rw [List.length_set]; exact h.klt
  · show ((x.chains.set j _)[k]?).join = none
    rw [List.getElem?_set_ne hj]; exact h.free

theorem Gr.remove (h : Gr k grp f x y) {j : Nat} (hj : j ≠ k) {cs : Groups} (e : x.chains.remove j = .ok cs) :
    ∃ cs', y.chains.remove j = .ok cs' ∧ Gr k grp f { x with chains := cs } { y with chains := cs' } := by
  unfold Groups.remove at e ⊢
  split at e
  · rename_i hlt
    cases e
    refine ⟨_, if_pos (by rw [h.chains, List.length_set]; exact hlt), h.next, h.size, h.hash, h.blen, ?_, ?_, ?_, h.bd⟩
    · show y.chains.set j _ = (x.chains.set j _).set k _
      rw [h.chains, List.set_comm _ _ (Ne.symm hj)]
    · show k < (x.chains.set j _).length
      rw [List.length_set]; exact h.klt
    · show ((x.chains.set j _)[k]?).join = none
      rw [List.getElem?_set_ne hj]; exact h.free
  · cases e

theorem Gr.setNext (h : Gr k grp f x y) {i v : Nat} (e : x.setNext i v = .ok r) :
    ∃ r', y.setNext i v = .ok r' ∧ Gr k grp f r r' := by
  unfold Goban.setNext at e ⊢
  split at e
  · rename_i hlt
    cases e
    exact ⟨_, if_pos (by rw [h.next]; exact hlt), by show y.nextStone.set _ _ = _; rw [h.next], h.size, h.hash, h.blen,
      h.chains, h.klt, h.free, h.bd⟩
  · cases e

theorem Gr.swapNext (h : Gr k grp f x y) {a b : Nat} (e : x.swapNext a b = .ok r) :
    ∃ r', y.swapNext a b = .ok r' ∧ Gr k grp f r r' := by
  unfold Goban.swapNext at e ⊢
  rw [h.next]
  split at e
  · cases e
    exact ⟨_, rfl, rfl, h.size, h.hash, h.blen, h.chains, h.klt, h.free, h.bd⟩
  · cases e

theorem Gr.setBoard (h : Gr k grp f x y) {i v : Nat} (e : x.setBoard i (some v) = .ok r) :
    ∃ r', y.setBoard i (some v) = .ok r' ∧ Gr k grp f r r' := by
  unfold Goban.setBoard at e ⊢
  split at e
  · rename_i hlt
    cases e
    have hlt' : i < y.board.length := by rw [h.blen]; exact hlt
    refine ⟨_, if_pos hlt', h.next, h.size, h.hash, ?_, h.chains, h.klt, h.free, ?_⟩
    · show (y.board.set _ _).length = (x.board.set _ _).length
      rw [List.length_set, List.length_set, h.blen]
    · intro j
      show ((y.board.set _ _)[j]?).join = (((x.board.set _ _)[j]?).join).or _
      rw [Goban.bd_set hlt, Goban.bd_set hlt']
      by_cases hj : j = i
      · simp [hj]
      · rw [if_neg hj, if_neg hj]; exact h.bd j
  · cases e

theorem Gr.foldBoard {v : Nat} : ∀ {pts : List Nat} {x y r : Goban}, Gr k grp f x y →
    pts.foldlM (fun g point => if u16 v = 65535 then panic else g.setBoard point (some (u16 v))) x = .ok r →
    ∃ r', pts.foldlM (fun g point => if u16 v = 65535 then panic else g.setBoard point (some (u16 v))) y = .ok r' ∧
      Gr k grp f r r' := by
  intro pts
  induction pts with
  | nil => intro x y r h e; cases e; exact ⟨y, rfl, h⟩
  | cons p pts ih =>
    intro x y r h e
    rw [List.foldlM_cons] at e ⊢
    obtain ⟨x1, e1, e2⟩ := bind_eq_ok e
    split at e1
    · cases e1
    · rename_i hv
      obtain ⟨y1, h1, g1⟩ := h.setBoard e1
      obtain ⟨r', h2, g2⟩ := ih g1 e2
      exact ⟨r', by rw [if_neg hv, h1, ok_bind, h2], g2⟩

theorem Gr.updateChain (h : Gr k grp f x y) {j : Nat} (e : x.updateChainIndexesInBoard dbg j = .ok r) :
    ∃ r', y.updateChainIndexesInBoard dbg j = .ok r' ∧ Gr k grp f r r' := by
  unfold Goban.updateChainIndexesInBoard at e ⊢
  obtain ⟨ch, e1, e⟩ := bind_eq_ok e
  obtain ⟨pts, e2, e⟩ := bind_eq_ok e
  obtain ⟨_, e3, e⟩ := bind_eq_ok e
  obtain ⟨r', h1, g1⟩ := h.foldBoard e
  exact ⟨r', by rw [h.chainAt e1, ok_bind, h.next, e2, ok_bind, e3, ok_bind, h1], g1⟩

theorem Gr.create (h : Gr k grp f x y) {p : Nat} {c : Color} {libs : List Nat} {t : Nat}
    (e : x.createChain dbg p c libs = .ok (t, r)) : ∃ r', y.createChain dbg p c libs = .ok (t, r') ∧ Gr k grp f r r' := by
  unfold Goban.createChain at e ⊢
  obtain ⟨lib, e1, e⟩ := bind_eq_ok e
  obtain ⟨x1, e2, e⟩ := bind_eq_ok e
  obtain ⟨y1, h2, g2⟩ := h.setNext e2
  rw [e1, ok_bind, h2, ok_bind]
  have hl : y1.chains.length = x1.chains.length := by rw [g2.chains, List.length_set]
  simp only [Groups.putFreeSpot] at e ⊢
  rw [hl]
  obtain ⟨x2, e3, e⟩ := bind_eq_ok e
  have g3 : Gr k grp f { x1 with chains := x1.chains ++ [some (Group.newWithLiberties c p lib)] }
      { y1 with chains := y1.chains ++ [some (Group.newWithLiberties c p lib)] } := by
    refine ⟨g2.next, g2.size, g2.hash, g2.blen, ?_, ?_, ?_, g2.bd⟩
    · show y1.chains ++ _ = (x1.chains ++ _).set k _
      rw [g2.chains, List.set_append_left _ _ g2.klt]
    · show k < (x1.chains ++ _).length
      have := g2.klt
      simp; omega
    · show ((x1.chains ++ _)[k]?).join = none
      rw [List.getElem?_append_left g2.klt]; exact g2.free
  obtain ⟨r', h3, g4⟩ := g3.updateChain e3
  cases e
  exact ⟨r', by rw [h3, ok_bind], g4⟩

theorem Gr.merge (h : Gr k grp f x y) {k1 k2 : Nat} (e : x.mergeStrings dbg k1 k2 = .ok r) :
    ∃ r', y.mergeStrings dbg k1 k2 = .ok r' ∧ Gr k grp f r r' := by
  unfold Goban.mergeStrings at e ⊢
  obtain ⟨c1, e1, e⟩ := bind_eq_ok e
  obtain ⟨c2, e2, e⟩ := bind_eq_ok e
  obtain ⟨_, e3, e⟩ := bind_eq_ok e
  obtain ⟨_, e4, e⟩ := bind_eq_ok e
  dsimp only at e
  obtain ⟨x1, e5, e⟩ := bind_eq_ok e
  obtain ⟨m, e6, e⟩ := bind_eq_ok e
  obtain ⟨x2, e7, e⟩ := bind_eq_ok e
  obtain ⟨cs, e8, e⟩ := bind_eq_ok e
  obtain ⟨y1, h5, g5⟩ := h.swapNext e5
  obtain ⟨y2, h7, g7⟩ := (g5.setChain (h.ne e1) _).updateChain e7
  obtain ⟨cs', h8, g8⟩ := g7.remove (h.ne e2) e8
  cases e
  refine ⟨{ y2 with chains := cs' }, ?_, g8⟩
  rw [h.chainAt e1, ok_bind, h.chainAt e2, ok_bind, e3, ok_bind, e4, ok_bind]
  dsimp only
  rw [h5, ok_bind, e6, ok_bind, h7, ok_bind, h8, ok_bind]

theorem Gr.mergeStep (h : Gr k grp f x y) {t a t' : Nat} (e : Goban.mergeStep dbg (x, t) a = .ok (r, t')) :
    ∃ r', Goban.mergeStep dbg (y, t) a = .ok (r', t') ∧ Gr k grp f r r' := by
  unfold Goban.mergeStep at e ⊢
  dsimp only at e ⊢
  obtain ⟨ca, e1, e⟩ := bind_eq_ok e
  obtain ⟨ct, e2, e⟩ := bind_eq_ok e
  rw [h.chainAt e1, ok_bind, h.chainAt e2, ok_bind]
  split at e
  · rename_i hlt
    obtain ⟨x1, e3, e⟩ := bind_eq_ok e
    obtain ⟨y1, h3, g3⟩ := h.merge e3
    cases e
    exact ⟨y1, by rw [if_pos hlt, h3, ok_bind], g3⟩
  · rename_i hlt
    obtain ⟨x1, e3, e⟩ := bind_eq_ok e
    obtain ⟨y1, h3, g3⟩ := h.merge e3
    cases e
    exact ⟨y1, by rw [if_neg hlt, h3, ok_bind], g3⟩

theorem Gr.mergeFold : ∀ {l : List Nat} {x y r : Goban} {t t' : Nat}, Gr k grp f x y →
    l.foldlM (Goban.mergeStep dbg) (x, t) = .ok (r, t') →
    ∃ r', l.foldlM (Goban.mergeStep dbg) (y, t) = .ok (r', t') ∧ Gr k grp f r r' := by
  intro l
  induction l with
  | nil => intro x y r t t' h e; cases e; exact ⟨y, rfl, h⟩
  | cons a l ih =>
    intro x y r t t' h e
    rw [List.foldlM_cons] at e ⊢
    obtain ⟨⟨x1, t1⟩, e1, e2⟩ := bind_eq_ok e
    obtain ⟨y1, h1, g1⟩ := h.mergeStep e1
    obtain ⟨r', h2, g2⟩ := ih g1 e2
    exact ⟨r', by rw [h1, ok_bind, h2], g2⟩

/-- The end of `add_stone_to_chain`, after the links. -/
def addTail (dbg : Bool) (j : Nat) (g : Goban) (grp : Group) : M Goban := do
  let n ← addU16 dbg grp.numStones 1
  let grp := { grp with numStones := n }
  let g := g.setChain j grp
  if dbg then
    let l ← grp.iter dbg g.nextStone
    debugAssert dbg (l.getLast?.map u16 == some grp.last)
  .ok g

theorem Gr.addTail (h : Gr k grp f x y) {j : Nat} (hne : j ≠ k) {gr1 : Group} (e : Model.addTail dbg j x gr1 = .ok r) :
    ∃ r', Model.addTail dbg j y gr1 = .ok r' ∧ Gr k grp f r r' := by
  unfold Model.addTail at e ⊢
  obtain ⟨m, e3, e⟩ := bind_eq_ok e
  have g2 := h.setChain hne { gr1 with numStones := m }
  rw [e3, ok_bind]
  cases dbg with
  | false =>
    simp only [Bool.false_eq_true, if_false] at e ⊢
    cases e
    exact ⟨_, rfl, g2⟩
  | true =>
    simp only [if_true] at e ⊢
    obtain ⟨l, e4, e⟩ := bind_eq_ok e
    obtain ⟨_, e5, e⟩ := bind_eq_ok e
    cases e
    have hn : (y.setChain j { gr1 with numStones := m }).nextStone = (x.setChain j { gr1 with numStones := m }).nextStone := g2.next
    exact ⟨_, by rw [hn, e4, ok_bind, e5, ok_bind], g2⟩

theorem Gr.addStone (h : Gr k grp f x y) {j p : Nat} (e : x.addStoneToChain dbg j p = .ok r) :
    ∃ r', y.addStoneToChain dbg j p = .ok r' ∧ Gr k grp f r r' := by
  unfold Goban.addStoneToChain at e ⊢
  obtain ⟨g, e1, e⟩ := bind_eq_ok e
  have hne := h.ne e1
  rw [h.chainAt e1, ok_bind]
  dsimp only at e ⊢
  split at e
  · rename_i hlt
    obtain ⟨a1, f1, e⟩ := bind_eq_ok e
    obtain ⟨a2, f2, e⟩ := bind_eq_ok e
    obtain ⟨b1, h1, g1⟩ := h.setNext f1
    obtain ⟨b2, h2, g2⟩ := g1.setNext f2
    obtain ⟨r', e3, g3⟩ := g2.addTail (dbg := dbg) hne (gr1 := { g with origin := u16 p }) e
    exact ⟨r', by rw [if_pos hlt, h1, ok_bind, h2, ok_bind]; exact e3, g3⟩
  · rename_i hlt
    obtain ⟨a1, f1, e⟩ := bind_eq_ok e
    obtain ⟨a2, f2, e⟩ := bind_eq_ok e
    obtain ⟨b1, h1, g1⟩ := h.setNext f1
    obtain ⟨b2, h2, g2⟩ := g1.setNext f2
    obtain ⟨r', e3, g3⟩ := g2.addTail (dbg := dbg) hne (gr1 := { g with last := u16 p }) e
    exact ⟨r', by rw [if_neg hlt, h1, ok_bind, h2, ok_bind]; exact e3, g3⟩

theorem Gr.attach (h : Gr k grp f x y) {p t : Nat} {c : Color} {same libs : List Nat}
    (e : x.attach dbg p c same libs = .ok (t, r)) : ∃ r', y.attach dbg p c same libs = .ok (t, r') ∧ Gr k grp f r r' := by
  rcases same with _ | ⟨a, _ | ⟨b, rest⟩⟩
  · exact h.create e
  · unfold Goban.attach at e ⊢
    dsimp only at e ⊢
    obtain ⟨c1, e1, e⟩ := bind_eq_ok e
    obtain ⟨c2, e2, e⟩ := bind_eq_ok e
    obtain ⟨c3, e3, e⟩ := bind_eq_ok e
    obtain ⟨x1, e4, e⟩ := bind_eq_ok e
    obtain ⟨y1, h4, g4⟩ := (h.setChain (h.ne e1) c3).addStone e4
    rw [h.chainAt e1, ok_bind, e2, ok_bind, e3, ok_bind, h4, ok_bind]
    split at e
    · cases e
    · rename_i hne
      obtain ⟨x2, e5, e⟩ := bind_eq_ok e
      obtain ⟨y2, h5, g5⟩ := g4.setBoard e5
      cases e
      exact ⟨y2, by rw [if_neg hne, h5, ok_bind], g5⟩
  · unfold Goban.attach at e ⊢
    dsimp only at e ⊢
    obtain ⟨⟨t1, x1⟩, e1, e⟩ := bind_eq_ok e
    obtain ⟨y1, h1, g1⟩ := h.create e1
    rw [h1, ok_bind]
    dsimp only at e ⊢
    obtain ⟨⟨x2, t2⟩, e2, e⟩ := bind_eq_ok e
    obtain ⟨y2, h2, g2⟩ := g1.mergeFold e2
    rw [h2, ok_bind]
    dsimp only at e ⊢
    obtain ⟨c1, e3, e⟩ := bind_eq_ok e
    obtain ⟨c2, e4, e⟩ := bind_eq_ok e
    rw [g2.chainAt e3, ok_bind, e4, ok_bind]
    cases e
    exact ⟨_, rfl, g2.setChain (g2.ne e3) c2⟩

/-! ### Taking a group off the table -/

/-- `g` without the group in slot `k`. -/
def strip (g : Goban) (k : Nat) : Goban :=
  { g with board := g.board.map (fun o => if o = some k then none else o), chains := g.chains.set k none }

theorem strip_bd {g : Goban} {k i : Nat} : (strip g k).bd i = if g.bd i = some k then none else g.bd i := by
  show ((g.board.map _)[i]?).join = _
  rw [List.getElem?_map]
  unfold Goban.bd
  cases g.board[i]? with
  | none => simp
  | some o => simp

theorem strip_bd_ne {g : Goban} {k i j : Nat} (hj : j ≠ k) : (strip g k).bd i = some j ↔ g.bd i = some j := by
  rw [strip_bd]
  by_cases h : g.bd i = some k
  · rw [if_pos h, h]
    simp [Ne.symm hj]
  · rw [if_neg h]

theorem strip_ch {g : Goban} {k j : Nat} (hk : k < g.chains.length) : (strip g k).ch j = if j = k then none else g.ch j :=
  Goban.ch_set hk

theorem strip_gr {g : Goban} (hk : g.ch k = some grp) :
    Gr k grp (fun i => if g.bd i = some k then some k else none) (strip g k) g := by
  have hlt := Goban.ch_lt hk
  refine ⟨rfl, rfl, rfl, ?_, ?_, ?_, ?_, ?_⟩
  · exact (List.length_map ..).symm
  · show g.chains = (g.chains.set k none).set k (some grp)
    rw [List.set_set]
    apply List.ext_getElem?
    intro j
    by_cases hj : k = j
    · subst hj
      rw [List.getElem?_set_self hlt]
      unfold Goban.ch at hk
      exact Option.join_eq_some_iff.1 hk
    · rw [List.getElem?_set_ne hj]
  · show k < (g.chains.set k none).length
    rw [List.length_set]; exact hlt
  · rw [strip_ch hlt, if_pos rfl]
  · intro i
    rw [strip_bd]
    by_cases h : g.bd i = some k
    · simp [h]
    · simp [h]

theorem strip_rep {g : Goban} (h : Rep g) (hlt : k < g.chains.length) : Rep (strip g k) := by
  refine ⟨(List.length_map ..).trans h.blen, h.nlen, ?_, ?_, ?_⟩
  · intro j gj hj
    rw [strip_ch hlt] at hj
    split at hj
    · cases hj
    · rename_i hne
      obtain ⟨l, hc⟩ := h.chain j gj hj
      exact ⟨l, hc.nodup, hc.walk, hc.head, hc.last, hc.num, hc.min, hc.libs, fun i => (strip_bd_ne hne).trans (hc.mem i)⟩
  · intro i j hj
    have hne : j ≠ k := by
      rintro rfl
      rw [strip_bd] at hj
      split at hj
      · cases hj
      · contradiction
    rw [strip_ch hlt, if_neg hne]
    exact h.live i j ((strip_bd_ne hne).1 hj)
  · show (g.chains.set k none).length ≤ _
    rw [List.length_set]; exact h.few

theorem strip_col {g : Goban} (hlt : k < g.chains.length) {i : Nat} :
    (strip g k).col i = if g.bd i = some k then none else g.col i := by
  unfold Goban.col
  rw [strip_bd]
  by_cases h : g.bd i = some k
  · rw [if_pos h, if_pos h]; rfl
  · rw [if_neg h, if_neg h]
    cases hb : g.bd i with
    | none => rfl
    | some j =>
      have : j ≠ k := fun h' => h (h' ▸ hb)
      simp only [Option.bind_some, strip_ch hlt, if_neg this]

/-! ### Counting -/

theorem slots_set (c : Color) (o : Option Group) : ∀ (cs : Groups) (k : Nat), k < cs.length →
    ((cs.set k o).map (slotCount c)).sum + slotCount c (cs[k]?).join = (cs.map (slotCount c)).sum + slotCount c o := by
  intro cs
  induction cs with
  | nil => intro k hk; simp at hk
  | cons a cs ih =>
    intro k hk
    cases k with
    | zero => simp; omega
    | succ k =>
      have := ih k (by simpa using hk)
      simp only [List.set_cons_succ, List.map_cons, List.sum_cons, List.getElem?_cons_succ]
      omega

theorem countP_point {α} [DecidableEq α] {p : α} {u v : α → Bool} : ∀ {l : List α}, l.Nodup → p ∈ l → (∀ i ∈ l, i ≠ p → v i = u i) →
    l.countP v + (if u p then 1 else 0) = l.countP u + (if v p then 1 else 0)
  | [], _, hp, _ => by simp at hp
  | a :: l, hnd, hp, huv => by
    rw [List.nodup_cons] at hnd
    rw [List.countP_cons, List.countP_cons]
    by_cases hap : a = p
    · subst hap
      have : l.countP v = l.countP u := List.countP_congr (fun i hi => by
        rw [huv i (List.mem_cons_of_mem _ hi) (fun h' => hnd.1 (h' ▸ hi))])
      omega
    · have hp' : p ∈ l := by
        rcases List.mem_cons.1 hp with h | h
        · exact absurd h.symm hap
        · exact h
      have := countP_point hnd.2 hp' (fun i hi => huv i (List.mem_cons_of_mem _ hi))
      rw [huv a (by simp) hap]
      omega

theorem cnt_point {f f' : Nat → Option Color} {p m : Nat} (hp : p < m) (h : ∀ i, i ≠ p → f' i = f i) (c : Color) :
    cnt f' c m + (if f p = some c then 1 else 0) = cnt f c m + (if f' p = some c then 1 else 0) := by
  have := countP_point (p := p) (u := fun i => decide (f i = some c)) (v := fun i => decide (f' i = some c))
    (List.nodup_range (n := m)) (List.mem_range.2 hp) (fun i _ hi => by rw [h i hi])
  simpa [cnt] using this

/-! ### The push -/

/-- What keeps the new group alive: an empty neighbour, or a liberty of a group it is joined to. -/
def Kept (g : Goban) (p : Nat) (same libs : List Nat) : Prop := (∃ x, x ∈ libs) ∨ ∃ x, x ≠ p ∧ LibOf g same x

/-- The new stone is a group of its own, in a slot `t` of its own. -/
structure Lone (g r : Goban) (p : Nat) (c : Color) (libs : List Nat) (t : Nat) : Prop where
  next : r.nextStone[p]? = some p
  grp : ∃ lib, r.ch t = some (Group.newWithLiberties c p lib) ∧ ∀ x, has x lib = true ↔ x ∈ libs
  bd : ∀ i, r.bd i = some t ↔ i = p
  other : ∀ j, j ≠ t → r.ch j = g.ch j

/-- The board after pushing colour `c` on the occupied cell `p`; `E` says that the new group has a liberty. -/
structure OccSpec (E : Prop) (g : Goban) (p : Nat) (c : Color) (r : Goban) (t : Nat) : Prop where
  size : r.size = g.size
  blen : r.board.length = 361
  live : ∀ i j, r.bd i = some j → ∃ gj, r.ch j = some gj
  col : ∀ i, r.col i = if i = p then some c else g.col i
  added : ∃ gt, r.ch t = some gt ∧ gt.color = c ∧ (E → gt.isDead = false)
  slots : ∀ c', (r.chains.map (slotCount c')).sum = cnt g.col c' 361 + (if c' = c then 1 else 0)

/-- Colours after attaching a stone on an empty cell. -/
theorem Att.col {g r : Goban} {p t : Nat} {c : Color} {same : List Nat} {L : Nat → Prop} (h0 : Rep g)
    (hA : Att g r p c same t L) (hs : ∀ j ∈ same, ∃ gj, g.ch j = some gj ∧ gj.color = c) (i : Nat) :
    r.col i = if i = p then some c else g.col i := by
  obtain ⟨gt, hgt, hct, _⟩ := hA.added
  by_cases hi : i = p ∨ ∃ k ∈ same, g.bd i = some k
  · rw [col_of_bd (hA.bdt i hi) hgt, hct]
    rcases hi with rfl | ⟨j, hj, hbj⟩
    · rw [if_pos rfl]
    · obtain ⟨gj, h1, h2⟩ := hs j hj
      rw [col_of_bd hbj h1, h2]; simp
  · rw [not_or] at hi
    have hi2 : ∀ j ∈ same, g.bd i ≠ some j := fun j hj hbj => hi.2 ⟨j, hj, hbj⟩
    have hbi := hA.bdo i hi.1 hi2
    rw [if_neg hi.1]
    cases hgi : g.bd i with
    | none => rw [col_none hgi, col_none (hbi.trans hgi)]
    | some j =>
      obtain ⟨gj, hgj⟩ := h0.live i j hgi
      have hjs : j ∉ same := fun h' => hi2 j h' hgi
      have hjt : j ≠ t := by
        rintro rfl
        rcases hA.new with h' | h'
        · exact hjs h'
        · have := Goban.ch_lt hgj; omega
      rw [col_of_bd hgi hgj, col_of_bd (hbi.trans hgi) ((hA.other j hjt hjs).trans hgj)]

/-- The group at `p` is not among those the stone is attached to: it keeps its slot. -/
theorem attach_over {g : Goban} {p : Nat} {c : Color} {same libs : List Nat} (h : Rep g) (hp : p < 361) (hb : g.bd p = some k)
    (hk : g.ch k = some grp) (hl : ∀ i ∈ libs, i < 368) (hpl : p ∉ libs)
    (hroom : g.chains.length < 65535 ∨ same.length = 1) (hnd : same.Nodup) (hks : k ∉ same)
    (hs : ∀ j ∈ same, ∃ gj, g.ch j = some gj ∧ gj.color = c ∧ (dbg = true → has p gj.liberties = true)) :
    ∃ r t, g.attach dbg p c same libs = .ok (t, r) ∧ OccSpec (Kept g p same libs) g p c r t ∧
      ∃ s, Rep s ∧ Gr k grp (fun i => if g.bd i = some k then some k else none) s r ∧
        (same = [] → Lone g r p c libs t) := by
  have hlt := Goban.ch_lt hk
  have hrs := strip_rep h hlt
  have hgr := strip_gr hk
  have hsch : ∀ j, j ≠ k → (strip g k).ch j = g.ch j := fun j hj => by rw [strip_ch hlt, if_neg hj]
  have hslen : (strip g k).chains.length = g.chains.length := List.length_set
  have hsp : (strip g k).bd p = none := by rw [strip_bd, if_pos hb]
  have hs' : ∀ j ∈ same, ∃ gj, (strip g k).ch j = some gj ∧ gj.color = c ∧ (dbg = true → has p gj.liberties = true) := by
    intro j hj
    obtain ⟨gj, h1, h2⟩ := hs j hj
    exact ⟨gj, by rw [hsch j (fun h' => hks (h' ▸ hj))]; exact h1, h2⟩
  obtain ⟨s, t, es, hA⟩ := attach_att (dbg := dbg) (c := c) hrs hp hsp hl hpl (by rw [hslen]; exact hroom) hnd hs'
  obtain ⟨r, er, gr⟩ := hgr.attach es
  have hcs : ∀ i, s.col i = if i = p then some c else (strip g k).col i :=
    fun i => hA.col hrs (fun j hj => let ⟨gj, h1, h2, _⟩ := hs' j hj; ⟨gj, h1, h2⟩) i
  obtain ⟨gt, hgt, hct, hLt⟩ := hA.added
  have hrch : ∀ j, j ≠ k → r.ch j = s.ch j := by
    intro j hj
    unfold Goban.ch
    rw [gr.chains, Goban.ch_set gr.klt, if_neg hj]
  have hrk : r.ch k = some grp := by
    unfold Goban.ch
    rw [gr.chains, Goban.ch_set gr.klt, if_pos rfl]
  have hne : ∀ j gj, s.ch j = some gj → j ≠ k := by
    rintro j gj hj rfl
    rw [gr.free] at hj; cases hj
  have hbn : ∀ i, s.bd i = none → i ≠ p ∧ (strip g k).bd i = none := by
    intro i hi
    have h1 : ¬ (i = p ∨ ∃ j ∈ same, (strip g k).bd i = some j) := fun h' => by rw [hA.bdt i h'] at hi; cases hi
    rw [not_or] at h1
    exact ⟨h1.1, by rw [← hA.bdo i h1.1 (fun j hj hbj => h1.2 ⟨j, hj, hbj⟩)]; exact hi⟩
  refine ⟨r, t, er, ⟨?_, ?_, ?_, ?_, ?_, ?_⟩, s, hA.rep, gr, ?_⟩
  · rw [gr.size, hA.size]; rfl
  · rw [gr.blen, hA.rep.blen]
  · intro i j hj
    rw [gr.bd] at hj
    cases hsb : s.bd i with
    | none =>
      rw [hsb, Option.none_or] at hj
      split at hj
      · cases hj; exact ⟨grp, hrk⟩
      · cases hj
    | some j' =>
      rw [hsb, Option.some_or] at hj
      cases hj
      obtain ⟨gj, hgj⟩ := hA.rep.live i j hsb
      exact ⟨gj, by rw [hrch j (hne j gj hgj)]; exact hgj⟩
  · intro i
    cases hsb : s.bd i with
    | none =>
      obtain ⟨h1, h2⟩ := hbn i hsb
      rw [if_neg h1]
      by_cases hik : g.bd i = some k
      · rw [col_of_bd hik hk, col_of_bd (k := k) (by rw [gr.bd, hsb, if_pos hik]; rfl) hrk]
      · have h3 : g.bd i = none := by rw [strip_bd, if_neg hik] at h2; exact h2
        rw [col_none h3, col_none (by rw [gr.bd, hsb, if_neg hik]; rfl)]
    | some j =>
      obtain ⟨gj, hgj⟩ := hA.rep.live i j hsb
      have e1 : r.col i = s.col i := by
        rw [col_of_bd hsb hgj, col_of_bd (k := j) (by rw [gr.bd, hsb]; rfl) ((hrch j (hne j gj hgj)).trans hgj)]
      rw [e1, hcs]
      by_cases hip : i = p
      · rw [if_pos hip, if_pos hip]
      · rw [if_neg hip, if_neg hip, strip_col hlt, if_neg]
        intro hik
        have hsi : (strip g k).bd i = none := by rw [strip_bd, if_pos hik]
        have : s.bd i = (strip g k).bd i := hA.bdo i hip (fun j _ hbj => by rw [hsi] at hbj; cases hbj)
        rw [hsi, hsb] at this; cases this
  · refine ⟨gt, by rw [hrch t (hne t gt hgt)]; exact hgt, hct, ?_⟩
    intro hE
    have hx : ∃ x, has x gt.liberties = true := by
      rcases hE with ⟨x, hx⟩ | ⟨x, hxp, j, hj, gj, h1, h2⟩
      · exact ⟨x, (hLt x).2 ⟨fun h' => hpl (h' ▸ hx), Or.inl hx⟩⟩
      · exact ⟨x, (hLt x).2 ⟨hxp, Or.inr ⟨j, hj, gj, (hsch j (fun h' => hks (h' ▸ hj))).trans h1, h2⟩⟩⟩
    obtain ⟨x, hx'⟩ := hx
    rw [← Bool.not_eq_true, isDead_iff]
    intro h'
    rw [h' x] at hx'; cases hx'
  · intro c'
    have h1 := slots_set c' (some grp) s.chains k gr.klt
    rw [show (s.chains[k]?).join = none from gr.free, ← gr.chains] at h1
    have h2 := slots_set c' none g.chains k hlt
    rw [show (g.chains[k]?).join = some grp from hk] at h2
    have h3 := hA.rep.slots c'
    have h4 : ((g.chains.set k none).map (slotCount c')).sum = _ := hrs.slots c'
    have h5 := h.slots c'
    have h6 := cnt_point (f := (strip g k).col) (f' := s.col) hp (fun i hi => by rw [hcs, if_neg hi]) c'
    rw [hcs p, if_pos rfl, col_none hsp] at h6
    simp only [slotCount, Option.some.injEq, reduceCtorEq, if_false] at h1 h2 h6
    have h7 : (if c = c' then 1 else 0) = (if c' = c then 1 else 0) := by
      by_cases hcc : c = c'
      · simp [hcc]
      · rw [if_neg hcc, if_neg (fun h' => hcc h'.symm)]
    omega
  · rintro rfl
    obtain ⟨lib, b, _, hlm, _, hbb, ec⟩ := create_ok (dbg := dbg) (c := c) hrs hp hsp hl
      (by rw [hslen]; exact hroom.resolve_right (by simp))
    have es' : (strip g k).createChain dbg p c libs = .ok (t, s) := es
    rw [ec] at es'
    cases es'
    rw [hslen] at hA hbb
    refine ⟨?_, ⟨lib, ?_, hlm⟩, ?_, ?_⟩
    · rw [gr.next]
      exact getElem?_set_eq' (by show p < g.nextStone.length; rw [h.nlen]; exact hp)
    · rw [hslen, hrch g.chains.length (by omega)]
      show (((strip g k).chains ++ [some _])[g.chains.length]?).join = _
      rw [← hslen]; simp
    · intro i
      rw [hslen, gr.bd]
      change ((b[i]?).join).or _ = _ ↔ _
      rw [hbb]
      by_cases hi : i = p
      · simp [hi]
      · rw [if_neg hi]
        constructor
        · intro h'
          exfalso
          cases hsi : (strip g k).bd i with
          | none =>
            rw [hsi, Option.none_or] at h'
            split at h'
            · have := Option.some.inj h'; omega
            · cases h'
          | some j =>
            rw [hsi, Option.some_or] at h'
            obtain ⟨gj, hgj⟩ := hrs.live i j hsi
            have := Goban.ch_lt hgj
            have := Option.some.inj h'
            omega
        · exact fun h' => absurd h' hi
    · intro j hj
      rw [hslen] at hj
      by_cases hjk : j = k
      · rw [hjk, hrk, hk]
      · rw [hrch j hjk, hA.other j hj (by simp), hsch j hjk]

/-- Adding to the group the stone is already in. -/
theorem attach_self {g : Goban} {p : Nat} {libs : List Nat} (h : Rep g) (hp : p < 361) (hb : g.bd p = some k)
    (hk : g.ch k = some grp) (hl : ∀ i ∈ libs, i < 368) :
    ∃ r, g.attach false p grp.color [k] libs = .ok (k, r) ∧ OccSpec (Kept g p [k] libs) g p grp.color r k := by
  have hlt := Goban.ch_lt hk
  obtain ⟨lk, hc⟩ := h.chain k grp hk
  have hfew := h.few
  obtain ⟨l1, e1, hl1, hm1⟩ := removeLiberty_ok (dbg := false) (i := p) hc.libs (by omega) (by simp)
  obtain ⟨l2, e2, _, hl2⟩ := unionSlice_ok libs { grp with liberties := l1 } hl1 hl
  let g2 : Group := { grp with liberties := l2 }
  have hch : (g.setChain k g2).ch k = some g2 := by rw [Goban.ch_setChain hlt, if_pos rfl]
  have hlast := hc.lt h.nlen _ hc.last_mem
  have hnum : grp.numStones + 1 < 65536 := by
    have := hc.length_le h.nlen
    rw [hc.num]; omega
  have hadd : addU16 false grp.numStones 1 = .ok (grp.numStones + 1) := by
    unfold addU16; rw [if_pos hnum]
  have key : ∃ (nx : List Nat) (o z : Nat), (g.setChain k g2).addStoneToChain false k p =
      .ok { g with nextStone := nx, chains := g.chains.set k (some { g2 with origin := o, last := z, numStones := grp.numStones + 1 }) } := by
    unfold Goban.addStoneToChain
    rw [Goban.chainAt_ok hch, ok_bind]
    dsimp only
    split
    · refine ⟨(g.nextStone.set p grp.origin).set grp.last (u16 p), u16 p, grp.last, ?_⟩
      rw [Goban.setNext_ok (by show p < g.nextStone.length; rw [h.nlen]; exact hp), ok_bind,
        Goban.setNext_ok (by show grp.last < (g.nextStone.set p _).length; rw [List.length_set, h.nlen]; exact hlast), ok_bind]
      simp only [pure_bind]
      rw [hadd, ok_bind]
      simp [Goban.setChain, g2]
    · refine ⟨(g.nextStone.set grp.last (u16 p)).set p grp.origin, grp.origin, u16 p, ?_⟩
      rw [Goban.setNext_ok (by show grp.last < g.nextStone.length; rw [h.nlen]; exact hlast), ok_bind,
        Goban.setNext_ok (by show p < (g.nextStone.set grp.last _).length; rw [List.length_set, h.nlen]; exact hp), ok_bind]
      simp only [pure_bind]
      rw [hadd, ok_bind]
      simp [Goban.setChain, g2]
  obtain ⟨nx, o, z, ek⟩ := key
  let grp' : Group := { g2 with origin := o, last := z, numStones := grp.numStones + 1 }
  let r : Goban := { g with nextStone := nx, chains := g.chains.set k (some grp'), board := g.board.set p (some k) }
  have hbd : ∀ i, r.bd i = g.bd i := by
    intro i
    show ((g.board.set p _)[i]?).join = _
    rw [Goban.bd_set (by rw [h.blen]; exact hp)]
    by_cases hi : i = p
    · rw [if_pos hi, hi, hb]
    · rw [if_neg hi]; rfl
  have hrch : ∀ j, r.ch j = if j = k then some grp' else g.ch j := fun j => Goban.ch_set hlt
  have hku : u16 k = k := u16_lt (by omega)
  refine ⟨r, ?_, rfl, ?_, ?_, ?_, ⟨grp', by rw [hrch, if_pos rfl], rfl, ?_⟩, ?_⟩
  · unfold Goban.attach
    dsimp only
    rw [Goban.chainAt_ok hk, ok_bind, e1, ok_bind, e2, ok_bind]
    show ((g.setChain k g2).addStoneToChain false k p >>= _) = _
    rw [ek, ok_bind, hku, if_neg (by omega), Goban.setBoard_ok (by show p < g.board.length; rw [h.blen]; exact hp), ok_bind]
  · show (g.board.set p _).length = 361
    rw [List.length_set, h.blen]
  · intro i j hj
    rw [hbd] at hj
    rw [hrch]
    split
    · exact ⟨_, rfl⟩
    · exact h.live i j hj
  · intro i
    have : r.col i = g.col i := by
      unfold Goban.col
      rw [hbd]
      cases hbi : g.bd i with
      | none => rfl
      | some j =>
        simp only [Option.bind_some, hrch]
        by_cases hj : j = k
        · rw [if_pos hj, hj, hk]; rfl
        · rw [if_neg hj]
    rw [this]
    by_cases hi : i = p
    · rw [if_pos hi, hi, col_of_bd hb hk]
    · rw [if_neg hi]
  · intro hE
    have hx : ∃ x, has x l2 = true := by
      rcases hE with ⟨x, hx⟩ | ⟨x, hxp, j, hj, gj, h1, h2⟩
      · exact ⟨x, (hl2 x).2 (Or.inl hx)⟩
      · rw [List.mem_singleton] at hj
        subst hj
        rw [hk] at h1; cases h1
        refine ⟨x, (hl2 x).2 (Or.inr ?_)⟩
        show has x l1 = true
        rw [hm1, if_neg hxp]; exact h2
    obtain ⟨x, hx'⟩ := hx
    rw [← Bool.not_eq_true, isDead_iff]
    intro h'
    rw [show grp'.liberties = l2 from rfl] at h'
    rw [h' x] at hx'; cases hx'
  · intro c'
    have h2 := slots_set c' (some grp') g.chains k hlt
    rw [show (g.chains[k]?).join = some grp from hk] at h2
    have h5 := h.slots c'
    show ((g.chains.set k (some grp')).map _).sum = _
    have h6 : grp'.color = grp.color := rfl
    have h7 : grp'.numStones = grp.numStones + 1 := rfl
    simp only [slotCount, h6, h7] at h2
    by_cases hcc : grp.color = c'
    · rw [if_pos hcc, if_pos hcc] at h2
      rw [if_pos hcc.symm]; omega
    · rw [if_neg hcc, if_neg hcc] at h2
      rw [if_neg (fun h' => hcc h'.symm)]; omega

theorem Took.col {g g1 : Goban} {p : Nat} {done dead : List Nat} (h : Rep g) (ht : Took g g1 p done dead) (i : Nat) :
    g1.col i = g.col i := by
  cases hb : g.bd i with
  | none => rw [col_none hb, col_none ((ht.bd i).trans hb)]
  | some j =>
    obtain ⟨gj, hgj⟩ := h.live i j hb
    rw [col_of_bd hb hgj]
    by_cases hj : j ∈ done
    · obtain ⟨l', h1, _⟩ := ht.taken j hj gj hgj
      rw [col_of_bd ((ht.bd i).trans hb) h1]
    · rw [col_of_bd ((ht.bd i).trans hb) ((ht.other j hj).trans hgj)]

/-- A stone pushed on an occupied cell: in a release build, or in a debug build when all neighbours are empty. -/
theorem push_occupied {n : Dim} {g : Goban} {pt : Coord} {c : Color} (h : Inv n g) (hpt : OnBoard n pt)
    (hb : g.bd (twoTo1dim n.sz pt) = some k)
    (hd : dbg = true → ∀ j ∈ nbrs n (twoTo1dim n.sz pt), g.bd j = none) :
    (∃ f, g.pushWthFeedback dbg pt c = .ok f ∧
      OccSpec (∃ j ∈ nbrs n (twoTo1dim n.sz pt), g.bd j = none ∨ ∃ i gi, g.bd j = some i ∧ g.ch i = some gi ∧ gi.color = c ∧ gi.isDead = false)
        g (twoTo1dim n.sz pt) c f.goban f.added ∧
      (∀ j ∈ f.dead, ∃ gj, g.ch j = some gj ∧ gj.isDead = true) ∧
      ((∀ j ∈ nbrs n (twoTo1dim n.sz pt), g.col j = some c.opp) → ∃ g1, Lone g1 f.goban (twoTo1dim n.sz pt) c [] f.added ∧
        ∀ j gj, g1.ch j = some gj → gj.liberties.length = 46 ∧ has (twoTo1dim n.sz pt) gj.liberties = false)) ∨
    (g.pushWthFeedback dbg pt c = panic ∧ g.chains.length = 65535) := by
  generalize hpe : twoTo1dim n.sz pt = p at *
  have hpN : Ix n p := hpe ▸ twoTo1_lt h.good hpt
  have hp361 := h.lt361 hpN
  have hn := h.good
  have hr := h.rep
  have hnb361 : ∀ x ∈ nbrs n p, x < 361 := fun x hx => h.lt361 (nbrs_lt hn hpN hx)
  obtain ⟨a, ea, ha⟩ := around_ok (c := c) hr hnb361
  have hnone : ∀ j gj, g.ch j = some gj → has p gj.liberties = false := by
    intro j gj hj
    cases hh : has p gj.liberties with
    | false => rfl
    | true =>
      have := ((h.libs j gj hj p).1 hh).2.1
      rw [hb] at this; cases this
  have hsame : ∀ j ∈ a.same, ∃ gj, g.ch j = some gj ∧ gj.color = c := by
    intro j hj
    obtain ⟨i, hi, hbi, hci⟩ := (ha.same j).1 hj
    obtain ⟨gj, hgj⟩ := hr.live i j hbi
    rw [col_of_bd hbi hgj] at hci
    exact ⟨gj, hgj, Option.some.inj hci⟩
  have hopp : ∀ j ∈ a.opp, ∃ gj, g.ch j = some gj ∧ gj.color = c.opp := by
    intro j hj
    obtain ⟨i, hi, hbi, hci⟩ := (ha.opp j).1 hj
    obtain ⟨gj, hgj⟩ := hr.live i j hbi
    rw [col_of_bd hbi hgj] at hci
    exact ⟨gj, hgj, Option.some.inj hci⟩
  have hds : dbg = true → a.same = [] ∧ a.opp = [] := by
    intro hdb
    constructor
    · rw [List.eq_nil_iff_forall_not_mem]
      intro j hj
      obtain ⟨i, hi, hbi, _⟩ := (ha.same j).1 hj
      rw [hd hdb i hi] at hbi; cases hbi
    · rw [List.eq_nil_iff_forall_not_mem]
      intro j hj
      obtain ⟨i, hi, hbi, _⟩ := (ha.opp j).1 hj
      rw [hd hdb i hi] at hbi; cases hbi
  have hso : ∀ j, j ∈ a.same → j ∈ a.opp → False := by
    intro j h1 h2
    obtain ⟨gk, e1, e2⟩ := hsame j h1
    obtain ⟨gk', e1', e2'⟩ := hopp j h2
    rw [e1] at e1'; cases e1'
    rw [e2] at e2'; exact Color.ne_opp c e2'
  obtain ⟨g1, dead, e1, ht⟩ := take_ok (dbg := dbg) hr (show p < 368 by omega) ha.ond (fun j hj => by
    obtain ⟨gj, h1, _⟩ := hopp j hj
    exact ⟨gj, h1, fun hdb => by rw [(hds hdb).2] at hj; simp at hj⟩)
  have hlibs368 : ∀ i ∈ a.libs, i < 368 := by
    intro i hi
    have := hnb361 i ((ha.libs i).1 hi).1
    omega
  have hplibs : p ∉ a.libs := fun h' => nbrs_ne hn hpN ((ha.libs p).1 h').1 rfl
  have hz := indexZobrist_ok (c := c) hp361
  have hrun : ∀ x, g1.attach dbg p c a.same a.libs = x → g.pushWthFeedback dbg pt c = (do
      let (added, g) ← x
      let g := { g with zobristHash := g.zobristHash ^^^ zkey p (some c) }
      if dbg then g.checkIntegrityAll dbg
      .ok { dead := dead, added := added, goban := g }) := by
    intro x hx
    unfold Goban.pushWthFeedback
    rw [h.size, hpe]
    dsimp only
    rw [neighborsIdx_ok h.size hn hpN, ok_bind, ea, ok_bind, e1, ok_bind]
    dsimp only
    rw [hx, hz]
    rfl
  by_cases hroom : ¬ (g.chains.length < 65535 ∨ a.same.length = 1)
  · rw [not_or] at hroom
    have hfull : g.chains.length = 65535 := by have := hr.few; omega
    refine Or.inr ⟨?_, hfull⟩
    rw [hrun _ (attach_panic ht.rep hp361 hlibs368 (by rw [ht.clen]; exact hfull) hroom.2)]; rfl
  rw [Classical.not_not] at hroom
  left
  have hb1 : g1.bd p = some k := by rw [ht.bd]; exact hb
  obtain ⟨grp, hk⟩ := ht.rep.live p k hb1
  have hcol := ht.col hr
  have hkept : (∃ j ∈ nbrs n p, g.bd j = none ∨ ∃ i gi, g.bd j = some i ∧ g.ch i = some gi ∧ gi.color = c ∧ gi.isDead = false) →
      Kept g1 p a.same a.libs := by
    rintro ⟨j, hj, hbj | ⟨i, gi, hbj, hgi, hci, hal⟩⟩
    · exact Or.inl ⟨j, (ha.libs j).2 ⟨hj, hbj⟩⟩
    · have hia : i ∈ a.same := (ha.same i).2 ⟨j, hj, hbj, by rw [col_of_bd hbj hgi, hci]⟩
      rw [← Bool.not_eq_true, isDead_iff, Classical.not_forall] at hal
      obtain ⟨x, hx⟩ := hal
      rw [Bool.not_eq_false] at hx
      exact Or.inr ⟨x, (fun h' => by rw [h', hnone i gi hgi] at hx; cases hx), i, hia, gi,
        (ht.other i (fun h' => hso i hia h')).trans hgi, hx⟩
  have hg1 : ∀ j gj, g1.ch j = some gj → gj.liberties.length = 46 ∧ has p gj.liberties = false := by
    intro j gj hj
    obtain ⟨l, hc⟩ := ht.rep.chain j gj hj
    refine ⟨hc.libs, ?_⟩
    by_cases hjo : j ∈ a.opp
    · obtain ⟨gj', h1, _⟩ := hopp j hjo
      obtain ⟨l', h4, h5⟩ := ht.taken j hjo gj' h1
      rw [hj] at h4; cases h4
      show has p l' = false
      rw [h5, if_pos rfl]
    · rw [ht.other j hjo] at hj
      exact hnone j gj hj
  have hall0 : (∀ j ∈ nbrs n p, g.col j = some c.opp) → a.same = [] ∧ a.libs = [] := by
    intro hall
    constructor
    · rw [List.eq_nil_iff_forall_not_mem]
      intro j hj
      obtain ⟨i, hi, _, hci⟩ := (ha.same j).1 hj
      rw [hall i hi] at hci
      exact Color.ne_opp c (Option.some.inj hci).symm
    · rw [List.eq_nil_iff_forall_not_mem]
      intro x hx
      obtain ⟨hx1, hx2⟩ := (ha.libs x).1 hx
      have := hall x hx1
      rw [col_none hx2] at this; cases this
  have lift : ∀ {r t}, OccSpec (Kept g1 p a.same a.libs) g1 p c r t →
      OccSpec (∃ j ∈ nbrs n p, g.bd j = none ∨ ∃ i gi, g.bd j = some i ∧ g.ch i = some gi ∧ gi.color = c ∧ gi.isDead = false) g p c { r with zobristHash := r.zobristHash ^^^ zkey p (some c) } t := by
    intro r t o
    refine ⟨o.size.trans ht.size, o.blen, o.live, fun i => (o.col i).trans (by rw [hcol]),
      (let ⟨gt, h1, h2, h3⟩ := o.added; ⟨gt, h1, h2, fun hE => h3 (hkept hE)⟩),
      fun c' => (o.slots c').trans ?_⟩
    congr 1
    unfold cnt
    apply List.countP_congr
    intro i _
    rw [hcol]
  have hdead : ∀ j ∈ dead, ∃ gj, g.ch j = some gj ∧ gj.isDead = true := by
    intro j hj
    have hjo := ht.sub.subset hj
    obtain ⟨gj, h1, _⟩ := hopp j hjo
    obtain ⟨gj', h2, h3⟩ := (ht.dead j hjo).1 hj
    obtain ⟨l', h4, h5⟩ := ht.taken j hjo gj h1
    rw [h2] at h4; cases h4
    refine ⟨gj, h1, ?_⟩
    rw [isDead_iff] at h3 ⊢
    intro x
    by_cases hx : x = p
    · rw [hx]; exact hnone j gj h1
    · have := h3 x
      rw [h5, if_neg hx] at this; exact this
  by_cases hks : k ∈ a.same
  · -- own colour, own group
    have hdf : dbg = false := by
      cases dbg with
      | false => rfl
      | true => rw [(hds rfl).1] at hks; simp at hks
    subst hdf
    obtain ⟨gk, hgk, hck⟩ := hsame k hks
    have hg1 : g1.ch k = some gk := (ht.other k (fun h' => hso k hks h')).trans hgk
    rw [hk] at hg1; cases hg1
    have hall : ∀ j ∈ a.same, j = k := by
      intro j hj
      obtain ⟨i, hi, hbi, hci⟩ := (ha.same j).1 hj
      have := h.closed p i k hi hb (by rw [hci, col_of_bd hb hgk, hck])
      rw [hbi] at this; exact Option.some.inj this
    have hone : a.same = [k] := by
      have hnd := ha.snd
      rcases hs : a.same with _ | ⟨u, _ | ⟨v, w⟩⟩
      · rw [hs] at hks; simp at hks
      · rw [hall u (by rw [hs]; simp)]
      · rw [hs] at hnd
        have h1 := hall u (by rw [hs]; simp)
        have h2 := hall v (by rw [hs]; simp)
        rw [h1, h2] at hnd; simp at hnd
    obtain ⟨r, er, hO⟩ := attach_self (libs := a.libs) ht.rep hp361 hb1 hk hlibs368
    rw [hck] at er hO
    rw [← hone] at er
    exact ⟨{ dead := dead, added := k, goban := { r with zobristHash := r.zobristHash ^^^ zkey p (some c) } }, (hrun _ er).trans rfl, lift (hone ▸ hO), hdead,
      fun hall => by rw [(hall0 hall).1] at hks; simp at hks⟩
  · obtain ⟨r, t, er, hO, s, hrs, gr, hnx⟩ := attach_over (dbg := dbg) (c := c) (same := a.same) (libs := a.libs) ht.rep hp361 hb1 hk hlibs368 hplibs
      (by rw [ht.clen]; exact hroom) ha.snd hks (fun j hj => by
        obtain ⟨gj, h1, h2⟩ := hsame j hj
        exact ⟨gj, (ht.other j (fun h' => hso j hj h')).trans h1, h2, fun hdb => by rw [(hds hdb).1] at hj; simp at hj⟩)
    refine ⟨{ dead := dead, added := t, goban := { r with zobristHash := r.zobristHash ^^^ zkey p (some c) } }, (hrun _ er).trans ?_, lift hO, hdead,
      fun hall => ⟨g1, (let L := hnx (hall0 hall).1; ⟨L.next, (hall0 hall).2 ▸ L.grp, L.bd, L.other⟩), hg1⟩⟩
    cases dbg with
    | false => rfl
    | true =>
      dsimp only [ok_bind]
      have : ({ r with zobristHash := r.zobristHash ^^^ zkey p (some c) } : Goban).checkIntegrityAll true = .ok () := by
        unfold Goban.checkIntegrityAll
        apply forM_ok
        rintro ⟨j, gj⟩ hm
        have hj := mem_iterWithIndex.1 hm
        show Goban.checkIntegrityRen true r j = .ok ()
        change r.ch j = some gj at hj
        by_cases hjk : j = k
        · subst hjk
          have hjg : r.ch j = some grp := by
            unfold Goban.ch
            rw [gr.chains, Goban.ch_set gr.klt, if_pos rfl]
          rw [hj] at hjg; cases hjg
          obtain ⟨l, hc⟩ := ht.rep.chain j grp hk
          -- the group is the single stone
          have hl : l = [p] := by
            have hpl : p ∈ l := (hc.mem p).1 hb1
            have hsub : ∀ i ∈ l, i = p := by
              intro i hi
              have hbi : g.bd i = some j := by rw [← ht.bd]; exact (hc.mem i).2 hi
              have hcn := h.conn j p i hb hbi
              clear hi
              induction hcn with
              | refl => rfl
              | step hc1 hn1 hs1 ih =>
                have hq := ih (by exact Conn.right hc1)
                subst hq
                rw [hd rfl _ hn1] at hbi; cases hbi
            have hnd := hc.nodup
            rcases l with _ | ⟨u, _ | ⟨v, w⟩⟩
            · simp at hpl
            · rw [hsub u (by simp)]
            · have h1 := hsub u (by simp)
              have h2 := hsub v (by simp)
              rw [h1, h2] at hnd; simp at hnd
          subst hl
          have ho : grp.origin = p := by have := hc.head; simpa using this.symm
          have hla : grp.last = p := by have := hc.last; simpa using this.symm
          have hnu : grp.numStones = 1 := hc.num
          have hit : grp.iter true r.nextStone = .ok [p] := by
            unfold Group.iter
            rw [ho]
            exact Walk.iterFrom [] p _ (hnx (hds rfl).1).next (by simp) (by simp) (by simp)
          unfold Goban.checkIntegrityRen Goban.iterStones
          rw [Goban.chainAt_ok hj, ok_bind, ok_bind, hit, ok_bind, ho, hla, hnu]
          simp [assertM, u16]
        · have hsj : s.ch j = some gj := by
            rw [← hj]
            unfold Goban.ch
            rw [gr.chains, Goban.ch_set gr.klt, if_neg hjk]
          have := checkIntegrityRen_ok (dbg := true) hrs hsj
          unfold Goban.checkIntegrityRen Goban.iterStones at this ⊢
          rw [Goban.chainAt_ok hj, gr.next]
          rw [Goban.chainAt_ok hsj] at this
          exact this
      rw [if_pos rfl, this]; rfl

theorem removeLiberty_panic {grp : Group} {i : Nat} (hl : grp.liberties.length = 46) (hi : i < 368)
    (hp : has i grp.liberties = false) : grp.removeLiberty true i = panic := by
  unfold Group.removeLiberty
  rw [if_pos rfl, Bits.get_ok (by rw [hl]; exact hi), hp]
  rfl

/-- In a debug build, pushing on an occupied cell with an occupied neighbour panics. -/
theorem push_occupied_debug {n : Dim} {g : Goban} {pt : Coord} {c : Color} (h : Inv n g) (hpt : OnBoard n pt)
    (hb : g.bd (twoTo1dim n.sz pt) = some k) {j0 k0 : Nat} (hj0 : j0 ∈ nbrs n (twoTo1dim n.sz pt)) (hk0 : g.bd j0 = some k0) :
    g.pushWthFeedback true pt c = panic := by
  generalize hpe : twoTo1dim n.sz pt = p at *
  have hpN : Ix n p := hpe ▸ twoTo1_lt h.good hpt
  have hp361 := h.lt361 hpN
  have hn := h.good
  have hr := h.rep
  have hnb361 : ∀ x ∈ nbrs n p, x < 361 := fun x hx => h.lt361 (nbrs_lt hn hpN hx)
  obtain ⟨a, ea, ha⟩ := around_ok (c := c) hr hnb361
  have hnone : ∀ j gj, g.ch j = some gj → gj.removeLiberty true p = panic := by
    intro j gj hj
    obtain ⟨l, hc⟩ := hr.chain j gj hj
    apply removeLiberty_panic hc.libs (by omega)
    cases hh : has p gj.liberties with
    | false => rfl
    | true =>
      have := ((h.libs j gj hj p).1 hh).2.1
      rw [hb] at this; cases this
  have hsame : ∀ j ∈ a.same, ∃ gj, g.ch j = some gj ∧ gj.color = c := by
    intro j hj
    obtain ⟨i, hi, hbi, hci⟩ := (ha.same j).1 hj
    obtain ⟨gj, hgj⟩ := hr.live i j hbi
    rw [col_of_bd hbi hgj] at hci
    exact ⟨gj, hgj, Option.some.inj hci⟩
  unfold Goban.pushWthFeedback
  rw [h.size, hpe]
  dsimp only
  rw [neighborsIdx_ok h.size hn hpN, ok_bind, ea, ok_bind]
  cases ho : a.opp with
  | cons o os =>
    obtain ⟨i, hi, hbi, hci⟩ := (ha.opp o).1 (by rw [ho]; simp)
    obtain ⟨go, hgo⟩ := hr.live i o hbi
    rw [List.foldlM_cons]
    have : Goban.takeLiberty true p (g, []) o = panic := by
      unfold Goban.takeLiberty
      dsimp only
      rw [Goban.chainAt_ok hgo, ok_bind, hnone o go hgo]; rfl
    rw [this]; rfl
  | nil =>
    show (g.attach true p c a.same a.libs >>= _) = _
    have hatt : g.attach true p c a.same a.libs = panic := by
      have hlibs368 : ∀ i ∈ a.libs, i < 368 := by
        intro i hi
        have := hnb361 i ((ha.libs i).1 hi).1
        omega
      have hplibs : p ∉ a.libs := fun h' => nbrs_ne hn hpN ((ha.libs p).1 h').1 rfl
      rcases hs : a.same with _ | ⟨u, _ | ⟨v, w⟩⟩
      · exfalso
        obtain ⟨g0, hg0⟩ := hr.live j0 k0 hk0
        have hc0 := col_of_bd hk0 hg0
        by_cases hcc : g0.color = c
        · have := (ha.same k0).2 ⟨j0, hj0, hk0, by rw [hc0, hcc]⟩
          rw [hs] at this; simp at this
        · have := (ha.opp k0).2 ⟨j0, hj0, hk0, by rw [hc0, Color.eq_opp_of_ne hcc]⟩
          rw [ho] at this; simp at this
      · obtain ⟨gu, hgu, _⟩ := hsame u (by rw [hs]; simp)
        unfold Goban.attach
        dsimp only
        rw [Goban.chainAt_ok hgu, ok_bind, hnone u gu hgu]; rfl
      · have hks : k ∉ a.same := by
          intro hks
          obtain ⟨gk, hgk, hck⟩ := hsame k hks
          have hall : ∀ j ∈ a.same, j = k := by
            intro j hj
            obtain ⟨i, hi, hbi, hci⟩ := (ha.same j).1 hj
            have := h.closed p i k hi hb (by rw [hci, col_of_bd hb hgk, hck])
            rw [hbi] at this; exact Option.some.inj this
          have hnd := ha.snd
          have h1 := hall u (by rw [hs]; simp)
          have h2 := hall v (by rw [hs]; simp)
          rw [hs, h1, h2] at hnd; simp at hnd
        rw [← hs]
        by_cases hroom : g.chains.length < 65535
        · obtain ⟨grp, hk⟩ := hr.live p k hb
          have hlt := Goban.ch_lt hk
          have hrs := strip_rep hr hlt
          have hsp : (strip g k).bd p = none := by rw [strip_bd, if_pos hb]
          obtain ⟨s1, e1, h1⟩ := create_att (dbg := true) (c := c) (libs := a.libs) hrs hp361 hsp hlibs368
            (by show (g.chains.set k none).length < _; rw [List.length_set]; exact hroom)
          have h1' : Att (strip g k) s1 p c [] (strip g k).chains.length (fun x => x ∈ a.libs ∨ LibOf (strip g k) [] x) :=
            h1.congr (by
              intro x
              constructor
              · exact Or.inl
              · rintro (h' | ⟨k, hk, _⟩)
                · exact h'
                · simp at hk)
          have hsch : ∀ j ∈ a.same, (strip g k).ch j = g.ch j := fun j hj => by
            rw [strip_ch hlt, if_neg (fun (h' : j = k) => hks (h' ▸ hj))]
          obtain ⟨s2, t, e2, h2⟩ := mergeFold_att (dbg := true) hrs hsp a.same [] s1 _ h1' (by simpa using ha.snd)
            (fun j hj => by rw [hsch j hj]; exact hsame j hj)
          rw [List.nil_append] at h2
          obtain ⟨gt, hgt, hct, hL⟩ := h2.added
          obtain ⟨lt, hcht⟩ := h2.rep.chain t gt hgt
          have hpt : gt.removeLiberty true p = panic := by
            apply removeLiberty_panic hcht.libs (by omega)
            cases hh : has p gt.liberties with
            | false => rfl
            | true =>
              rcases (hL p).1 hh with h' | ⟨j, hj, gj, h3, h4⟩
              · exact absurd h' hplibs
              · rw [hsch j hj] at h3
                have := ((h.libs j gj h3 p).1 h4).2.1
                rw [hb] at this; cases this
          obtain ⟨r1, f1, q1⟩ := (strip_gr hk).create e1
          obtain ⟨r2, f2, q2⟩ := q1.mergeFold e2
          have hrt := q2.chainAt (Goban.chainAt_ok hgt)
          rw [hs] at f2 ⊢
          unfold Goban.attach
          dsimp only
          rw [f1, ok_bind]
          dsimp only
          rw [f2, ok_bind]
          dsimp only
          rw [hrt, ok_bind, hpt]; rfl
        · exact attach_panic hr hp361 hlibs368 (by have := hr.few; omega) (by rw [hs]; simp)
    rw [hatt]; rfl

end Model
