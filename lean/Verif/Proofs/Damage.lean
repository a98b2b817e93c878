import Verif.Proofs.Occupied
/-!
# The links after pushing on an occupied point

The old group keeps its slot, its first stone and its count, but the link of the overwritten stone now belongs to the new group. What
the stone iterator of the old group does then depends on where in the circle the overwritten stone was.
-/

namespace Model
open Bits (has)
open Spec (OnBoard Adj)

variable {dbg : Bool} {x y r g : Goban} {k : Nat} {grp : Group}

/-! ### Which links are written -/

theorem setNext_links {i v : Nat} (e : x.setNext i v = .ok y) : ∀ j, j ≠ i → y.nextStone[j]? = x.nextStone[j]? := by
  intro j hj
  unfold Goban.setNext at e
  split at e
  · cases e
    exact List.getElem?_set_ne (Ne.symm hj)
  · cases e

theorem swapNext_links {a b : Nat} (e : x.swapNext a b = .ok y) :
    ∀ j, j ≠ a → j ≠ b → y.nextStone[j]? = x.nextStone[j]? := by
  intro j ha hb
  unfold Goban.swapNext at e
  split at e
  · cases e
    show ((x.nextStone.set _ _).set _ _)[j]? = _
    rw [List.getElem?_set_ne (Ne.symm hb), List.getElem?_set_ne (Ne.symm ha)]
  · cases e

theorem setBoard_next {i : Nat} {o : Option Nat} (e : x.setBoard i o = .ok y) : y.nextStone = x.nextStone := by
  unfold Goban.setBoard at e
  split at e
  · cases e; rfl
  · cases e

theorem updateChain_next {j : Nat} (e : x.updateChainIndexesInBoard dbg j = .ok y) : y.nextStone = x.nextStone := by
  unfold Goban.updateChainIndexesInBoard at e
  obtain ⟨ch, _, e⟩ := bind_eq_ok e
  obtain ⟨pts, _, e⟩ := bind_eq_ok e
  obtain ⟨_, _, e⟩ := bind_eq_ok e
  have aux : ∀ (pts : List Nat) (x y : Goban), pts.foldlM (fun g point =>
      if u16 j = 65535 then panic else Goban.setBoard g point (some (u16 j))) x = .ok y → y.nextStone = x.nextStone := by
    intro pts
    induction pts with
    | nil => intro x y e; cases e; rfl
    | cons a pts ih =>
      intro x y e
      rw [List.foldlM_cons] at e
      obtain ⟨x1, e1, e2⟩ := bind_eq_ok e
      split at e1
      · cases e1
      · rw [ih x1 y e2, setBoard_next e1]
  exact aux pts x y e

theorem create_links {p : Nat} {c : Color} {libs : List Nat} {t : Nat} (e : x.createChain dbg p c libs = .ok (t, y)) :
    ∀ j, j ≠ p → y.nextStone[j]? = x.nextStone[j]? := by
  intro j hj
  unfold Goban.createChain at e
  obtain ⟨lib, _, e⟩ := bind_eq_ok e
  obtain ⟨x1, e2, e⟩ := bind_eq_ok e
  simp only [Groups.putFreeSpot] at e
  obtain ⟨x2, e3, e⟩ := bind_eq_ok e
  cases e
  rw [updateChain_next e3]
  exact setNext_links e2 j hj

theorem merge_links {k1 k2 : Nat} {c1 c2 : Group} (h1 : x.ch k1 = some c1) (h2 : x.ch k2 = some c2)
    (e : x.mergeStrings dbg k1 k2 = .ok y) : ∀ j, j ≠ c1.last → j ≠ c2.last → y.nextStone[j]? = x.nextStone[j]? := by
  intro j ha hb
  unfold Goban.mergeStrings at e
  rw [Goban.chainAt_ok h1, ok_bind, Goban.chainAt_ok h2, ok_bind] at e
  obtain ⟨_, e3, e⟩ := bind_eq_ok e
  obtain ⟨_, e4, e⟩ := bind_eq_ok e
  dsimp only at e
  obtain ⟨x1, e5, e⟩ := bind_eq_ok e
  obtain ⟨m, e6, e⟩ := bind_eq_ok e
  obtain ⟨x2, e7, e⟩ := bind_eq_ok e
  obtain ⟨cs, e8, e⟩ := bind_eq_ok e
  cases e
  show x2.nextStone[j]? = _
  rw [updateChain_next e7]
  exact swapNext_links e5 j ha hb

theorem addTail_next {j : Nat} {gr1 : Group} (e : Model.addTail dbg j x gr1 = .ok y) : y.nextStone = x.nextStone := by
  unfold Model.addTail at e
  obtain ⟨m, e3, e⟩ := bind_eq_ok e
  cases dbg with
  | false =>
    simp only [Bool.false_eq_true, if_false] at e
    cases e; rfl
  | true =>
    simp only [if_true] at e
    obtain ⟨l, e4, e⟩ := bind_eq_ok e
    obtain ⟨_, e5, e⟩ := bind_eq_ok e
    cases e; rfl

theorem addStone_links {j p : Nat} {gj : Group} (hj : x.ch j = some gj) (e : x.addStoneToChain dbg j p = .ok y) :
    ∀ i, i ≠ p → i ≠ gj.last → y.nextStone[i]? = x.nextStone[i]? := by
  intro i hp hl
  unfold Goban.addStoneToChain at e
  rw [Goban.chainAt_ok hj, ok_bind] at e
  dsimp only at e
  split at e
  · obtain ⟨a1, f1, e⟩ := bind_eq_ok e
    obtain ⟨a2, f2, e⟩ := bind_eq_ok e
    rw [addTail_next (dbg := dbg) (gr1 := { gj with origin := u16 p }) e, setNext_links f2 i hl, setNext_links f1 i hp]
  · obtain ⟨a1, f1, e⟩ := bind_eq_ok e
    obtain ⟨a2, f2, e⟩ := bind_eq_ok e
    rw [addTail_next (dbg := dbg) (gr1 := { gj with last := u16 p }) e, setNext_links f2 i hp, setNext_links f1 i hl]

theorem mergeFold_links {p : Nat} {c : Color} {L : Nat → Prop} (h0 : Rep g) (hb : g.bd p = none) {i : Nat} (hi : i ≠ p) :
    ∀ (todo done : List Nat) (x y : Goban) (t t' : Nat), Att g x p c done t (fun x => L x ∨ LibOf g done x) →
      (done ++ todo).Nodup → (∀ j ∈ todo, ∃ gj, g.ch j = some gj ∧ gj.color = c) → (∀ j ∈ done ++ todo, g.bd i ≠ some j) →
      todo.foldlM (Goban.mergeStep dbg) (x, t) = .ok (y, t') → y.nextStone[i]? = x.nextStone[i]? := by
  intro todo
  induction todo with
  | nil => intro done x y t t' _ _ _ _ e; cases e; rfl
  | cons a todo ih =>
    intro done x y t t' h hnd hs hout e
    obtain ⟨ga, ha, hca⟩ := hs a (by simp)
    have hnew : a ∉ done := by
      intro h'
      rw [List.nodup_append] at hnd
      exact hnd.2.2 a h' a (by simp) rfl
    obtain ⟨g1, t1, e1, h1⟩ := mergeStep_att (dbg := dbg) h0 h hb ha hca hnew
    have h1' := h1.congr (L' := fun x => L x ∨ LibOf g (done ++ [a]) x) (by
      intro x; rw [LibOf_append]; exact or_assoc)
    rw [List.foldlM_cons, e1, ok_bind] at e
    rw [ih (done ++ [a]) g1 y t1 t' h1' (by simpa using hnd) (fun j hj => hs j (by simp [hj])) (by simpa using hout) e]
    -- one step
    obtain ⟨gt, ht, hct, _⟩ := h.added
    have hta : t ≠ a := by
      rintro rfl
      rcases h.new with h' | h'
      · exact hnew h'
      · have := Goban.ch_lt ha; omega
    have hga : x.ch a = some ga := (h.other a (Ne.symm hta) hnew).trans ha
    obtain ⟨lt, hlt⟩ := h.rep.chain t gt ht
    obtain ⟨la, hla⟩ := h.rep.chain a ga hga
    have hbi : x.bd i = g.bd i := h.bdo i hi (fun j hj => hout j (by simp [hj]))
    have hia : i ≠ ga.last := by
      rintro rfl
      have := (hla.mem _).2 hla.last_mem
      rw [hbi] at this
      exact hout a (by simp) this
    have hit : i ≠ gt.last := by
      rintro rfl
      have := (hlt.mem _).2 hlt.last_mem
      rw [hbi] at this
      rcases h.new with h' | h'
      · exact hout t (by simp [h']) this
      · obtain ⟨gg, hgg⟩ := h0.live _ _ this
        have := Goban.ch_lt hgg; omega
    unfold Goban.mergeStep at e1
    dsimp only at e1
    rw [Goban.chainAt_ok hga, ok_bind, Goban.chainAt_ok ht, ok_bind] at e1
    split at e1
    · obtain ⟨x1, e3, e4⟩ := bind_eq_ok e1
      cases e4
      exact merge_links ht hga e3 i hit hia
    · obtain ⟨x1, e3, e4⟩ := bind_eq_ok e1
      cases e4
      exact merge_links hga ht e3 i hia hit

/-- Attaching a stone on an empty cell writes no link but those of the stone and of the groups it joins. -/
theorem attach_links {p t : Nat} {c : Color} {same libs : List Nat} (h0 : Rep g) (hp : p < 361) (hb : g.bd p = none)
    (hl : ∀ i ∈ libs, i < 368) (hroom : g.chains.length < 65535 ∨ same.length = 1) (hnd : same.Nodup)
    (hs : ∀ j ∈ same, ∃ gj, g.ch j = some gj ∧ gj.color = c) (e : g.attach dbg p c same libs = .ok (t, r)) {i : Nat}
    (hi : i ≠ p) (hout : ∀ j ∈ same, g.bd i ≠ some j) : r.nextStone[i]? = g.nextStone[i]? := by
  rcases same with _ | ⟨a, _ | ⟨b, rest⟩⟩
  · exact create_links e i hi
  · obtain ⟨ga, ha, hca⟩ := hs a (by simp)
    obtain ⟨la, hla⟩ := h0.chain a ga ha
    unfold Goban.attach at e
    dsimp only at e
    rw [Goban.chainAt_ok ha, ok_bind] at e
    obtain ⟨c2, e2, e⟩ := bind_eq_ok e
    obtain ⟨c3, e3, e⟩ := bind_eq_ok e
    obtain ⟨x1, e4, e⟩ := bind_eq_ok e
    split at e
    · cases e
    obtain ⟨x2, e5, e⟩ := bind_eq_ok e
    cases e
    have hlast : c3.last = ga.last := by
      have h1 : c2.last = ga.last := by
        unfold Group.removeLiberty at e2
        cases dbg with
        | false =>
          simp only [Bool.false_eq_true, if_false] at e2
          obtain ⟨_, _, e2⟩ := bind_eq_ok e2
          cases e2; rfl
        | true =>
          simp only [if_true] at e2
          obtain ⟨_, _, e2⟩ := bind_eq_ok e2
          obtain ⟨_, _, e2⟩ := bind_eq_ok e2
          obtain ⟨_, _, e2⟩ := bind_eq_ok e2
          cases e2; rfl
      have aux : ∀ (l : List Nat) (u v : Group), l.foldlM (fun g i => Group.addLibertyUnchecked g i) u = .ok v → v.last = u.last := by
        intro l
        induction l with
        | nil => intro u v e; cases e; rfl
        | cons a l ih =>
          intro u v e
          rw [List.foldlM_cons] at e
          obtain ⟨w, f1, f2⟩ := bind_eq_ok e
          rw [ih w v f2]
          unfold Group.addLibertyUnchecked at f1
          obtain ⟨_, _, f1⟩ := bind_eq_ok f1
          cases f1; rfl
      exact (aux _ _ _ e3).trans h1
    rw [setBoard_next e5, addStone_links (gj := c3) (by rw [Goban.ch_setChain (Goban.ch_lt ha), if_pos rfl]) e4 i hi]
    · rfl
    · rw [hlast]
      rintro rfl
      exact hout t (by simp) ((hla.mem _).2 hla.last_mem)
  · unfold Goban.attach at e
    dsimp only at e
    obtain ⟨⟨t1, x1⟩, e1, e⟩ := bind_eq_ok e
    dsimp only at e
    obtain ⟨⟨x2, t2⟩, e2, e⟩ := bind_eq_ok e
    dsimp only at e
    obtain ⟨c1, e3, e⟩ := bind_eq_ok e
    obtain ⟨c2, e4, e⟩ := bind_eq_ok e
    cases e
    obtain ⟨g1, e1', h1⟩ := create_att (dbg := dbg) (c := c) h0 hp hb hl (hroom.resolve_right (by simp))
    have hx : g.chains.length = t1 ∧ g1 = x1 := by rw [e1'] at e1; cases e1; exact ⟨rfl, rfl⟩
    rw [← hx.1, ← hx.2] at e2
    have h1' : Att g g1 p c [] g.chains.length (fun x => x ∈ libs ∨ LibOf g [] x) := h1.congr (by
      intro x
      constructor
      · exact Or.inl
      · rintro (h' | ⟨j, hj, _⟩)
        · exact h'
        · simp at hj)
    show x2.nextStone[i]? = _
    rw [mergeFold_links (dbg := dbg) h0 hb hi (a :: b :: rest) [] g1 x2 _ _ h1' (by simpa using hnd) hs hout e2]
    exact create_links e1' i hi

/-! ### Walks -/

/-- A walk among cells that never lead to `o` does not end, in a release build. -/
theorem iterFrom_trapped {nx : List Nat} {o : Nat} {C : Nat → Prop} (h : ∀ a, C a → ∃ b, nx[a]? = some b ∧ b ≠ o ∧ C b) :
    ∀ (fuel a : Nat), C a → Group.iterFrom false nx o fuel a = .error .diverge := by
  intro fuel
  induction fuel with
  | zero => intro a _; rfl
  | succ f ih =>
    intro a ha
    obtain ⟨b, h1, h2, h3⟩ := h a ha
    unfold Group.iterFrom
    rw [h1]
    simp only [if_neg h2, Bool.false_and, Bool.false_eq_true, if_false]
    rw [ih b h3]; rfl

/-- The same for a loop over the stones whose body returns. -/
theorem iterFold_trapped {σ} {nx : List Nat} {o : Nat} {C : Nat → Prop} {P : σ → Prop} {body : σ → Nat → M σ}
    (h : ∀ a, C a → ∃ b, nx[a]? = some b ∧ b ≠ o ∧ C b) (hb : ∀ s a, P s → C a → ∃ s', body s a = .ok s' ∧ P s') :
    ∀ (fuel a : Nat) (s : σ), C a → P s → Group.iterFoldFrom false nx o body fuel a s = .error .diverge := by
  intro fuel
  induction fuel with
  | zero => intro a s _ _; rfl
  | succ f ih =>
    intro a s ha hs
    obtain ⟨b, h1, h2, h3⟩ := h a ha
    obtain ⟨s', e, hs'⟩ := hb s a hs ha
    unfold Group.iterFoldFrom
    rw [h1]
    simp only [if_neg h2, Bool.false_and, Bool.false_eq_true, if_false]
    rw [e, ok_bind, ih b s' h3 hs']

theorem Walk.split {nx : List Nat} {o p : Nat} {v : List Nat} : ∀ {u : List Nat}, Walk nx o (u ++ p :: v) → u ≠ [] → Walk nx p u
  | [], _, h => absurd rfl h
  | [_], h, _ => h.1
  | _ :: b :: u, h, _ => ⟨h.1, Walk.split (u := b :: u) h.2 (by simp)⟩

theorem Walk.tail {nx : List Nat} {o p : Nat} {v : List Nat} : ∀ {u : List Nat}, Walk nx o (u ++ p :: v) → Walk nx o (p :: v)
  | [], h => h
  | [_], h => h.2
  | _ :: b :: u, h => Walk.tail (u := b :: u) h.2

/-- Every stone of a walk leads to a later one or to the end. -/
theorem Walk.step {nx : List Nat} {o : Nat} : ∀ {l : List Nat}, Walk nx o l → l.Nodup → ∀ a ∈ l, ∃ b, nx[a]? = some b ∧
    (b ∈ l.tail ∨ b = o)
  | [], h, _, _, _ => h.elim
  | [a], h, _, x, hx => by
    rw [List.mem_singleton] at hx; subst hx
    exact ⟨o, h, Or.inr rfl⟩
  | a :: b :: t, h, hnd, x, hx => by
    rcases List.mem_cons.1 hx with rfl | hx
    · exact ⟨b, h.1, Or.inl (by simp)⟩
    · obtain ⟨y, h1, h2⟩ := Walk.step h.2 (List.nodup_cons.1 hnd).2 x hx
      refine ⟨y, h1, ?_⟩
      rcases h2 with h2 | h2
      · exact Or.inl (List.mem_cons_of_mem _ h2)
      · exact Or.inr h2

/-- A circle entered at `p`. -/
theorem Walk.rotate {nx : List Nat} {o p : Nat} {u v : List Nat} (h : Walk nx o (u ++ p :: v)) (hh : (u ++ p :: v).head? = some o) :
    Walk nx p (p :: v ++ u) := by
  cases u with
  | nil =>
    simp only [List.nil_append, List.head?_cons, Option.some.injEq] at hh
    subst hh
    simpa using h
  | cons a u =>
    simp only [List.cons_append, List.head?_cons, Option.some.injEq] at hh
    subst hh
    exact Walk.append (l := p :: v) h.tail (h.split (by simp))

/-! ### The board after pushing on an occupied cell whose group is not joined -/

structure Cut (g : Goban) (p k : Nat) (grp : Group) (c : Color) (same : List Nat) (r : Goban) (t : Nat) : Prop where
  size : r.size = g.size
  blen : r.board.length = 361
  nlen : r.nextStone.length = 361
  live : ∀ i j, r.bd i = some j → ∃ gj, r.ch j = some gj
  libs : ∀ j gj, r.ch j = some gj → gj.liberties.length = 46
  old : r.ch k = some grp
  ne : t ≠ k
  new : ∃ gt lt, r.ch t = some gt ∧ gt.color = c ∧ Walk r.nextStone gt.origin lt ∧ lt.Nodup ∧ lt.head? = some gt.origin ∧
    ∀ i, i ∈ lt ↔ r.bd i = some t
  cells : ∀ i, r.bd i = some t ↔ i = p ∨ ∃ j ∈ same, g.bd i = some j
  kept : ∀ i, i ≠ p → g.bd i = some k → r.bd i = some k
  links : ∀ i, i ≠ p → g.bd i = some k → r.nextStone[i]? = g.nextStone[i]?

theorem attach_cut {p t : Nat} {c : Color} {same libs : List Nat} (h : Rep g) (hp : p < 361) (hb : g.bd p = some k)
    (hk : g.ch k = some grp) (hl : ∀ i ∈ libs, i < 368) (hpl : p ∉ libs)
    (hroom : g.chains.length < 65535 ∨ same.length = 1) (hnd : same.Nodup) (hks : k ∉ same)
    (hs : ∀ j ∈ same, ∃ gj, g.ch j = some gj ∧ gj.color = c ∧ (dbg = true → has p gj.liberties = true))
    (e : g.attach dbg p c same libs = .ok (t, r)) : Cut g p k grp c same r t := by
  have hlt := Goban.ch_lt hk
  have hrs := strip_rep h hlt
  have hgr := strip_gr hk
  have hsch : ∀ j, j ≠ k → (strip g k).ch j = g.ch j := fun j hj => by rw [strip_ch hlt, if_neg hj]
  have hslen : (strip g k).chains.length = g.chains.length := List.length_set
  have hsp : (strip g k).bd p = none := by rw [strip_bd, if_pos hb]
  have hs' : ∀ j ∈ same, ∃ gj, (strip g k).ch j = some gj ∧ gj.color = c ∧ (dbg = true → has p gj.liberties = true) := by
    intro j hj
    obtain ⟨gj, h1, h2⟩ := hs j hj
    exact ⟨gj, by rw [hsch j (fun h' => hks (h' ▸ hj))]; exact h1, h2⟩
  obtain ⟨s, t', es, hA⟩ := attach_att (dbg := dbg) (c := c) hrs hp hsp hl hpl (by rw [hslen]; exact hroom) hnd hs'
  obtain ⟨r', er, gr⟩ := hgr.attach es
  rw [er] at e
  obtain ⟨rfl, rfl⟩ : t' = t ∧ r' = r := by cases e; exact ⟨rfl, rfl⟩
  have hlink : ∀ i, i ≠ p → g.bd i = some k → s.nextStone[i]? = g.nextStone[i]? := by
    intro i hi hik
    exact attach_links (dbg := dbg) hrs hp hsp hl (by rw [hslen]; exact hroom) hnd
      (fun j hj => let ⟨gj, h1, h2, _⟩ := hs' j hj; ⟨gj, h1, h2⟩) es hi
      (fun j _ => by rw [strip_bd, if_pos hik]; simp)
  obtain ⟨gt, hgt, hct, hLt⟩ := hA.added
  have hrch : ∀ j, j ≠ k → r'.ch j = s.ch j := by
    intro j hj
    unfold Goban.ch
    rw [gr.chains, Goban.ch_set gr.klt, if_neg hj]
  have hrk : r'.ch k = some grp := by
    unfold Goban.ch
    rw [gr.chains, Goban.ch_set gr.klt, if_pos rfl]
  have hne : ∀ j gj, s.ch j = some gj → j ≠ k := by
    rintro j gj hj rfl
    rw [gr.free] at hj; cases hj
  have htk := hne t' gt hgt
  have hsd : ∀ i j, s.bd i = some j → r'.bd i = some j := by
    intro i j hj
    rw [gr.bd, hj]; rfl
  have hsn : ∀ i, i ≠ p → g.bd i = some k → s.bd i = none := by
    intro i hi hik
    rw [hA.bdo i hi (fun j _ => by rw [strip_bd, if_pos hik]; simp), strip_bd, if_pos hik]
  have hrt : ∀ i, r'.bd i = some t' ↔ s.bd i = some t' := by
    intro i
    constructor
    · intro h'
      rw [gr.bd] at h'
      cases hsi : s.bd i with
      | none =>
        rw [hsi, Option.none_or] at h'
        split at h'
        · exact absurd (Option.some.inj h').symm htk
        · cases h'
      | some j => rw [hsi, Option.some_or] at h'; exact h'
    · exact hsd i t'
  obtain ⟨lt, hclt⟩ := hA.rep.chain t' gt hgt
  refine ⟨?_, ?_, ?_, ?_, ?_, hrk, htk, ⟨gt, lt, by rw [hrch t' htk]; exact hgt, hct, by rw [gr.next]; exact hclt.walk, hclt.nodup,
    hclt.head, fun i => by rw [hrt]; exact (hclt.mem i).symm⟩, ?_, ?_, ?_⟩
  · rw [gr.size, hA.size]; rfl
  · rw [gr.blen, hA.rep.blen]
  · rw [gr.next, hA.rep.nlen]
  · intro i j hj
    rw [gr.bd] at hj
    cases hsb : s.bd i with
    | none =>
      rw [hsb, Option.none_or] at hj
      split at hj
      · cases hj; exact ⟨grp, hrk⟩
      · cases hj
    | some j' =>
      rw [hsb, Option.some_or] at hj
      cases hj
      obtain ⟨gj, hgj⟩ := hA.rep.live i j hsb
      exact ⟨gj, by rw [hrch j (hne j gj hgj)]; exact hgj⟩
  · intro j gj hj
    by_cases hjk : j = k
    · subst hjk
      rw [hrk] at hj; cases hj
      obtain ⟨l, hc⟩ := h.chain j grp hk
      exact hc.libs
    · rw [hrch j hjk] at hj
      obtain ⟨l, hc⟩ := hA.rep.chain j gj hj
      exact hc.libs
  · intro i
    rw [hrt]
    constructor
    · intro h'
      by_cases hi : i = p ∨ ∃ j ∈ same, (strip g k).bd i = some j
      · rcases hi with hi | ⟨j, hj, hj'⟩
        · exact Or.inl hi
        · exact Or.inr ⟨j, hj, (strip_bd_ne (fun h' : j = k => hks (h' ▸ hj))).1 hj'⟩
      · exfalso
        rw [not_or] at hi
        rw [hA.bdo i hi.1 (fun j hj hj' => hi.2 ⟨j, hj, hj'⟩)] at h'
        rcases hA.new with h'' | h''
        · exact hi.2 ⟨t', h'', h'⟩
        · obtain ⟨gg, hgg⟩ := hrs.live i t' h'
          have := Goban.ch_lt hgg
          omega
    · rintro (h' | ⟨j, hj, hj'⟩)
      · exact hA.bdt i (Or.inl h')
      · exact hA.bdt i (Or.inr ⟨j, hj, (strip_bd_ne (fun h' : j = k => hks (h' ▸ hj))).2 hj'⟩)
  · intro i hi hik
    rw [gr.bd, hsn i hi hik, if_pos hik]; rfl
  · intro i hi hik
    rw [gr.next]; exact hlink i hi hik

theorem take_links {p : Nat} : ∀ (l : List Nat) (x y : Goban) (d d' : List Nat),
    l.foldlM (Goban.takeLiberty dbg p) (x, d) = .ok (y, d') → y.nextStone = x.nextStone := by
  intro l
  induction l with
  | nil => intro x y d d' e; cases e; rfl
  | cons a l ih =>
    intro x y d d' e
    rw [List.foldlM_cons] at e
    obtain ⟨⟨x1, d1⟩, e1, e2⟩ := bind_eq_ok e
    rw [ih x1 y d1 d' e2]
    unfold Goban.takeLiberty at e1
    dsimp only at e1
    obtain ⟨g1, _, e1⟩ := bind_eq_ok e1
    obtain ⟨g2, _, e1⟩ := bind_eq_ok e1
    cases e1; rfl

/-- The stages of a push on an occupied cell, in a release build. -/
structure Stages (n : Dim) (g : Goban) (p : Nat) (c : Color) (f : Goban.Feedback) (a : Goban.Around) (g1 : Goban) : Prop where
  around : AroundOK g c (nbrs n p) a
  took : Took g g1 p a.opp f.dead
  next : g1.nextStone = g.nextStone
  attach : ∃ r, g1.attach false p c a.same a.libs = .ok (f.added, r) ∧
    f.goban = { r with zobristHash := r.zobristHash ^^^ zkey p (some c) }
  room : g.chains.length < 65535 ∨ a.same.length = 1

theorem push_stages {n : Dim} {pt : Coord} {c : Color} {f : Goban.Feedback} (h : Inv n g) (hpt : OnBoard n pt)
    (e : g.pushWthFeedback false pt c = .ok f) : ∃ a g1, Stages n g (twoTo1dim n.sz pt) c f a g1 := by
  generalize hpe : twoTo1dim n.sz pt = p at *
  have hpN : Ix n p := hpe ▸ twoTo1_lt h.good hpt
  have hp361 := h.lt361 hpN
  have hn := h.good
  have hr := h.rep
  have hnb361 : ∀ x ∈ nbrs n p, x < 361 := fun x hx => h.lt361 (nbrs_lt hn hpN hx)
  obtain ⟨a, ea, ha⟩ := around_ok (c := c) hr hnb361
  have hopp : ∀ j ∈ a.opp, ∃ gj, g.ch j = some gj := by
    intro j hj
    obtain ⟨i, hi, hbi, hci⟩ := (ha.opp j).1 hj
    exact hr.live i j hbi
  obtain ⟨g1, dead, e1, ht⟩ := take_ok (dbg := false) hr (show p < 368 by omega) ha.ond (fun j hj => by
    obtain ⟨gj, h1⟩ := hopp j hj
    exact ⟨gj, h1, fun hdb => by cases hdb⟩)
  have hz := indexZobrist_ok (c := c) hp361
  have hlibs368 : ∀ i ∈ a.libs, i < 368 := by
    intro i hi
    have := hnb361 i ((ha.libs i).1 hi).1
    omega
  have hrun : g.pushWthFeedback false pt c = (do
      let (added, g) ← g1.attach false p c a.same a.libs
      .ok { dead := dead, added := added, goban := { g with zobristHash := g.zobristHash ^^^ zkey p (some c) } }) := by
    unfold Goban.pushWthFeedback
    rw [h.size, hpe]
    dsimp only
    rw [neighborsIdx_ok h.size hn hpN, ok_bind, ea, ok_bind, e1, ok_bind]
    dsimp only
    rw [hz]
    rfl
  rw [hrun] at e
  obtain ⟨⟨t, r⟩, er, e⟩ := bind_eq_ok e
  cases e
  refine ⟨a, g1, ha, ht, take_links _ _ _ _ _ e1, ⟨r, er, rfl⟩, ?_⟩
  by_cases hroom : g.chains.length < 65535 ∨ a.same.length = 1
  · exact hroom
  · rw [not_or] at hroom
    have hfull : g.chains.length = 65535 := by have := hr.few; omega
    rw [attach_panic ht.rep hp361 hlibs368 (by rw [ht.clen]; exact hfull) hroom.2] at er
    cases er

/-- A push on an occupied cell that does not join the group there: another colour, or a stone with no neighbour of its group. -/
theorem push_cut {n : Dim} {pt : Coord} {c : Color} {f : Goban.Feedback} (h : Inv n g) (hpt : OnBoard n pt)
    (hb : g.bd (twoTo1dim n.sz pt) = some k) (hk : g.ch k = some grp)
    (hj : ∀ j ∈ nbrs n (twoTo1dim n.sz pt), g.bd j = some k → grp.color ≠ c) (e : g.pushWthFeedback false pt c = .ok f) :
    ∃ lib same, Cut g (twoTo1dim n.sz pt) k { grp with liberties := lib } c same f.goban f.added ∧
      ∀ j, j ∈ same ↔ ∃ i ∈ nbrs n (twoTo1dim n.sz pt), g.bd i = some j ∧ g.col i = some c := by
  obtain ⟨a, g1, ha, ht, hnx, ⟨r, er, hf⟩, hroom⟩ := push_stages h hpt e
  generalize hpe : twoTo1dim n.sz pt = p at *
  have hpN : Ix n p := hpe ▸ twoTo1_lt h.good hpt
  have hp361 := h.lt361 hpN
  have hn := h.good
  have hr := h.rep
  have hnb361 : ∀ x ∈ nbrs n p, x < 361 := fun x hx => h.lt361 (nbrs_lt hn hpN hx)
  have hlibs368 : ∀ i ∈ a.libs, i < 368 := by
    intro i hi
    have := hnb361 i ((ha.libs i).1 hi).1
    omega
  have hplibs : p ∉ a.libs := fun h' => nbrs_ne hn hpN ((ha.libs p).1 h').1 rfl
  have hsame : ∀ j ∈ a.same, ∃ gj, g.ch j = some gj ∧ gj.color = c := by
    intro j hj
    obtain ⟨i, hi, hbi, hci⟩ := (ha.same j).1 hj
    obtain ⟨gj, hgj⟩ := hr.live i j hbi
    rw [col_of_bd hbi hgj] at hci
    exact ⟨gj, hgj, Option.some.inj hci⟩
  have hopp : ∀ j ∈ a.opp, ∃ gj, g.ch j = some gj ∧ gj.color = c.opp := by
    intro j hj
    obtain ⟨i, hi, hbi, hci⟩ := (ha.opp j).1 hj
    obtain ⟨gj, hgj⟩ := hr.live i j hbi
    rw [col_of_bd hbi hgj] at hci
    exact ⟨gj, hgj, Option.some.inj hci⟩
  have hso : ∀ j, j ∈ a.same → j ∈ a.opp → False := by
    intro j h1 h2
    obtain ⟨gk, e1, e2⟩ := hsame j h1
    obtain ⟨gk', e1', e2'⟩ := hopp j h2
    rw [e1] at e1'; cases e1'
    rw [e2] at e2'; exact Color.ne_opp c e2'
  have hks : k ∉ a.same := by
    intro h'
    obtain ⟨i, hi, hbi, hci⟩ := (ha.same k).1 h'
    rw [col_of_bd hbi hk] at hci
    exact hj i hi hbi (Option.some.inj hci)
  have hk1 : ∃ lib, g1.ch k = some { grp with liberties := lib } := by
    by_cases hko : k ∈ a.opp
    · obtain ⟨l', h1, _⟩ := ht.taken k hko grp hk
      exact ⟨l', h1⟩
    · exact ⟨grp.liberties, (ht.other k hko).trans hk⟩
  obtain ⟨lib, hk1⟩ := hk1
  have C := attach_cut (dbg := false) ht.rep hp361 (by rw [ht.bd]; exact hb) hk1 hlibs368 hplibs (by rw [ht.clen]; exact hroom)
    ha.snd hks (fun j hj => by
      obtain ⟨gj, h1, h2⟩ := hsame j hj
      exact ⟨gj, (ht.other j (fun h' => hso j hj h')).trans h1, h2, fun h' => by cases h'⟩) er
  rw [hf]
  refine ⟨lib, a.same, ⟨C.size.trans ht.size, C.blen, C.nlen, C.live, C.libs, C.old, C.ne, C.new, ?_, ?_, ?_⟩, ha.same⟩
  · intro i
    refine (C.cells i).trans ?_
    simp only [ht.bd]
  · intro i hi hik
    exact C.kept i hi (by rw [ht.bd]; exact hik)
  · intro i hi hik
    refine (C.links i hi (by rw [ht.bd]; exact hik)).trans ?_
    rw [hnx]

/-! ### What the iterator of the old group does -/

theorem Cut.isOk {p : Nat} {c : Color} {same : List Nat} {t : Nat} (C : Cut g p k grp c same r t) : ∃ gt lt, r.ch t = some gt ∧ gt.color = c ∧
    Walk r.nextStone gt.origin lt ∧ lt.Nodup ∧ lt.head? = some gt.origin ∧ p ∈ lt ∧ ∀ i, i ∈ lt ↔ i = p ∨ ∃ j ∈ same, g.bd i = some j := by
  obtain ⟨gt, lt, h1, h2, h3, h4, h5, h6⟩ := C.new
  exact ⟨gt, lt, h1, h2, h3, h4, h5, (h6 p).2 ((C.cells p).2 (Or.inl rfl)), fun i => (h6 i).trans (C.cells i)⟩

/-- The overwritten stone was the first of its group: the iterator lists the group of the new stone. -/
theorem Cut.first {p : Nat} {c : Color} {same : List Nat} {t : Nat} (C : Cut g p k grp c same r t) (ho : grp.origin = p) :
    ∃ l, grp.iter dbg r.nextStone = .ok l ∧ l.Nodup ∧ ∀ i, i ∈ l ↔ i = p ∨ ∃ j ∈ same, g.bd i = some j := by
  obtain ⟨gt, lt, _, _, hw, hnd, hh, hp, hm⟩ := C.isOk
  obtain ⟨u, v, rfl⟩ := List.append_of_mem hp
  have hrot := hw.rotate hh
  have hnd' : (p :: v ++ u).Nodup := by
    have : (p :: v ++ u).Perm (u ++ p :: v) := List.perm_append_comm
    exact this.nodup_iff.2 hnd
  have hlen : (p :: v ++ u).length ≤ 361 := nodup_length_le hnd' (fun a ha => C.nlen ▸ hrot.lt a ha)
  refine ⟨p :: (v ++ u), ?_, hnd', fun i => ?_⟩
  · unfold Group.iter
    rw [ho]
    refine Walk.iterFrom (v ++ u) p _ hrot hnd' (List.nodup_cons.1 hnd').1 ?_
    rw [C.nlen]; exact Nat.le_succ_of_le hlen
  · rw [← hm i]
    simp only [List.mem_cons, List.mem_append]
    constructor
    · rintro (h' | h' | h')
      · exact Or.inr (Or.inl h')
      · exact Or.inr (Or.inr h')
      · exact Or.inl h'
    · rintro (h' | h' | h')
      · exact Or.inr (Or.inr h')
      · exact Or.inl h'
      · exact Or.inr (Or.inl h')

/-- The overwritten stone was not the first of its group: the walk stays in the stones before it and in the new group, and does not
come back to the first stone. -/
theorem Cut.trap {p : Nat} {c : Color} {same u v : List Nat} {t : Nat} (C : Cut g p k grp c same r t)
    (hw : Walk g.nextStone grp.origin (u ++ p :: v)) (hnd : (u ++ p :: v).Nodup) (hh : (u ++ p :: v).head? = some grp.origin)
    (hm : ∀ i ∈ u, g.bd i = some k) (hu : u ≠ []) (hks : k ∉ same) :
    grp.origin ∈ u ∧ ∀ a, (a ∈ u ∨ r.bd a = some t) → ∃ b, r.nextStone[a]? = some b ∧ b ≠ grp.origin ∧ (b ∈ u ∨ r.bd b = some t) := by
  obtain ⟨gt, lt, _, _, hwt, hndt, hht, hpt, hmt⟩ := C.isOk
  have hlt : ∀ i, r.bd i = some t ↔ i ∈ lt := fun i => (C.cells i).trans (hmt i).symm
  obtain ⟨o, w, rfl⟩ : ∃ o w, u = o :: w := by
    cases u with
    | nil => exact absurd rfl hu
    | cons o w => exact ⟨o, w, rfl⟩
  have ho : o = grp.origin := by simpa using hh
  have hndu : (o :: w).Nodup := (List.nodup_append.1 hnd).1
  have hup : ∀ i ∈ o :: w, i ≠ p := fun i hi => (List.nodup_append.1 hnd).2.2 i hi p (by simp)
  have hot : ∀ i ∈ lt, i ≠ grp.origin := by
    intro i hi h'
    rw [h', ← ho] at hi
    rcases (hmt o).1 hi with h1 | ⟨j, hj, hbj⟩
    · exact hup o (by simp) h1
    · rw [hm o (by simp)] at hbj
      exact hks (Option.some.inj hbj ▸ hj)
  refine ⟨by simp [ho], ?_⟩
  rintro a (ha | ha)
  · obtain ⟨b, h1, h2⟩ := (hw.split (by simp)).step hndu a ha
    refine ⟨b, by rw [C.links a (hup a ha) (hm a ha)]; exact h1, ?_, ?_⟩
    · rcases h2 with h2 | h2
      · rintro rfl
        rw [← ho] at h2
        exact (List.nodup_cons.1 hndu).1 h2
      · rw [h2, ← ho]; exact (hup o (by simp)).symm
    · rcases h2 with h2 | h2
      · exact Or.inl (List.mem_cons_of_mem _ h2)
      · exact Or.inr ((C.cells b).2 (Or.inl h2))
  · rw [hlt] at ha
    obtain ⟨b, h1, h2⟩ := hwt.step hndt a ha
    have hb : b ∈ lt := by
      rcases h2 with h2 | h2
      · exact List.mem_of_mem_tail h2
      · rw [h2]; exact List.mem_of_head? hht
    exact ⟨b, h1, hot b hb, Or.inr ((hlt b).2 hb)⟩

/-! ### Removing stones on a board whose groups need not be circles -/

/-- What `remove_chain` needs of the board at each stone. -/
structure Tame (n : Dim) (r : Goban) : Prop where
  size : r.size = n.sz
  blen : r.board.length = 361
  live : ∀ i j, r.bd i = some j → ∃ gj, r.ch j = some gj
  libs : ∀ j gj, r.ch j = some gj → gj.liberties.length = 46

theorem Tame.removeStone {n : Dim} (hn : n.Good) {c : Color} {i : Nat} (hi : Ix n i) (h : Tame n r) (j : Nat) :
    ∃ r', Goban.removeStoneStep false j c r i = .ok r' ∧ Tame n r' := by
  have hi361 : i < 361 := hi.lt361 hn
  obtain ⟨ks, e1, _, hks⟩ := connectedGroupsIdx_ok (dbg := false) (g := r) h.size hn h.blen hi
  have hfold : ∀ (l : List Nat) (s : Goban), Tame n s → (∀ x ∈ l, ∃ gx, s.ch x = some gx) → ∃ s', l.foldlM (fun (g : Goban) x => do
      let ch ← g.chains.chainAt x
      let ch ← ch.addLiberty false i
      .ok (g.setChain x ch)) s = .ok s' ∧ Tame n s' := by
    intro l
    induction l with
    | nil => intro s hs _; exact ⟨s, rfl, hs⟩
    | cons x l ih =>
      intro s hs hl
      obtain ⟨gx, hx⟩ := hl x (by simp)
      obtain ⟨l', e, hl', _⟩ := addLiberty_ok (dbg := false) (hs.libs x gx hx) (show i < 368 by omega) (fun h' => by cases h')
      have hch : ∀ y, (s.setChain x { gx with liberties := l' }).ch y = if y = x then some { gx with liberties := l' } else s.ch y :=
        fun y => Goban.ch_setChain (Goban.ch_lt hx)
      have hlive : ∀ y gy, s.ch y = some gy → ∃ gy', (s.setChain x { gx with liberties := l' }).ch y = some gy' := by
        intro y gy hy
        rw [hch]
        split
        · exact ⟨_, rfl⟩
        · exact ⟨gy, hy⟩
      obtain ⟨s', e', hs'⟩ := ih (s.setChain x { gx with liberties := l' }) ⟨hs.size, hs.blen, fun y j hj => by
          obtain ⟨gj, hgj⟩ := hs.live y j hj
          exact hlive j gj hgj, fun y gy hy => by
          rw [hch] at hy
          split at hy
          · cases hy; exact hl'
          · exact hs.libs y gy hy⟩ (fun y hy => by
          obtain ⟨gy, h1⟩ := hl y (List.mem_cons_of_mem _ hy)
          exact hlive y gy h1)
      refine ⟨s', ?_, hs'⟩
      rw [List.foldlM_cons, Goban.chainAt_ok hx, ok_bind, e, ok_bind, ok_bind, e']
  obtain ⟨s, e2, hs⟩ := hfold (ks.filter (fun x => x != j)) r h (fun x hx => by
    obtain ⟨y, _, hy⟩ := (hks x).1 (List.mem_filter.1 hx).1
    exact h.live y x hy)
  refine ⟨{ s with zobristHash := s.zobristHash ^^^ zkey i (some c), board := s.board.set i none }, ?_, hs.size, ?_, ?_, hs.libs⟩
  · unfold Goban.removeStoneStep
    rw [e1, ok_bind]
    dsimp only
    rw [e2, ok_bind, indexZobrist_ok (c := c) hi361, ok_bind, Goban.setBoard_ok (by rw [hs.blen]; exact hi361)]
  · show (s.board.set i none).length = 361
    rw [List.length_set, hs.blen]
  · intro y j' hj'
    change ((s.board.set i none)[y]?).join = _ at hj'
    rw [Goban.bd_set (by rw [hs.blen]; exact hi361)] at hj'
    split at hj'
    · cases hj'
    · exact hs.live y j' hj'

/-! ### Adding a stone to the group it is already in -/

/-- After a push of the own colour on a stone of the group `k` with a neighbour in it, the iterator stops at that stone. -/
theorem push_same {n : Dim} {pt : Coord} {c : Color} {f : Goban.Feedback} {u v : List Nat} (h : Inv n g) (hpt : OnBoard n pt)
    (hk : g.ch k = some grp) (hc : IsChain g k grp (u ++ twoTo1dim n.sz pt :: v)) (hgc : grp.color = c)
    (hj : ∃ j ∈ nbrs n (twoTo1dim n.sz pt), g.bd j = some k) (e : g.pushWthFeedback false pt c = .ok f) :
    ∃ grp', f.goban.ch k = some grp' ∧ grp'.color = c ∧ grp'.origin = grp.origin ∧ grp'.last = twoTo1dim n.sz pt ∧ grp'.numStones = grp.numStones + 1 ∧
      (∀ dbg, grp'.iter dbg f.goban.nextStone = .ok (u ++ [twoTo1dim n.sz pt])) ∧ (∀ i, f.goban.bd i = g.bd i) ∧ f.added = k ∧ f.goban.size = g.size := by
  obtain ⟨a, g1, ha, ht, hnx, ⟨r, er, hf⟩, hroom⟩ := push_stages h hpt e
  generalize hpe : twoTo1dim n.sz pt = p at *
  have hpN : Ix n p := hpe ▸ twoTo1_lt h.good hpt
  have hp361 := h.lt361 hpN
  have hb : g.bd p = some k := (hc.mem p).2 (by simp)
  have hcp : g.col p = some c := by rw [col_of_bd hb hk, hgc]
  have hks : k ∈ a.same := by
    obtain ⟨i, hi, hbi⟩ := hj
    exact (ha.same k).2 ⟨i, hi, hbi, by rw [col_of_bd hbi hk, hgc]⟩
  have hko : k ∉ a.opp := by
    intro h'
    obtain ⟨i, hi, hbi, hci⟩ := (ha.opp k).1 h'
    rw [col_of_bd hbi hk, hgc] at hci
    exact Color.ne_opp c (Option.some.inj hci)
  have hall : ∀ j ∈ a.same, j = k := by
    intro j hj
    obtain ⟨i, hi, hbi, hci⟩ := (ha.same j).1 hj
    have := h.closed p i k hi hb (by rw [hci, hcp])
    rw [hbi] at this; exact Option.some.inj this
  have hone : a.same = [k] := by
    have hnd := ha.snd
    rcases hs : a.same with _ | ⟨u, _ | ⟨v, w⟩⟩
    · rw [hs] at hks; simp at hks
    · rw [hall u (by rw [hs]; simp)]
    · rw [hs] at hnd
      have h1 := hall u (by rw [hs]; simp)
      have h2 := hall v (by rw [hs]; simp)
      rw [h1, h2] at hnd; simp at hnd
  have hlibs368 : ∀ i ∈ a.libs, i < 368 := by
    intro i hi
    have := h.lt361 (nbrs_lt h.good hpN ((ha.libs i).1 hi).1)
    omega
  have hk1 : g1.ch k = some grp := (ht.other k hko).trans hk
  have hlt := Goban.ch_lt hk1
  obtain ⟨l1, e1, hl1, hm1⟩ := removeLiberty_ok (dbg := false) (i := p) hc.libs (by omega) (by simp)
  obtain ⟨l2, e2, _, hl2⟩ := unionSlice_ok a.libs { grp with liberties := l1 } hl1 hlibs368
  have hfew := h.rep.few
  have hku : u16 k = k := u16_lt (by have := Goban.ch_lt hk; omega)
  have hpu : u16 p = p := u16_lt (by omega)
  have hlast := hc.lt h.rep.nlen _ hc.last_mem
  have hnum : grp.numStones + 1 < 65536 := by
    have := hc.length_le h.rep.nlen
    rw [hc.num]; omega
  have hadd : addU16 false grp.numStones 1 = .ok (grp.numStones + 1) := by unfold addU16; rw [if_pos hnum]
  have hmin : ¬ p < grp.origin := by have := hc.min p (by simp); omega
  have hch : (g1.setChain k { grp with liberties := l2 }).ch k = some { grp with liberties := l2 } := by
    rw [Goban.ch_setChain hlt, if_pos rfl]
  rw [hone] at er
  unfold Goban.attach at er
  dsimp only at er
  rw [Goban.chainAt_ok hk1, ok_bind, e1, ok_bind, e2, ok_bind] at er
  have eadd : (g1.setChain k { grp with liberties := l2 }).addStoneToChain false k p = .ok { g1 with
      nextStone := (g1.nextStone.set grp.last p).set p grp.origin,
      chains := g1.chains.set k (some { grp with liberties := l2, last := p, numStones := grp.numStones + 1 }) } := by
    unfold Goban.addStoneToChain
    rw [Goban.chainAt_ok hch, ok_bind]
    dsimp only
    rw [if_neg hmin, Goban.setNext_ok (by show grp.last < g1.nextStone.length; rw [hnx, h.rep.nlen]; exact hlast), ok_bind,
      Goban.setNext_ok (by show p < (g1.nextStone.set grp.last _).length; rw [List.length_set, hnx, h.rep.nlen]; exact hp361), ok_bind]
    simp only [pure_bind]
    rw [hadd, ok_bind]
    simp [Goban.setChain, hpu]
  rw [show ({ grp with liberties := l1 } : Group).color = grp.color from rfl] at er
  change ((g1.setChain k { grp with liberties := l2 }).addStoneToChain false k p >>= _) = _ at er
  rw [eadd, ok_bind, hku, if_neg (by have := Goban.ch_lt hk; omega), Goban.setBoard_ok (by show p < g1.board.length; rw [ht.rep.blen]; exact hp361), ok_bind] at er
  injection er with er
  injection er with ek er
  rw [hf, ← er]
  refine ⟨{ grp with liberties := l2, last := p, numStones := grp.numStones + 1 }, ?_, hgc, rfl, rfl, rfl, ?_, ?_, ek.symm, ht.size⟩
  · show ((g1.chains.set k _)[k]?).join = _
    rw [Goban.ch_set hlt, if_pos rfl]
  · intro dbg
    have hnd := hc.nodup
    have hw := hc.walk
    have hup : ∀ i ∈ u, i ≠ p := fun i hi => (List.nodup_append.1 hnd).2.2 i hi p (by simp)
    have hul : ∀ i ∈ u, i ≠ grp.last := by
      intro i hi h'
      have hl := hc.last
      rw [List.getLast?_append] at hl
      cases v with
      | nil =>
        simp only [List.getLast?_singleton, Option.some_or, Option.some.injEq] at hl
        exact hup i hi (h'.trans hl.symm)
      | cons b v =>
        rw [List.getLast?_cons_cons] at hl
        have hmem : grp.last ∈ b :: v := by
          cases hlv : (b :: v).getLast? with
          | none => simp at hlv
          | some z =>
            rw [hlv] at hl
            simp only [Option.some_or, Option.some.injEq] at hl
            rw [← hl]; exact List.mem_of_getLast? hlv
        exact (List.nodup_append.1 hnd).2.2 i hi grp.last (List.mem_cons_of_mem _ hmem) h'
    have hnp : ((g1.nextStone.set grp.last p).set p grp.origin)[p]? = some grp.origin :=
      getElem?_set_eq' (by rw [List.length_set, hnx, h.rep.nlen]; exact hp361)
    have hnu : ∀ i ∈ u, ((g1.nextStone.set grp.last p).set p grp.origin)[i]? = g.nextStone[i]? := by
      intro i hi
      rw [List.getElem?_set_ne (Ne.symm (hup i hi)), List.getElem?_set_ne (Ne.symm (hul i hi)), hnx]
    have hlen : (u ++ [p]).length ≤ 361 := by
      have := hc.length_le h.rep.nlen
      simp only [List.length_append, List.length_cons, List.length_nil] at this ⊢
      omega
    have hnl : ((g1.nextStone.set grp.last p).set p grp.origin).length = 361 := by
      rw [List.length_set, List.length_set, hnx, h.rep.nlen]
    have hhead := hc.head
    show Group.iterFrom dbg ((g1.nextStone.set grp.last p).set p grp.origin) grp.origin
      (((g1.nextStone.set grp.last p).set p grp.origin).length + 1) grp.origin = _
    rw [hnl]
    cases u with
    | nil =>
      have ho : p = grp.origin := by simpa using hhead
      have := Walk.iterFrom (dbg := dbg) [] p 362 (show Walk _ grp.origin [p] from hnp) (by simp) (by simp) (by simp)
      rw [← ho] at this ⊢; exact this
    | cons o w =>
      have ho : o = grp.origin := by simpa using hhead
      have hw1 : Walk ((g1.nextStone.set grp.last p).set p grp.origin) grp.origin (o :: w ++ [p]) :=
        Walk.append (l := o :: w) ((hw.split (by simp)).congr hnu) hnp
      have hnd1 : (o :: w ++ [p]).Nodup := by
        rw [List.nodup_append] at hnd ⊢
        exact ⟨hnd.1, by simp, fun x hx y hy => by rw [List.mem_singleton] at hy; rw [hy]; exact hup x hx⟩
      have := Walk.iterFrom (dbg := dbg) (w ++ [p]) o 362 hw1 hnd1 (by rw [← ho]; exact (List.nodup_cons.1 hnd1).1)
        (Nat.le_succ_of_le hlen)
      rw [← ho] at this ⊢; exact this
  · intro i
    show ((g1.board.set p (some k))[i]?).join = _
    rw [Goban.bd_set (by rw [ht.rep.blen]; exact hp361)]
    by_cases hi : i = p
    · rw [if_pos hi, hi, hb]
    · rw [if_neg hi]; exact ht.bd i

end Model
