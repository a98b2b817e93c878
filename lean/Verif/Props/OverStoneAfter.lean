import Verif.Props.OverStone
import Verif.Proofs.Damage
/-!
# C133: debug builds after the panic of a stone put on a stone

The record of the stone that was there is still in the table, but its link now belongs to the joined group. The check that ends every `push`
of a debug build finds that.
-/

namespace Model
open Spec (OnBoard Adj Joins place)
open Bits (has)

variable {n : Dim} {m : Nat} {b : Goban} {p : Coord} {c d : Color} {dbg : Bool}
variable {k : Nat} {grp : Group} {f : Nat → Option Nat} {x y r : Goban}

/-! ### A board with a record too many -/

theorem Gr.board (h : Gr k grp f x y) (hf : ∀ i, f i ≠ none → x.bd i ≠ none) : y.board = x.board := by
  apply List.ext_getElem?
  intro i
  have hb := h.bd i
  have e : (x.bd i).or (f i) = x.bd i := by
    cases hx : x.bd i with
    | some v => rfl
    | none =>
      rw [Option.none_or]
      by_contra hne
      exact hf i hne hx
  rw [e] at hb
  unfold Goban.bd at hb
  by_cases hi : i < x.board.length
  · rw [List.getElem?_eq_getElem hi, List.getElem?_eq_getElem (by rw [h.blen]; exact hi)] at hb ⊢
    exact congrArg some hb
  · rw [List.getElem?_eq_none (show y.board.length ≤ i by rw [h.blen]; omega), List.getElem?_eq_none (show x.board.length ≤ i by omega)]

theorem Gr.around (h : Gr k grp f x y) (hbd : y.board = x.board) : ∀ {nbs : List Nat} {a a' : Goban.Around},
    nbs.foldlM (x.aroundStep c) a = .ok a' → nbs.foldlM (y.aroundStep c) a = .ok a' := by
  intro nbs
  induction nbs with
  | nil => intro a a' e; exact e
  | cons j nbs ih =>
    intro a a' e
    rw [List.foldlM_cons] at e ⊢
    obtain ⟨a1, e1, e2⟩ := bind_eq_ok e
    have : y.aroundStep c a j = .ok a1 := by
      unfold Goban.aroundStep at e1 ⊢
      obtain ⟨o, e3, e4⟩ := bind_eq_ok e1
      rw [show y.boardAt j = x.boardAt j by unfold Goban.boardAt; rw [hbd], e3, ok_bind]
      cases o with
      | none => exact e4
      | some v =>
        dsimp only at e4 ⊢
        obtain ⟨ch, e5, e6⟩ := bind_eq_ok e4
        rw [h.chainAt e5, ok_bind]; exact e6
    rw [this, ok_bind]
    exact ih e2

theorem Gr.take {i : Nat} : ∀ {opp : List Nat} {x y r : Goban} {dead dead' : List Nat}, Gr k grp f x y →
    opp.foldlM (Goban.takeLiberty dbg i) (x, dead) = .ok (r, dead') →
    ∃ r', opp.foldlM (Goban.takeLiberty dbg i) (y, dead) = .ok (r', dead') ∧ Gr k grp f r r' := by
  intro opp
  induction opp with
  | nil => intro x y r dead dead' h e; cases e; exact ⟨y, rfl, h⟩
  | cons o opp ih =>
    intro x y r dead dead' h e
    rw [List.foldlM_cons] at e ⊢
    obtain ⟨⟨x1, d1⟩, e1, e2⟩ := bind_eq_ok e
    unfold Goban.takeLiberty at e1
    dsimp only at e1
    obtain ⟨g1, e3, e1⟩ := bind_eq_ok e1
    obtain ⟨g2, e4, e1⟩ := bind_eq_ok e1
    cases e1
    obtain ⟨r', e5, h5⟩ := ih (h.setChain (h.ne e3) g2) e2
    refine ⟨r', ?_, h5⟩
    have : Goban.takeLiberty dbg i (y, dead) o = .ok (y.setChain o g2, if g2.isDead then dead ++ [o] else dead) := by
      unfold Goban.takeLiberty
      dsimp only
      rw [h.chainAt e3, ok_bind, e4, ok_bind]
    rw [this, ok_bind]
    exact e5

/-- A full table stops `create_chain` on any board. -/
theorem create_full {g : Goban} {p : Nat} {c : Color} {libs : List Nat} (hnl : g.nextStone.length = 361) (hp : p < 361)
    (hl : ∀ i ∈ libs, i < 368) (hk : g.chains.length = 65535) : g.createChain dbg p c libs = panic := by
  obtain ⟨lib, e1, hlen, hm⟩ := set_fold_ok libs EMPTY_LIBERTIES Bits.empty_length hl
  have hpu : u16 p = p := u16_lt (by omega)
  let g2 : Goban := { g with nextStone := g.nextStone.set p p, chains := g.chains ++ [some (Group.newWithLiberties c p lib)] }
  have hch : g2.ch g.chains.length = some (Group.newWithLiberties c p lib) := by
    show ((g.chains ++ [some _])[g.chains.length]?).join = _
    simp
  have hit : (Group.newWithLiberties c p lib).iter dbg g2.nextStone = .ok [p] := by
    show Group.iterFrom dbg (g.nextStone.set p p) (u16 p) ((g.nextStone.set p p).length + 1) (u16 p) = _
    rw [hpu, List.length_set, hnl]
    exact Walk.iterFrom [] p 362 (getElem?_set_eq' (by rw [hnl]; exact hp)) (by simp) (by simp) (by simp)
  unfold Goban.createChain
  rw [e1, ok_bind, hpu]
  dsimp only
  rw [Goban.setNext_ok (by rw [hnl]; exact hp), ok_bind]
  unfold Groups.putFreeSpot
  dsimp only
  have : Goban.updateChainIndexesInBoard dbg g2 g.chains.length = panic := by
    unfold Goban.updateChainIndexesInBoard
    rw [Goban.chainAt_ok hch, ok_bind, hit, ok_bind]
    have : debugAssert dbg ([p].getLast?.map u16 == some (Group.newWithLiberties c p lib).last) = .ok () := by
      simp [debugAssert, Group.newWithLiberties]
    rw [this, ok_bind, List.foldlM_cons, hk, if_pos (by decide)]
    rfl
  show (Goban.updateChainIndexesInBoard dbg g2 g.chains.length >>= _) = _
  rw [this]; rfl

theorem attach_full {g : Goban} {p : Nat} {c : Color} {same libs : List Nat} (hnl : g.nextStone.length = 361) (hp : p < 361)
    (hl : ∀ i ∈ libs, i < 368) (hk : g.chains.length = 65535) (hs : same.length ≠ 1) : g.attach dbg p c same libs = panic := by
  rcases same with _ | ⟨a, _ | ⟨b, rest⟩⟩
  · exact create_full hnl hp hl hk
  · simp at hs
  · unfold Goban.attach
    dsimp only
    rw [create_full hnl hp hl hk]; rfl

theorem forM_panic {α} {l : List α} {f : α → M Unit} (h : ∀ a ∈ l, f a = .ok () ∨ f a = panic) (hp : ∃ a ∈ l, f a = panic) : l.forM f = panic := by
  induction l with
  | nil => obtain ⟨a, ha, _⟩ := hp; cases ha
  | cons a l ih =>
    rw [List.forM_eq_forM, List.forM_cons]
    rcases h a (by simp) with e | e
    · rw [e, ok_bind]
      refine ih (fun b hb => h b (List.mem_cons_of_mem _ hb)) ?_
      obtain ⟨b, hb, e'⟩ := hp
      rcases List.mem_cons.1 hb with rfl | hb
      · rw [e] at e'; cases e'
      · exact ⟨b, hb, e'⟩
    · rw [e]; rfl

/-- The record of a single stone that has since been joined to a group fails the check. -/
theorem Gr.integrity {i t j : Nat} (h : Gr k grp f x y) (hr : Rep x) (ho : grp.origin = i) (hl : grp.last = i) (hi : x.bd i = some t)
    (hj : x.bd j = some t) (hij : j ≠ i) : y.checkIntegrityAll true = panic := by
  have hyk : y.ch k = some grp := by
    unfold Goban.ch
    rw [h.chains, Goban.ch_set h.klt, if_pos rfl]
  have hk : y.checkIntegrityRen true k = panic := by
    obtain ⟨gt, hgt⟩ := hr.live i t hi
    obtain ⟨lt, hc⟩ := hr.chain t gt hgt
    have hil := (hc.mem i).1 hi
    have hjl := (hc.mem j).1 hj
    obtain ⟨u, v, rfl⟩ := List.append_of_mem hil
    have hrot := hc.walk.rotate hc.head
    have hnd' : (i :: (v ++ u)).Nodup := by
      have : (i :: v ++ u).Perm (u ++ i :: v) := List.perm_append_comm
      exact this.nodup_iff.2 hc.nodup
    have hlen : (i :: (v ++ u)).length ≤ 361 := nodup_length_le hnd' (fun a ha => hr.nlen ▸ Walk.lt hrot a ha)
    have hit : grp.iter true y.nextStone = .ok (i :: (v ++ u)) := by
      unfold Group.iter
      rw [ho, h.next]
      refine Walk.iterFrom (v ++ u) i _ hrot hnd' (List.nodup_cons.1 hnd').1 ?_
      rw [hr.nlen]; exact Nat.le_succ_of_le hlen
    have hne : v ++ u ≠ [] := by
      rintro he
      have : j ∈ v ++ u := by
        simp only [List.mem_append, List.mem_cons] at hjl ⊢
        rcases hjl with h' | h' | h'
        · exact .inr h'
        · exact absurd h' hij
        · exact .inl h'
      rw [he] at this; cases this
    have hlast : (i :: (v ++ u)).getLast? ≠ some grp.last := by
      rw [hl, List.getLast?_cons_of_ne_nil hne]
      intro he
      exact (List.nodup_cons.1 hnd').1 (List.mem_of_getLast? he)
    unfold Goban.checkIntegrityRen Goban.iterStones
    rw [Goban.chainAt_ok hyk, ok_bind, ok_bind, hit, ok_bind, ho]
    have : assertM ((i :: (v ++ u)).getLast? == some grp.last) = panic := by
      unfold assertM
      rw [if_neg (by simpa using hlast)]
    rw [this]
    simp [assertM, panic]
  unfold Goban.checkIntegrityAll
  refine forM_panic ?_ ⟨(k, grp), mem_iterWithIndex.2 hyk, hk⟩
  rintro ⟨j', gj⟩ hm
  have hj' := mem_iterWithIndex.1 hm
  dsimp only
  by_cases hjk : j' = k
  · rw [hjk]; exact .inr hk
  · have hsj : x.ch j' = some gj := by
      rw [← hj']
      unfold Goban.ch
      rw [h.chains, Goban.ch_set h.klt, if_neg hjk]
    have := checkIntegrityRen_ok (dbg := true) hr hsj
    unfold Goban.checkIntegrityRen Goban.iterStones at this ⊢
    rw [Goban.chainAt_ok hj', h.next]
    rw [Goban.chainAt_ok hsj] at this
    exact .inl this

/-- Every `push` of a debug build on an empty point of such a board panics. -/
theorem spoilt_push {i t j : Nat} (h : Inv n { x with zobristHash := hashFn x.col 361 }) (hg : Gr k grp f x y)
    (hf : ∀ i, f i ≠ none → x.bd i ≠ none) (ho : grp.origin = i) (hl : grp.last = i) (hi : x.bd i = some t)
    (hj : x.bd j = some t) (hij : j ≠ i) {q : Coord} (hq : OnBoard n q) (hb : x.bd (twoTo1dim n.sz q) = none) :
    y.pushWthFeedback true q c = panic := by
  have hr : Rep x := by
    have r := h.rep
    refine ⟨r.blen, r.nlen, ?_, r.live, r.few⟩
    intro k grp hg
    obtain ⟨l, hc⟩ := r.chain k grp hg
    exact ⟨l, hc.nodup, hc.walk, hc.head, hc.last, hc.num, hc.min, hc.libs, hc.mem⟩
  have hsize : x.size = n.sz := h.size
  have hysize : y.size = n.sz := by rw [hg.size, hsize]
  have hbd := hg.board hf
  generalize hqe : twoTo1dim n.sz q = p at *
  have hpN : Ix n p := hqe ▸ twoTo1_lt h.good hq
  have hp361 := h.lt361 hpN
  have hn := h.good
  have hnb361 : ∀ x ∈ nbrs n p, x < 361 := fun x hx => h.lt361 (nbrs_lt hn hpN hx)
  obtain ⟨a, ea, ha⟩ := around_ok (c := c) hr hnb361
  have hlib : ∀ k gk, x.ch k = some gk → (∃ j ∈ nbrs n p, x.bd j = some k) → has p gk.liberties = true := by
    intro k gk hk hj
    exact (h.libs k gk hk p).2 ⟨hpN, hb, hj⟩
  have hsame : ∀ k ∈ a.same, ∃ gk, x.ch k = some gk ∧ gk.color = c ∧ has p gk.liberties = true := by
    intro k hk
    obtain ⟨j, hj, hbj, hcj⟩ := (ha.same k).1 hk
    obtain ⟨gk, hgk⟩ := hr.live j k hbj
    rw [col_of_bd hbj hgk] at hcj
    exact ⟨gk, hgk, Option.some.inj hcj, hlib k gk hgk ⟨j, hj, hbj⟩⟩
  have hopp : ∀ k ∈ a.opp, ∃ gk, x.ch k = some gk ∧ gk.color = c.opp ∧ has p gk.liberties = true := by
    intro k hk
    obtain ⟨j, hj, hbj, hcj⟩ := (ha.opp k).1 hk
    obtain ⟨gk, hgk⟩ := hr.live j k hbj
    rw [col_of_bd hbj hgk] at hcj
    exact ⟨gk, hgk, Option.some.inj hcj, hlib k gk hgk ⟨j, hj, hbj⟩⟩
  have hso : ∀ k, k ∈ a.same → k ∈ a.opp → False := by
    intro k h1 h2
    obtain ⟨gk, e1, e2, _⟩ := hsame k h1
    obtain ⟨gk', e1', e2', _⟩ := hopp k h2
    rw [e1] at e1'; cases e1'
    rw [e2] at e2'; exact Color.ne_opp c e2'
  obtain ⟨g1, dead, e1, ht⟩ := take_ok (dbg := true) hr (show p < 368 by omega) ha.ond
    (fun k hk => let ⟨gk, h1, _, h3⟩ := hopp k hk; ⟨gk, h1, fun _ => h3⟩)
  have hch1s : ∀ k ∈ a.same, g1.ch k = x.ch k := fun k hk => ht.other k (fun h' => hso k hk h')
  have hlibs368 : ∀ i ∈ a.libs, i < 368 := by
    intro i hi
    have := hnb361 i ((ha.libs i).1 hi).1
    omega
  have hplibs : p ∉ a.libs := fun h' => nbrs_ne hn hpN ((ha.libs p).1 h').1 rfl
  obtain ⟨y1, f1, q1⟩ := hg.take e1
  unfold Goban.pushWthFeedback
  rw [hysize, hqe]
  dsimp only
  rw [neighborsIdx_ok hysize hn hpN, ok_bind, hg.around hbd ea, ok_bind, f1, ok_bind]
  dsimp only
  by_cases hk : ¬ (x.chains.length < 65535 ∨ a.same.length = 1)
  · rw [not_or] at hk
    have hfull : x.chains.length = 65535 := by have := hr.few; omega
    rw [attach_full (by rw [q1.next, ht.rep.nlen]) hp361 hlibs368 (by rw [q1.chains, List.length_set, ht.clen]; exact hfull) hk.2]
    rfl
  rw [Classical.not_not] at hk
  obtain ⟨g2, t2, e2, hA⟩ := attach_att (dbg := true) (c := c) (same := a.same) (libs := a.libs) ht.rep hp361
    (by rw [ht.bd, hb]) hlibs368 hplibs (by rw [ht.clen]; exact hk) ha.snd
    (fun k hk => let ⟨gk, h1, h2, h3⟩ := hsame k hk; ⟨gk, (hch1s k hk).trans h1, h2, fun _ => h3⟩)
  obtain ⟨y2, f2, q2⟩ := q1.attach e2
  rw [f2, ok_bind]
  dsimp only
  rw [indexZobrist_ok hp361, ok_bind]
  have hip : i ≠ p := by rintro rfl; rw [hb] at hi; cases hi
  have hjp : j ≠ p := by rintro rfl; rw [hb] at hj; cases hj
  obtain ⟨t', h1, h2⟩ : ∃ t', g2.bd i = some t' ∧ g2.bd j = some t' := by
    by_cases hts : t ∈ a.same
    · exact ⟨t2, hA.bdt i (.inr ⟨t, hts, by rw [ht.bd]; exact hi⟩), hA.bdt j (.inr ⟨t, hts, by rw [ht.bd]; exact hj⟩)⟩
    · refine ⟨t, ?_, ?_⟩
      · rw [hA.bdo i hip (fun k hk hk' => by rw [ht.bd, hi] at hk'; exact hts (Option.some.inj hk' ▸ hk)), ht.bd, hi]
      · rw [hA.bdo j hjp (fun k hk hk' => by rw [ht.bd, hj] at hk'; exact hts (Option.some.inj hk' ▸ hk)), ht.bd, hj]
  have hint := q2.integrity hA.rep ho hl h1 h2 hij
  have : ({ y2 with zobristHash := y2.zobristHash ^^^ zkey p (some c) } : Goban).checkIntegrityAll true = panic := hint
  rw [if_pos rfl, this]; rfl

/-! ### The board after the panic -/

/-- A stone joined to the groups around a point that none of them counts as a liberty. -/
theorem att_inv {z g2 : Goban} {p t : Nat} {a : Goban.Around} (hr : Rep z) (hsize : z.size = n.sz) (hn : n.Good) (hpN : Ix n p)
    (hb : z.bd p = none) (hoff : ∀ i k, z.bd i = some k → Ix n i)
    (hclosed : ∀ i j k, j ∈ nbrs n i → z.bd i = some k → z.col j = z.col i → z.bd j = some k)
    (hconn : ∀ k i j, z.bd i = some k → z.bd j = some k → Conn n (fun x => z.bd x = some k) i j)
    (hlibs : ∀ k grp, z.ch k = some grp → ∀ x, has x grp.liberties = true ↔
      Ix n x ∧ (x ≠ p ∧ z.bd x = none) ∧ ∃ j ∈ nbrs n x, z.bd j = some k)
    (ha : AroundOK z c (nbrs n p) a) (hA : Att z g2 p c a.same t (fun x => x ∈ a.libs ∨ LibOf z a.same x)) :
    Inv n { g2 with zobristHash := hashFn g2.col 361 } := by
  have hsame : ∀ k ∈ a.same, ∃ gk, z.ch k = some gk ∧ gk.color = c := by
    intro k hk
    obtain ⟨j, hj, hbj, hcj⟩ := (ha.same k).1 hk
    obtain ⟨gk, hgk⟩ := hr.live j k hbj
    rw [col_of_bd hbj hgk] at hcj
    exact ⟨gk, hgk, Option.some.inj hcj⟩
  have hbdt := hA.bdt
  have hbdo := hA.bdo
  have hsplit : ∀ i, (i = p ∨ ∃ k ∈ a.same, z.bd i = some k) ∨ (i ≠ p ∧ ∀ k ∈ a.same, z.bd i ≠ some k) := by
    intro i
    by_cases hi : i = p ∨ ∃ k ∈ a.same, z.bd i = some k
    · exact Or.inl hi
    · rw [not_or] at hi
      exact Or.inr ⟨hi.1, fun k hk hk' => hi.2 ⟨k, hk, hk'⟩⟩
  have htnew : ∀ i, (∀ k ∈ a.same, z.bd i ≠ some k) → z.bd i ≠ some t := by
    intro i hi hbt
    rcases hA.new with h' | h'
    · exact hi t h' hbt
    · obtain ⟨gg, hgg⟩ := hr.live i t hbt
      have := Goban.ch_lt hgg
      omega
  have hbt : ∀ i, g2.bd i = some t ↔ (i = p ∨ ∃ k ∈ a.same, z.bd i = some k) := by
    intro i
    refine ⟨fun h' => ?_, hbdt i⟩
    rcases hsplit i with hi | ⟨hi1, hi2⟩
    · exact hi
    · rw [hbdo i hi1 hi2] at h'; exact absurd h' (htnew i hi2)
  have hbk : ∀ i k, k ≠ t → (g2.bd i = some k ↔ z.bd i = some k ∧ k ∉ a.same) := by
    intro i k hkt
    rcases hsplit i with hi | ⟨hi1, hi2⟩
    · rw [hbdt i hi]
      constructor
      · intro h'; exact absurd (Option.some.inj h').symm hkt
      · rintro ⟨h1, h2⟩
        rcases hi with rfl | ⟨k', h3, h4⟩
        · rw [hb] at h1; cases h1
        · rw [h1] at h4; exact absurd (Option.some.inj h4 ▸ h3) h2
    · rw [hbdo i hi1 hi2]
      exact ⟨fun h' => ⟨h', fun h'' => hi2 k h'' h'⟩, fun h' => h'.1⟩
  have hbn : ∀ i, g2.bd i = none ↔ i ≠ p ∧ z.bd i = none := by
    intro i
    rcases hsplit i with hi | ⟨hi1, hi2⟩
    · rw [hbdt i hi]
      constructor
      · intro h'; cases h'
      · rintro ⟨h1, h2⟩
        rcases hi with h' | ⟨k, _, h'⟩
        · exact absurd h' h1
        · rw [h2] at h'; cases h'
    · rw [hbdo i hi1 hi2]; simp [hi1]
  obtain ⟨gt, hgt, hct, hLt⟩ := hA.added
  have hch2 : ∀ k, k ≠ t → ∀ gk, g2.ch k = some gk → k ∉ a.same ∧ z.ch k = some gk := by
    intro k hkt gk hgk
    by_cases hks : k ∈ a.same
    · rw [hA.gone k hkt hks] at hgk; cases hgk
    · exact ⟨hks, by rw [← hA.other k hkt hks]; exact hgk⟩
  have hcol : ∀ i, g2.col i = if i = p then some c else z.col i := hA.col hr hsame
  have hp2 : g2.bd p = some t := hbdt p (Or.inl rfl)
  refine ⟨?_, hA.size.trans hsize, hn, ?_, ?_, ?_, ?_, rfl⟩
  · have r := hA.rep
    refine ⟨r.blen, r.nlen, ?_, r.live, r.few⟩
    intro k grp hg
    obtain ⟨l, hc⟩ := r.chain k grp hg
    exact ⟨l, hc.nodup, hc.walk, hc.head, hc.last, hc.num, hc.min, hc.libs, hc.mem⟩
  · intro i k (hik : g2.bd i = some k)
    rcases hsplit i with hi | ⟨hi1, hi2⟩
    · rcases hi with rfl | ⟨k', _, h'⟩
      · exact hpN
      · exact hoff i k' h'
    · rw [hbdo i hi1 hi2] at hik; exact hoff i k hik
  · intro i j k hj (hik : g2.bd i = some k) (hcji : g2.col j = g2.col i)
    show g2.bd j = some k
    rw [hcol, hcol] at hcji
    rcases hsplit i with hi | ⟨hi1, hi2⟩
    · have hkt : k = t := by rw [hbdt i hi] at hik; exact (Option.some.inj hik).symm
      subst hkt
      by_cases hjp : j = p
      · rw [hjp]; exact hp2
      · rw [if_neg hjp] at hcji
        rcases hi with rfl | ⟨k', hk', hbk'⟩
        · rw [if_pos rfl] at hcji
          obtain ⟨k', gk', h1, h2, h3⟩ := hr.col_some_iff.1 hcji
          exact hbdt j (Or.inr ⟨k', (ha.same k').2 ⟨j, hj, h1, hcji⟩, h1⟩)
        · have hip : i ≠ p := fun h' => by rw [h', hb] at hbk'; cases hbk'
          rw [if_neg hip] at hcji
          exact hbdt j (Or.inr ⟨k', hk', hclosed i j k' hj hbk' hcji⟩)
    · rw [hbdo i hi1 hi2] at hik
      rw [if_neg hi1] at hcji
      have hiN := hoff i k hik
      by_cases hjp : j = p
      · rw [if_pos hjp] at hcji
        exfalso
        apply hi2 k _ hik
        rw [ha.same]
        exact ⟨i, by rw [← hjp]; exact nbrs_symm hn hiN hj, hik, hcji.symm⟩
      · rw [if_neg hjp] at hcji
        have hbj := hclosed i j k hj hik hcji
        have hks : k ∉ a.same := fun h' => hi2 k h' hik
        have hkt : k ≠ t := fun h' => htnew i hi2 (h' ▸ hik)
        exact (hbk j k hkt).2 ⟨hbj, hks⟩
  · intro k i j (hi : g2.bd i = some k) (hj : g2.bd j = some k)
    show Conn n (fun x => g2.bd x = some k) i j
    by_cases hkt : k = t
    · subst hkt
      have hto : ∀ x, g2.bd x = some k → Conn n (fun x => g2.bd x = some k) x p := by
        intro x hx
        rcases (hbt x).1 hx with rfl | ⟨k', hk', hbx⟩
        · exact .refl hx
        · obtain ⟨y, hy, hby, _⟩ := (ha.same k').1 hk'
          have hc := (hconn k' x y hbx hby).mono (T := fun x => g2.bd x = some k)
            (fun z hz => hbdt z (Or.inr ⟨k', hk', hz⟩))
          exact .step hc (nbrs_symm hn hpN hy) hp2
      have hsm : ∀ x, g2.bd x = some k → Ix n x := by
        intro x hx
        rcases (hbt x).1 hx with rfl | ⟨k', _, hbx⟩
        · exact hpN
        · exact hoff x k' hbx
      exact (hto i hi).trans ((hto j hj).symm hn hsm)
    · obtain ⟨hi', hks⟩ := (hbk i k hkt).1 hi
      obtain ⟨hj', _⟩ := (hbk j k hkt).1 hj
      exact (hconn k i j hi' hj').mono (fun z hz => (hbk z k hkt).2 ⟨hz, hks⟩)
  · intro k grp (hgrp : g2.ch k = some grp) x
    show _ ↔ Ix n x ∧ g2.bd x = none ∧ ∃ j ∈ nbrs n x, g2.bd j = some k
    rw [hbn]
    by_cases hkt : k = t
    · subst hkt
      rw [hgt] at hgrp; cases hgrp
      rw [hLt]
      constructor
      · rintro (h' | ⟨k', hk', gk', h1, h2⟩)
        · obtain ⟨h1, h2⟩ := (ha.libs x).1 h'
          exact ⟨nbrs_lt hn hpN h1, ⟨nbrs_ne hn hpN h1, h2⟩, p, nbrs_symm hn hpN h1, hp2⟩
        · obtain ⟨hx, hxp, j, hj, hbj⟩ := (hlibs k' gk' h1 x).1 h2
          exact ⟨hx, hxp, j, hj, hbdt j (Or.inr ⟨k', hk', hbj⟩)⟩
      · rintro ⟨hx, hxp, j, hj, hbj⟩
        rcases (hbt j).1 hbj with rfl | ⟨k', hk', hbj'⟩
        · exact Or.inl ((ha.libs x).2 ⟨nbrs_symm hn hx hj, hxp.2⟩)
        · obtain ⟨gk', h1, _⟩ := hsame k' hk'
          exact Or.inr ⟨k', hk', gk', h1, (hlibs k' gk' h1 x).2 ⟨hx, hxp, j, hj, hbj'⟩⟩
    · obtain ⟨hks, hg1⟩ := hch2 k hkt grp hgrp
      rw [hlibs k grp hg1 x]
      have hbk' : (∃ j ∈ nbrs n x, g2.bd j = some k) ↔ ∃ j ∈ nbrs n x, z.bd j = some k := by
        constructor
        · rintro ⟨j, h1, h2⟩; exact ⟨j, h1, ((hbk j k hkt).1 h2).1⟩
        · rintro ⟨j, h1, h2⟩; exact ⟨j, h1, (hbk j k hkt).2 ⟨h2, hks⟩⟩
      rw [hbk']

theorem strip_around {p : Nat} {a : Goban.Around} (hlt : k < b.chains.length) (hlone : ∀ j, b.bd j = some k → j = p) (hpn : ∀ j ∈ nbrs n p, j ≠ p)
    (ha : AroundOK b c (nbrs n p) a) : AroundOK (strip b k) c (nbrs n p) a := by
  have hbd : ∀ j ∈ nbrs n p, (strip b k).bd j = b.bd j := fun j hj => by rw [strip_bd, if_neg (fun h' => hpn j hj (hlone j h'))]
  have hcol : ∀ j ∈ nbrs n p, (strip b k).col j = b.col j := fun j hj => by rw [strip_col hlt, if_neg (fun h' => hpn j hj (hlone j h'))]
  refine ⟨ha.snd, ha.ond, fun j => ?_, fun j => ?_, fun j => ?_⟩
  · rw [ha.same]
    exact ⟨fun ⟨i, h1, h2⟩ => ⟨i, h1, by rw [hbd i h1, hcol i h1]; exact h2⟩, fun ⟨i, h1, h2⟩ => ⟨i, h1, by rw [hbd i h1, hcol i h1] at h2; exact h2⟩⟩
  · rw [ha.opp]
    exact ⟨fun ⟨i, h1, h2⟩ => ⟨i, h1, by rw [hbd i h1, hcol i h1]; exact h2⟩, fun ⟨i, h1, h2⟩ => ⟨i, h1, by rw [hbd i h1, hcol i h1] at h2; exact h2⟩⟩
  · rw [ha.libs]
    exact ⟨fun ⟨h1, h2⟩ => ⟨h1, by rw [hbd j h1]; exact h2⟩, fun ⟨h1, h2⟩ => ⟨h1, by rw [hbd j h1] at h2; exact h2⟩⟩

theorem over_after (hb : Board true n m b) (hp : OnBoard n p) (hd : b.getColor p = .ok (some d)) {q : Coord} {e : Color} (hq : OnBoard n q)
    (ha : Adj p q) (he : b.getColor q = .ok (some e)) (hno : ∀ q, OnBoard n q → Adj p q → b.getColor q ≠ .ok (some c.opp))
    (hj : ¬ Joins n b.view p c) (hroom : b.chains.length < 65535) :
    ∃ b', Goban.pushWthFeedbackU true p c b = .error .panic b' ∧ b'.size = n.sz ∧
      ∀ s, OnBoard n s → b.getColor s = .ok none → b'.getColor s = .ok none ∧ ∀ c', b'.pushWthFeedback true s c' = panic := by
  have h := hb.inv.1
  have hv : ∀ {q o}, b.getColor q = .ok o → b.view q = o := fun e => by unfold Goban.view; rw [e]
  have hg : ∀ {q}, OnBoard n q → ∀ {o}, b.view q = o → b.getColor q = .ok o := fun hq o e => by
    rw [← e, h.view hq]
    unfold Goban.getColor
    rw [h.size, h.rep.getColorIdx (h.lt361 (twoTo1_lt h.good hq))]
  have hr := h.rep
  obtain ⟨k, hk⟩ := bd_of_view h hp (hv hd)
  obtain ⟨k', hk'⟩ := bd_of_view h hq (hv he)
  have hpN := twoTo1_lt h.good hp
  have hqn : twoTo1dim n.sz q ∈ nbrs n (twoTo1dim n.sz p) := (mem_nbrs h.good hpN).2 ⟨twoTo1_lt h.good hq, by
    rw [ptOf_twoTo1 h.good hp, ptOf_twoTo1 h.good hq]; exact ha⟩
  obtain ⟨a, hA, _, _, h3⟩ := over_cases (c := c) h hp hk hqn hk'
  have hnil : a.opp = [] := by
    by_contra hne
    obtain ⟨q, h4, h5, h6⟩ := (opp_ne_nil h hp hA).1 hne
    exact hno q h4 h5 (hg h4 h6)
  have hs : a.same.length ≠ 1 := fun h' => hj ((same_joins h hp hA).1 h')
  obtain ⟨f, ef, eU, s2, grp, t, hgrp, hks, hAtt, hGr⟩ := h3 hnil hs hroom
  have hlt := Goban.ch_lt hgrp
  have hpne : ∀ j ∈ nbrs n (twoTo1dim n.sz p), j ≠ twoTo1dim n.sz p := fun j hj => nbrs_ne h.good hpN hj
  have hall : ∀ j ∈ nbrs n (twoTo1dim n.sz p), ∀ k0, b.bd j = some k0 → k0 ∈ a.same := by
    intro j hj k0 hk0
    obtain ⟨g0, hg0⟩ := hr.live j k0 hk0
    have hc0 := col_of_bd hk0 hg0
    by_cases hcc : g0.color = c
    · exact (hA.same k0).2 ⟨j, hj, hk0, by rw [hc0, hcc]⟩
    · have := (hA.opp k0).2 ⟨j, hj, hk0, by rw [hc0, Color.eq_opp_of_ne hcc]⟩
      rw [hnil] at this; cases this
  have hlone : ∀ j, b.bd j = some k → j = twoTo1dim n.sz p := by
    intro j hjk
    have hc := h.conn k _ j hk hjk
    generalize twoTo1dim n.sz p = i at *
    induction hc with
    | refl _ => rfl
    | step hc' hk2 hs2 ih =>
      cases ih (by
        cases hc' with
        | refl h' => exact h'
        | step _ _ h' => exact h')
      exact absurd (hall _ hk2 k hs2) hks
  have hzp : (strip b k).bd (twoTo1dim n.sz p) = none := by rw [strip_bd, if_pos hk]
  have hnk : ∀ i, (strip b k).bd i ≠ some k := by
    intro i h'
    rw [strip_bd] at h'
    split at h'
    · cases h'
    · contradiction
  have hbz : ∀ i j, (strip b k).bd i = some j → b.bd i = some j := fun i j h' => by
    have hjk : j ≠ k := fun e => hnk i (e ▸ h')
    exact (strip_bd_ne hjk).1 h'
  have hcz : ∀ i, i ≠ twoTo1dim n.sz p → (strip b k).col i = b.col i := fun i hi => by
    rw [strip_col hlt, if_neg (fun h' => hi (hlone i h'))]
  have hinv : Inv n { s2 with zobristHash := hashFn s2.col 361 } := by
    refine att_inv (strip_rep hr hlt) h.size h.good hpN hzp (fun i j h' => h.off i j (hbz i j h')) ?_ ?_ ?_
      (strip_around hlt hlone hpne hA) hAtt
    · intro i j K hj' hi hcol
      have hKk : K ≠ k := fun h' => hnk i (h' ▸ hi)
      have hip : i ≠ twoTo1dim n.sz p := fun h' => by rw [h', hzp] at hi; cases hi
      have hjp : j ≠ twoTo1dim n.sz p := fun h' => by
        obtain ⟨gi, hgi⟩ := (strip_rep hr hlt).live i K hi
        rw [h', col_none hzp, col_of_bd hi hgi] at hcol; cases hcol
      rw [hcz i hip, hcz j hjp] at hcol
      exact (strip_bd_ne hKk).2 (h.closed i j K hj' (hbz i K hi) hcol)
    · intro K i j hi hj'
      have hKk : K ≠ k := fun h' => hnk i (h' ▸ hi)
      exact (h.conn K i j (hbz i K hi) (hbz j K hj')).mono (fun x hx => (strip_bd_ne hKk).2 hx)
    · intro K gK hK x
      rw [strip_ch hlt] at hK
      split at hK
      · cases hK
      · rename_i hKk
        rw [h.libs K gK hK x]
        have h1 : (x ≠ twoTo1dim n.sz p ∧ (strip b k).bd x = none) ↔ b.bd x = none := by
          rw [strip_bd]
          constructor
          · rintro ⟨h4, h5⟩
            rwa [if_neg (fun h' => h4 (hlone x h'))] at h5
          · intro h4
            refine ⟨fun h' => (by rw [h', hk] at h4; cases h4), by rw [h4]; simp⟩
        rw [h1]
        simp only [strip_bd_ne hKk]
  have hsz : ({ f.goban with zobristHash := b.zobristHash } : Goban).size = n.sz := by
    rw [hGr.size, hAtt.size]; exact h.size
  refine ⟨_, eU, hsz, fun s hs' hse => ?_⟩
  have hsv := hv hse
  have hsb : b.bd (twoTo1dim n.sz s) = none := (bd_none_view h hs').2 hsv
  have hsp : twoTo1dim n.sz s ≠ twoTo1dim n.sz p := fun h' => by rw [h', hk] at hsb; cases hsb
  have hs2 : s2.bd (twoTo1dim n.sz s) = none := by
    have hz : (strip b k).bd (twoTo1dim n.sz s) = none := by rw [strip_bd, hsb]; simp
    rw [hAtt.bdo _ hsp (fun j _ h' => by rw [hz] at h'; cases h'), hz]
  obtain ⟨l, hl⟩ := hr.chain k grp hgrp
  have hl1 : l = [twoTo1dim n.sz p] := by
    have hm : ∀ i ∈ l, i = twoTo1dim n.sz p := fun i hi => hlone i ((hl.mem i).2 hi)
    have hpl := (hl.mem _).1 hk
    have hnd := hl.nodup
    cases l with
    | nil => cases hpl
    | cons u l =>
      cases l with
      | nil => rw [hm u (by simp)]
      | cons v l =>
        rw [hm u (by simp), hm v (by simp)] at hnd
        simp at hnd
  have hhead := hl.head
  have hlast := hl.last
  rw [hl1] at hhead hlast
  have hf : ∀ i, (if b.bd i = some k then some k else none) ≠ none → s2.bd i ≠ none := by
    intro i hi
    by_cases hik : b.bd i = some k
    · rw [hAtt.bdt i (.inl (hlone i hik))]; simp
    · rw [if_neg hik] at hi; exact absurd rfl hi
  refine ⟨?_, fun c' => ?_⟩
  · unfold Goban.getColor Goban.getColorIdx Goban.boardAt
    rw [hsz, hGr.board hf]
    have hlt' := h.lt361 (twoTo1_lt h.good hs')
    have hlen := hAtt.rep.blen
    unfold Goban.bd at hs2
    rw [List.getElem?_eq_getElem (by omega)] at hs2 ⊢
    simp only [Option.join_some] at hs2
    rw [hs2]; rfl
  · have hne : k' ≠ k := fun h' => hks (h' ▸ hall _ hqn k' hk')
    exact spoilt_push (c := c') hinv hGr hf (Option.some.inj hhead).symm (Option.some.inj hlast).symm
      (hAtt.bdt _ (.inl rfl)) (hAtt.bdt _ (.inr ⟨k', hall _ hqn k' hk', (strip_bd_ne hne).2 hk'⟩)) (hpne _ hqn) hs' hs2

/-- **C133**, after the case of `C133_left` with room in the table: every further `push` of a debug build on a point that was empty panics
too, whatever its colour. -/
theorem C133_after (hb : Board true n m b) (hp : OnBoard n p) (hd : b.getColor p = .ok (some d)) {q : Coord} {e : Color} (hq : OnBoard n q)
    (ha : Adj p q) (he : b.getColor q = .ok (some e)) (hno : ∀ q, OnBoard n q → Adj p q → b.getColor q ≠ .ok (some c.opp))
    (hj : ¬ Joins n b.view p c) (hroom : b.chains.length < 65535) :
    ∃ b', Goban.pushU true p c b = .error .panic b' ∧
      ∀ s c', OnBoard n s → b.getColor s = .ok none → b'.getColor s = .ok none ∧ b'.push true s c' = panic := by
  obtain ⟨b', e', hsz, h'⟩ := over_after hb hp hd hq ha he hno hj hroom
  refine ⟨b', pushU_of_error hb.inv.1 hp e', fun s c' hs hse => ⟨(h' s hs hse).1, ?_⟩⟩
  rw [push_eq hsz hs, (h' s hs hse).2 c']
  rfl

/-- `g'` comes from `g` by calls of `try_play` of a debug build, accepted or refused, with stones on the board, passes and resignations. -/
inductive AskedLater (n : Dim) (g : Game) : Game → Prop
  | refl : AskedLater n g g
  | step {g1 g2 : Game} {mv : Move} {o : Option PlayError} : AskedLater n g g1 → mv.OnBoard n → g1.tryPlay true mv = .ok (o, g2) → AskedLater n g g2

/-- **C133** in a game: once `play` has panicked in the case of `C133_after`, no stone is ever put again. Whatever `try_play` is asked later,
the board stays as the panic left it, and the call of a stone is refused or panics. -/
theorem C133_game_after {g g' : Game} (h : Reach true n m g) {x y : Nat} (hp : OnBoard n (x, y)) (hd : g.goban.getColor (x, y) = .ok (some d))
    {q : Coord} {e : Color} (hq : OnBoard n q) (ha : Adj (x, y) q) (he : g.goban.getColor q = .ok (some e))
    (hno : ∀ q, OnBoard n q → Adj (x, y) q → g.goban.getColor q ≠ .ok (some g.turn.opp)) (hj : ¬ Joins n g.goban.view (x, y) g.turn)
    (hroom : g.goban.chains.length < 65535) (e' : Game.playU true (.play x y) g = .error .panic g') {g1 : Game} (hl : AskedLater n g' g1) :
    g1.goban = g'.goban ∧ ∀ u v, OnBoard n (u, v) → ∀ g2, g1.tryPlay true (.play u v) ≠ .ok (none, g2) := by
  have hb := h.spec.board
  obtain ⟨b', eb, hsz, h'⟩ := over_after hb hp hd hq ha he hno hj hroom
  have eU := pushU_of_error hb.inv.1 hp eb
  have hg' : g'.goban = b' := by
    obtain ⟨hist, _, e2⟩ := C133_play h hp hd hq ha he
    rw [e'] at e2
    cases e2
    show U.after _ _ = _
    unfold U.after
    rw [eU]
  have hnone : ∀ s, OnBoard n s → b'.getColor s = .ok none → g.goban.getColor s = .ok none := by
    intro s hs hse
    rcases C133_left hb hp hd hq ha he hno hj with ⟨r, _, er, _, hsh, _⟩ | ⟨_, hfull, _⟩
    · rw [eU] at er
      cases er
      have h1 : r.getColor s = .ok (place g.goban.view (x, y) g.turn s) := hsh s hs
      have h2 : r.getColor s = .ok none := hse
      rw [h1] at h2
      have h3 := Except.ok.inj h2
      unfold Spec.place at h3
      split at h3
      · cases h3
      · have hI := hb.inv.1
        rw [← h3, hI.view hs]
        unfold Goban.getColor
        rw [hI.size, hI.rep.getColorIdx (hI.lt361 (twoTo1_lt hI.good hs))]
    · omega
  have key : ∀ {g1 : Game} {u v : Nat} {o : Option PlayError} {g2 : Game}, g1.goban = b' → OnBoard n (u, v) →
      g1.tryPlay true (.play u v) = .ok (o, g2) → o ≠ none ∧ g2 = g1 := by
    intro g1 u v o g2 hg huv et
    unfold Game.tryPlay at et
    split at et
    · cases et; exact ⟨by simp, rfl⟩
    · dsimp only at et
      obtain ⟨oc, e1, et⟩ := bind_eq_ok et
      split at et
      · cases et; exact ⟨by simp, rfl⟩
      · rename_i hoc
        rw [Classical.not_not] at hoc
        subst hoc
        obtain ⟨ck, e2, et⟩ := bind_eq_ok et
        cases ck with
        | some er => cases et; exact ⟨by simp, rfl⟩
        | none =>
          obtain ⟨g3, e3, _⟩ := bind_eq_ok et
          unfold Game.play at e3
          obtain ⟨hist, _, e4⟩ := bind_eq_ok e3
          rw [hg] at e4 e1
          rw [(h' _ huv (hnone _ huv e1)).2] at e4
          cases e4
  have hgob : g1.goban = b' := by
    induction hl with
    | refl => exact hg'
    | step _ hmv et ih =>
      rename_i g1 g2 mv o _
      cases mv with
      | play u v => rw [(key ih hmv et).2]; exact ih
      | pass =>
        unfold Game.tryPlay at et
        split at et
        · cases et; exact ih
        · obtain ⟨g3, e3, e4⟩ := bind_eq_ok et
          cases e4
          unfold Game.play at e3
          obtain ⟨_, _, e5⟩ := bind_eq_ok e3
          cases e5
          exact ih
      | resign k =>
        unfold Game.tryPlay at et
        split at et
        · cases et; exact ih
        · obtain ⟨g3, e3, e4⟩ := bind_eq_ok et
          cases e4
          unfold Game.play at e3
          cases e3
          exact ih
  exact ⟨hgob.trans hg'.symm, fun u v huv g2 et => (key hgob huv et).1 rfl⟩

/-- The game of `C133_reached`, gone on with: after the panic of the `play` of Black at `(2, 2)`, the play of the empty point `(5, 5)` panics,
while a pass is still accepted, and after it White's play of the empty point `(5, 5)` panics as well. -/
theorem C133_after_reached : ∃ g0 g1 g2 g3 g4, Game.new .nine CHINESE = .ok g0 ∧ g0.tryPlay true (.play 1 2) = .ok (none, g1) ∧
    g1.tryPlay true (.play 2 2) = .ok (none, g2) ∧ g2.tryPlay true (.play 3 2) = .ok (none, g3) ∧
    g3.tryPlay true (.play 8 8) = .ok (none, g4) ∧ ∃ g5, Game.playU true (.play 2 2) g4 = .error .panic g5 ∧
    g5.tryPlay true (.play 5 5) = panic ∧ ∃ g6, g5.tryPlay true .pass = .ok (none, g6) ∧ g6.tryPlay true (.play 5 5) = panic := by
  obtain ⟨g0, e0, h⟩ := okAnd_iff.1 (show okAnd (Game.new .nine CHINESE) (fun g0 =>
      acceptedAnd (g0.tryPlay true (.play 1 2)) (fun g1 => acceptedAnd (g1.tryPlay true (.play 2 2)) (fun g2 =>
      acceptedAnd (g2.tryPlay true (.play 3 2)) (fun g3 => acceptedAnd (g3.tryPlay true (.play 8 8)) (fun g4 =>
      isPanic (U.toM (Game.playU true (.play 2 2)) g4) &&
      (isPanic ((U.after (Game.playU true (.play 2 2)) g4).tryPlay true (.play 5 5)) &&
      acceptedAnd ((U.after (Game.playU true (.play 2 2)) g4).tryPlay true .pass) (fun g6 =>
        isPanic (g6.tryPlay true (.play 5 5))))))))) = true by
    decide +kernel)
  obtain ⟨g1, e1, h⟩ := acceptedAnd_iff h
  obtain ⟨g2, e2, h⟩ := acceptedAnd_iff h
  obtain ⟨g3, e3, h⟩ := acceptedAnd_iff h
  obtain ⟨g4, e4, h⟩ := acceptedAnd_iff h
  rw [Bool.and_eq_true, Bool.and_eq_true] at h
  obtain ⟨g6, e6, h6⟩ := acceptedAnd_iff h.2.2
  refine ⟨g0, g1, g2, g3, g4, e0, e1, e2, e3, e4, U.after (Game.playU true (.play 2 2)) g4, ?_, isPanic_iff h.2.1, g6, e6, isPanic_iff h6⟩
  have hp := isPanic_iff h.1
  unfold U.toM at hp
  unfold U.after
  cases e : Game.playU true (.play 2 2) g4 with
  | ok a s => rw [e] at hp; cases hp
  | error f s => rw [e] at hp; cases hp; rfl

end Model
