import Verif.Proofs.Lazy
import Verif.Proofs.Occupied
/-!
# Pushing on a cell of the table that belongs to no point of the board

The table always has 361 cells. On smaller boards some cells are the index of no point; a stone put there is taken to stand next
to some points of the board, but those points do not count it among their neighbours.
-/

namespace Model
open Bits (has)
open Spec (OnBoard Adj)

variable {dbg : Bool} {n : Dim}

/-- The cells the board takes for the neighbours of the cell `i`, whether or not `i` is a point. -/
def seen (n : Dim) (i : Nat) : List Nat := (adjList n (i / n.h, i % n.w)).map (twoTo1dim n.sz)

theorem mem_adjList_of_lt {c q : Coord} (hn : n.Good) (h1 : c.1 < 255) (h2 : c.2 < 255) :
    q ∈ adjList n c ↔ OnBoard n q ∧ Adj c q := by
  have a := hn.h19
  have b := hn.w19
  obtain ⟨u, v⟩ := c
  obtain ⟨x, y⟩ := q
  unfold adjList
  rw [List.mem_filter, isCoordValid_iff]
  unfold OnBoard Adj wsub1 at *
  simp only [List.mem_cons, Prod.mk.injEq, List.not_mem_nil, or_false] at *
  omega

theorem seen_bounds (hn : n.Good) (h2 : 2 ≤ n.h) {i : Nat} (hi : i < 361) : i / n.h < 255 ∧ i % n.w < 255 ∧ 0 < n.w := by
  have hw : 0 < n.w := by
    rcases Nat.eq_zero_or_pos n.w with h | h
    · obtain ⟨d, hd⟩ := hn.fits
      rw [h] at hd; omega
    · exact h
  have h3 := hn.w19
  have h4 := Nat.mod_lt i hw
  refine ⟨?_, by omega, hw⟩
  have : i / n.h ≤ i / 2 := Nat.div_le_div_left h2 (by omega)
  omega

theorem neighborsIdx_seen {g : Goban} {i : Nat} (hs : g.size = n.sz) (hn : n.Good) (h2 : 2 ≤ n.h) (hi : i < 361) :
    g.neighborsIdx dbg i = .ok (seen n i) := by
  obtain ⟨b1, b2, hw⟩ := seen_bounds hn h2 hi
  unfold Goban.neighborsIdx Goban.neighborsCoords
  have : oneTo2dim n.sz i = .ok (i / n.h, i % n.w) := by
    unfold oneTo2dim Dim.sz u8
    rw [if_neg (by simp only; omega)]
    simp only
    rw [Nat.mod_eq_of_lt (by omega), Nat.mod_eq_of_lt (a := i % n.w) (by omega)]
  rw [hs, this, ok_bind]
  unfold validCoords
  rw [neighborCoords_ok b1 b2]
  rfl

theorem mem_seen (hn : n.Good) (h2 : 2 ≤ n.h) {i j : Nat} (hi : i < 361) :
    j ∈ seen n i ↔ Ix n j ∧ Adj (i / n.h, i % n.w) (ptOf n j) := by
  obtain ⟨b1, b2, _⟩ := seen_bounds hn h2 hi
  unfold seen
  rw [List.mem_map]
  constructor
  · rintro ⟨q, hq, rfl⟩
    rw [mem_adjList_of_lt hn b1 b2] at hq
    exact ⟨twoTo1_lt hn hq.1, by rw [ptOf_twoTo1 hn hq.1]; exact hq.2⟩
  · rintro ⟨hj, ha⟩
    exact ⟨ptOf n j, (mem_adjList_of_lt hn b1 b2).2 ⟨ptOf_onBoard hj, ha⟩, twoTo1_ptOf⟩

/-- The board after a stone of colour `c` has been pushed on the cell `p`. -/
structure HidSpec (n : Dim) (g : Goban) (p : Nat) (c : Color) (f : Goban.Feedback) : Prop where
  rep : Rep f.goban
  size : f.goban.size = g.size
  col : ∀ i, f.goban.col i = if i = p then some c else g.col i
  added : f.goban.bd p = some f.added
  alone : (∀ j ∈ seen n p, g.col j = some c.opp) → ∀ i, f.goban.bd i = some f.added → i = p
  grp : ∃ gt, f.goban.ch f.added = some gt ∧ gt.color = c ∧ ((∀ k gk, g.ch k = some gk → gk.isDead = false) →
    (gt.isDead = true ↔ ∀ j ∈ seen n p, g.col j = some c.opp))
  dead : ∀ j ∈ f.dead, ∃ gj, g.ch j = some gj ∧ gj.isDead = true
  nohas : ∀ j gj, j ≠ f.added → f.goban.ch j = some gj → has p gj.liberties = false
  bd : (∀ j ∈ seen n p, g.col j = some c.opp) → ∀ i, i ≠ p → f.goban.bd i = g.bd i

theorem push_hidden {g : Goban} {pt : Coord} {p : Nat} {c : Color} (h : Inv n g) (h2 : 2 ≤ n.h) (hpe : twoTo1dim n.sz pt = p)
    (hp : p < 361) (hx : ¬ Ix n p) (hd : dbg = true → ∀ j ∈ seen n p, g.bd j = none) :
    (∃ f, g.pushWthFeedback dbg pt c = .ok f ∧ HidSpec n g p c f) ∨
      (g.pushWthFeedback dbg pt c = panic ∧ g.chains.length = 65535) := by
  have hn := h.good
  have hr := h.rep
  have hsx : ∀ x ∈ seen n p, Ix n x := fun x hx => ((mem_seen hn h2 hp).1 hx).1
  have hnb361 : ∀ x ∈ seen n p, x < 361 := fun x hx => h.lt361 (hsx x hx)
  have hb : g.bd p = none := by
    cases hb : g.bd p with
    | none => rfl
    | some k => exact absurd (h.off p k hb) hx
  obtain ⟨a, ea, ha⟩ := around_ok (c := c) hr hnb361
  have hnone : ∀ j gj, g.ch j = some gj → has p gj.liberties = false := by
    intro j gj hj
    cases hh : has p gj.liberties with
    | false => rfl
    | true => exact absurd ((h.libs j gj hj p).1 hh).1 hx
  have hsame : ∀ j ∈ a.same, ∃ gj, g.ch j = some gj ∧ gj.color = c := by
    intro j hj
    obtain ⟨i, hi, hbi, hci⟩ := (ha.same j).1 hj
    obtain ⟨gj, hgj⟩ := hr.live i j hbi
    rw [col_of_bd hbi hgj] at hci
    exact ⟨gj, hgj, Option.some.inj hci⟩
  have hopp : ∀ j ∈ a.opp, ∃ gj, g.ch j = some gj ∧ gj.color = c.opp := by
    intro j hj
    obtain ⟨i, hi, hbi, hci⟩ := (ha.opp j).1 hj
    obtain ⟨gj, hgj⟩ := hr.live i j hbi
    rw [col_of_bd hbi hgj] at hci
    exact ⟨gj, hgj, Option.some.inj hci⟩
  have hds : dbg = true → a.same = [] ∧ a.opp = [] := by
    intro hdb
    constructor
    · rw [List.eq_nil_iff_forall_not_mem]
      intro j hj
      obtain ⟨i, hi, hbi, _⟩ := (ha.same j).1 hj
      rw [hd hdb i hi] at hbi; cases hbi
    · rw [List.eq_nil_iff_forall_not_mem]
      intro j hj
      obtain ⟨i, hi, hbi, _⟩ := (ha.opp j).1 hj
      rw [hd hdb i hi] at hbi; cases hbi
  have hso : ∀ j, j ∈ a.same → j ∈ a.opp → False := by
    intro j h1 h2
    obtain ⟨gk, e1, e2⟩ := hsame j h1
    obtain ⟨gk', e1', e2'⟩ := hopp j h2
    rw [e1] at e1'; cases e1'
    rw [e2] at e2'; exact Color.ne_opp c e2'
  obtain ⟨g1, dead, e1, ht⟩ := take_ok (dbg := dbg) hr (show p < 368 by omega) ha.ond (fun j hj => by
    obtain ⟨gj, h1, _⟩ := hopp j hj
    exact ⟨gj, h1, fun hdb => by rw [(hds hdb).2] at hj; simp at hj⟩)
  have hlibs368 : ∀ i ∈ a.libs, i < 368 := by
    intro i hi
    have := hnb361 i ((ha.libs i).1 hi).1
    omega
  have hplibs : p ∉ a.libs := fun h' => hx (hsx p ((ha.libs p).1 h').1)
  have hz := indexZobrist_ok (c := c) hp
  have hrun : ∀ x, g1.attach dbg p c a.same a.libs = x → g.pushWthFeedback dbg pt c = (do
      let (added, g) ← x
      let g := { g with zobristHash := g.zobristHash ^^^ zkey p (some c) }
      if dbg then g.checkIntegrityAll dbg
      .ok { dead := dead, added := added, goban := g }) := by
    intro x hx
    unfold Goban.pushWthFeedback
    rw [h.size, hpe]
    dsimp only
    rw [neighborsIdx_seen h.size hn h2 hp, ok_bind, ea, ok_bind, e1, ok_bind]
    dsimp only
    rw [hx, hz]
    rfl
  by_cases hroom : ¬ (g.chains.length < 65535 ∨ a.same.length = 1)
  · rw [not_or] at hroom
    have hfull : g.chains.length = 65535 := by have := hr.few; omega
    refine Or.inr ⟨?_, hfull⟩
    rw [hrun _ (attach_panic ht.rep hp hlibs368 (by rw [ht.clen]; exact hfull) hroom.2)]; rfl
  rw [Classical.not_not] at hroom
  left
  have hs1 : ∀ j ∈ a.same, ∃ gj, g1.ch j = some gj ∧ gj.color = c ∧ (dbg = true → has p gj.liberties = true) := fun j hj => by
    obtain ⟨gj, h1, h2⟩ := hsame j hj
    exact ⟨gj, (ht.other j (fun h' => hso j hj h')).trans h1, h2, fun hdb => by rw [(hds hdb).1] at hj; simp at hj⟩
  obtain ⟨r, t, er, hA⟩ := attach_att (dbg := dbg) (c := c) (same := a.same) (libs := a.libs) ht.rep hp
    (by rw [ht.bd, hb]) hlibs368 hplibs (by rw [ht.clen]; exact hroom) ha.snd hs1
  have hcol : ∀ i, r.col i = if i = p then some c else g.col i := fun i => by
    rw [hA.col ht.rep (fun j hj => let ⟨gj, h1, h2, _⟩ := hs1 j hj; ⟨gj, h1, h2⟩) i, ht.col hr]
  let r' : Goban := { r with zobristHash := r.zobristHash ^^^ zkey p (some c) }
  have hrep : Rep r' := by
    have q := hA.rep
    refine ⟨q.blen, q.nlen, ?_, q.live, q.few⟩
    intro k grp hg
    obtain ⟨l, hc⟩ := q.chain k grp hg
    exact ⟨l, hc.nodup, hc.walk, hc.head, hc.last, hc.num, hc.min, hc.libs, hc.mem⟩
  obtain ⟨gt, hgt, hct, hLt⟩ := hA.added
  have hnil : (∀ j ∈ seen n p, g.col j = some c.opp) → a.same = [] ∧ a.libs = [] := by
    intro hall
    constructor
    · rw [List.eq_nil_iff_forall_not_mem]
      intro j hj
      obtain ⟨i, hi, _, hci⟩ := (ha.same j).1 hj
      rw [hall i hi] at hci
      exact Color.opp_ne c (Option.some.inj hci)
    · rw [List.eq_nil_iff_forall_not_mem]
      intro j hj
      obtain ⟨hi, hbi⟩ := (ha.libs j).1 hj
      have := hall j hi
      rw [col_none hbi] at this; cases this
  refine ⟨{ dead := dead, added := t, goban := r' }, (hrun _ er).trans ?_, hrep, hA.size.trans ht.size, hcol, hA.bdt p (Or.inl rfl),
    ?_, ⟨gt, hgt, hct, ?_⟩, ?_, ?_, ?_⟩
  · cases dbg with
    | false => rfl
    | true =>
      show (r'.checkIntegrityAll true >>= _) = _
      rw [checkIntegrityAll_ok hrep]; rfl
  · intro hall i hi
    obtain ⟨hs, _⟩ := hnil hall
    by_cases hip : i = p
    · exact hip
    · exfalso
      have hbi : r.bd i = g1.bd i := hA.bdo i hip (by rw [hs]; simp)
      have hbt : g1.bd i = some t := by rw [← hbi]; exact hi
      rcases hA.new with h' | h'
      · rw [hs] at h'; simp at h'
      · obtain ⟨gi, hgi⟩ := ht.rep.live i t hbt
        have := Goban.ch_lt hgi
        omega
  · intro hnd
    rw [isDead_iff]
    constructor
    · intro hdd j hj
      cases hbj : g.bd j with
      | none =>
        exfalso
        have := (hLt j).2 ⟨fun h' => hx (h' ▸ hsx j hj), Or.inl ((ha.libs j).2 ⟨hj, hbj⟩)⟩
        rw [hdd j] at this; cases this
      | some k =>
        obtain ⟨gk, hgk⟩ := hr.live j k hbj
        have hcj := col_of_bd hbj hgk
        by_cases hcc : gk.color = c
        · exfalso
          have hks : k ∈ a.same := (ha.same k).2 ⟨j, hj, hbj, by rw [hcj, hcc]⟩
          have hal := hnd k gk hgk
          rw [← Bool.not_eq_true, isDead_iff] at hal
          apply hal
          intro x
          cases hhx : has x gk.liberties with
          | false => rfl
          | true =>
            have := (hLt x).2 ⟨fun h' => (by rw [h', hnone k gk hgk] at hhx; cases hhx),
              Or.inr ⟨k, hks, gk, (ht.other k (fun h' => hso k hks h')).trans hgk, hhx⟩⟩
            rw [hdd x] at this; cases this
        · rw [hcj, Color.eq_opp_of_ne hcc]
    · intro hall x
      obtain ⟨hs, hl⟩ := hnil hall
      cases hhx : has x gt.liberties with
      | false => rfl
      | true =>
        rcases (hLt x).1 hhx with ⟨_, h' | ⟨k, hk, _⟩⟩
        · rw [hl] at h'; simp at h'
        · rw [hs] at hk; simp at hk
  · intro j hj
    have hjo := ht.sub.subset hj
    obtain ⟨gj, h1, _⟩ := hopp j hjo
    obtain ⟨gj', h3, h4⟩ := (ht.dead j hjo).1 hj
    obtain ⟨l', h5, h6⟩ := ht.taken j hjo gj h1
    rw [h3] at h5; cases h5
    refine ⟨gj, h1, ?_⟩
    rw [isDead_iff] at h4 ⊢
    intro x
    by_cases hx : x = p
    · rw [hx]; exact hnone j gj h1
    · have := h4 x
      rw [h6, if_neg hx] at this; exact this
  · intro j gj hjt hgj
    have hjs : j ∉ a.same := fun h' => by
      have := hA.gone j hjt h'
      rw [show r.ch j = some gj from hgj] at this; cases this
    have hg1 : g1.ch j = some gj := (hA.other j hjt hjs).symm.trans hgj
    by_cases hjo : j ∈ a.opp
    · obtain ⟨g0, h1, _⟩ := hopp j hjo
      obtain ⟨l', h5, h6⟩ := ht.taken j hjo g0 h1
      rw [hg1] at h5; cases h5
      rw [h6, if_pos rfl]
    · exact hnone j gj ((ht.other j hjo).symm.trans hg1)
  · intro hall i hip
    obtain ⟨hs, _⟩ := hnil hall
    show r.bd i = _
    rw [hA.bdo i hip (by rw [hs]; simp), ht.bd]

/-- In a debug build, pushing on such a cell panics if it is taken to have an occupied neighbour. -/
theorem push_hidden_debug {g : Goban} {pt : Coord} {p : Nat} {c : Color} (h : Inv n g) (h2 : 2 ≤ n.h) (hpe : twoTo1dim n.sz pt = p)
    (hp : p < 361) (hx : ¬ Ix n p) {j0 k0 : Nat} (hj0 : j0 ∈ seen n p) (hk0 : g.bd j0 = some k0) :
    g.pushWthFeedback true pt c = panic := by
  have hn := h.good
  have hr := h.rep
  have hsx : ∀ x ∈ seen n p, Ix n x := fun x hx => ((mem_seen hn h2 hp).1 hx).1
  have hnb361 : ∀ x ∈ seen n p, x < 361 := fun x hx => h.lt361 (hsx x hx)
  have hb : g.bd p = none := by
    cases hb : g.bd p with
    | none => rfl
    | some k => exact absurd (h.off p k hb) hx
  obtain ⟨a, ea, ha⟩ := around_ok (c := c) hr hnb361
  have hno : ∀ j gj, g.ch j = some gj → has p gj.liberties = false := by
    intro j gj hj
    cases hh : has p gj.liberties with
    | false => rfl
    | true => exact absurd ((h.libs j gj hj p).1 hh).1 hx
  have hnone : ∀ j gj, g.ch j = some gj → gj.removeLiberty true p = panic := by
    intro j gj hj
    obtain ⟨l, hc⟩ := hr.chain j gj hj
    exact removeLiberty_panic hc.libs (by omega) (hno j gj hj)
  have hsame : ∀ j ∈ a.same, ∃ gj, g.ch j = some gj ∧ gj.color = c := by
    intro j hj
    obtain ⟨i, hi, hbi, hci⟩ := (ha.same j).1 hj
    obtain ⟨gj, hgj⟩ := hr.live i j hbi
    rw [col_of_bd hbi hgj] at hci
    exact ⟨gj, hgj, Option.some.inj hci⟩
  have hlibs368 : ∀ i ∈ a.libs, i < 368 := by
    intro i hi
    have := hnb361 i ((ha.libs i).1 hi).1
    omega
  have hplibs : p ∉ a.libs := fun h' => hx (hsx p ((ha.libs p).1 h').1)
  unfold Goban.pushWthFeedback
  rw [h.size, hpe]
  dsimp only
  rw [neighborsIdx_seen h.size hn h2 hp, ok_bind, ea, ok_bind]
  cases ho : a.opp with
  | cons o os =>
    obtain ⟨i, hi, hbi, hci⟩ := (ha.opp o).1 (by rw [ho]; simp)
    obtain ⟨go, hgo⟩ := hr.live i o hbi
    rw [List.foldlM_cons]
    have : Goban.takeLiberty true p (g, []) o = panic := by
      unfold Goban.takeLiberty
      dsimp only
      rw [Goban.chainAt_ok hgo, ok_bind, hnone o go hgo]; rfl
    rw [this]; rfl
  | nil =>
    show (g.attach true p c a.same a.libs >>= _) = _
    have hatt : g.attach true p c a.same a.libs = panic := by
      rcases hs : a.same with _ | ⟨u, _ | ⟨v, w⟩⟩
      · exfalso
        obtain ⟨g0, hg0⟩ := hr.live j0 k0 hk0
        have hc0 := col_of_bd hk0 hg0
        by_cases hcc : g0.color = c
        · have := (ha.same k0).2 ⟨j0, hj0, hk0, by rw [hc0, hcc]⟩
          rw [hs] at this; simp at this
        · have := (ha.opp k0).2 ⟨j0, hj0, hk0, by rw [hc0, Color.eq_opp_of_ne hcc]⟩
          rw [ho] at this; simp at this
      · obtain ⟨gu, hgu, _⟩ := hsame u (by rw [hs]; simp)
        unfold Goban.attach
        dsimp only
        rw [Goban.chainAt_ok hgu, ok_bind, hnone u gu hgu]; rfl
      · rw [← hs]
        by_cases hroom : g.chains.length < 65535
        · obtain ⟨s1, e1, h1⟩ := create_att (dbg := true) (c := c) (libs := a.libs) hr hp hb hlibs368 hroom
          have h1' : Att g s1 p c [] g.chains.length (fun x => x ∈ a.libs ∨ LibOf g [] x) :=
            h1.congr (by
              intro x
              constructor
              · exact Or.inl
              · rintro (h' | ⟨k, hk, _⟩)
                · exact h'
                · simp at hk)
          obtain ⟨s2, t, e2, h2⟩ := mergeFold_att (dbg := true) hr hb a.same [] s1 _ h1' (by simpa using ha.snd) hsame
          rw [List.nil_append] at h2
          obtain ⟨gt, hgt, hct, hL⟩ := h2.added
          obtain ⟨lt, hcht⟩ := h2.rep.chain t gt hgt
          have hpt : gt.removeLiberty true p = panic := by
            apply removeLiberty_panic hcht.libs (by omega)
            cases hh : has p gt.liberties with
            | false => rfl
            | true =>
              rcases (hL p).1 hh with h' | ⟨j, hj, gj, h3, h4⟩
              · exact absurd h' hplibs
              · rw [hno j gj h3] at h4; cases h4
          rw [hs] at e2 ⊢
          unfold Goban.attach
          dsimp only
          rw [e1, ok_bind]
          dsimp only
          rw [e2, ok_bind]
          dsimp only
          rw [Goban.chainAt_ok hgt, ok_bind, hpt]; rfl
        · exact attach_panic hr hp hlibs368 (by have := hr.few; omega) (by rw [hs]; simp)
    rw [hatt]; rfl

/-! ### Cells past the end of the table -/

/-- The call ends: it returns or panics. -/
def Ends {α} (x : M α) : Prop := x ≠ .error .diverge

theorem Ends.ok {α} {a : α} : Ends (.ok a : M α) := by intro h; cases h
theorem Ends.panic {α} : Ends (panic : M α) := by intro h; cases h

theorem Ends.bind {α β} {x : M α} {f : α → M β} (h : Ends x) (hf : ∀ a, x = .ok a → Ends (f a)) : Ends (x >>= f) := by
  cases x with
  | error e => exact fun h' => h (by cases h'; rfl)
  | ok a => exact hf a rfl

theorem Ends.fold {α β} {f : β → α → M β} (hf : ∀ b a, Ends (f b a)) : ∀ (l : List α) (b : β), Ends (l.foldlM f b)
  | [], _ => Ends.ok
  | a :: l, b => by
    rw [List.foldlM_cons]
    exact (hf b a).bind (fun b' _ => Ends.fold hf l b')

theorem Ends.chainAt {cs : Groups} {k : Nat} : Ends (cs.chainAt k) := by
  unfold Groups.chainAt
  split
  · exact Ends.ok
  · exact Ends.panic

theorem Ends.boardAt {g : Goban} {i : Nat} : Ends (g.boardAt i) := by
  unfold Goban.boardAt
  split
  · exact Ends.panic
  · exact Ends.ok

theorem Ends.bitset {v : Bool} {i : Nat} {l : Liberties} : Ends (Bits.set v i l) := by
  unfold Bits.set
  dsimp only
  split
  · exact Ends.panic
  · exact Ends.ok

theorem Ends.bitget {i : Nat} {l : Liberties} : Ends (Bits.get i l) := by
  unfold Bits.get
  split
  · exact Ends.panic
  · exact Ends.ok

theorem Ends.removeLiberty {grp : Group} {i : Nat} : Ends (grp.removeLiberty dbg i) := by
  unfold Group.removeLiberty
  cases dbg with
  | false => exact Ends.bitset.bind (fun _ _ => Ends.ok)
  | true =>
    refine Ends.bitget.bind (fun b _ => ?_)
    cases b with
    | false => exact Ends.panic
    | true => exact Ends.bitset.bind (fun _ _ => Ends.ok)

theorem Ends.addU8 {x y : Nat} : Ends (addU8 dbg x y) := by
  unfold Model.addU8
  split
  · exact Ends.ok
  · split
    · exact Ends.panic
    · exact Ends.ok

theorem Ends.neighborsIdx {g : Goban} {i : Nat} : Ends (g.neighborsIdx dbg i) := by
  unfold Goban.neighborsIdx Goban.neighborsCoords validCoords neighborCoords oneTo2dim
  refine Ends.bind ?_ (fun c _ => ?_)
  · split
    · exact Ends.panic
    · exact Ends.ok
  · refine Ends.bind (Ends.bind (Ends.bind Ends.addU8 (fun _ _ => Ends.bind Ends.addU8 (fun _ _ => Ends.ok))) (fun _ _ => Ends.ok))
      (fun _ _ => Ends.ok)

theorem Ends.setNext {g : Goban} {i v : Nat} : Ends (g.setNext i v) := by
  unfold Goban.setNext
  split
  · exact Ends.ok
  · exact Ends.panic

theorem setNext_panic {g : Goban} {i v : Nat} (h : g.nextStone.length ≤ i) : g.setNext i v = panic := by
  unfold Goban.setNext
  rw [if_neg (by omega)]

theorem Ends.createChain_off {g : Goban} {i : Nat} {c : Color} {l : List Nat} (h : g.nextStone.length ≤ i) :
    Ends (g.createChain dbg i c l) := by
  unfold Goban.createChain
  refine Ends.bind (Ends.fold (fun _ _ => Ends.bitset) _ _) (fun lib _ => ?_)
  dsimp only
  rw [setNext_panic h]
  exact Ends.panic

theorem Ends.attach_off {g : Goban} {i : Nat} {c : Color} {same libs : List Nat} (h : g.nextStone.length ≤ i) :
    Ends (g.attach dbg i c same libs) := by
  unfold Goban.attach
  split
  · exact Ends.createChain_off h
  · refine Ends.chainAt.bind (fun ch _ => Ends.removeLiberty.bind (fun ch1 _ => Ends.bind (Ends.fold (fun _ _ => ?_) _ _) (fun ch2 _ => ?_)))
    · exact Ends.bitset.bind (fun _ _ => Ends.ok)
    · dsimp only
      refine Ends.bind ?_ (fun g' _ => ?_)
      · unfold Goban.addStoneToChain
        refine Ends.chainAt.bind (fun grp _ => ?_)
        dsimp only
        split
        · rw [setNext_panic (by exact h)]; exact Ends.panic
        · refine Ends.setNext.bind (fun g1 e1 => ?_)
          have : g1.nextStone.length ≤ i := by
            unfold Goban.setNext at e1
            split at e1
            · cases e1
              show (List.set _ _ _).length ≤ i
              rw [List.length_set]; exact h
            · cases e1
          rw [setNext_panic this]; exact Ends.panic
      · split
        · exact Ends.panic
        · refine Ends.bind ?_ (fun _ _ => Ends.ok)
          unfold Goban.setBoard
          split
          · exact Ends.ok
          · exact Ends.panic
  · exact (Ends.createChain_off h).bind (fun r e => by
      exfalso
      unfold Goban.createChain at e
      obtain ⟨_, _, e⟩ := bind_eq_ok e
      dsimp only at e
      rw [setNext_panic h] at e
      cases e)

theorem take_next : ∀ {l : List Nat} {s s' : Goban × List Nat} {p : Nat}, l.foldlM (Goban.takeLiberty dbg p) s = .ok s' →
    s'.1.nextStone = s.1.nextStone
  | [], s, s', p, e => by cases e; rfl
  | k :: l, s, s', p, e => by
    rw [List.foldlM_cons] at e
    obtain ⟨s1, e1, e⟩ := bind_eq_ok e
    rw [take_next e]
    unfold Goban.takeLiberty at e1
    obtain ⟨grp, _, e1⟩ := bind_eq_ok e1
    obtain ⟨grp', _, e1⟩ := bind_eq_ok e1
    cases e1
    rfl

/-! ### Taking the stone off again -/

theorem connected_fold {g : Goban} (hb : g.board.length = 361) : ∀ (l d acc : List Nat), (∀ x ∈ l, x < 361) → acc.Nodup →
    (∀ k, k ∈ acc ↔ ∃ j ∈ d, g.bd j = some k) →
    ∃ ks, l.foldlM g.connectedStep acc = .ok ks ∧ ks.Nodup ∧ ∀ k, k ∈ ks ↔ ∃ j ∈ d ++ l, g.bd j = some k := by
  intro l
  induction l with
  | nil => intro d acc _ h1 h2; exact ⟨acc, rfl, h1, by simpa using h2⟩
  | cons x l ih =>
    intro d acc hl h1 h2
    rw [List.foldlM_cons, Goban.connectedStep, Goban.boardAt_ok (by rw [hb]; exact hl x (by simp)), ok_bind]
    have step : ∀ acc' : List Nat, acc'.Nodup → (∀ k, k ∈ acc' ↔ ∃ j ∈ d ++ [x], g.bd j = some k) → _ :=
      fun acc' a b => ih (d ++ [x]) acc' (fun y hy => hl y (List.mem_cons_of_mem _ hy)) a b
    simp only [List.append_assoc, List.singleton_append] at step
    cases hx : g.bd x with
    | none =>
      simp only [ok_bind]
      apply step acc h1
      intro k
      rw [h2]
      constructor
      · rintro ⟨j, hj, h'⟩; exact ⟨j, by simp [hj], h'⟩
      · rintro ⟨j, hj, h'⟩
        rcases List.mem_append.1 hj with hj | hj
        · exact ⟨j, hj, h'⟩
        · rw [List.mem_singleton] at hj; subst hj; rw [hx] at h'; cases h'
    | some m =>
      simp only [ok_bind]
      by_cases hm : m ∈ acc
      · rw [if_pos (by simpa using hm)]
        apply step acc h1
        intro k
        rw [h2]
        constructor
        · rintro ⟨j, hj, h'⟩; exact ⟨j, by simp [hj], h'⟩
        · rintro ⟨j, hj, h'⟩
          rcases List.mem_append.1 hj with hj | hj
          · exact ⟨j, hj, h'⟩
          · rw [List.mem_singleton] at hj; subst hj
            rw [hx] at h'; cases h'
            exact (h2 _).1 hm
      · rw [if_neg (by simpa using hm)]
        apply step
        · rw [List.nodup_append]
          exact ⟨h1, by simp, by intro a ha b hb' hab; rw [List.mem_singleton] at hb'; exact hm (hb' ▸ hab ▸ ha)⟩
        · intro k
          rw [List.mem_append, List.mem_singleton, h2]
          constructor
          · rintro (⟨j, hj, h'⟩ | rfl)
            · exact ⟨j, by simp [hj], h'⟩
            · exact ⟨x, by simp, hx⟩
          · rintro ⟨j, hj, h'⟩
            rcases List.mem_append.1 hj with hj | hj
            · exact Or.inl ⟨j, hj, h'⟩
            · rw [List.mem_singleton] at hj; subst hj
              rw [hx] at h'; cases h'; exact Or.inr rfl

/-- `remove_chain` on a group of one stone that stands on such a cell. -/
theorem remove_hidden {r : Goban} {p t : Nat} {gt : Group} (hr : Rep r) (hs : r.size = n.sz) (hn : n.Good) (h2 : 2 ≤ n.h)
    (hp : p < 361) (hpt : r.bd p = some t) (hal : ∀ i, r.bd i = some t → i = p) (ht : r.ch t = some gt)
    (hno : ∀ j gj, j ≠ t → r.ch j = some gj → has p gj.liberties = false) :
    gt.numStones = 1 ∧ ∃ r', r.removeChain dbg t = .ok r' ∧ Rep r' ∧ r'.size = n.sz ∧
      ∀ i, r'.col i = if i = p then none else r.col i := by
  obtain ⟨l, hc⟩ := hr.chain t gt ht
  have hl : l = [p] := by
    have hm : ∀ a ∈ l, a = p := fun a ha => hal a ((hc.mem a).2 ha)
    have hpl : p ∈ l := (hc.mem p).1 hpt
    have hnd := hc.nodup
    match l, hm, hpl, hnd with
    | [], _, h', _ => simp at h'
    | [a], h1, _, _ => rw [h1 a (by simp)]
    | a :: b :: l', h1, _, h3 =>
      exfalso
      rw [List.nodup_cons] at h3
      exact h3.1 (by rw [h1 a (by simp), ← h1 b (by simp)]; simp)
  subst hl
  refine ⟨by rw [hc.num]; rfl, ?_⟩
  have hlt := Goban.ch_lt ht
  have hs361 : ∀ x ∈ seen n p, x < 361 := fun x hx => ((mem_seen hn h2 hp).1 hx).1.lt361 hn
  obtain ⟨ks, ek, hknd, hks⟩ := connected_fold hr.blen (seen n p) [] [] hs361 (by simp) (by simp)
  rw [List.nil_append] at hks
  let ns := ks.filter (fun x => x != t)
  have hns : ∀ j ∈ ns, j ≠ t ∧ ∃ gj, r.ch j = some gj := by
    intro j hj
    have := List.mem_filter.1 hj
    obtain ⟨y, _, hy⟩ := (hks j).1 this.1
    exact ⟨by simpa using this.2, hr.live y j hy⟩
  obtain ⟨g1, e2, hG⟩ := give_fold (dbg := dbg) (show p < 368 by omega) ns [] r
    ⟨rfl, rfl, rfl, rfl, rfl, fun _ _ => rfl, by simp⟩ (show ([] ++ ns).Nodup from List.Pairwise.filter _ hknd) (fun j hj => by
      obtain ⟨h3, gj, h4⟩ := hns j hj
      obtain ⟨lj, hcj⟩ := hr.chain j gj h4
      exact ⟨gj, h4, hcj.libs, hno j gj h3 h4⟩)
  rw [List.nil_append] at hG
  have hz := indexZobrist_ok (c := gt.color) hp
  let r' : Goban := { g1 with zobristHash := g1.zobristHash ^^^ zkey p (some gt.color), board := g1.board.set p none,
                              chains := g1.chains.set t none }
  have hbd : ∀ i, r'.bd i = if i = p then none else r.bd i := by
    intro i
    show ((g1.board.set p none)[i]?).join = _
    rw [Goban.bd_set (by rw [hG.brd, hr.blen]; exact hp), hG.brd]
    rfl
  have hch : ∀ j, r'.ch j = if j = t then none else g1.ch j := fun j => Goban.ch_set (by rw [hG.clen]; exact hlt)
  have hchj : ∀ j gj, j ≠ t → r.ch j = some gj → ∃ l', r'.ch j = some { gj with liberties := l' } ∧ l'.length = 46 := by
    intro j gj hj hgj
    rw [hch, if_neg hj]
    by_cases hjn : j ∈ ns
    · obtain ⟨l', h3, h4, _⟩ := hG.given j hjn gj hgj
      exact ⟨l', h3, h4⟩
    · obtain ⟨lj, hcj⟩ := hr.chain j gj hgj
      exact ⟨gj.liberties, (hG.other j hjn).trans hgj, hcj.libs⟩
  have hback : ∀ j gj, r'.ch j = some gj → j ≠ t ∧ ∃ g0, r.ch j = some g0 := by
    intro j gj hgj
    have hj : j ≠ t := by rintro rfl; rw [hch, if_pos rfl] at hgj; cases hgj
    refine ⟨hj, ?_⟩
    rw [hch, if_neg hj] at hgj
    by_cases hjn : j ∈ ns
    · exact (hns j hjn).2
    · exact ⟨gj, (hG.other j hjn).symm.trans hgj⟩
  have hbdj : ∀ i j, j ≠ t → (r'.bd i = some j ↔ r.bd i = some j) := by
    intro i j hj
    rw [hbd]
    by_cases hi : i = p
    · rw [if_pos hi, hi, hpt]
      constructor
      · intro h'; cases h'
      · intro h'; exact absurd (Option.some.inj h').symm hj
    · rw [if_neg hi]
  have hbdt : ∀ i, r'.bd i ≠ some t := by
    intro i
    rw [hbd]
    split
    · intro h'; cases h'
    · rename_i hi; exact fun h' => hi (hal i h')
  refine ⟨r', ?_, ⟨?_, ?_, ?_, ?_, ?_⟩, hG.size.trans hs, ?_⟩
  · unfold Goban.removeChain
    rw [Goban.chainAt_ok ht, ok_bind, Group.iterFold_of (hc.iter hr.nlen), List.foldlM_cons]
    unfold Goban.removeStoneStep Goban.connectedGroupsIdx
    rw [neighborsIdx_seen hs hn h2 hp, ok_bind, ek, ok_bind]
    dsimp only
    rw [e2, ok_bind, hz, ok_bind, Goban.setBoard_ok (by show p < g1.board.length; rw [hG.brd, hr.blen]; exact hp), ok_bind]
    rw [List.foldlM_nil, pure_bind']
    unfold Groups.remove
    dsimp only
    rw [if_pos (by rw [hG.clen]; exact hlt), ok_bind]
  · show (g1.board.set p none).length = _
    rw [List.length_set, hG.brd, hr.blen]
  · show g1.nextStone.length = _
    rw [hG.nxt, hr.nlen]
  · intro j gj hgj
    obtain ⟨hjt, g0, hg0⟩ := hback j gj hgj
    obtain ⟨l', h3, h4⟩ := hchj j g0 hjt hg0
    rw [hgj] at h3; cases h3
    obtain ⟨lj, hcj⟩ := hr.chain j g0 hg0
    refine ⟨lj, hcj.nodup, ?_, hcj.head, hcj.last, hcj.num, hcj.min, h4, ?_⟩
    · show Walk g1.nextStone _ _
      rw [hG.nxt]; exact hcj.walk
    · intro i; rw [hbdj i j hjt]; exact hcj.mem i
  · intro i j hj
    have hjt : j ≠ t := fun h' => hbdt i (h' ▸ hj)
    obtain ⟨g0, hg0⟩ := hr.live i j ((hbdj i j hjt).1 hj)
    obtain ⟨l', h3, _⟩ := hchj j g0 hjt hg0
    exact ⟨_, h3⟩
  · show (g1.chains.set t none).length ≤ _
    rw [List.length_set, hG.clen]; exact hr.few
  · intro i
    by_cases hi : i = p
    · rw [if_pos hi]; exact col_none (by rw [hbd, if_pos hi])
    · rw [if_neg hi]
      cases hgi : r.bd i with
      | none => rw [col_none hgi, col_none (by rw [hbd, if_neg hi, hgi])]
      | some j =>
        have hjt : j ≠ t := fun h' => hi (hal i (h' ▸ hgi))
        obtain ⟨gj, hgj⟩ := hr.live i j hgi
        obtain ⟨l', h3, _⟩ := hchj j gj hjt hgj
        rw [col_of_bd hgi hgj, col_of_bd ((hbdj i j hjt).2 hgi) h3]

end Model
