import Verif.Proofs.Bitset
import Verif.Proofs.Coord
import Mathlib.Data.List.Perm.Subperm
/-!
# Representation invariant of the board: the circular stone lists

`Rep g` says that the three arrays of the board (group table, board of group indices, next-stone links) fit together.
The primitives of `push` are shown to run without fault and to preserve it.
-/

namespace Model
open Bits (has)

namespace Goban

/-- Group index stored at cell `i` (`none` for an empty or non-existent cell). -/
def bd (g : Goban) (i : Nat) : Option Nat := (g.board[i]?).join

/-- Group stored in slot `k`, if live. -/
def ch (g : Goban) (k : Nat) : Option Group := (g.chains[k]?).join

/-- Colour at cell `i`. -/
def col (g : Goban) (i : Nat) : Option Color := (g.bd i).bind (fun k => (g.ch k).map Group.color)

theorem boardAt_ok {g : Goban} {i : Nat} (h : i < g.board.length) : g.boardAt i = .ok (g.bd i) := by
  unfold boardAt bd
  rw [List.getElem?_eq_getElem h]; rfl

theorem chainAt_ok {g : Goban} {k : Nat} {grp : Group} (h : g.ch k = some grp) : g.chains.chainAt k = .ok grp := by
  unfold ch at h
  rw [Option.join_eq_some_iff] at h
  unfold Groups.chainAt
  rw [h]

theorem ch_lt {g : Goban} {k : Nat} {grp : Group} (h : g.ch k = some grp) : k < g.chains.length := by
  unfold ch at h
  rw [Option.join_eq_some_iff] at h
  exact (List.getElem?_eq_some_iff.1 h).1

theorem bd_lt {g : Goban} {i k : Nat} (h : g.bd i = some k) : i < g.board.length := by
  unfold bd at h
  rw [Option.join_eq_some_iff] at h
  exact (List.getElem?_eq_some_iff.1 h).1

theorem ch_set {cs : Groups} {k j : Nat} {o : Option Group} (hk : k < cs.length) :
    ((cs.set k o)[j]?).join = if j = k then o else (cs[j]?).join := by
  rw [List.getElem?_set]
  by_cases h : j = k
  · subst h; simp [hk]
  · rw [if_neg (fun h' => h h'.symm), if_neg h]

theorem bd_set {b : List (Option Nat)} {i j : Nat} {o : Option Nat} (hk : i < b.length) :
    ((b.set i o)[j]?).join = if j = i then o else (b[j]?).join := by
  rw [List.getElem?_set]
  by_cases h : j = i
  · subst h; simp [hk]
  · rw [if_neg (fun h' => h h'.symm), if_neg h]

theorem ch_setChain {g : Goban} {k j : Nat} {grp : Group} (hk : k < g.chains.length) :
    (g.setChain k grp).ch j = if j = k then some grp else g.ch j := ch_set hk

@[simp] theorem bd_setChain {g : Goban} {k j : Nat} {grp : Group} : (g.setChain k grp).bd j = g.bd j := rfl

theorem setBoard_ok {g : Goban} {i : Nat} {o : Option Nat} (h : i < g.board.length) :
    g.setBoard i o = .ok { g with board := g.board.set i o } := by
  unfold setBoard; rw [if_pos h]

theorem setNext_ok {g : Goban} {i v : Nat} (h : i < g.nextStone.length) :
    g.setNext i v = .ok { g with nextStone := g.nextStone.set i v } := by
  unfold setNext; rw [if_pos h]

end Goban

/-- `Walk nx o l`: following the links from the head of `l` visits `l` in order and then reaches `o`. -/
def Walk (nx : List Nat) (o : Nat) : List Nat → Prop
  | [] => False
  | [a] => nx[a]? = some o
  | a :: b :: t => nx[a]? = some b ∧ Walk nx o (b :: t)

theorem Walk.ne_nil {nx o} {l : List Nat} (h : Walk nx o l) : l ≠ [] := by
  cases l with
  | nil => exact h.elim
  | cons => simp

theorem Walk.lt {nx o} : ∀ {l : List Nat}, Walk nx o l → ∀ a ∈ l, a < nx.length
  | [], h, _, _ => h.elim
  | [a], h, x, hx => by
    rw [List.mem_singleton] at hx; subst hx
    exact (List.getElem?_eq_some_iff.1 h).1
  | a :: b :: t, h, x, hx => by
    rcases List.mem_cons.1 hx with rfl | hx
    · exact (List.getElem?_eq_some_iff.1 h.1).1
    · exact Walk.lt h.2 x hx

/-- The stone iterator yields the list of the walk. -/
theorem Walk.iterFrom {dbg : Bool} {nx : List Nat} {o : Nat} : ∀ (t : List Nat) (a fuel : Nat),
    Walk nx o (a :: t) → (a :: t).Nodup → o ∉ t → (a :: t).length ≤ fuel →
    Group.iterFrom dbg nx o fuel a = .ok (a :: t) := by
  intro t
  induction t with
  | nil =>
    intro a fuel hw _ _ hf
    cases fuel with
    | zero => simp at hf
    | succ f =>
      unfold Group.iterFrom
      have : nx[a]? = some o := hw
      rw [this]; simp
  | cons b t ih =>
    intro a fuel hw hnd ho hf
    cases fuel with
    | zero => simp at hf
    | succ f =>
      unfold Group.iterFrom
      rw [hw.1]
      have hbo : b ≠ o := fun h => ho (by simp [h])
      have hba : b ≠ a := fun h => by
        rw [List.nodup_cons] at hnd
        exact hnd.1 (by simp [h])
      have hih := ih b f hw.2 (List.nodup_cons.1 hnd).2 (fun h => ho (List.mem_cons_of_mem _ h)) (by simpa using hf)
      simp only [if_neg hbo, beq_iff_eq, Bool.and_eq_true, hba, and_false, if_false]
      rw [hih]; rfl

theorem Walk.append {nx : List Nat} {o b : Nat} {t : List Nat} : ∀ {l : List Nat},
    Walk nx b l → Walk nx o (b :: t) → Walk nx o (l ++ b :: t)
  | [], h, _ => h.elim
  | [_], h, h2 => ⟨h, h2⟩
  | _ :: _ :: _, h, h2 => ⟨h.1, Walk.append h.2 h2⟩

/-- Redirecting the link of the last stone. -/
theorem Walk.relink {nx nx' : List Nat} {o o' : Nat} : ∀ {l : List Nat} {z : Nat},
    Walk nx o l → l.Nodup → l.getLast? = some z → nx'[z]? = some o' →
    (∀ a ∈ l, a ≠ z → nx'[a]? = nx[a]?) → Walk nx' o' l
  | [], _, h, _, _, _, _ => h.elim
  | [a], z, _, _, hl, hz, _ => by
    simp at hl; subst hl; exact hz
  | a :: b :: t, z, h, hnd, hl, hz, hs => by
    have hzt : z ∈ b :: t := by
      rw [List.getLast?_cons_cons] at hl
      exact List.mem_of_getLast? hl
    have haz : a ≠ z := fun h' => (List.nodup_cons.1 hnd).1 (h' ▸ hzt)
    refine ⟨?_, ?_⟩
    · rw [hs a (by simp) haz]; exact h.1
    · rw [List.getLast?_cons_cons] at hl
      exact Walk.relink h.2 (List.nodup_cons.1 hnd).2 hl hz (fun x hx => hs x (List.mem_cons_of_mem _ hx))

theorem Walk.congr {nx nx' : List Nat} {o : Nat} : ∀ {l : List Nat}, Walk nx o l →
    (∀ a ∈ l, nx'[a]? = nx[a]?) → Walk nx' o l
  | [], h, _ => h.elim
  | [a], h, hs => by
    show nx'[a]? = _
    rw [hs a (by simp)]; exact h
  | a :: b :: t, h, hs => by
    refine ⟨?_, Walk.congr h.2 (fun x hx => hs x (List.mem_cons_of_mem _ hx))⟩
    rw [hs a (by simp)]; exact h.1

/-- Slot `k` holds a well-formed group whose stones are `l`. -/
structure IsChain (g : Goban) (k : Nat) (grp : Group) (l : List Nat) : Prop where
  nodup : l.Nodup
  walk : Walk g.nextStone grp.origin l
  head : l.head? = some grp.origin
  last : l.getLast? = some grp.last
  num : grp.numStones = l.length
  min : ∀ a ∈ l, grp.origin ≤ a
  libs : grp.liberties.length = 46
  mem : ∀ i, g.bd i = some k ↔ i ∈ l

/-- The arrays of the board fit together. -/
structure Rep (g : Goban) : Prop where
  blen : g.board.length = 361
  nlen : g.nextStone.length = 361
  chain : ∀ k grp, g.ch k = some grp → ∃ l, IsChain g k grp l
  live : ∀ i k, g.bd i = some k → ∃ grp, g.ch k = some grp
  few : g.chains.length ≤ 65535

theorem nodup_length_le {l : List Nat} {m : Nat} (hnd : l.Nodup) (h : ∀ a ∈ l, a < m) : l.length ≤ m := by
  have : l.Subperm (List.range m) :=
    List.subperm_of_subset hnd (fun a ha => List.mem_range.2 (h a ha))
  simpa using this.length_le

theorem IsChain.length_le {g k grp l} (hn : g.nextStone.length = 361) (h : IsChain g k grp l) : l.length ≤ 361 :=
  nodup_length_le h.nodup (fun a ha => hn ▸ h.walk.lt a ha)

theorem IsChain.iter {dbg : Bool} {g k grp l} (hn : g.nextStone.length = 361) (h : IsChain g k grp l) :
    grp.iter dbg g.nextStone = .ok l := by
  unfold Group.iter
  have hlen := h.length_le hn
  cases l with
  | nil => exact h.walk.elim
  | cons a t =>
    have ha : a = grp.origin := by simpa using h.head
    have hnd := h.nodup
    rw [List.nodup_cons] at hnd
    have := Walk.iterFrom (dbg := dbg) t a (g.nextStone.length + 1) h.walk h.nodup (ha ▸ hnd.1) (by omega)
    rw [← ha]; rw [← ha] at this; exact this

theorem IsChain.last_mem {g k grp l} (h : IsChain g k grp l) : grp.last ∈ l := List.mem_of_getLast? h.last

theorem IsChain.origin_mem {g k grp l} (h : IsChain g k grp l) : grp.origin ∈ l := List.mem_of_head? h.head

theorem IsChain.lt {g k grp l} (hn : g.nextStone.length = 361) (h : IsChain g k grp l) : ∀ a ∈ l, a < 361 :=
  fun a ha => hn ▸ h.walk.lt a ha

theorem Rep.live_bd {g : Goban} (h : Rep g) {k grp} (hk : g.ch k = some grp) : ∃ i, g.bd i = some k := by
  obtain ⟨l, hl⟩ := h.chain k grp hk
  exact ⟨grp.origin, (hl.mem _).2 hl.origin_mem⟩

theorem Rep.bd_lt {g : Goban} (h : Rep g) {i k} (hk : g.bd i = some k) : i < 361 := h.blen ▸ Goban.bd_lt hk

theorem Rep.boardAt {g : Goban} (h : Rep g) {i : Nat} (hi : i < 361) : g.boardAt i = .ok (g.bd i) :=
  Goban.boardAt_ok (h.blen ▸ hi)

theorem Rep.getColorIdx {g : Goban} (h : Rep g) {i : Nat} (hi : i < 361) : g.getColorIdx i = .ok (g.col i) := by
  unfold Goban.getColorIdx Goban.col
  rw [h.boardAt hi, ok_bind]
  cases hb : g.bd i with
  | none => rfl
  | some k =>
    obtain ⟨grp, hg⟩ := h.live i k hb
    simp only [Option.bind_some, hg, Option.map_some]
    rw [Goban.chainAt_ok hg]; rfl

/-- Changing only the liberties of a group keeps the representation. -/
theorem Rep.setLibs {g : Goban} (h : Rep g) {k grp} (hk : g.ch k = some grp) {lib : Liberties} (hl : lib.length = 46) :
    Rep (g.setChain k { grp with liberties := lib }) := by
  have hlt := Goban.ch_lt hk
  refine ⟨h.blen, h.nlen, ?_, ?_, ?_⟩
  · intro j gj hj
    rw [Goban.ch_setChain hlt] at hj
    by_cases hjk : j = k
    · subst hjk
      simp only [if_true, Option.some.injEq] at hj
      obtain ⟨l, hc⟩ := h.chain j grp hk
      subst hj
      exact ⟨l, hc.nodup, hc.walk, hc.head, hc.last, hc.num, hc.min, hl, hc.mem⟩
    · rw [if_neg hjk] at hj
      obtain ⟨l, hc⟩ := h.chain j gj hj
      exact ⟨l, hc.nodup, hc.walk, hc.head, hc.last, hc.num, hc.min, hc.libs, hc.mem⟩
  · intro i j hj
    obtain ⟨gj, hg⟩ := h.live i j hj
    rw [Goban.ch_setChain hlt]
    by_cases hjk : j = k
    · exact ⟨_, if_pos hjk⟩
    · exact ⟨gj, by rw [if_neg hjk]; exact hg⟩
  · show (g.chains.set k _).length ≤ _
    rw [List.length_set]; exact h.few

/-! ### Liberty folds -/

theorem set_fold_ok : ∀ (is : List Nat) (l : Liberties), l.length = 46 → (∀ i ∈ is, i < 368) →
    ∃ l', is.foldlM (fun l i => Bits.set true i l) l = .ok l' ∧ l'.length = 46 ∧
      ∀ x, has x l' = true ↔ x ∈ is ∨ has x l = true := by
  intro is
  induction is with
  | nil => intro l hl _; exact ⟨l, rfl, hl, by simp⟩
  | cons i is ih =>
    intro l hl his
    obtain ⟨l1, h1, h2, h3⟩ := Bits.set_ok (v := true) (x := i) (lib := l) (by rw [hl]; exact his i (by simp))
    obtain ⟨l', e, hlen, hm⟩ := ih l1 (h2.trans hl) (fun j hj => his j (List.mem_cons_of_mem _ hj))
    refine ⟨l', ?_, hlen, ?_⟩
    · rw [List.foldlM_cons, h1, ok_bind, e]
    · intro x
      rw [hm, h3, List.mem_cons]
      by_cases hx : x = i <;> simp [hx]

theorem unionSlice_ok : ∀ (is : List Nat) (grp : Group), grp.liberties.length = 46 → (∀ i ∈ is, i < 368) →
    ∃ l', grp.unionLibertiesSlice is = .ok { grp with liberties := l' } ∧ l'.length = 46 ∧
      ∀ x, has x l' = true ↔ x ∈ is ∨ has x grp.liberties = true := by
  intro is
  induction is with
  | nil => intro grp hl _; exact ⟨grp.liberties, rfl, hl, by simp⟩
  | cons i is ih =>
    intro grp hl his
    obtain ⟨l1, h1, h2, h3⟩ := Bits.set_ok (v := true) (x := i) (lib := grp.liberties) (by rw [hl]; exact his i (by simp))
    obtain ⟨l', e, hlen, hm⟩ := ih { grp with liberties := l1 } (h2.trans hl) (fun j hj => his j (List.mem_cons_of_mem _ hj))
    refine ⟨l', ?_, hlen, ?_⟩
    · unfold Group.unionLibertiesSlice at *
      rw [List.foldlM_cons, Group.addLibertyUnchecked, h1, ok_bind, ok_bind, e]
    · intro x
      rw [hm, h3, List.mem_cons]
      by_cases hx : x = i <;> simp [hx]

theorem removeLiberty_ok {dbg : Bool} {grp : Group} {i : Nat} (hl : grp.liberties.length = 46) (hi : i < 368)
    (hp : dbg = true → has i grp.liberties = true) :
    ∃ l', grp.removeLiberty dbg i = .ok { grp with liberties := l' } ∧ l'.length = 46 ∧
      ∀ x, has x l' = if x = i then false else has x grp.liberties := by
  obtain ⟨l1, h1, h2, h3⟩ := Bits.set_ok (v := false) (x := i) (lib := grp.liberties) (by rw [hl]; exact hi)
  refine ⟨l1, ?_, h2.trans hl, h3⟩
  unfold Group.removeLiberty
  cases dbg with
  | false => simp [h1]
  | true =>
    rw [Bits.get_ok (by rw [hl]; exact hi), hp rfl]
    simp [debugAssert, h1]

theorem addLiberty_ok {dbg : Bool} {grp : Group} {i : Nat} (hl : grp.liberties.length = 46) (hi : i < 368)
    (hp : dbg = true → has i grp.liberties = false) :
    ∃ l', grp.addLiberty dbg i = .ok { grp with liberties := l' } ∧ l'.length = 46 ∧
      ∀ x, has x l' = if x = i then true else has x grp.liberties := by
  obtain ⟨l1, h1, h2, h3⟩ := Bits.set_ok (v := true) (x := i) (lib := grp.liberties) (by rw [hl]; exact hi)
  refine ⟨l1, ?_, h2.trans hl, h3⟩
  unfold Group.addLiberty Group.addLibertyUnchecked
  cases dbg with
  | false => simp [h1]
  | true =>
    rw [Bits.get_ok (by rw [hl]; exact hi), hp rfl]
    simp [debugAssert, h1]

theorem u16_lt {x : Nat} (h : x < 65536) : u16 x = x := Nat.mod_eq_of_lt h

/-! ### Writing a group index on a list of cells -/

theorem setBoard_fold : ∀ (pts : List Nat) (g : Goban) (k : Nat), k < 65535 → (∀ a ∈ pts, a < g.board.length) →
    ∃ b, pts.foldlM (fun g point => if u16 k = 65535 then panic else g.setBoard point (some (u16 k))) g
        = .ok { g with board := b } ∧ b.length = g.board.length ∧
      ∀ i, (b[i]?).join = if i ∈ pts then some k else g.bd i := by
  intro pts
  induction pts with
  | nil => intro g k _ _; exact ⟨g.board, rfl, rfl, by intro i; simp [Goban.bd]⟩
  | cons a pts ih =>
    intro g k hk ha
    have h1 : a < g.board.length := ha a (by simp)
    obtain ⟨b, e, hlen, hb⟩ := ih { g with board := g.board.set a (some k) } k hk
      (fun x hx => by rw [List.length_set]; exact ha x (List.mem_cons_of_mem _ hx))
    refine ⟨b, ?_, by rw [hlen, List.length_set], ?_⟩
    · rw [List.foldlM_cons, if_neg (by rw [u16_lt (by omega)]; omega), Goban.setBoard_ok h1, ok_bind,
        u16_lt (by omega)]
      rw [u16_lt (by omega)] at e
      exact e
    · intro i
      rw [hb]
      show (if i ∈ pts then _ else ((g.board.set a (some k))[i]?).join) = _
      rw [Goban.bd_set h1]
      by_cases h2 : i ∈ pts
      · simp [h2]
      · by_cases h3 : i = a
        · simp [h3]
        · simp [h2, h3, Goban.bd]

theorem updateChainIndexes_ok {dbg : Bool} {g : Goban} {k : Nat} {grp : Group} {l : List Nat} (hk : g.ch k = some grp)
    (hit : grp.iter dbg g.nextStone = .ok l) (hlast : l.getLast? = some grp.last) (hlt : ∀ a ∈ l, a < g.board.length)
    (hb : g.board.length = 361) (hk' : k < 65535) :
    ∃ b, g.updateChainIndexesInBoard dbg k = .ok { g with board := b } ∧ b.length = g.board.length ∧
      ∀ i, (b[i]?).join = if i ∈ l then some k else g.bd i := by
  obtain ⟨b, e, h1, h2⟩ := setBoard_fold l g k hk' hlt
  refine ⟨b, ?_, h1, h2⟩
  unfold Goban.updateChainIndexesInBoard
  rw [Goban.chainAt_ok hk, ok_bind, hit, ok_bind]
  have : debugAssert dbg (l.getLast?.map u16 == some grp.last) = .ok () := by
    have h3 := hlt _ (List.mem_of_getLast? hlast)
    rw [hlast, Option.map_some, u16_lt (by omega)]
    simp [debugAssert]
  rw [this, ok_bind]; exact e

/-! ### Primitives of `push` -/

theorem getElem?_set_ne' {l : List Nat} {a b v : Nat} (h : a ≠ b) : (l.set a v)[b]? = l[b]? :=
  List.getElem?_set_ne h

theorem getElem?_set_eq' {l : List Nat} {a v : Nat} (h : a < l.length) : (l.set a v)[a]? = some v :=
  List.getElem?_set_self h

theorem create_ok {dbg : Bool} {g : Goban} {p : Nat} {c : Color} {libs : List Nat} (h : Rep g) (hp : p < 361)
    (hb : g.bd p = none) (hl : ∀ i ∈ libs, i < 368) (hk : g.chains.length < 65535) :
    ∃ (lib : Liberties) (b : List (Option Nat)), lib.length = 46 ∧ (∀ x, has x lib = true ↔ x ∈ libs) ∧
      b.length = 361 ∧ (∀ i, (b[i]?).join = if i = p then some g.chains.length else g.bd i) ∧
      g.createChain dbg p c libs = .ok (g.chains.length,
        { g with nextStone := g.nextStone.set p p, board := b,
                 chains := g.chains ++ [some (Group.newWithLiberties c p lib)] }) := by
  obtain ⟨lib, e1, hlen, hm⟩ := set_fold_ok libs EMPTY_LIBERTIES Bits.empty_length hl
  have hm' : ∀ x, has x lib = true ↔ x ∈ libs := by
    intro x; rw [hm]; simp [Bits.has_empty]
  have hpu : u16 p = p := u16_lt (by omega)
  let g2 : Goban := { g with nextStone := g.nextStone.set p p, chains := g.chains ++ [some (Group.newWithLiberties c p lib)] }
  have hch : g2.ch g.chains.length = some (Group.newWithLiberties c p lib) := by
    show ((g.chains ++ [some _])[g.chains.length]?).join = _
    simp
  have hit : (Group.newWithLiberties c p lib).iter dbg g2.nextStone = .ok [p] := by
    show Group.iterFrom dbg (g.nextStone.set p p) (u16 p) ((g.nextStone.set p p).length + 1) (u16 p) = _
    rw [hpu, List.length_set, h.nlen]
    exact Walk.iterFrom [] p 362 (getElem?_set_eq' (by rw [h.nlen]; exact hp)) (by simp) (by simp) (by simp)
  obtain ⟨b, e2, hbl, hbb⟩ := updateChainIndexes_ok (dbg := dbg) hch hit (by simp [Group.newWithLiberties, hpu])
    (by intro a ha; rw [List.mem_singleton] at ha; subst ha; show a < g.board.length; rw [h.blen]; exact hp) h.blen hk
  refine ⟨lib, b, hlen, hm', hbl.trans h.blen, ?_, ?_⟩
  · intro i; rw [hbb]; simp only [List.mem_singleton]; rfl
  · unfold Goban.createChain
    rw [e1, ok_bind, hpu]
    dsimp only
    rw [Goban.setNext_ok (by rw [h.nlen]; exact hp), ok_bind]
    unfold Groups.putFreeSpot
    dsimp only
    show (Goban.updateChainIndexesInBoard dbg g2 g.chains.length >>= _) = _
    rw [e2]; rfl

theorem create_rep {g : Goban} {p : Nat} {c : Color} {lib : Liberties} {b : List (Option Nat)} (h : Rep g) (hp : p < 361)
    (hb : g.bd p = none) (hk : g.chains.length < 65535) (hlen : lib.length = 46) (hbl : b.length = 361)
    (hbb : ∀ i, (b[i]?).join = if i = p then some g.chains.length else g.bd i) :
    Rep { g with nextStone := g.nextStone.set p p, board := b,
                 chains := g.chains ++ [some (Group.newWithLiberties c p lib)] } := by
  have hpu : u16 p = p := u16_lt (by omega)
  have hch : ∀ j, ((g.chains ++ [some (Group.newWithLiberties c p lib)])[j]?).join =
      if j = g.chains.length then some (Group.newWithLiberties c p lib) else g.ch j := by
    intro j
    by_cases hj : j = g.chains.length
    · subst hj; simp
    · rw [if_neg hj]
      by_cases hj2 : j < g.chains.length
      · rw [List.getElem?_append_left hj2]; rfl
      · rw [List.getElem?_eq_none (by simp; omega)]
        unfold Goban.ch
        rw [List.getElem?_eq_none (by omega)]
  refine ⟨hbl, by show (g.nextStone.set p p).length = 361; rw [List.length_set, h.nlen], ?_, ?_, ?_⟩
  · intro k grp hg
    replace hg := (hch k).symm.trans hg
    by_cases hkl : k = g.chains.length
    · rw [if_pos hkl] at hg
      cases hg
      refine ⟨[p], by simp, ?_, by simp [Group.newWithLiberties, hpu], by simp [Group.newWithLiberties, hpu], rfl, ?_, hlen, ?_⟩
      · show Walk (g.nextStone.set p p) (u16 p) [p]
        rw [hpu]
        exact getElem?_set_eq' (by rw [h.nlen]; exact hp)
      · intro a ha; rw [List.mem_singleton] at ha; subst ha; show u16 a ≤ a; omega
      · intro i
        show (b[i]?).join = _ ↔ _
        rw [hbb, List.mem_singleton]
        by_cases hi : i = p
        · simp [hi, hkl]
        · rw [if_neg hi]
          refine ⟨fun hbd => ?_, fun h' => absurd h' hi⟩
          obtain ⟨gg, hgg⟩ := h.live i k hbd
          have := Goban.ch_lt hgg
          omega
    · rw [if_neg hkl] at hg
      obtain ⟨l, hc⟩ := h.chain k grp hg
      have hpl : p ∉ l := fun hpl => by
        have := (hc.mem p).2 hpl
        rw [hb] at this; cases this
      refine ⟨l, hc.nodup, ?_, hc.head, hc.last, hc.num, hc.min, hc.libs, ?_⟩
      · apply hc.walk.congr
        intro a ha
        exact getElem?_set_ne' (fun h' => hpl (h' ▸ ha))
      · intro i
        show (b[i]?).join = _ ↔ _
        rw [hbb]
        by_cases hi : i = p
        · subst hi
          simp only [if_true, Option.some.injEq]
          exact ⟨fun h' => absurd h'.symm hkl, fun h' => absurd h' hpl⟩
        · rw [if_neg hi]; exact hc.mem i
  · intro i k hg
    show ∃ grp, ((g.chains ++ [some _])[k]?).join = _
    rw [hch]
    replace hg := (hbb i).symm.trans hg
    by_cases hi : i = p
    · rw [if_pos hi] at hg
      cases hg
      exact ⟨_, if_pos rfl⟩
    · rw [if_neg hi] at hg
      obtain ⟨gg, hgg⟩ := h.live i k hg
      have := Goban.ch_lt hgg
      exact ⟨gg, by rw [if_neg (by omega)]; exact hgg⟩
  · show (g.chains ++ [_]).length ≤ _
    simp; omega

/-- `add_stone_to_chain` followed by the board write. -/
theorem add_ok {dbg : Bool} {g : Goban} {p k : Nat} {grp : Group} (h : Rep g) (hp : p < 361) (hb : g.bd p = none)
    (hk : g.ch k = some grp) :
    ∃ (nx : List Nat) (o z m : Nat), (do
        let g ← g.addStoneToChain dbg k p
        if u16 k = 65535 then panic else g.setBoard p (some (u16 k)) : M Goban) =
        .ok { g with nextStone := nx, board := g.board.set p (some k),
                     chains := g.chains.set k (some { grp with origin := o, last := z, numStones := m }) } ∧
      Rep { g with nextStone := nx, board := g.board.set p (some k),
                   chains := g.chains.set k (some { grp with origin := o, last := z, numStones := m }) } := by
  obtain ⟨l, hc⟩ := h.chain k grp hk
  have hkl := Goban.ch_lt hk
  have hklt : k < 65535 := by have := h.few; omega
  have hpu : u16 p = p := u16_lt (by omega)
  have hku : u16 k = k := u16_lt (by omega)
  have hll := hc.length_le h.nlen
  have hlast := hc.lt h.nlen _ hc.last_mem
  have horig := hc.lt h.nlen _ hc.origin_mem
  have hpl : p ∉ l := fun hpl => by
    have := (hc.mem p).2 hpl
    rw [hb] at this; cases this
  have hplast : p ≠ grp.last := fun h' => hpl (h' ▸ hc.last_mem)
  have hnum : grp.numStones + 1 < 65536 := by rw [hc.num]; omega
  have hadd : addU16 dbg grp.numStones 1 = .ok (grp.numStones + 1) := by unfold addU16; rw [if_pos hnum]
  have hbd : ∀ i, ((g.board.set p (some k))[i]?).join = if i = p then some k else g.bd i :=
    fun i => Goban.bd_set (by rw [h.blen]; exact hp)
  have hchs : ∀ (x : Group) j, ((g.chains.set k (some x))[j]?).join = if j = k then some x else g.ch j :=
    fun x j => Goban.ch_set hkl
  -- the generic part: any new list and links with the right shape
  have key : ∀ (nx : List Nat) (o z : Nat) (l' : List Nat), nx.length = 361 → l'.Nodup → Walk nx o l' →
      l'.head? = some o → l'.getLast? = some z → l'.length = l.length + 1 → (∀ a ∈ l', o ≤ a) →
      (∀ i, i ∈ l' ↔ i = p ∨ i ∈ l) → (∀ a, a ≠ p → a ∉ l → nx[a]? = g.nextStone[a]?) →
      Rep { g with nextStone := nx, board := g.board.set p (some k),
                   chains := g.chains.set k (some { grp with origin := o, last := z, numStones := grp.numStones + 1 }) } ∧
      ({ grp with origin := o, last := z, numStones := grp.numStones + 1 } : Group).iter dbg nx = .ok l' := by
    intro nx o z l' hnx hnd hw hh hz hlen hmin hmem hsame
    constructor
    · refine ⟨?_, hnx, ?_, ?_, ?_⟩
      · show (g.board.set p _).length = _
        rw [List.length_set, h.blen]
      · intro j gj hj
        replace hj := (hchs _ j).symm.trans hj
        by_cases hjk : j = k
        · rw [if_pos hjk] at hj; cases hj
          refine ⟨l', hnd, hw, hh, hz, by rw [hlen, ← hc.num], hmin, hc.libs, ?_⟩
          intro i
          show ((g.board.set p _)[i]?).join = _ ↔ _
          rw [hbd, hmem, ← hc.mem i]
          by_cases hi : i = p
          · simp [hi, hjk]
          · rw [if_neg hi, hjk]; simp [hi]
        · rw [if_neg hjk] at hj
          obtain ⟨lj, hcj⟩ := h.chain j gj hj
          refine ⟨lj, hcj.nodup, ?_, hcj.head, hcj.last, hcj.num, hcj.min, hcj.libs, ?_⟩
          · apply hcj.walk.congr
            intro a ha
            have hba := (hcj.mem a).2 ha
            apply hsame
            · rintro rfl; rw [hb] at hba; cases hba
            · intro hal
              have := (hc.mem a).2 hal
              rw [hba] at this; exact hjk (Option.some.inj this)
          · intro i
            show ((g.board.set p _)[i]?).join = _ ↔ _
            rw [hbd, ← hcj.mem i]
            by_cases hi : i = p
            · subst hi; rw [hb]; simp; exact fun h' => hjk h'.symm
            · rw [if_neg hi]
      · intro i j hj
        show ∃ gj, ((g.chains.set k _)[j]?).join = _
        rw [hchs]
        by_cases hjk : j = k
        · exact ⟨_, if_pos hjk⟩
        · rw [if_neg hjk]
          replace hj := (hbd i).symm.trans hj
          by_cases hi : i = p
          · rw [if_pos hi] at hj; exact absurd (Option.some.inj hj).symm hjk
          · rw [if_neg hi] at hj; exact h.live i j hj
      · show (g.chains.set k _).length ≤ _
        rw [List.length_set]; exact h.few
    · show Group.iterFrom dbg nx o (nx.length + 1) o = _
      cases l' with
      | nil => exact hw.elim
      | cons a t =>
        have ha : a = o := by simpa using hh
        have hnd' := hnd
        rw [List.nodup_cons] at hnd'
        have hlt : l.length + 1 ≤ 361 := by
          rw [← hlen]
          exact nodup_length_le hnd (fun x hx => hnx ▸ hw.lt x hx)
        have := Walk.iterFrom (dbg := dbg) t a (nx.length + 1) hw hnd (ha ▸ hnd'.1) (by rw [hnx, hlen]; omega)
        rw [← ha]; rw [← ha] at this; exact this
  unfold Goban.addStoneToChain
  rw [Goban.chainAt_ok hk, ok_bind]
  by_cases hlt : p < grp.origin
  · have hlen1 : ((g.nextStone.set p grp.origin).set grp.last p).length = 361 := by
      rw [List.length_set, List.length_set, h.nlen]
    have hn1 : ∀ a, a ≠ p → a ≠ grp.last → ((g.nextStone.set p grp.origin).set grp.last p)[a]? = g.nextStone[a]? := by
      intro a h1 h2
      rw [getElem?_set_ne' (Ne.symm h2), getElem?_set_ne' (Ne.symm h1)]
    obtain ⟨hr, hi⟩ := key ((g.nextStone.set p grp.origin).set grp.last p) p grp.last (p :: l) hlen1
      (List.nodup_cons.2 ⟨hpl, hc.nodup⟩)
      (by
        have hw : Walk ((g.nextStone.set p grp.origin).set grp.last p) p l := by
          apply hc.walk.relink hc.nodup hc.last
          · exact getElem?_set_eq' (by rw [List.length_set, h.nlen]; exact hlast)
          · intro a ha hal
            exact hn1 a (fun h' => hpl (h' ▸ ha)) hal
        cases hll : l with
        | nil => rw [hll] at hw; exact hw.elim
        | cons b t =>
          rw [hll] at hw
          have hb' : b = grp.origin := by have := hc.head; rw [hll] at this; simpa using this
          refine ⟨?_, hw⟩
          rw [getElem?_set_ne' (Ne.symm hplast), getElem?_set_eq' (by rw [h.nlen]; exact hp), hb'])
      rfl (by
        rw [List.getLast?_cons, hc.last]; rfl)
      (by simp) (by
        intro a ha
        rcases List.mem_cons.1 ha with rfl | ha
        · exact Nat.le_refl _
        · have := hc.min a ha; omega)
      (by intro i; rw [List.mem_cons])
      (by intro a h1 h2; exact hn1 a h1 (fun h' => h2 (h' ▸ hc.last_mem)))
    refine ⟨_, p, grp.last, grp.numStones + 1, ?_, hr⟩
    rw [if_pos hlt, Goban.setNext_ok (by rw [h.nlen]; exact hp), ok_bind,
      Goban.setNext_ok (by show _ < (g.nextStone.set _ _).length; rw [List.length_set, h.nlen]; exact hlast), ok_bind]
    simp only [pure_eq_ok, ok_bind, hpu, hadd]
    have hdb : (if dbg = true then (do
        let l ← ({ grp with origin := p, numStones := grp.numStones + 1 } : Group).iter dbg
          ((g.nextStone.set p grp.origin).set grp.last p)
        debugAssert dbg (Option.map u16 l.getLast? == some grp.last)) else .ok ()) = (.ok () : M Unit) := by
      split
      · rw [hi, ok_bind, List.getLast?_cons, hc.last]
        simp [debugAssert, u16_lt (show grp.last < 65536 by omega)]
      · rfl
    simp only [Goban.setChain]
    cases dbg
    · simp only [Bool.false_eq_true, if_false, ok_bind, hku]
      rw [if_neg (by omega), Goban.setBoard_ok (by show p < g.board.length; rw [h.blen]; exact hp)]
    · simp only [if_true, bind_assoc, hku] at hdb ⊢
      rw [hi] at hdb ⊢
      simp only [ok_bind] at hdb ⊢
      rw [hdb, ok_bind, if_neg (by omega), Goban.setBoard_ok (by show p < g.board.length; rw [h.blen]; exact hp)]
  · have hlen1 : ((g.nextStone.set grp.last p).set p grp.origin).length = 361 := by
      rw [List.length_set, List.length_set, h.nlen]
    have hn1 : ∀ a, a ≠ p → a ≠ grp.last → ((g.nextStone.set grp.last p).set p grp.origin)[a]? = g.nextStone[a]? := by
      intro a h1 h2
      rw [getElem?_set_ne' (Ne.symm h1), getElem?_set_ne' (Ne.symm h2)]
    obtain ⟨hr, hi⟩ := key ((g.nextStone.set grp.last p).set p grp.origin) grp.origin p (l ++ [p]) hlen1
      (by
        rw [List.nodup_append]
        exact ⟨hc.nodup, by simp, by intro a ha b hb' hab; rw [List.mem_singleton] at hb'; exact hpl (hb' ▸ hab ▸ ha)⟩)
      (by
        have hw : Walk ((g.nextStone.set grp.last p).set p grp.origin) p l := by
          apply hc.walk.relink hc.nodup hc.last
          · rw [getElem?_set_ne' hplast]
            exact getElem?_set_eq' (by rw [h.nlen]; exact hlast)
          · intro a ha hal
            exact hn1 a (fun h' => hpl (h' ▸ ha)) hal
        apply hw.append
        exact getElem?_set_eq' (by rw [List.length_set, h.nlen]; exact hp))
      (by rw [List.head?_append, hc.head]; rfl) (by simp)
      (by simp) (by
        intro a ha
        rcases List.mem_append.1 ha with ha | ha
        · exact hc.min a ha
        · rw [List.mem_singleton] at ha; omega)
      (by intro i; rw [List.mem_append, List.mem_singleton]; exact Or.comm)
      (by intro a h1 h2; exact hn1 a h1 (fun h' => h2 (h' ▸ hc.last_mem)))
    refine ⟨_, grp.origin, p, grp.numStones + 1, ?_, hr⟩
    rw [if_neg hlt, Goban.setNext_ok (by rw [h.nlen]; exact hlast), ok_bind,
      Goban.setNext_ok (by show _ < (g.nextStone.set _ _).length; rw [List.length_set, h.nlen]; exact hp), ok_bind]
    simp only [pure_eq_ok, ok_bind, hpu, hadd]
    simp only [Goban.setChain]
    cases dbg
    · simp only [Bool.false_eq_true, if_false, ok_bind, hku]
      rw [if_neg (by omega), Goban.setBoard_ok (by show p < g.board.length; rw [h.blen]; exact hp)]
    · simp only [if_true, bind_assoc, hku]
      rw [hi]
      simp only [ok_bind]
      rw [show debugAssert true (Option.map u16 (l ++ [p]).getLast? == some p) = .ok () by simp [debugAssert, hpu],
        ok_bind, if_neg (by omega), Goban.setBoard_ok (by show p < g.board.length; rw [h.blen]; exact hp)]

end Model
