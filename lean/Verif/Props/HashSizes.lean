import Verif.Props.Tables
import Verif.Props.Reachable
import Verif.Props.Sizes
/-!
# C111: the sizes on which the hash tells positions apart

`zobrist_hash` is the XOR of one key per stone, so it tells all positions of a board apart if and only if the keys of the board (two
per point) are linearly independent over the field with two elements. Independence is decided by elimination (`indep`, proved sound
below) and evaluated on the keys of the code; for the other sizes two positions with the same hash are given.
-/

namespace Model
open Spec

/-! ### Elimination -/

/-- XOR of the selected keys. -/
def selXor : List (BitVec 64) → List Bool → BitVec 64
  | k :: ks, b :: bs => (if b then k else 0) ^^^ selXor ks bs
  | _, _ => 0

/-- Elimination: no key vanishes when the keys before it are used to clear their highest bits. -/
def indep : Nat → List (BitVec 64) → Bool
  | _, [] => true
  | 0, _ :: _ => false
  | f + 1, k :: ks => k != 0 && indep f (ks.map (fun x => if x.getLsbD k.toNat.log2 then x ^^^ k else x))

theorem xor_comm4 (a b c d : BitVec 64) : (a ^^^ b) ^^^ (c ^^^ d) = (a ^^^ c) ^^^ (b ^^^ d) := by
  apply BitVec.eq_of_getLsbD_eq
  intro i _
  simp only [BitVec.getLsbD_xor]
  cases a.getLsbD i <;> cases b.getLsbD i <;> cases c.getLsbD i <;> cases d.getLsbD i <;> rfl

/-- Clearing a bit changes the XOR by the key, or not, according to that bit of the XOR. -/
theorem selXor_clear (k : BitVec 64) (t : Nat) : ∀ (ks : List (BitVec 64)) (bs : List Bool),
    selXor (ks.map (fun x => if x.getLsbD t then x ^^^ k else x)) bs =
      selXor ks bs ^^^ (if (selXor ks bs).getLsbD t then k else 0)
  | [], bs => by simp [selXor]
  | x :: ks, [] => by simp [selXor]
  | x :: ks, b :: bs => by
    have ih := selXor_clear k t ks bs
    rw [List.map_cons]
    unfold selXor
    rw [ih]
    generalize selXor ks bs = X
    cases b with
    | false =>
      simp only [Bool.false_eq_true, if_false]
      rw [show (0 : BitVec 64) = 0#64 from rfl, BitVec.zero_xor, BitVec.zero_xor]
    | true =>
      simp only [if_true]
      rw [BitVec.getLsbD_xor]
      apply BitVec.eq_of_getLsbD_eq
      intro i _
      cases hx : x.getLsbD t <;> cases hX : X.getLsbD t <;>
        simp only [Bool.false_eq_true, if_false, if_true, BitVec.getLsbD_xor, Bool.xor_false, Bool.xor_true, Bool.not_true, Bool.not_false,
          show (0 : BitVec 64) = 0#64 from rfl, BitVec.getLsbD_zero] <;>
        cases x.getLsbD i <;> cases X.getLsbD i <;> cases k.getLsbD i <;> rfl

theorem top_bit {k : BitVec 64} (h : k ≠ 0) : k.getLsbD k.toNat.log2 = true := by
  have h0 : k.toNat ≠ 0 := fun h' => h (BitVec.eq_of_toNat_eq (by rw [h']; rfl))
  unfold BitVec.getLsbD
  exact Nat.testBit_log2 h0

/-- If elimination succeeds, only the empty selection has XOR zero. -/
theorem indep_sound : ∀ (f : Nat) (ks : List (BitVec 64)) (bs : List Bool), indep f ks = true → bs.length = ks.length →
    selXor ks bs = 0 → ∀ b ∈ bs, b = false
  | _, [], bs, _, hl, _ => by
    rw [List.length_nil, List.length_eq_zero_iff] at hl
    subst hl
    intro b hb; cases hb
  | 0, k :: ks, _, hi, _, _ => by cases hi
  | f + 1, k :: ks, [], _, hl, _ => by cases hl
  | f + 1, k :: ks, b :: bs, hi, hl, hx => by
    unfold indep at hi
    rw [Bool.and_eq_true, bne_iff_ne] at hi
    obtain ⟨hk, hi⟩ := hi
    unfold selXor at hx
    have hX : selXor ks bs = if b then k else 0 := by
      have := congrArg ((if b then k else 0) ^^^ ·) hx
      rw [← BitVec.xor_assoc, BitVec.xor_self, BitVec.zero_xor] at this
      rw [this]
      exact BitVec.xor_zero
    have hz : selXor (ks.map (fun x => if x.getLsbD k.toNat.log2 then x ^^^ k else x)) bs = 0 := by
      rw [selXor_clear, hX]
      cases b with
      | false => simp
      | true =>
        simp only [if_true]
        rw [top_bit hk, if_pos rfl, BitVec.xor_self]; rfl
    have ih := indep_sound f _ bs hi (by simpa using hl) hz
    have hb : b = false := by
      have h0 : selXor ks bs = 0 := by
        clear hi hz hX hx hl
        induction bs generalizing ks with
        | nil => cases ks <;> rfl
        | cons c bs ihb =>
          cases ks with
          | nil => rfl
          | cons x ks =>
            unfold selXor
            rw [ih c (by simp), ihb ks (fun d hd => ih d (by simp [hd]))]
            simp
      rw [h0] at hX
      cases b with
      | false => rfl
      | true => exact absurd hX.symm hk
    intro c hc
    rcases List.mem_cons.1 hc with rfl | hc
    · exact hb
    · exact ih c hc

theorem selXor_xor : ∀ (ks : List (BitVec 64)) (bs cs : List Bool), bs.length = cs.length →
    selXor ks (bs.zipWith (· ^^ ·) cs) = selXor ks bs ^^^ selXor ks cs
  | [], bs, cs, _ => by simp [selXor]
  | k :: ks, [], [], _ => by simp [selXor]
  | k :: ks, b :: bs, c :: cs, h => by
    rw [List.zipWith_cons_cons]
    unfold selXor
    rw [selXor_xor ks bs cs (by simpa using h), xor_comm4]
    congr 1
    cases b <;> cases c <;> simp

/-! ### The keys of a board -/

/-- The key of a point and a colour. -/
def keyOf (n : Dim) (p : Coord) (c : Color) : BitVec 64 := match indexZobrist (twoTo1dim n.sz p) c with
  | .ok z => z
  | .error _ => 0

/-- The keys of the given points. -/
def keysOf (n : Dim) (l : List Coord) : List (BitVec 64) := l.flatMap (fun p => [keyOf n p .black, keyOf n p .white])

/-- Which keys a position selects. -/
def bitsOf (pos : Pos) (l : List Coord) : List Bool := l.flatMap (fun p => [decide (pos p = some .black), decide (pos p = some .white)])

theorem fold_selXor {n : Dim} {pos : Pos} : ∀ (l : List Coord) (a : BitVec 64),
    l.foldl (fun h p => h ^^^ keyAt n pos p) a = a ^^^ selXor (keysOf n l) (bitsOf pos l)
  | [], a => by simp [keysOf, bitsOf, selXor]
  | p :: l, a => by
    rw [List.foldl_cons, fold_selXor l]
    show _ = a ^^^ selXor (keyOf n p .black :: keyOf n p .white :: keysOf n l)
      (decide (pos p = some .black) :: decide (pos p = some .white) :: bitsOf pos l)
    rw [selXor, selXor]
    rw [BitVec.xor_assoc, ← BitVec.xor_assoc (if decide (pos p = some Color.black) = true then keyOf n p .black else 0)]
    congr 2
    unfold keyAt keyOf
    cases pos p with
    | none => simp
    | some c =>
      cases c <;> simp <;> cases indexZobrist (twoTo1dim n.sz p) _ <;> rfl

theorem bitsOf_length (pos pos' : Pos) (l : List Coord) : (bitsOf pos l).length = (bitsOf pos' l).length := by
  unfold bitsOf
  simp [List.length_flatMap]

theorem bitsOf_keys (n : Dim) (pos : Pos) (l : List Coord) : (bitsOf pos l).length = (keysOf n l).length := by
  unfold bitsOf keysOf
  simp [List.length_flatMap]

theorem bits_same {a b : Pos} : ∀ (l : List Coord), (∀ x ∈ (bitsOf a l).zipWith (· ^^ ·) (bitsOf b l), x = false) →
    ∀ p ∈ l, a p = b p
  | [], _, p, hp => by cases hp
  | q :: l, h, p, hp => by
    have h : ∀ x ∈ ((decide (a q = some .black)) ^^ (decide (b q = some .black))) :: ((decide (a q = some .white)) ^^ (decide (b q = some .white))) ::
      (bitsOf a l).zipWith (· ^^ ·) (bitsOf b l), x = false := h
    rcases List.mem_cons.1 hp with rfl | hp
    · have h1 := h _ List.mem_cons_self
      have h2 := h _ (List.mem_cons_of_mem _ List.mem_cons_self)
      cases ha : a p with
      | none => cases hb : b p with
        | none => rfl
        | some d => cases d <;> simp [ha, hb] at h1 h2
      | some c => cases hb : b p with
        | none => cases c <;> simp [ha, hb] at h1 h2
        | some d => cases c <;> cases d <;> first | rfl | simp [ha, hb] at h1 h2
    · exact bits_same l (fun x hx => h x (List.mem_cons_of_mem _ (List.mem_cons_of_mem _ hx))) p hp

/-- Independent keys: equal hashes, equal positions. -/
theorem same_of_indep {n : Dim} (h : indep 64 (keysOf n (points n)) = true) {a b : Pos} (e : zobristOf n a = zobristOf n b) :
    SameOn n a b := by
  have e1 : zobristOf n a = selXor (keysOf n (points n)) (bitsOf a (points n)) := by
    have := fold_selXor (n := n) (pos := a) (points n) 0
    rw [show (0 : BitVec 64) = 0#64 from rfl, BitVec.zero_xor] at this
    exact this
  have e2 : zobristOf n b = selXor (keysOf n (points n)) (bitsOf b (points n)) := by
    have := fold_selXor (n := n) (pos := b) (points n) 0
    rw [show (0 : BitVec 64) = 0#64 from rfl, BitVec.zero_xor] at this
    exact this
  have hz : selXor (keysOf n (points n)) ((bitsOf a (points n)).zipWith (· ^^ ·) (bitsOf b (points n))) = 0 := by
    rw [selXor_xor _ _ _ (bitsOf_length a b _), ← e1, ← e2, e, BitVec.xor_self]; rfl
  have := indep_sound _ _ _ h (by
    rw [List.length_zipWith, bitsOf_length a b, Nat.min_self, bitsOf_keys n]) hz
  exact fun p hp => bits_same _ this p (mem_points.2 hp)

/-- The sizes on which the hash tells positions apart: at most 32 points, and not 8 rows of 4. -/
def Telling (n : Dim) : Prop := n.h * n.w ≤ 32 ∧ ¬ (n.h = 8 ∧ n.w = 4)

instance (n : Dim) : Decidable (Telling n) := inferInstanceAs (Decidable (_ ∧ _))

theorem telling_indep : ∀ h w : Fin 19, (w.1 + 1) ∣ (h.1 + 1) → Telling ⟨h.1 + 1, w.1 + 1⟩ →
    indep 64 (keysOf ⟨h.1 + 1, w.1 + 1⟩ (points ⟨h.1 + 1, w.1 + 1⟩)) = true := by decide +kernel

/-! ### Positions with the same hash -/

/-- A pair of positions: rows, columns, then for each position the cells (row times height plus column) of the black and of the
white stones, as bits. -/
structure Clash where
  h : Nat
  w : Nat
  b1 : Nat
  w1 : Nat
  b2 : Nat
  w2 : Nat

/-- The position with the given stones. -/
def maskPos (h b w : Nat) : Pos := fun p =>
  if b.testBit (p.1 * h + p.2) then some .black else if w.testBit (p.1 * h + p.2) then some .white else none

def clashes : List Clash := [
  ⟨6, 6, 0x2800044e0, 0x820441008, 0x1581200, 0x100000086⟩,
  ⟨7, 7, 0xc00008510000, 0x20000000, 0x434000085, 0x100009012000⟩,
  ⟨8, 4, 0xc08010d03000a0a, 0x1080200030000, 0x1000e02000b0500, 0xe0800000d000a00⟩,
  ⟨8, 8, 0x1060000400100000, 0x4000890000200000, 0x110000000a0, 0x2c1400000001000⟩,
  ⟨9, 9, 0x80404000000004000, 0x804000020000008020, 0x2000020800000000880, 0x210414000⟩,
  ⟨10, 5, 0x2002014000400000400, 0x4000000000000a000000000a, 0x4000000200000800, 0x18000000080002000⟩,
  ⟨10, 10, 0x200100004000000000300000, 0x5000008000000000100, 0x1001000880000000000208, 0x10000005000000000000000⟩,
  ⟨11, 11, 0xa000010000c00000000, 0x2008000018005000, 0x1000000000002000000000000, 0x100040000010008000000000000002⟩,
  ⟨12, 3, 0x1000002001002000002001000002001, 0x1000000000000004006001004000000000, 0x2000004000002004002004002002001000, 0x4002000000000001000002⟩,
  ⟨12, 4, 0xc00200000400000000000000800000500a, 0x200c000000000000000000000, 0x1000000000001000000004, 0x9004000000008000004000000000⟩,
  ⟨12, 6, 0x20001000000000000000, 0x2001010000000004004000000010000000, 0x2000000004000000000003000000, 0x10000000000000000010026000000000000⟩,
  ⟨12, 12, 0x80010100100400000000000000041000000, 0x10000000000000000004, 0x8000008000000000001004000000000, 0x80000002001000000000000000000050000⟩,
  ⟨13, 13, 0x2000080000000000000000000000000000000000, 0x2000000000000001400000000010000, 0x800400000000000000001000000000000010010000, 0x400000000000008000010010028000000000⟩,
  ⟨14, 7, 0x800000000000000000000000000400510000000, 0x100000000100020, 0x4000000000000200000000000000100000000080000, 0x20000000000000100040000000001004000040200000000⟩,
  ⟨14, 14, 0x80000000002000000000000000000000000000000, 0x1000000000002000000000040400000004000000000000000, 0x2000000000020000000000000000100000004002, 0x1000000000202000000000000080020010000000010⟩,
  ⟨15, 3, 0x800100000000000000080008000000000000000002, 0x80000000000400080000000000000000000006000000000000000, 0x600000000000000000000010002000800000000000, 0x10000000000000010000000000000000001000000080008000⟩,
  ⟨15, 5, 0x20000000400200000000000000400000000000000000008002, 0x4000000080000000000000000000000000200080000000, 0x1002000100008000000200000000000, 0x40000000000000000020000000000000000000000000100000000⟩,
  ⟨15, 15, 0x100000000000000000000000000200006001100200000000000000080, 0x4000000010000000000000000000000400000000002000000000, 0x20000000000000000000000000000000000000000000100000000000, 0x2000000000000000100000000000000⟩,
  ⟨16, 4, 0x10000000000000000000000000000000000000008000100000000, 0x1000000000004000000040004000000000000000000000002000400000000, 0x8000200000000000000000004000000020004000800000000, 0x20000000000000000000100010002000800000000000000000000⟩,
  ⟨16, 8, 0x2000800000000000000040000000020000000000000000000000000020, 0x100000000000000000000000200000000000040000000000000002, 0x400000008000000000004, 0x1000000000000000000000000000000000000000000000020⟩,
  ⟨16, 16, 0x18000000000000000000000010000800000000000001000000000000000, 0x820000000000000800000000000000400000001000100004000, 0x100000000000020000000000000000000000000000000000000, 0x100000000002000000000000000000000000000000000080000000040000000⟩,
  ⟨17, 17, 0x20100000000000040000000020000000000000000000000000000000001000000000000, 0x2020000000200000000000000000000000000000600000000000000000, 0x800000000000000000000000000000, 0x100000000c000000000000000000000000000000000002000000004000000⟩,
  ⟨18, 2, 0x80000000000000000080002000000001000040001000000002000000000000000000000080000, 0x1000040000000040000000000000000000000000000002000000001000000000, 0x40000000040002000000000000040000000000000000000001000000000000000000000040000, 0x80000000080001000000000000000001000000000000000000000000000000000001⟩,
  ⟨18, 3, 0x4000100000000000000000100000000000000000000000000000000000000000000100004, 0x2000000004000100000000000000000000000000100002000000001000000001000000000, 0x80000000040000000000000000000000000040000000000000, 0x40000000040000000040000000000000000000002000080000000000000000000000000000004⟩,
  ⟨18, 6, 0x100000000000000000000020000000000000100000000000000000000000000000000000000000, 0x20000000020000040000000100000000000000000000000000000004000000000000000010, 0x20000000000000000000000000000000000001000000000000000000000000020000000001, 0x40002000000000000000000000000004000000000000000000000800000000000000000000000⟩,
  ⟨18, 9, 0x800000000000000000000004000000000000000080000200000000100000000000000, 0x10000000000000000000000000000000000000000000000, 0x42000040000000000010000800000000000080, 0x480006000000000000000000000000000001000000000000000000200000000000000000000000⟩,
  ⟨18, 18, 0x400000000000000000000000040000040000000000000000000000020000000000000000000000, 0x28000000000000000000000000000000008000000000000000010010000000000000000000, 0x40000008000000000000000200000000000000000000000000000000000000000000000, 0x208000000000000000000000000000000000000000000000000002000010008000000080⟩,
  ⟨19, 19, 0x4000000200040440000800000008000000000000000000000000000000000000000000, 0x400000000000000000000000000000000000000000001000000000000000080000101000000000004000000000, 0x10000000000000000000000000000000000000000000000000000000000000000000000000000000000000000, 0x8000000000000000000000000000000000000200000000000000000000000000000000⟩]

/-- The points next to a point of the board. -/
def around (n : Dim) (p : Coord) : List Coord := (points n).filter (fun q => decide (Adj p q))

/-- A stone with an empty point next to it, or next to a stone of its colour for which this holds. -/
def alive (n : Dim) (pos : Pos) : Nat → Coord → Bool
  | 0, _ => false
  | f + 1, p => (around n p).any (fun q => decide (pos q = none)) ||
    (around n p).any (fun q => decide (pos q = pos p) && alive n pos f q)

theorem alive_sound {n : Dim} {pos : Pos} : ∀ (f : Nat) {p : Coord}, alive n pos f p = true → HasLiberty n pos p
  | 0, _, h => by cases h
  | f + 1, p, h => by
    unfold alive at h
    rw [Bool.or_eq_true, List.any_eq_true, List.any_eq_true] at h
    rcases h with ⟨q, hq, h⟩ | ⟨q, hq, h⟩
    · obtain ⟨h1, h2⟩ := List.mem_filter.1 hq
      exact ⟨p, q, .refl p, of_decide_eq_true h2, mem_points.1 h1, of_decide_eq_true h⟩
    · obtain ⟨h1, h2⟩ := List.mem_filter.1 hq
      rw [Bool.and_eq_true] at h
      obtain ⟨a, b, k1, k2, k3, k4⟩ := alive_sound f h.2
      refine ⟨a, b, ?_, k2, k3, k4⟩
      have hl : Linked n pos p q := .step (.refl p) (of_decide_eq_true h2) (mem_points.1 h1) (of_decide_eq_true h.1)
      exact linked_trans hl k1

/-- What is evaluated for each pair. -/
def Clash.ok (c : Clash) : Bool :=
  let n : Dim := ⟨c.h, c.w⟩
  let a := maskPos c.h c.b1 c.w1
  let b := maskPos c.h c.b2 c.w2
  decide (zobristOf n a = zobristOf n b) && (points n).any (fun p => decide (a p ≠ b p)) &&
    (points n).all (fun p => decide (a p = none) || alive n a 4 p) && (points n).all (fun p => decide (b p = none) || alive n b 4 p)

theorem clashes_ok : ∀ c ∈ clashes, c.ok = true := by decide +kernel

theorem clashes_all : ∀ h w : Fin 19, (w.1 + 1) ∣ (h.1 + 1) → ¬ Telling ⟨h.1 + 1, w.1 + 1⟩ →
    ∃ c ∈ clashes, c.h = h.1 + 1 ∧ c.w = w.1 + 1 := by decide +kernel

variable {n : Dim}

/-- **C111**, the telling sizes: boards with the same hash show the same. -/
theorem C111_tells {dbg dbg' : Bool} {m m' : Nat} {a b : Goban} (hn : Telling n) (ha : Board dbg n m a) (hb : Board dbg' n m' b)
    (e : a.zobristHash = b.zobristHash) : (∀ p, OnBoard n p → a.getColor p = b.getColor p) ∧ a.beq b = .ok true := by
  have hA := ha.inv.1
  have hB := hb.inv.1
  have hi : indep 64 (keysOf n (points n)) = true := by
    obtain ⟨h, w⟩ := n
    have h19 : h ≤ 19 := hA.good.h19
    have w19 : w ≤ 19 := hA.good.w19
    have hd : w ∣ h := hA.good.fits
    rcases Nat.eq_zero_or_pos h with rfl | h0
    · rfl
    have w0 : 1 ≤ w := Nat.pos_of_ne_zero (fun h' => by subst h'; have := Nat.eq_zero_of_zero_dvd hd; omega)
    obtain ⟨h, rfl⟩ := Nat.exists_eq_add_of_le' h0
    obtain ⟨w, rfl⟩ := Nat.exists_eq_add_of_le' w0
    exact telling_indep ⟨h, by omega⟩ ⟨w, by omega⟩ hd hn
  have hs := same_of_indep hi (a := a.view) (b := b.view) (by rw [← hash_ok hA, ← hash_ok hB, e])
  have hc : ∀ p, OnBoard n p → a.getColor p = b.getColor p := fun p hp => by
    rw [hA.getColor_view hp, hB.getColor_view hp, hs p hp]
  refine ⟨hc, ?_⟩
  obtain ⟨r, er, hr, _⟩ := C07_eq ha hb
  rw [er, hr.2 ⟨rfl, hc⟩]

/-- A sequence of `try_play` calls from a new game leads to a game of the kind the other theorems speak about. -/
theorem new_run_reach {dbg : Bool} (hfit : n.Fits) (hh : n.h ≤ 19) (hw : n.w ≤ 19) {rule : Rule} {g0 g : Game} {ms : List Move}
    {es : List (Option PlayError)} (e0 : Game.new (.custom n.h n.w) rule = .ok g0) (hon : ∀ mv ∈ ms, Move.OnBoard n mv)
    (e : g0.run dbg (ms.map GOp.try_) = .ok (es, g)) : ∃ m, Reach dbg n m g := by
  have hf : Fresh dbg n 0 g0 := .new hfit (by
    show (u8 n.h, u8 n.w) = _
    unfold u8 Dim.sz
    rw [Nat.mod_eq_of_lt (by omega), Nat.mod_eq_of_lt (by omega)]) e0
  have hempty : g0.goban.view = fun _ => none := by
    unfold Game.new at e0
    obtain ⟨b, eb, e0⟩ := bind_eq_ok e0
    cases e0
    exact new_view_empty eb
  obtain ⟨m, hl⟩ := Legal.run _ (.fresh hf (by rw [hempty]; exact fun p _ h => absurd rfl h)) (by
    intro c hc
    obtain ⟨mv, hm, rfl⟩ := List.mem_map.1 hc
    exact hon mv hm) e
  obtain ⟨m', _, hr⟩ := hl.reach
  exact ⟨m', hr⟩

theorem zobristOf_congr {a b : Pos} (h : SameOn n a b) : zobristOf n a = zobristOf n b := by
  unfold zobristOf
  refine foldl_congr' (fun p hp x => ?_)
  rw [h p (mem_points.1 hp)]

/-- **C111**, every other size: two games from the empty board, all calls accepted and nothing captured, with the same player to
move, whose boards have the same hash, show different stones and are not `==`. -/
theorem C111_collision (dbg : Bool) (hfit : n.Fits) (hh : n.h ≤ 19) (hw : n.w ≤ 19) (hn : ¬ Telling n) (rule : Rule) (c : Color) :
    ∃ (g0 : Game) (ms ms' : List Move) (es es' : List (Option PlayError)) (g g' : Game),
      Game.new (.custom n.h n.w) rule = .ok g0 ∧ (∀ mv ∈ ms ++ ms', Move.OnBoard n mv) ∧
      g0.run dbg (ms.map GOp.try_) = .ok (es, g) ∧ g0.run dbg (ms'.map GOp.try_) = .ok (es', g') ∧ (∀ e ∈ es ++ es', e = none) ∧
      g.turn = c ∧ g'.turn = c ∧ g.prisoners = (0, 0) ∧ g'.prisoners = (0, 0) ∧
      g.goban.zobristHash = g'.goban.zobristHash ∧ (∃ p, OnBoard n p ∧ g.goban.getColor p ≠ g'.goban.getColor p) ∧
      g.goban.beq g'.goban = .ok false := by
  obtain ⟨k, hk, kh, kw⟩ : ∃ k ∈ clashes, k.h = n.h ∧ k.w = n.w := by
    obtain ⟨h, w⟩ := n
    have hfit : w ∣ h := hfit
    simp only at hh hw
    have h0 : 1 ≤ h := Nat.pos_of_ne_zero (fun h' => by subst h'; exact hn ⟨by simp, by simp⟩)
    have w0 : 1 ≤ w := Nat.pos_of_ne_zero (fun h' => by subst h'; have := Nat.eq_zero_of_zero_dvd hfit; omega)
    obtain ⟨h, rfl⟩ := Nat.exists_eq_add_of_le' h0
    obtain ⟨w, rfl⟩ := Nat.exists_eq_add_of_le' w0
    exact clashes_all ⟨h, by omega⟩ ⟨w, by omega⟩ hfit hn
  have := clashes_ok k hk
  unfold Clash.ok at this
  simp only [Bool.and_eq_true, decide_eq_true_eq] at this
  rw [kh, kw, show (⟨n.h, n.w⟩ : Dim) = n from rfl] at this
  obtain ⟨⟨⟨h1, h2⟩, h3⟩, h4⟩ := this
  have nd : ∀ {pos : Pos}, (points n).all (fun p => decide (pos p = none) || alive n pos 4 p) = true → NoDead n pos := by
    intro pos h p hp hne
    have := List.all_eq_true.1 h p (mem_points.2 hp)
    rw [Bool.or_eq_true, decide_eq_true_eq] at this
    exact alive_sound 4 (this.resolve_left hne)
  generalize maskPos n.h k.b1 k.w1 = P at h1 h2 h3 h4
  generalize maskPos n.h k.b2 k.w2 = Q at h1 h2 h3 h4
  obtain ⟨g0, ms, es, g, e0, a1, a2, a3, _, a4, a5, a6, _⟩ := C69_every_position dbg hfit hh hw rule (nd h3) c
  obtain ⟨g0', ms', es', g', e0', b1, b2, b3, _, b4, b5, b6, _⟩ := C69_every_position dbg hfit hh hw rule (nd h4) c
  rw [e0] at e0'
  cases e0'
  obtain ⟨_, r1⟩ := new_run_reach hfit hh hw e0 a1 a2
  obtain ⟨_, r2⟩ := new_run_reach hfit hh hw e0 b1 b2
  have v1 : SameOn n g.goban.view P := fun p hp => by
    have := a4 p hp
    rw [r1.inv.getColor_view hp] at this
    exact Except.ok.inj this
  have v2 : SameOn n g'.goban.view Q := fun p hp => by
    have := b4 p hp
    rw [r2.inv.getColor_view hp] at this
    exact Except.ok.inj this
  obtain ⟨p, hp, hpd⟩ := List.any_eq_true.1 h2
  have hp := mem_points.1 hp
  have hpd : P p ≠ Q p := of_decide_eq_true hpd
  have hdiff : g.goban.getColor p ≠ g'.goban.getColor p := by
    rw [a4 p hp, b4 p hp]
    exact fun h => hpd (Except.ok.inj h)
  refine ⟨g0, ms, ms', es, es', g, g', e0, ?_, a2, b2, ?_, a5, b5, a6, b6, ?_, ⟨p, hp, hdiff⟩, ?_⟩
  · intro mv hm
    rcases List.mem_append.1 hm with hm | hm
    · exact a1 mv hm
    · exact b1 mv hm
  · intro e he
    rcases List.mem_append.1 he with he | he
    · exact a3 e he
    · exact b3 e he
  · rw [hash_ok r1.inv, hash_ok r2.inv, zobristOf_congr v1, zobristOf_congr v2, h1]
  · obtain ⟨r, er, hr, _⟩ := C07_eq r1.spec.board r2.spec.board
    rw [er]
    cases r with
    | false => rfl
    | true => exact absurd ((hr.1 rfl).2 p hp) hdiff

/-- **C111**. On a supported size the hash tells all boards apart if and only if the board has at most 32 points and is not 8 rows of
4 points. -/
theorem C111_sizes (hfit : n.Fits) (hh : n.h ≤ 19) (hw : n.w ≤ 19) :
    (∀ (dbg : Bool) (m m' : Nat) (a b : Goban), Board dbg n m a → Board dbg n m' b → a.zobristHash = b.zobristHash →
      ∀ p, OnBoard n p → a.getColor p = b.getColor p) ↔ n.h * n.w ≤ 32 ∧ ¬ (n.h = 8 ∧ n.w = 4) := by
  constructor
  · intro h
    refine Classical.byContradiction fun hn => ?_
    obtain ⟨g0, ms, ms', es, es', g, g', e0, hon, e, e', _, _, _, _, _, hz, ⟨p, hp, hd⟩, _⟩ :=
      C111_collision true hfit hh hw hn CHINESE .black
    obtain ⟨_, r1⟩ := new_run_reach hfit hh hw e0 (fun mv h => hon mv (List.mem_append_left _ h)) e
    obtain ⟨_, r2⟩ := new_run_reach hfit hh hw e0 (fun mv h => hon mv (List.mem_append_right _ h)) e'
    exact hd (h true _ _ _ _ r1.spec.board r2.spec.board hz p hp)
  · intro hn dbg m m' a b ha hb e
    exact (C111_tells hn ha hb e).1

/-! ### Boards that differ in two points -/

/-- What a change of one point can do to the hash: the key of the black stone, of the white stone, or both. -/
def changes : List Nat := ZOBRIST ++ List.zipWith (· ^^^ ·) (ZOBRIST.take 361) (ZOBRIST.drop 361)

/-- A check of `Nodup` that splits the list in smaller and larger numbers. -/
def distinctQ : Nat → List Nat → Bool
  | _, [] => true
  | 0, _ :: _ => false
  | f + 1, x :: l => l.all (fun y => !(Nat.beq x y)) && (distinctQ f (l.filter (fun y => Nat.blt y x)) &&
    distinctQ f (l.filter (fun y => !(Nat.blt y x))))

theorem nodup_of_distinctQ : ∀ (f : Nat) {l : List Nat}, distinctQ f l = true → l.Nodup
  | _, [], _ => .nil
  | 0, _ :: _, h => by cases h
  | f + 1, x :: l, h => by
    unfold distinctQ at h
    rw [Bool.and_eq_true, Bool.and_eq_true, List.all_eq_true] at h
    obtain ⟨h1, h2, h3⟩ := h
    refine List.nodup_cons.2 ⟨fun hx => ?_, ?_⟩
    · have := h1 x hx
      simp at this
    · refine (List.filter_append_perm (fun y => Nat.blt y x) l).nodup_iff.1 ?_
      refine List.nodup_append.2 ⟨nodup_of_distinctQ f h2, nodup_of_distinctQ f h3, ?_⟩
      intro a ha b hb hab
      subst hab
      have k1 := (List.mem_filter.1 ha).2
      have k2 := (List.mem_filter.1 hb).2
      simp only [k1] at k2
      cases k2

theorem changes_nodup : changes.Nodup := nodup_of_distinctQ 60 (by decide +kernel)
theorem changes_length : changes.length = 1083 := by decide +kernel

theorem zip_get (l : List Nat) (hl : l.length = 722) {i : Nat} (hi : i < 361)
    (h : i + 722 < (l ++ List.zipWith (· ^^^ ·) (l.take 361) (l.drop 361)).length) :
    (l ++ List.zipWith (· ^^^ ·) (l.take 361) (l.drop 361))[i + 722] = l[i]'(by omega) ^^^ l[i + 361]'(by omega) := by
  rw [List.getElem_append_right (by omega), List.getElem_zipWith, List.getElem_take, List.getElem_drop]
  have e1 : i + 722 - l.length = i := by omega
  have e2 : 361 + i = i + 361 := by omega
  simp only [e1, e2]

theorem change_mem {a b : Pos} {p : Coord} (hi : twoTo1dim n.sz p < 361) (hd : a p ≠ b p) :
    ∃ t, ∃ ht : twoTo1dim n.sz p + 361 * t < changes.length,
      (keyAt n a p ^^^ keyAt n b p).toNat = changes[twoTo1dim n.sz p + 361 * t] := by
  generalize hI : twoTo1dim n.sz p = i at hi
  have hl := zobrist_length
  have key : ∀ c : Color, indexZobrist i c = .ok (BitVec.ofNat 64 (ZOBRIST[i + 361 * (c.toNat - 1)]'(by
      rw [hl]; cases c <;> simp [Color.toNat] <;> omega))) := by
    intro c
    unfold indexZobrist
    rw [List.getElem?_eq_getElem (by rw [hl]; unfold BOARD_SIZE; cases c <;> simp [Color.toNat] <;> omega)]
    rfl
  have rng : ∀ j (hj : j < ZOBRIST.length), (BitVec.ofNat 64 ZOBRIST[j]).toNat = ZOBRIST[j] := by
    intro j hj
    rw [BitVec.toNat_ofNat, Nat.mod_eq_of_lt (zobrist_range _ (List.getElem_mem hj)).2]
  have c0 : ∀ j (hj : j < ZOBRIST.length), changes[j]'(by rw [changes_length]; omega) = ZOBRIST[j] := by
    intro j hj
    unfold changes
    rw [List.getElem_append_left hj]
  have c2 : changes[i + 722]'(by rw [changes_length]; omega) = ZOBRIST[i]'(by omega) ^^^ ZOBRIST[i + 361]'(by omega) := by
    exact zip_get ZOBRIST hl hi _
  have one : ∀ c : Color, ∃ t, ∃ ht : i + 361 * t < changes.length,
      (BitVec.ofNat 64 (ZOBRIST[i + 361 * (c.toNat - 1)]'(by rw [hl]; cases c <;> simp [Color.toNat] <;> omega))).toNat =
        changes[i + 361 * t] := by
    intro c
    refine ⟨c.toNat - 1, by rw [changes_length]; cases c <;> simp [Color.toNat] <;> omega, ?_⟩
    rw [rng, c0]
  have two : ∃ t, ∃ ht : i + 361 * t < changes.length,
      (BitVec.ofNat 64 (ZOBRIST[i]'(by omega)) ^^^ BitVec.ofNat 64 (ZOBRIST[i + 361]'(by omega))).toNat = changes[i + 361 * t] := by
    refine ⟨2, by rw [changes_length]; omega, ?_⟩
    rw [BitVec.toNat_xor, rng, rng, ← c2]
  unfold keyAt
  rw [hI]
  cases ha : a p with
  | none => cases hb : b p with
    | none => exact absurd (ha.trans hb.symm) hd
    | some d => simp only [key d, show (0 : BitVec 64) = 0#64 from rfl, BitVec.zero_xor]; exact one d
  | some c => cases hb : b p with
    | none => simp only [key c, show (0 : BitVec 64) = 0#64 from rfl, BitVec.xor_zero]; exact one c
    | some d =>
      simp only [key c, key d]
      cases c <;> cases d
      · exact absurd (ha.trans hb.symm) hd
      · exact two
      · rw [BitVec.xor_comm]; exact two
      · exact absurd (ha.trans hb.symm) hd

/-- Changing one point changes the XOR by what that point adds before and after. -/
theorem zobrist_change {a b : Pos} {p : Coord} (hp : OnBoard n p) (h : ∀ q, OnBoard n q → q ≠ p → a q = b q) :
    zobristOf n a ^^^ zobristOf n b = keyAt n a p ^^^ keyAt n b p := by
  have hx := fold_xor_diff (f := keyAt n a) (f' := keyAt n b) (p := p) (points n) 0 0 (points_nodup n)
    (fun q hq hne => by unfold keyAt; rw [h q (mem_points.1 hq) hne])
  rw [if_pos (mem_points.2 hp)] at hx
  refine Eq.trans ?_ (hx.trans ?_)
  · rfl
  · rw [show (0 : BitVec 64) = 0#64 from rfl, BitVec.xor_zero, BitVec.zero_xor]

/-- **C111**, every supported size: boards that differ in one or two points, and nowhere else, have different hashes. -/
theorem C111_two_points {dbg dbg' : Bool} {m m' : Nat} {a b : Goban} (ha : Board dbg n m a) (hb : Board dbg' n m' b)
    {p q : Coord} (hp : OnBoard n p) (hq : OnBoard n q) (hd : a.getColor p ≠ b.getColor p)
    (h : ∀ r, OnBoard n r → r ≠ p → r ≠ q → a.getColor r = b.getColor r) : a.zobristHash ≠ b.zobristHash := by
  have hA := ha.inv.1
  have hB := hb.inv.1
  by_cases hqd : a.getColor q = b.getColor q
  · refine C48_one_difference ha hb hp hd (fun r hr hrp => ?_)
    by_cases hrq : r = q
    · rw [hrq, hqd]
    · exact h r hr hrp hrq
  by_cases hpq : p = q
  · subst hpq
    exact C48_one_difference ha hb hp hd (fun r hr hrp => h r hr hrp hrp)
  intro e
  rw [hash_ok hA, hash_ok hB] at e
  have hv : ∀ r, OnBoard n r → r ≠ p → r ≠ q → a.view r = b.view r := fun r hr h1 h2 => by
    have := h r hr h1 h2
    rw [hA.getColor_view hr, hB.getColor_view hr] at this
    exact Except.ok.inj this
  have vd : ∀ r, OnBoard n r → a.getColor r ≠ b.getColor r → a.view r ≠ b.view r := fun r hr h1 h2 => h1 (by
    rw [hA.getColor_view hr, hB.getColor_view hr, h2])
  have s1 := zobrist_change (n := n) (a := a.view) (b := fun r => if r = p then b.view p else a.view r) hp
    (fun r _ hr => by simp only [if_neg hr])
  have s2 := zobrist_change (n := n) (a := fun r => if r = p then b.view p else a.view r) (b := b.view) hq
    (fun r hr hrq => by
      by_cases hrp : r = p
      · simp only [hrp, if_true]
      · simp only [if_neg hrp]; exact hv r hr hrp hrq)
  obtain ⟨t, ht, e1⟩ := change_mem (n := n) (hA.lt361 (twoTo1_lt hA.good hp)) (vd p hp hd)
  obtain ⟨t', ht', e2⟩ := change_mem (n := n) (hA.lt361 (twoTo1_lt hA.good hq)) (vd q hq hqd)
  have k1 : keyAt n (fun r => if r = p then b.view p else a.view r) p = keyAt n b.view p := by unfold keyAt; simp only [if_true]
  have k2 : keyAt n (fun r => if r = p then b.view p else a.view r) q = keyAt n a.view q := by
    unfold keyAt; simp only [if_neg (fun h => hpq (Eq.symm h) : ¬ q = p)]
  rw [k1] at s1
  rw [k2, ← e] at s2
  rw [← s1, BitVec.xor_comm, s2] at e1
  rw [e1] at e2
  have := (List.getElem_inj changes_nodup).1 e2
  have l1 := hA.lt361 (twoTo1_lt hA.good hp)
  have l2 := hA.lt361 (twoTo1_lt hA.good hq)
  have hij : twoTo1dim n.sz p = twoTo1dim n.sz q := by omega
  exact hpq (twoTo1_inj hA.good hp hq hij)

/-- Both kinds occur among the sizes in use: 5 × 5 tells, 9 × 9 does not. -/
example : Telling 5 ∧ ¬ Telling 9 ∧ ¬ Telling 19 := by decide

/-- Boards to which `C111_tells` applies: a black and a white stone on 5 × 5 in either order. -/
example : ∃ a b, Board false 5 2 a ∧ Board true 5 2 b ∧ a.zobristHash = b.zobristHash ∧ a.zobristHash ≠ 0 := by
  obtain ⟨b, hb, h⟩ := mkBoard_exists (dbg := true) (n := 5) (l := [.push 1 1 .white, .push 0 0 .black])
    (f := fun b => okAnd (mkBoard false 5 [.push 0 0 .black, .push 1 1 .white]) (fun a => decide (a.zobristHash = b.zobristHash ∧
      a.zobristHash ≠ 0))) (by decide +kernel)
  obtain ⟨a, ea, h⟩ := okAnd_iff.1 h
  simp only [decide_eq_true_eq] at h
  exact ⟨a, b, mkBoard_board ea, hb, h⟩

/-- Boards to which `C111_two_points` applies: a stone on one point of 9 × 9 or on another. -/
example : ∃ a b, Board false 9 1 a ∧ Board false 9 1 b ∧ a.getColor (0, 0) = .ok (some .black) ∧ b.getColor (0, 0) = .ok none ∧
    b.getColor (4, 4) = .ok (some .white) := by
  obtain ⟨b, hb, h⟩ := mkBoard_exists (dbg := false) (n := 9) (l := [.push 4 4 .white])
    (f := fun b => okAnd (mkBoard false 9 [.push 0 0 .black]) (fun a => decide (a.getColor (0, 0) = .ok (some .black) ∧
      b.getColor (0, 0) = .ok none ∧ b.getColor (4, 4) = .ok (some .white)))) (by decide +kernel)
  obtain ⟨a, ea, h⟩ := okAnd_iff.1 h
  simp only [decide_eq_true_eq] at h
  exact ⟨a, b, mkBoard_board ea, hb, h⟩

end Model
