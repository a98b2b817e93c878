import Verif.Model.Game
/-!
# `f32` as 32-bit words (IEEE 754 binary32)

`Model/F32.lean` knows the values of `f32` only. Here are the words themselves, with both zeros and every NaN, and the operations
of the code on them, as whole-number algorithms. A magnitude is counted in units of 2^-149, the least positive number.

Rust does not say which NaN an operation returns; the choice is the parameter `nan`.
-/

namespace Model

/-- An `f32`: sign (1 bit), exponent (8 bits), fraction (23 bits). Code: src/rules/game.rs:258-276 (scores), 121-127 (outcome). -/
abbrev Word32 := BitVec 32

namespace Word32

/-- The sign bit. Code: src/rules/game.rs:258-276 (scores), 121-127 (outcome). -/
def sign (x : Word32) : Bool := decide (2 ^ 31 ≤ x.toNat)

/-- Exponent and fraction. Code: src/rules/game.rs:258-276 (scores), 121-127 (outcome). -/
def mag (x : Word32) : Nat := x.toNat % 2 ^ 31

/-- Exponent and fraction of the infinities; those of the NaNs are larger. Code: src/rules/game.rs:258-276 (scores), 121-127 (outcome). -/
def INF : Nat := 255 * 2 ^ 23

/-- `is_nan`. Code: src/rules/game.rs:258-276 (scores), 121-127 (outcome). -/
def isNaN (x : Word32) : Bool := decide (INF < x.mag)

/-- The size of a finite number with exponent and fraction `b`, in units of 2^-149.
Code: src/rules/game.rs:258-276 (scores), 121-127 (outcome). -/
def units (b : Nat) : Nat := if b / 2 ^ 23 = 0 then b else (2 ^ 23 + b % 2 ^ 23) * 2 ^ (b / 2 ^ 23 - 1)

/-- The word with this sign, exponent and fraction. Code: src/rules/game.rs:258-276 (scores), 121-127 (outcome). -/
def pack (s : Bool) (b : Nat) : Word32 := BitVec.ofNat 32 ((if s then 2 ^ 31 else 0) + b)

/-- Exponent and fraction of the number nearest to `S` units, ties to even; infinity if that is too large.
Code: src/rules/game.rs:258-276 (scores), 121-127 (outcome). -/
def nearest (S : Nat) : Nat :=
  let k := Nat.log2 S - 23
  let q := S / 2 ^ k
  let r := S % 2 ^ k
  let q := if 2 ^ k < 2 * r ∨ (2 * r = 2 ^ k ∧ q % 2 = 1) then q + 1 else q
  min (k * 2 ^ 23 + q) INF

/-- `n as f32` for an unsigned integer. Code: src/rules/game.rs:258-276 (scores), 121-127 (outcome). -/
def ofNat (n : Nat) : Word32 := pack false (nearest (n * 2 ^ 149))

/-- `-x`: the other sign bit. Code: src/rules/game.rs:258-276 (scores), 121-127 (outcome). -/
def neg (x : Word32) : Word32 := pack (!x.sign) x.mag

/-- `x.abs()`: no sign bit. Code: src/rules/game.rs:258-276 (scores), 121-127 (outcome). -/
def abs (x : Word32) : Word32 := pack false x.mag

/-- A finite number in units of 2^-149. Code: src/rules/game.rs:258-276 (scores), 121-127 (outcome). -/
def toInt (x : Word32) : Int := if x.sign then -(units x.mag : Int) else (units x.mag : Int)

/-- `x + y`. A sum that is zero is `-0.0` only if both sides have the sign bit.
Code: src/rules/game.rs:258-276 (scores), 121-127 (outcome). -/
def add (nan : Word32 → Word32 → Word32) (x y : Word32) : Word32 :=
  if x.isNaN || y.isNaN then nan x y
  else if x.mag = INF then (if y.mag = INF ∧ x.sign ≠ y.sign then nan x y else x)
  else if y.mag = INF then y
  else
    let s := x.toInt + y.toInt
    pack (if s = 0 then x.sign && y.sign else decide (s < 0)) (nearest s.natAbs)

/-- `x - y`. Code: src/rules/game.rs:258-276 (scores), 121-127 (outcome). -/
def sub (nan : Word32 → Word32 → Word32) (x y : Word32) : Word32 := add nan x (neg y)

/-- `x < y`: false with a NaN, the two zeros are equal. Code: src/rules/game.rs:258-276 (scores), 121-127 (outcome). -/
def lt (x y : Word32) : Bool :=
  if x.isNaN || y.isNaN then false
  else if x.mag = 0 ∧ y.mag = 0 then false
  else match x.sign, y.sign with
    | true, false => true
    | false, true => false
    | false, false => decide (x.mag < y.mag)
    | true, true => decide (y.mag < x.mag)

/-- `f32::EPSILON`. Code: src/rules/game.rs:258-276 (scores), 121-127 (outcome). -/
def EPSILON : Word32 := 0x34000000

/-- `x.sqrt()`. The root of `A` units is that of `A * 2 ^ 149`, in units; what is left over makes the last bit 1, which is below
the bits that are kept. The root of `-0.0` is `-0.0`. Code: src/pieces/goban.rs:39. -/
def sqrt (nan : Word32 → Word32) (x : Word32) : Word32 :=
  if x.isNaN then nan x
  else if x.mag = 0 then x
  else if x.sign then nan x
  else if x.mag = INF then x
  else
    let A := units x.mag * 2 ^ 149
    let q := Nat.sqrt A
    pack false (nearest (if q * q = A then q else q / 2 * 2 + 1))

/-- `x as u8`: towards zero, saturating, 0 for a NaN. Code: src/pieces/goban.rs:39. -/
def toU8 (x : Word32) : Nat :=
  if x.isNaN then 0
  else if x.sign then 0
  else if x.mag = INF then 255
  else min (units x.mag / 2 ^ 149) 255

/-- The number that a word stands for. Code: src/rules/game.rs:258-276 (scores), 121-127 (outcome). -/
def value (x : Word32) : F32 :=
  if x.isNaN then .nan
  else if x.mag = INF then .inf x.sign
  else .fin ((x.toInt : Rat) * 2 ^ (-149 : Int))

end Word32

/-- `EndGame` with the words themselves: src/rules/mod.rs:59-66. -/
inductive EndGameF where
  | winnerByScore (c : Color) (by_ : Word32)
  | draw
  deriving DecidableEq

/-- The result without the representation of the margin. Code: src/rules/game.rs:258-276 (scores), 121-127 (outcome). -/
def EndGameF.value : EndGameF → EndGame
  | .winnerByScore c m => .winnerByScore c m.value
  | .draw => .draw

namespace Game

/-- `calculate_score_by` on words: src/rules/game.rs:258-276. `komi` is the word in the rule of the game. -/
def calculateScoreByF (dbg : Bool) (nan : Word32 → Word32 → Word32) (ord : List Point → List Point) (g : Game) (komi : Word32)
    (r : ScoreRules) : M (Word32 × Word32) := do
  let t ← g.goban.calculateTerritories dbg ord
  let b := Word32.ofNat t.1
  let w := Word32.ofNat t.2
  let (b, w) := if r.prisonners then (b.add nan (.ofNat g.prisoners.1), w.add nan (.ofNat g.prisoners.2)) else (b, w)
  let (b, w) := if r.stones then
    let n := g.goban.numberOfStones
    (b.add nan (.ofNat n.1), w.add nan (.ofNat n.2)) else (b, w)
  let w := if r.komi then w.add nan komi else w
  .ok (b, w)

/-- The comparison of the scores in `outcome`, on words: src/rules/game.rs:122-128. -/
def decideByScoreF (nan : Word32 → Word32 → Word32) (s : Word32 × Word32) : EndGameF :=
  if (Word32.abs (s.1.sub nan s.2)).lt .EPSILON then .draw
  else if s.2.lt s.1 then .winnerByScore .black (s.1.sub nan s.2)
  else .winnerByScore .white (s.2.sub nan s.1)

/-- `outcome` of a game whose rule has the komi `komi`: src/rules/game.rs:114-130. A recorded result has no margin, or one that
was recorded with it, and is not looked at. -/
def getOutcomeF (dbg : Bool) (nan : Word32 → Word32 → Word32) (ord : List Point → List Point) (g : Game) (komi : Word32) :
    M (Option (EndGame ⊕ EndGameF)) :=
  if !g.isOver then .ok none
  else match g.outcome with
    | some e => .ok (some (.inl e))
    | none => do
      let s ← g.calculateScoreByF dbg nan ord komi g.rule.flagScore
      .ok (some (.inr (decideByScoreF nan s)))

end Game

/-- The side of the board for a slice of `len` stones: src/pieces/goban.rs:39. -/
def sideOfSlice (nan : Word32 → Word32) (len : Nat) : Nat := ((Word32.ofNat len).sqrt nan).toU8

/-- `impl From<&[MaybeColor]> for Goban` with the side computed in `f32`: src/pieces/goban.rs:37-51. -/
def Goban.ofSliceF (dbg : Bool) (nan : Word32 → Word32) (stones : List MaybeColor) : M Goban := do
  let size := sideOfSlice nan stones.length
  let game ← Goban.new (size, size)
  stones.zipIdx.foldlM (ofSliceStep dbg size) game

end Model
