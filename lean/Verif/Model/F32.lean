import Verif.Model.Basic
/-!
# A model of Rust's `f32` (IEEE 754 binary32, round to nearest even)

Only the operations used by `src/rules/game.rs` (integer conversion, `+`, `-`, `abs`, `<`, `>`). Finite values are exact
rationals. Simplifications: signed zero is not distinguished and all NaNs are one value. The words themselves are in `Model/Single.lean`;
C96 proves that they give the same results.
-/

namespace Model

/-- An `f32` value. Code: src/rules/game.rs:258-276 (scores), 121-127 (outcome). -/
inductive F32 where
  | nan
  | inf (neg : Bool)
  | fin (v : Rat)
  deriving DecidableEq, Repr

namespace F32

/-- `⌊log₂ q⌋` for a positive rational. Code: src/rules/game.rs:258-276 (scores), 121-127 (outcome). -/
def floorLog2 (q : Rat) : Int :=
  let e : Int := (Nat.log2 q.num.natAbs : Int) - (Nat.log2 q.den : Int)
  if q < (2 : Rat) ^ e then e - 1 else e

/-- Round a rational to the nearest integer, ties to even. Code: src/rules/game.rs:258-276 (scores), 121-127 (outcome). -/
def roundInt (x : Rat) : Int :=
  let f := x.floor
  let d := x - (f : Rat)
  if d < 1 / 2 then f
  else if (1 / 2 : Rat) < d then f + 1
  else if f % 2 = 0 then f else f + 1

/-- Absolute value of a rational. Code: src/rules/game.rs:258-276 (scores), 121-127 (outcome). -/
def rabs (q : Rat) : Rat := if q < 0 then -q else q

/-- Round a rational to binary32: 24 significant bits, least exponent -149, overflow from 2^128 on.
Code: src/rules/game.rs:258-276 (scores), 121-127 (outcome). -/
def round (q : Rat) : F32 :=
  if q = 0 then .fin 0
  else
    let e := floorLog2 (rabs q)
    let ue : Int := if e - 23 < -149 then -149 else e - 23
    let ulp : Rat := (2 : Rat) ^ ue
    let v : Rat := (roundInt (q / ulp) : Rat) * ulp
    if (2 : Rat) ^ (128 : Int) ≤ rabs v then .inf (decide (v < 0)) else .fin v

/-- `n as f32` for an unsigned integer. Code: src/rules/game.rs:258-276 (scores), 121-127 (outcome). -/
def ofNat (n : Nat) : F32 := round (n : Rat)

/-- `-x`. Code: src/rules/game.rs:258-276 (scores), 121-127 (outcome). -/
def neg : F32 → F32
  | .nan => .nan
  | .inf s => .inf (!s)
  | .fin v => .fin (-v)

/-- `x + y`. Code: src/rules/game.rs:258-276 (scores), 121-127 (outcome). -/
def add : F32 → F32 → F32
  | .nan, _ => .nan
  | _, .nan => .nan
  | .inf s, .inf t => if s = t then .inf s else .nan
  | .inf s, .fin _ => .inf s
  | .fin _, .inf t => .inf t
  | .fin a, .fin b => round (a + b)

/-- `x - y`. Code: src/rules/game.rs:258-276 (scores), 121-127 (outcome). -/
def sub (x y : F32) : F32 := add x (neg y)

/-- `x.abs()`. Code: src/rules/game.rs:258-276 (scores), 121-127 (outcome). -/
def abs : F32 → F32
  | .nan => .nan
  | .inf _ => .inf false
  | .fin v => .fin (rabs v)

/-- `x < y` (false when either side is NaN). Code: src/rules/game.rs:258-276 (scores), 121-127 (outcome). -/
def lt : F32 → F32 → Bool
  | .nan, _ => false
  | _, .nan => false
  | .inf true, .inf false => true
  | .inf _, .inf _ => false
  | .inf s, .fin _ => s
  | .fin _, .inf t => !t
  | .fin a, .fin b => decide (a < b)

/-- `f32::EPSILON = 2^-23`. Code: src/rules/game.rs:258-276 (scores), 121-127 (outcome). -/
def EPSILON : F32 := .fin ((2 : Rat) ^ (-23 : Int))

end F32
end Model
