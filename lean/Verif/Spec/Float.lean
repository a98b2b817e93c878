/-!
# Binary floating point numbers of single precision (IEEE 754 binary32), independently of the model

Finite values are rationals.
-/

namespace Spec

/-- The finite values: a whole number of less than 24 bits times a power of two between 2^-149 and 2^104. -/
def Single (v : Rat) : Prop := ∃ k t : Int, k.natAbs < 2 ^ 24 ∧ -149 ≤ t ∧ t ≤ 104 ∧ v = (k : Rat) * 2 ^ t

/-- Distance. -/
def dist (a b : Rat) : Rat := if a ≤ b then b - a else a - b

/-- `v` is `x` rounded to the nearest finite value, ties to even: no value is nearer, and if another value is as near, `v` is an even
multiple of the gap between the two. -/
structure Rounded (x v : Rat) : Prop where
  single : Single v
  nearest : ∀ v', Single v' → dist x v ≤ dist x v'
  even : ∀ v', Single v' → v' ≠ v → dist x v = dist x v' → ∃ k : Int, v = ((2 * k : Int) : Rat) * dist v v'

/-- From this size on a number is rounded to infinity: halfway between the largest finite value and 2^128. -/
def overflow : Rat := 2 ^ (128 : Int) - 2 ^ (103 : Int)

/-- `r` is what comes out when the numbers of the list are added to `a` one after the other, every sum being rounded. -/
def RoundedSum : Rat → List Rat → Rat → Prop
  | a, [], r => r = a
  | a, x :: xs, r => ∃ b, Rounded (a + x) b ∧ RoundedSum b xs r

end Spec
