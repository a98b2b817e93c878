import Verif.Model.Basic
/-!
# The liberty bitset (src/pieces/group.rs:11-66)
-/

namespace Model

/-- `type Bucket = u8`, `const BITS = 8`, `const SIZE = 361 / 8 + 1 = 46`, `type Liberties = [u8; SIZE]`:
src/pieces/group.rs:11-16. The array is a list; that its length is 46 is an invariant of the model. -/
abbrev Liberties := List (BitVec 8)

/-- src/pieces/group.rs:13. -/
def SIZE : Nat := 361 / 8 + 1

/-- `EMPTY_LIBERTIES`: src/pieces/group.rs:18. -/
def EMPTY_LIBERTIES : Liberties := List.replicate SIZE 0#8

namespace Bits

/-- `set::<VAL>(index, lib)`: src/pieces/group.rs:20-30. Out-of-range chunk panics. -/
def set (val : Bool) (index : Nat) (lib : Liberties) : M Liberties :=
  let chunk := index / 8
  let bitIndex := index % 8
  let mask : BitVec 8 := 1#8 <<< bitIndex
  match lib[chunk]? with
  | none => panic
  | some b => .ok (lib.set chunk (if val then b ||| mask else b &&& ~~~mask))

/-- `merge(lib, o)`: src/pieces/group.rs:32-35 (zip over the two arrays). -/
def merge (lib o : Liberties) : Liberties := List.zipWith (· ||| ·) lib o

/-- `any(lib)`: src/pieces/group.rs:37-40. -/
def any (lib : Liberties) : Bool := lib.any (fun x => x != 0#8)

/-- `u8::count_ones` (Rust standard library): number of one bits. Code: src/pieces/group.rs:44. -/
def popcount (b : BitVec 8) : Nat := ((List.range 8).filter (fun i => b.getLsbD i)).length

/-- `count_ones(lib)`: src/pieces/group.rs:42-45. -/
def countOnes (lib : Liberties) : Nat := (lib.map popcount).sum

/-- `u8::trailing_zeros` (Rust standard library): 8 on zero. Code: src/pieces/group.rs:53. -/
def trailingZeros (b : BitVec 8) : Nat := ((List.range 8).find? (fun i => b.getLsbD i)).getD 8

/-- The `while chunk != 0` loop of `iter_ones`: src/pieces/group.rs:49-57. `fuel` bounds the number of iterations
(the chunk is shifted right by at least one each time, so 8 suffice; `Proofs/Bitset.lean` shows it never matters).
`checked_shr(zeros + 1).unwrap_or(0)` is a logical shift, zero when the amount is 8. -/
def iterChunk (ix : Nat) : Nat → BitVec 8 → Nat → List Nat
  | 0, _, _ => []
  | fuel + 1, chunk, index =>
    if chunk = 0#8 then []
    else
      let zeros := trailingZeros chunk
      let index' := index + (zeros + 1)
      (index' - 1 + 8 * ix) :: iterChunk ix fuel (chunk >>> (zeros + 1)) index'

/-- `iter_ones(lib)` for the chunks from number `ix` on: src/pieces/group.rs:47-60. -/
def iterOnesFrom (ix : Nat) : Liberties → List Nat
  | [] => []
  | c :: cs => iterChunk ix 8 c 0 ++ iterOnesFrom (ix + 1) cs

/-- `iter_ones(lib)`: src/pieces/group.rs:47-60. -/
def iterOnes (lib : Liberties) : List Nat := iterOnesFrom 0 lib

/-- `get(index, lib)`: src/pieces/group.rs:62-66. -/
def get (index : Nat) (lib : Liberties) : M Bool :=
  match lib[index / 8]? with
  | none => panic
  | some b => .ok ((b &&& (1#8 <<< (index % 8))) != 0#8)

end Bits
end Model
