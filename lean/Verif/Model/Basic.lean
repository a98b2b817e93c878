/-!
# Basic vocabulary of the model

Faults, the fault monad, colours, machine-integer helpers.
-/

namespace Model

/-- What can go wrong in a Rust call: it panics, or it never returns.
Simplification: the panic message and the unwinding are not modelled. Code: e.g. src/rules/game.rs:176, src/pieces/goban.rs:532-536. -/
inductive Fault where
  | panic
  | diverge
  deriving DecidableEq, Repr

/-- Result of a Rust function that may panic or diverge (guide: "a panic path is an explicit error value").
Code: src/rules/game.rs:173-212 is the typical case. -/
abbrev M := Except Fault

deriving instance DecidableEq for Except

/-- `panic!`. Code: src/rules/sgf_bridge.rs:95, and every failing index or `unwrap`, e.g. src/pieces/group.rs:195. -/
def panic {α} : M α := .error .panic

/-- `assert!(b)`: src/pieces/goban.rs:59-62, 532-536; src/rules/game.rs:176. -/
def assertM (b : Bool) : M Unit := if b then .ok () else panic

/-- `debug_assert!(b)`: only active when `dbg` (a build with `debug_assertions`),
e.g. src/pieces/group.rs:119-122, src/pieces/goban.rs:276-285. -/
def debugAssert (dbg b : Bool) : M Unit := if dbg && !b then panic else .ok ()

@[simp] theorem ok_bind {α β} (a : α) (f : α → M β) : ((Except.ok a : M α) >>= f) = f a := rfl
@[simp] theorem pure_bind' {α β} (a : α) (f : α → M β) : ((pure a : M α) >>= f) = f a := rfl
@[simp] theorem error_bind {α β} (e : Fault) (f : α → M β) : ((Except.error e : M α) >>= f) = .error e := rfl
@[simp] theorem panic_bind {α β} (f : α → M β) : ((panic : M α) >>= f) = panic := rfl
@[simp] theorem map_ok {α β} (a : α) (f : α → β) : (f <$> (Except.ok a : M α)) = .ok (f a) := rfl
@[simp] theorem pure_eq_ok {α} (a : α) : (pure a : M α) = .ok a := rfl

/-- `enum Color`: src/pieces/stones.rs:10-13. -/
inductive Color where
  | black
  | white
  deriving DecidableEq, Repr

/-- `impl Not for Color`: src/pieces/stones.rs:19-28. -/
def Color.opp : Color → Color
  | .black => .white
  | .white => .black

@[simp] theorem Color.opp_opp (c : Color) : c.opp.opp = c := by cases c <;> rfl
@[simp] theorem Color.opp_ne (c : Color) : c.opp ≠ c := by cases c <;> decide
@[simp] theorem Color.ne_opp (c : Color) : c ≠ c.opp := by cases c <;> decide
theorem Color.eq_opp_of_ne {a b : Color} (h : a ≠ b) : a = b.opp := by
  cases a <;> cases b <;> first | rfl | exact absurd rfl h

/-- `Color as usize` (`#[repr(u8)]`, Black = 1, White = 2): src/pieces/stones.rs:9-13. -/
def Color.toNat : Color → Nat
  | .black => 1
  | .white => 2

/-- `type MaybeColor = Option<Color>`, `EMPTY = None`: src/pieces/stones.rs:15-17. -/
abbrev MaybeColor := Option Color

/-- `as u8`. Code: src/pieces/util.rs:24-25, src/pieces/goban.rs:39, src/rules/sgf_bridge.rs:31. -/
def u8 (x : Nat) : Nat := x % 256
/-- `as u16`. Code: src/pieces/group.rs:86-87, src/pieces/goban.rs:506, 517-522. -/
def u16 (x : Nat) : Nat := x % 65536

/-- `u8 + u8`: panics on overflow in a debug build, wraps in a release build. Code: src/pieces/util.rs:42, 44, 59, 61-62. -/
def addU8 (dbg : Bool) (x y : Nat) : M Nat :=
  if x + y < 256 then .ok (x + y) else if dbg then panic else .ok ((x + y) % 256)

/-- `u8 * u8`: panics on overflow in a debug build, wraps in a release build. Code: src/pieces/goban.rs:393. -/
def mulU8 (dbg : Bool) (x y : Nat) : M Nat :=
  if x * y < 256 then .ok (x * y) else if dbg then panic else .ok ((x * y) % 256)

/-- `u8 - u8`: panics on underflow in a debug build, wraps in a release build. Code: src/rules/sgf_bridge.rs:41, 124. -/
def subU8 (dbg : Bool) (x y : Nat) : M Nat :=
  if y ≤ x then .ok (x - y) else if dbg then panic else .ok ((x + 256 - y) % 256)

/-- `u16 + u16`. Code: src/pieces/goban.rs:524, 574. -/
def addU16 (dbg : Bool) (x y : Nat) : M Nat :=
  if x + y < 65536 then .ok (x + y) else if dbg then panic else .ok ((x + y) % 65536)

/-- `u8::wrapping_sub(1)`: src/pieces/util.rs:43,45. -/
def wsub1 (x : Nat) : Nat := (x + 255) % 256

end Model
