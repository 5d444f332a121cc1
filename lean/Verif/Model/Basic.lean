/-!
# Basic vocabulary of the model

Citations of the form `src/...:a-b` refer to files and lines of `/repo`.

* A Rust panic (`assert!`, `unreachable!`, `unimplemented!`, `expect`, out-of-bounds index,
  arithmetic overflow with overflow checks on) is an explicit error value of `Res`.
* `u8`, `u16`, `u32`, `u64`, `u128` values that are stored in words are `BitVec`s of that width.
* `usize` indices and the `u32` erg prices are `Nat`; that every price fits `u32` is a theorem
  (`Verif.Props.Prices`), not an assumption.
-/

namespace ZkEvm

/-- The ways the Rust code can panic, for example `src/lib.rs:141` (assert), `src/definitions/mod.rs:203` (panic),
`src/definitions/add.rs:50` (unimplemented) -/
inductive Panic where
  | assertFailed
  | unreachable
  | unimplemented
  | expectFailed
  | indexOutOfBounds
  | arithOverflow
  | divByZero
  | capacityOverflow
  | explicitPanic
deriving DecidableEq, Repr

/-- A computation that may panic, for example `src/definitions/mod.rs:190-233` -/
abbrev Res (α : Type) := Except Panic α

/-- `assert!` / `assert_eq!`, for example `src/definitions/mod.rs:228-229` -/
def rassert (b : Bool) : Res Unit := if b then .ok () else .error .assertFailed

/-- A `for` loop whose body pushes a few elements on the result vector: the pushes of the successive
iterations are concatenated, and the first panicking iteration aborts the loop.
(Simplification: the accumulator `Vec` is not threaded through; pushes only append.)
For example `src/definitions/mod.rs:456-654` -/
def collect {α β : Type} (f : α → Res (List β)) : List α → Res (List β)
  | [] => .ok []
  | a :: as => do
    let x ← f a
    let rest ← collect f as
    .ok (x ++ rest)

/-- Indexing a slice/array with `[]`; panics when out of bounds, for example
`src/decoding/encoding_mode_production.rs:33` -/
def index {α : Type} (l : List α) (i : Nat) : Res α :=
  match l[i]? with
  | some a => .ok a
  | none => .error .indexOutOfBounds

/-- Whether the crate is compiled with debug assertions (`debug_assert!` active) or not, see `src/utils.rs:8-9` -/
inductive Build where
  | debug
  | release
deriving DecidableEq, Repr

/-- `debug_assert!`, `src/utils.rs:8-9` -/
def debugAssert (b : Build) (c : Bool) : Res Unit :=
  match b with
  | .debug => rassert c
  | .release => .ok ()

/-- `u8`, for example `src/utils.rs:3` -/
abbrev Byte := BitVec 8

/-- `ethereum_types::U256`: four little-endian 64-bit limbs, `value.0[0]` least significant.
(External crate; only the `[u64; 4]` representation, used through `.0[i]`, is modelled.) For example
`src/decoding/mod.rs:119-122` -/
structure U256 where
  l0 : BitVec 64
  l1 : BitVec 64
  l2 : BitVec 64
  l3 : BitVec 64
deriving DecidableEq, Repr

/-- `U256::zero()`, `src/definitions/abi/fat_pointer.rs:89` -/
def U256.zero : U256 := ⟨0, 0, 0, 0⟩

end ZkEvm
