import Verif.Model.Basic
/-! Model of the nibble helpers of `src/utils.rs` and of a few standard-library integer functions. -/
namespace ZkEvm

/-- `split_as_u4`, `src/utils.rs:3-5` -/
def splitAsU4 (value : Byte) : Byte × Byte := (value &&& ((1#8 <<< 4) - 1#8), value >>> 4)

/-- `merge_u4`, `src/utils.rs:7-11` -/
def mergeU4 (build : Build) (low high : Byte) : Res Byte := do
  debugAssert build (decide (low < 16#8))
  debugAssert build (decide (high < 16#8))
  .ok (low ||| (high <<< 4))

/-- `usize::next_power_of_two` (standard library; used at
`src/decoding/encoding_mode_production.rs:128,134` and `encoding_mode_testing.rs:129,135`).
Overflow near `usize::MAX` is not modelled: the argument is a table index or a condition number. -/
def nextPowerOfTwo (n : Nat) : Nat := if n ≤ 1 then 1 else 2 ^ (Nat.log2 (n - 1) + 1)

/-- Number of trailing zeros of a number below `2 ^ fuel`; `src/decoding/encoding_mode_production.rs:128,134` -/
def trailingZerosAux : Nat → Nat → Nat
  | 0, _ => 0
  | fuel + 1, n => if n % 2 = 1 then 0 else trailingZerosAux fuel (n / 2) + 1

/-- `usize::trailing_zeros` (standard library), same uses;
`src/decoding/encoding_mode_production.rs:128,134`, `src/decoding/encoding_mode_testing.rs:129,135` -/
def trailingZeros (n : Nat) : Nat := trailingZerosAux 64 n

/-- `to_be_bytes` of an integer of `n` bytes (standard library; used at `src/decoding/mod.rs:33,39` and
`src/definitions/versioned_hash/mod.rs:73,83`) -/
def toBeBytes (n : Nat) {w : Nat} (x : BitVec w) : List Byte :=
  (List.range n).map fun i => x.extractLsb' (8 * (n - 1 - i)) 8

/-- `u32::to_le_bytes` (standard library; used at `src/definitions/abi/far_call.rs:49`, `ret.rs:43`):
the four bytes, least significant first -/
def u32ToLeBytes (x : BitVec 32) : Byte × Byte × Byte × Byte :=
  (x.extractLsb' 0 8, x.extractLsb' 8 8, x.extractLsb' 16 8, x.extractLsb' 24 8)

end ZkEvm
