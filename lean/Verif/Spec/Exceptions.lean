import Verif.Model.Abi
/-! What can be wrong with a fat pointer, as a proposition about its fields, and the published name of each problem.
Nothing in this file is a function of the crate. -/
namespace ZkEvm.Spec

/-- The two things that can be wrong with a pointer -/
inductive Problem
  | offsetNotZero
  | beyondHeap
deriving DecidableEq

/-- Bit number of a problem in the `u64` -/
def Problem.bit : Problem → Nat
  | .offsetNotZero => 0
  | .beyondHeap => 1

/-- Published name of a problem -/
def Problem.name : Problem → String
  | .offsetNotZero => "OFFSET_IS_NOT_ZERO_WHEN_EXPECTED"
  | .beyondHeap => "DEREF_BEYOND_HEAP_RANGE"

/-- A fresh pointer must have offset zero; the end of every pointer must be a 32-bit number. -/
def Problem.of (p : FatPointer) (fresh : Bool) : Problem → Prop
  | .offsetNotZero => fresh = true ∧ p.offset.toNat ≠ 0
  | .beyondHeap => 2 ^ 32 ≤ p.start.toNat + p.length.toNat

end ZkEvm.Spec
