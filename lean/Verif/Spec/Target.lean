import Verif.Model.Table
/-! The width of the table a builder is asked for, and which widths fit a target. -/
namespace ZkEvm.Spec

/-- The width a request for `bits` is taken as: a release build reduces it modulo the width of `usize`. -/
def effectiveWidth (target : Target) (bits : Nat) : Nat :=
  match target.build with
  | .debug => bits
  | .release => bits % target.usizeBits

/-- A table of `2 ^ bits` variants is no larger than the largest object of the target, `isize::MAX` bytes. -/
def TableFits (target : Target) (bits : Nat) : Prop :=
  2 ^ bits * target.variantSize ≤ 2 ^ (target.usizeBits - 1) - 1

end ZkEvm.Spec
