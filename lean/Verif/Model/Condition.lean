import Verif.Model.Basic
/-! Model of `src/definitions/condition.rs`. -/
namespace ZkEvm

/-- `Condition`, `src/definitions/condition.rs:1-12` -/
inductive Condition
  | always | gt | lt | eq | ge | le | ne | gtOrLt
deriving DecidableEq, Repr

/-- `CONDITIONAL_BITS_WIDTH`, `src/definitions/condition.rs:14` -/
def CONDITIONAL_BITS_WIDTH : Nat := 3

namespace Condition

/-- `NUM_VARIANTS`, `src/definitions/condition.rs:17` -/
def NUM_VARIANTS : Nat := 8

/-- `materialize_variant`, `src/definitions/condition.rs:19-33` -/
def materializeVariant (idx : Nat) : Res Condition := do
  rassert (decide (idx < NUM_VARIANTS))
  match idx with
  | 0 => .ok .always
  | 1 => .ok .gt
  | 2 => .ok .lt
  | 3 => .ok .eq
  | 4 => .ok .ge
  | 5 => .ok .le
  | 6 => .ok .ne
  | 7 => .ok .gtOrLt
  | _ => .error .explicitPanic

/-- `variant_index`, `src/definitions/condition.rs:35-46` -/
def variantIndex : Condition → Nat
  | .always => 0
  | .gt => 1
  | .lt => 2
  | .eq => 3
  | .ge => 4
  | .le => 5
  | .ne => 6
  | .gtOrLt => 7

end Condition

/-- `ALL_CONDITIONS`, `src/definitions/condition.rs:49-58` -/
def ALL_CONDITIONS : List Condition := [.always, .gt, .lt, .eq, .ge, .le, .ne, .gtOrLt]

end ZkEvm
