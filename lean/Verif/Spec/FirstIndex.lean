/-! Specification of "the least index at which a value occurs in a list". -/
namespace ZkEvm.Spec

/-- `v` occurs at index `i` of `l` and at no smaller index. -/
def IsFirstIndex {α : Type} (l : List α) (v : α) (i : Nat) : Prop :=
  l[i]? = some v ∧ ∀ j, j < i → l[j]? ≠ some v

end ZkEvm.Spec
