import Verif.Lemmas.Order
import Verif.Lemmas.Tables
/-! Helper lemmas for C68: the opcode table is sorted family by family. -/
namespace ZkEvm.Order
open ZkEvm.Spec

/-- Position of a logical opcode (by its index) in the order in which the table lists them -/
def familyRank (i : Nat) : Nat :=
  match i with
  | 9 => 7
  | 10 => 9
  | 11 => 10
  | 7 => 11
  | i => i

theorem mono_of_step (f : Nat → Nat) (N : Nat) (h : ∀ n, n + 1 < N → f n < f (n + 1)) :
    ∀ k m, m + k + 1 < N → f m < f (m + k + 1)
  | 0, m, hk => h m hk
  | k + 1, m, hk => Nat.lt_trans (mono_of_step f N h k m (by omega)) (h (m + k + 1) hk)

theorem rank_step : ∀ n, n + 1 < 1085 →
    familyRank (entry n).opcode.variantIdx * 51840 + key (entry n) <
      familyRank (entry (n + 1)).opcode.variantIdx * 51840 + key (entry (n + 1)) := by
  have h : ((List.range 1084).all fun n => decide (familyRank (entry n).opcode.variantIdx * 51840 + key (entry n) <
      familyRank (entry (n + 1)).opcode.variantIdx * 51840 + key (entry (n + 1)))) = true := by decide +kernel
  intro n hn
  have := List.all_eq_true.1 h n (List.mem_range.2 (by omega))
  simpa using this

end ZkEvm.Order
