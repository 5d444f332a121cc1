import Verif.Spec.Isa
import Verif.Lemmas.Enum
/-! The closed-form numbering and its inverse. -/
namespace ZkEvm

namespace Numbering
open Spec

def modeIdx : Operand → Nat
  | .full f => f.variantIndex
  | _ => 0

def flagIdx : Nat → Flags → Nat
  | 0, _ => 0
  | 1, f => if f.f0 then 1 else 0
  | _, f => (if f.f0 then 2 else 0) + (if f.f1 then 1 else 0)

def richIdx (nf : Nat) (v : OpcodeVariant) : Nat :=
  modeIdx v.src0OperandType * (4 * 2 ^ nf) + modeIdx v.dst0OperandType * 2 ^ nf + flagIdx nf v.flags

/-- Inverse of `Spec.entry` on well-formed variants -/
def number (v : OpcodeVariant) : Nat :=
  match v.opcode with
  | .invalid _ => 0
  | .nop _ => 1 + richIdx 0 v
  | .add _ => 25 + richIdx 1 v
  | .sub _ => 73 + richIdx 2 v
  | .mul _ => 169 + richIdx 1 v
  | .div _ => 217 + richIdx 2 v
  | .jump _ => 313 + modeIdx v.src0OperandType
  | .binop o => 319 + 48 * o.variantIndex + richIdx 1 v
  | .shift o => 463 + 96 * o.variantIndex + richIdx 2 v
  | .ptr o => 847 + 48 * o.variantIndex + richIdx 1 v
  | .nearCall _ => 1039
  | .context o => 1040 + o.variantIndex
  | .log .storageRead => 1050
  | .log .storageWrite => 1051
  | .log .toL1Message => 1052 + flagIdx 1 v.flags
  | .log .event => 1054 + flagIdx 1 v.flags
  | .log .precompileCall => 1056
  | .farCall o => 1057 + 4 * o.variantIndex + flagIdx 2 v.flags
  | .ret o => 1069 + 2 * o.variantIndex + flagIdx 1 v.flags
  | .uma o =>
    (if v.src0OperandType = .regOrImm .useImm16Only then 1085 else 1075) + 2 * o.variantIndex
      + flagIdx 1 v.flags

theorem number_entry_all : ((List.range 1093).all fun n => number (entry n) == n) = true := by
  decide +kernel

theorem number_entry {n : Nat} (h : n < assigned) : number (entry n) = n := by
  have := List.all_eq_true.1 number_entry_all n (List.mem_range.2 h)
  exact LawfulBEq.eq_of_beq this

theorem number_entryV0_all : ((List.range 1085).all fun n => number (entryV0 n) == n) = true := by
  decide +kernel

theorem number_entryV0 {n : Nat} (h : n < assignedV0) : number (entryV0 n) = n := by
  have := List.all_eq_true.1 number_entryV0_all n (List.mem_range.2 h)
  exact LawfulBEq.eq_of_beq this

theorem wf_entry_all : ((List.range 1093).all fun n => WellFormed (entry n)) = true := by
  decide +kernel

theorem wf_entry {n : Nat} (h : n < assigned) : WellFormed (entry n) = true :=
  List.all_eq_true.1 wf_entry_all n (List.mem_range.2 h)

theorem wf_entryV0_all : ((List.range 1085).all fun n => WellFormedV0 (entryV0 n)) = true := by
  decide +kernel

theorem wf_entryV0 {n : Nat} (h : n < assignedV0) : WellFormedV0 (entryV0 n) = true :=
  List.all_eq_true.1 wf_entryV0_all n (List.mem_range.2 h)

theorem entry_number (v : OpcodeVariant) (h : WellFormed v = true) :
    number v < assigned ∧ entry (number v) = v := by
  have := Enum.forall_variant
    (p := fun v => !(WellFormed v) || (decide (number v < assigned) && decide (entry (number v) = v)))
    (by decide +kernel) v
  simpa [h] using this

theorem entryV0_number (v : OpcodeVariant) (h : WellFormedV0 v = true) :
    number v < assignedV0 ∧ entryV0 (number v) = v := by
  have := Enum.forall_variant
    (p := fun v => !(WellFormedV0 v) ||
      (decide (number v < assignedV0) && decide (entryV0 (number v) = v)))
    (by decide +kernel) v
  simpa [h] using this

theorem entry_unassigned {n : Nat} (h : assigned ≤ n) : entry n = invalidVariant := by
  unfold assigned at h
  unfold entry
  repeat rw [if_neg (by omega)]

theorem entryV0_unassigned {n : Nat} (h : assignedV0 ≤ n) : entryV0 n = invalidVariant := by
  unfold assignedV0 at h
  unfold entryV0
  repeat rw [if_neg (by omega)]

theorem entry_injective {m n : Nat} (hm : m < assigned) (hn : n < assigned) (h : entry m = entry n) :
    m = n := by
  rw [← number_entry hm, h, number_entry hn]

theorem entryV0_injective {m n : Nat} (hm : m < assignedV0) (hn : n < assignedV0)
    (h : entryV0 m = entryV0 n) : m = n := by
  rw [← number_entryV0 hm, h, number_entryV0 hn]

end Numbering
end ZkEvm
