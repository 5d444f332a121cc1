import Verif.Model.ConstChecks
import Verif.Props.Abi
import Verif.Props.System
import Verif.Spec.Words
/-!
# Compile-time checks: C87
-/
namespace ZkEvm.Props
open Spec

/-! ## C87 -/

private theorem check_iff {p : Prop} [Decidable p] :
    (if p then Except.error Panic.explicitPanic else .ok () : Res Unit) = .ok () ↔ ¬p := by
  by_cases h : p
  · rw [if_pos h]; exact iff_of_false (fun h => nomatch h) (fun hn => hn h)
  · rw [if_neg h]; exact iff_of_true rfl h

/-- The word whose byte `i` is 1 and whose other bytes are 0 -/
private def oneByte (i : Nat) : U256 :=
  ⟨BitVec.ofNat 64 (256 ^ i), BitVec.ofNat 64 (256 ^ i / 2 ^ 64), BitVec.ofNat 64 (256 ^ i / 2 ^ 128),
    BitVec.ofNat 64 (256 ^ i / 2 ^ 192)⟩

private theorem oneByte_apart : ∀ i, i < 32 → ∀ j, j < 32 → i ≠ j → ubyte (oneByte i) i ≠ ubyte (oneByte i) j := by
  decide +kernel

/-- C87: what the compile-time checks promise, for every choice of the constants: growing the heap by `n` bytes costs
`n` ergs; the cost of sorting a decommitment fits into a `u16`; the two operand classes give an addressing mode that they
share the same index; the forwarding modes of far calls and returns are the same byte of every word. -/
theorem C87_meaning :
    (∀ c, ConstChecks.memoryGrowth c = .ok () ↔ ∀ n, n * c = n) ∧
    (∀ c, ConstChecks.decommitterSorter c = .ok () ↔ ∃ x : BitVec 16, x.toNat = c) ∧
    (∀ i j, ConstChecks.operandIndices i j = .ok () ↔ i = j) ∧
    (∀ i j, i < 32 → j < 32 → (ConstChecks.forwardingByte i j = .ok () ↔ ∀ v, ubyte v i = ubyte v j)) := by
  refine ⟨fun c => check_iff.trans ⟨fun h n => ?_, fun h => ?_⟩, fun c => check_iff.trans ⟨fun h => ?_, ?_⟩,
    fun i j => check_iff.trans Decidable.not_not, fun i j hi hj => check_iff.trans ⟨fun h v => ?_, fun h => ?_⟩⟩
  · rw [Decidable.not_not.1 h, Nat.mul_one]
  · have := h 1
    omega
  · exact ⟨BitVec.ofNat 16 c, by rw [BitVec.toNat_ofNat]; omega⟩
  · rintro ⟨x, rfl⟩
    have := x.isLt
    omega
  · rw [Decidable.not_not.1 h]
  · exact fun hne => oneByte_apart i hi j hj hne (h (oneByte i))

/-- C87: the crate compiles: every check passes with the crate's constants. So growing a heap beyond the stipend costs
one erg for each byte, and the addressing modes of register-or-immediate operands are modes of full operands with the
same index, the same byte, and the same memory use. -/
theorem C87_pass :
    ConstChecks.all = .ok () ∧
    (∀ size, heapGrowthCost size = size - NEW_FRAME_MEMORY_STIPEND) ∧
    (∀ f : RegOrImmFlags, ∃ g : ImmMemHandlerFlags, g.variantIndex = f.variantIndex ∧ g.encodingByte = f.encodingByte ∧
      g.isMemoryUsed = f.isMemoryUsed ∧ g.isAllowedForDst = f.isAllowedForDst) ∧
    (∀ v, RetABI.fromU256 v =
      ⟨(FarCallABI.fromU256 v).memoryQuasiFatPointer, retOfFarCall (FarCallABI.fromU256 v).forwardingMode⟩) :=
  ⟨by decide, fun _ => C87_meaning.1 _ |>.1 (by decide) _, fun f => by
      cases f
      · exact ⟨.useRegOnly, by decide⟩
      · exact ⟨.useImm16Only, by decide⟩, fun v => (C49_agrees v).1⟩

-- the checks can fail
example : ConstChecks.memoryGrowth 2 ≠ .ok () ∧ ConstChecks.decommitterSorter 65536 ≠ .ok () ∧
    ConstChecks.operandIndices 4 1 ≠ .ok () ∧ ConstChecks.forwardingByte 28 29 ≠ .ok () := by decide

end ZkEvm.Props
