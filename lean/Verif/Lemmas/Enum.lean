import Verif.Model.Table
/-! The finite type `OpcodeVariant` is enumerated by a list, so that a decidable statement about *all*
variants can be checked by the kernel over the complete domain. -/
namespace ZkEvm.Enum

def opcodes : List Opcode :=
  [.invalid .mk, .nop .mk, .add .add, .sub .sub, .mul .mk, .div .mk, .jump .mk]
  ++ [.this, .caller, .codeAddress, .metaParams, .ergsLeft, .sp, .getContextU128, .setContextU128,
      .setErgsPerPubdataByte, .incrementTxNumber].map .context
  ++ [.shl, .shr, .rol, .ror].map .shift
  ++ [.xor, .and, .or].map .binop
  ++ [.add, .sub, .pack, .shrink].map .ptr
  ++ [.nearCall .mk]
  ++ [.storageRead, .storageWrite, .toL1Message, .event, .precompileCall].map .log
  ++ [.normal, .delegate, .mimic].map .farCall
  ++ [.ok, .revert, .panic].map .ret
  ++ [.heapRead, .heapWrite, .auxHeapRead, .auxHeapWrite, .fatPointerRead].map .uma

theorem mem_opcodes (o : Opcode) : o ∈ opcodes := by
  rcases o with o | o | o | o | o | o | o | o | o | o | o | o | o | o | o | o <;> cases o <;> decide

def operands : List Operand :=
  [.regOnly, .regOrImm .useRegOnly, .regOrImm .useImm16Only, .full .useRegOnly, .full .useStackWithPushPop,
   .full .useStackWithOffset, .full .useAbsoluteOnStack, .full .useImm16Only, .full .useCodePage]

theorem mem_operands (o : Operand) : o ∈ operands := by
  rcases o with _ | f | f
  · decide
  · cases f <;> decide
  · cases f <;> decide

def flags : List Flags := [⟨false, false⟩, ⟨false, true⟩, ⟨true, false⟩, ⟨true, true⟩]

theorem mem_flags (f : Flags) : f ∈ flags := by
  rcases f with ⟨a, b⟩; cases a <;> cases b <;> decide

/-- A Boolean predicate holds for all variants if it holds along the four nested enumerations. -/
theorem forall_variant {p : OpcodeVariant → Bool}
    (h : (opcodes.all fun o => operands.all fun s => operands.all fun d => flags.all fun f =>
      p ⟨o, s, d, f⟩) = true) (v : OpcodeVariant) : p v = true := by
  rcases v with ⟨o, s, d, f⟩
  simp only [List.all_eq_true] at h
  exact h o (mem_opcodes o) s (mem_operands s) d (mem_operands d) f (mem_flags f)

theorem forall_opcode {p : Opcode → Bool} (h : opcodes.all p = true) (o : Opcode) : p o = true :=
  List.all_eq_true.1 h o (mem_opcodes o)

end ZkEvm.Enum
