import Verif.Lemmas.Debug
/-! C92: `{:?}` texts. The reader and the names are in `Verif/Spec/Debug.lean`. -/
namespace ZkEvm.Props
open Spec Display DebugLemmas

/-! ## C92 -/

private theorem num {w : Nat} (hw : w ≤ 64) (x : BitVec w) : Reads (fmtDec x.toNat) (.number x.toNat) :=
  reads_number (Nat.lt_of_lt_of_le x.isLt (Nat.le_trans (Nat.pow_le_pow_right (by decide) hw) (by decide)))

private theorem reads_bool (b : Bool) : Reads (debugBool b) (boolWord b) := by
  cases b <;> exact reads_word (by decide)

private theorem reads_variant (v : OpcodeVariant) : Reads v.debug (variantPrinted v) := by
  refine reads_struct (by decide) (.cons (by decide) (reads_opcode _) (.cons (by decide) (reads_operand _)
    (.cons (by decide) (reads_operand _) (.cons (by decide) ?_ .nil)))) (by simp)
  refine reads_list [(debugBool v.flags.f0, boolWord v.flags.f0), (debugBool v.flags.f1, boolWord v.flags.f1)]
    fun x hx => ?_
  simp only [List.mem_cons, List.not_mem_nil, or_false] at hx
  rcases hx with rfl | rfl <;> exact reads_bool _

private theorem reads_pointer (p : FatPointer) : Reads p.debug (pointerPrinted p) :=
  reads_struct (by decide) (.cons (by decide) (num (by decide) _) (.cons (by decide) (num (by decide) _)
    (.cons (by decide) (num (by decide) _) (.cons (by decide) (num (by decide) _) .nil)))) (by simp)

/-- C92: the text of a variant, of a list of variants of any length, and of an instruction says what its fields are. -/
theorem C92_instructions :
    (∀ v : OpcodeVariant, readDebug v.debug = some (variantPrinted v)) ∧
    (∀ vs : List OpcodeVariant,
      readDebug (debugList (vs.map OpcodeVariant.debug)) = some (.list (vs.map variantPrinted))) ∧
    (∀ (w : Nat) (o : DecodedOpcode w), w = 16 ∨ w = 32 → readDebug o.debug = some (recordOf "DecodedOpcode"
      [("variant", variantPrinted o.variant), ("condition", wordOf (conditionName o.condition)),
       ("src0_reg_idx", .number o.src0RegIdx.toNat), ("src1_reg_idx", .number o.src1RegIdx.toNat),
       ("dst0_reg_idx", .number o.dst0RegIdx.toNat), ("dst1_reg_idx", .number o.dst1RegIdx.toNat),
       ("imm_0", .number o.imm0.toNat), ("imm_1", .number o.imm1.toNat)])) := by
  refine ⟨fun v => readDebug_of (reads_variant v), fun vs => readDebug_of ?_, fun w o hw => readDebug_of ?_⟩
  · have := reads_list (vs.map fun v => (v.debug, variantPrinted v)) fun x hx => by
      obtain ⟨v, _, rfl⟩ := List.mem_map.1 hx
      exact reads_variant v
    rw [List.map_map, List.map_map] at this
    exact this
  · have hw' : w ≤ 64 := by omega
    exact reads_struct (by decide) (.cons (by decide) (reads_variant _) (.cons (by decide) (reads_condition _)
      (.cons (by decide) (num (by decide) _) (.cons (by decide) (num (by decide) _) (.cons (by decide) (num (by decide) _)
      (.cons (by decide) (num (by decide) _) (.cons (by decide) (num hw' _) (.cons (by decide) (num hw' _) .nil))))))))
      (by simp)

/-- C92: the texts of the ABI structs say what their fields are. -/
theorem C92_abi :
    (∀ p : FatPointer, readDebug p.debug = some (pointerPrinted p)) ∧
    (∀ a : FarCallABI, readDebug a.debug = some (recordOf "FarCallABI"
      [("memory_quasi_fat_pointer", pointerPrinted a.memoryQuasiFatPointer), ("ergs_passed", .number a.ergsPassed.toNat),
       ("shard_id", .number a.shardId.toNat), ("forwarding_mode", wordOf (farCallModeName a.forwardingMode)),
       ("constructor_call", boolWord a.constructorCall), ("to_system", boolWord a.toSystem)])) ∧
    (∀ a : RetABI, readDebug a.debug = some (recordOf "RetABI"
      [("memory_quasi_fat_pointer", pointerPrinted a.memoryQuasiFatPointer),
       ("page_forwarding_mode", wordOf (retModeName a.pageForwardingMode))])) ∧
    (∀ a : NearCallABI, readDebug a.debug = some (recordOf "NearCallABI" [("ergs_passed", .number a.ergsPassed.toNat)])) ∧
    (∀ a : PrecompileCallABI, readDebug a.debug = some (recordOf "PrecompileCallABI"
      [("input_memory_offset", .number a.inputMemoryOffset.toNat), ("input_memory_length", .number a.inputMemoryLength.toNat),
       ("output_memory_offset", .number a.outputMemoryOffset.toNat),
       ("output_memory_length", .number a.outputMemoryLength.toNat),
       ("per_precompile_interpreted", .number a.perPrecompileInterpreted.toNat)])) ∧
    (∀ a : PrecompileCallInnerABI, readDebug a.debug = some (recordOf "PrecompileCallInnerABI"
      [("input_memory_offset", .number a.inputMemoryOffset.toNat), ("input_memory_length", .number a.inputMemoryLength.toNat),
       ("output_memory_offset", .number a.outputMemoryOffset.toNat),
       ("output_memory_length", .number a.outputMemoryLength.toNat),
       ("memory_page_to_read", .number a.memoryPageToRead.toNat), ("memory_page_to_write", .number a.memoryPageToWrite.toNat),
       ("precompile_interpreted_data", .number a.precompileInterpretedData.toNat)])) ∧
    (∀ a : VmMetaParameters, readDebug a.debug = some (recordOf "VmMetaParameters"
      [("ergs_per_pubdata_byte", .number a.ergsPerPubdataByte.toNat), ("heap_size", .number a.heapSize.toNat),
       ("aux_heap_size", .number a.auxHeapSize.toNat), ("this_shard_id", .number a.thisShardId.toNat),
       ("caller_shard_id", .number a.callerShardId.toNat), ("code_shard_id", .number a.codeShardId.toNat)])) := by
  refine ⟨fun p => readDebug_of (reads_pointer p), fun a => readDebug_of ?_, fun a => readDebug_of ?_,
    fun a => readDebug_of ?_, fun a => readDebug_of ?_, fun a => readDebug_of ?_, fun a => readDebug_of ?_⟩
  · exact reads_struct (by decide) (.cons (by decide) (reads_pointer _) (.cons (by decide) (num (by decide) _)
      (.cons (by decide) (num (by decide) _) (.cons (by decide) (by cases a.forwardingMode <;> exact reads_word (by decide))
      (.cons (by decide) (reads_bool _) (.cons (by decide) (reads_bool _) .nil)))))) (by simp)
  · exact reads_struct (by decide) (.cons (by decide) (reads_pointer _)
      (.cons (by decide) (by cases a.pageForwardingMode <;> exact reads_word (by decide)) .nil)) (by simp)
  · exact reads_struct (by decide) (.cons (by decide) (num (by decide) _) .nil) (by simp)
  · exact reads_struct (by decide) (.cons (by decide) (num (by decide) _) (.cons (by decide) (num (by decide) _)
      (.cons (by decide) (num (by decide) _) (.cons (by decide) (num (by decide) _)
      (.cons (by decide) (num (by decide) _) .nil))))) (by simp)
  · exact reads_struct (by decide) (.cons (by decide) (num (by decide) _) (.cons (by decide) (num (by decide) _)
      (.cons (by decide) (num (by decide) _) (.cons (by decide) (num (by decide) _) (.cons (by decide) (num (by decide) _)
      (.cons (by decide) (num (by decide) _) (.cons (by decide) (num (by decide) _) .nil))))))) (by simp)
  · exact reads_struct (by decide) (.cons (by decide) (num (by decide) _) (.cons (by decide) (num (by decide) _)
      (.cons (by decide) (num (by decide) _) (.cons (by decide) (num (by decide) _) (.cons (by decide) (num (by decide) _)
      (.cons (by decide) (num (by decide) _) .nil)))))) (by simp)

private theorem reads_storage (s : ContractCodeSha256Storage) : Reads s.debug (recordOf "ContractCodeSha256Storage"
    [("code_length_in_words", .number s.codeLengthInWords.toNat), ("extra_marker", .number s.extraMarker.toNat),
     ("partial_hash", .list (s.partialHash.toList.map fun b => .number b.toNat))]) := by
  refine reads_struct (by decide) (.cons (by decide) (num (by decide) _) (.cons (by decide) (num (by decide) _)
    (.cons (by decide) ?_ .nil))) (by simp)
  have := reads_list (s.partialHash.toList.map fun b => (fmtDec b.toNat, .number b.toNat)) fun x hx => by
    obtain ⟨b, _, rfl⟩ := List.mem_map.1 hx
    exact num (by decide) b
  rw [List.map_map, List.map_map] at this
  exact this

/-- C92: the texts of versioned hashes say what their fields are. -/
theorem C92_hashes :
    (∀ s : ContractCodeSha256Storage, readDebug s.debug = some (recordOf "ContractCodeSha256Storage"
      [("code_length_in_words", .number s.codeLengthInWords.toNat), ("extra_marker", .number s.extraMarker.toNat),
       ("partial_hash", .list (s.partialHash.toList.map fun b => .number b.toNat))])) ∧
    (∀ h : VersionedHashGeneric contractCodeSha256,
      readDebug (h.debug ContractCodeSha256Storage.fmtDebug) = some (recordOf "VersionedHashGeneric"
        [("data", recordOf "ContractCodeSha256Storage"
          [("code_length_in_words", .number h.data.codeLengthInWords.toNat),
           ("extra_marker", .number h.data.extraMarker.toNat),
           ("partial_hash", .list (h.data.partialHash.toList.map fun b => .number b.toNat))])])) :=
  ⟨fun s => readDebug_of (reads_storage s), fun h => readDebug_of
    (reads_struct (by decide) (.cons (by decide) (reads_storage _) .nil) (by simp))⟩

/-- C92: the texts of the numbers with a name, and of variant data; `usize` has at most 64 bits. -/
theorem C92_numbers :
    (∀ v : ISAVersion, v.num < 2 ^ 8 → readDebug v.debug = some (tupleOf "ISAVersion" (.number v.num))) ∧
    (∀ n : VariantMonotonicNumber, n.val < 2 ^ 64 →
      readDebug n.debug = some (tupleOf "VariantMonotonicNumber" (.number n.val))) ∧
    (∀ d : OpcodeVariantData, d.variantIdx < 2 ^ 64 → d.numNonExclusiveFlags < 2 ^ 64 → d.numUsedImmediates < 2 ^ 64 →
      readDebug d.debug = some (recordOf "OpcodeVariantData"
        [("variant_idx", .number d.variantIdx), ("num_non_exclusive_flags", .number d.numNonExclusiveFlags),
         ("num_used_immediates", .number d.numUsedImmediates)])) := by
  have n8 : ∀ n, n < 2 ^ 8 → Reads (fmtDec n) (.number n) := fun n h => reads_number (Nat.lt_of_lt_of_le h (by decide))
  have n64 : ∀ n, n < 2 ^ 64 → Reads (fmtDec n) (.number n) := fun n h => reads_number (Nat.lt_of_lt_of_le h (by decide))
  refine ⟨fun v h => readDebug_of ?_, fun n h => readDebug_of ?_, fun d h1 h2 h3 => readDebug_of ?_⟩
  · exact reads_tuple (by decide) (n8 _ h)
  · exact reads_tuple (by decide) (n64 _ h)
  · exact reads_struct (by decide) (.cons (by decide) (n64 _ h1) (.cons (by decide) (n64 _ h2)
      (.cons (by decide) (n64 _ h3) .nil))) (by simp)

private theorem opcode_apart {a b : Opcode} (h : opcodePrinted a = opcodePrinted b) : a = b := by
  have hd : ∀ o : Opcode, o.debug = (opcodeNames o).1.toList ++ ['('] ++ (opcodeNames o).2.toList ++ [')'] := fun o =>
    of_decide_eq_true (Enum.forall_opcode (p := fun o =>
      decide (o.debug = (opcodeNames o).1.toList ++ ['('] ++ (opcodeNames o).2.toList ++ [')'])) (by decide +kernel) o)
  have h1 := Printed.tuple.inj h
  refine opcode_inj ?_
  rw [hd a, hd b, h1.1, Printed.word.inj h1.2]

private theorem operand_apart {a b : Operand} (h : operandPrinted a = operandPrinted b) : a = b := by
  have hd : ∀ o : Operand, o.debug = match operandPrinted o with
      | .word n => n
      | .tuple n (.word m) => n ++ ['('] ++ m ++ [')']
      | _ => [] := by
    intro o
    rcases o with _ | f | f <;> (try cases f) <;> rfl
  exact operand_inj (by rw [hd a, hd b, h])

private theorem condition_apart {a b : Condition} (h : wordOf (conditionName a) = wordOf (conditionName b)) : a = b := by
  have hd : ∀ c : Condition, c.debug = (conditionName c).toList := by intro c; cases c <;> rfl
  exact condition_inj (by rw [hd a, hd b]; exact Printed.word.inj h)

private theorem bool_apart {a b : Bool} (h : boolWord a = boolWord b) : a = b := by
  cases a <;> cases b
  · rfl
  · exact absurd (Printed.word.inj h) (by decide)
  · exact absurd (Printed.word.inj h) (by decide)
  · rfl

private theorem variant_apart {a b : OpcodeVariant} (h : variantPrinted a = variantPrinted b) : a = b := by
  unfold variantPrinted recordOf at h
  simp only [Printed.record.injEq, List.map_cons, List.map_nil, List.cons.injEq, Prod.mk.injEq, Printed.list.injEq, true_and,
    and_true] at h
  obtain ⟨h1, h2, h3, h4, h5⟩ := h
  rcases a with ⟨a1, a2, a3, ⟨a4, a5⟩⟩
  rcases b with ⟨b1, b2, b3, ⟨b4, b5⟩⟩
  dsimp only at h1 h2 h3 h4 h5
  rw [opcode_apart h1, operand_apart h2, operand_apart h3, bool_apart h4, bool_apart h5]

private theorem pointer_apart {a b : FatPointer} (h : pointerPrinted a = pointerPrinted b) : a = b := by
  unfold pointerPrinted recordOf at h
  simp only [Printed.record.injEq, List.map_cons, List.map_nil, List.cons.injEq, Prod.mk.injEq, Printed.number.injEq, true_and,
    and_true] at h
  obtain ⟨h1, h2, h3, h4⟩ := h
  rcases a with ⟨a1, a2, a3, a4⟩
  rcases b with ⟨b1, b2, b3, b4⟩
  rw [FatPointer.mk.injEq]
  exact ⟨BitVec.eq_of_toNat_eq h1, BitVec.eq_of_toNat_eq h2, BitVec.eq_of_toNat_eq h3, BitVec.eq_of_toNat_eq h4⟩

private theorem farCallMode_apart {a b : FarCallForwardPageType}
    (h : wordOf (farCallModeName a) = wordOf (farCallModeName b)) : a = b := by
  have := Printed.word.inj h
  revert this
  cases a <;> cases b <;> decide

private theorem retMode_apart {a b : RetForwardPageType} (h : wordOf (retModeName a) = wordOf (retModeName b)) : a = b := by
  have := Printed.word.inj h
  revert this
  cases a <;> cases b <;> decide

private theorem storage_apart {a b : ContractCodeSha256Storage}
    (h : recordOf "ContractCodeSha256Storage"
        [("code_length_in_words", .number a.codeLengthInWords.toNat), ("extra_marker", .number a.extraMarker.toNat),
         ("partial_hash", .list (a.partialHash.toList.map fun b => .number b.toNat))] =
      recordOf "ContractCodeSha256Storage"
        [("code_length_in_words", .number b.codeLengthInWords.toNat), ("extra_marker", .number b.extraMarker.toNat),
         ("partial_hash", .list (b.partialHash.toList.map fun b => .number b.toNat))]) : a = b := by
  unfold recordOf at h
  simp only [Printed.record.injEq, List.map_cons, List.map_nil, List.cons.injEq, Prod.mk.injEq, Printed.number.injEq,
    Printed.list.injEq, true_and, and_true] at h
  obtain ⟨h1, h2, h3⟩ := h
  rcases a with ⟨a1, a2, a3⟩
  rcases b with ⟨b1, b2, b3⟩
  dsimp only at h1 h2 h3
  have e3 := Vector.toList_inj.1 ((List.map_inj_right fun _ _ e => BitVec.eq_of_toNat_eq (Printed.number.inj e)).1 h3)
  rw [BitVec.eq_of_toNat_eq h1, BitVec.eq_of_toNat_eq h2, e3]

/-- C92: values with the same text are the same: variants, lists of variants, instructions, ABI values, versioned hashes. -/
theorem C92_apart :
    (∀ a b : OpcodeVariant, a.debug = b.debug → a = b) ∧
    (∀ as bs : List OpcodeVariant,
      debugList (as.map OpcodeVariant.debug) = debugList (bs.map OpcodeVariant.debug) → as = bs) ∧
    (∀ (w : Nat) (a b : DecodedOpcode w), w = 16 ∨ w = 32 → a.debug = b.debug → a = b) ∧
    (∀ a b : FatPointer, a.debug = b.debug → a = b) ∧ (∀ a b : FarCallABI, a.debug = b.debug → a = b) ∧
    (∀ a b : RetABI, a.debug = b.debug → a = b) ∧ (∀ a b : NearCallABI, a.debug = b.debug → a = b) ∧
    (∀ a b : PrecompileCallABI, a.debug = b.debug → a = b) ∧ (∀ a b : PrecompileCallInnerABI, a.debug = b.debug → a = b) ∧
    (∀ a b : VmMetaParameters, a.debug = b.debug → a = b) ∧
    (∀ a b : VersionedHashGeneric contractCodeSha256,
      a.debug ContractCodeSha256Storage.fmtDebug = b.debug ContractCodeSha256Storage.fmtDebug → a = b) := by
  obtain ⟨hv, hl, ho⟩ := C92_instructions
  obtain ⟨_, hf, hr, hn, hp, hi, hm⟩ := C92_abi
  refine ⟨fun a b h => ?_, fun as bs h => ?_, fun w a b hw h => ?_, fun a b h => ?_, fun a b h => ?_, fun a b h => ?_,
    fun a b h => ?_, fun a b h => ?_, fun a b h => ?_, fun a b h => ?_, fun a b h => ?_⟩
  · exact variant_apart (Option.some.inj ((hv a).symm.trans ((congrArg readDebug h).trans (hv b))))
  · have := Printed.list.inj (Option.some.inj ((hl as).symm.trans ((congrArg readDebug h).trans (hl bs))))
    exact List.map_inj_right (fun _ _ => variant_apart) |>.1 this
  · have := Option.some.inj ((ho w a hw).symm.trans ((congrArg readDebug h).trans (ho w b hw)))
    unfold recordOf at this
    simp only [Printed.record.injEq, List.map_cons, List.map_nil, List.cons.injEq, Prod.mk.injEq, Printed.number.injEq,
      true_and, and_true] at this
    obtain ⟨h1, h2, h3, h4, h5, h6, h7, h8⟩ := this
    have e1 := variant_apart h1
    have e2 := condition_apart h2
    rcases a with ⟨a1, a2, a3, a4, a5, a6, a7, a8⟩
    rcases b with ⟨b1, b2, b3, b4, b5, b6, b7, b8⟩
    dsimp only at *
    rw [e1, e2, BitVec.eq_of_toNat_eq h3, BitVec.eq_of_toNat_eq h4, BitVec.eq_of_toNat_eq h5, BitVec.eq_of_toNat_eq h6,
      BitVec.eq_of_toNat_eq h7, BitVec.eq_of_toNat_eq h8]
  · exact pointer_apart (Option.some.inj ((C92_abi.1 a).symm.trans ((congrArg readDebug h).trans (C92_abi.1 b))))
  · have := Option.some.inj ((hf a).symm.trans ((congrArg readDebug h).trans (hf b)))
    unfold recordOf at this
    simp only [Printed.record.injEq, List.map_cons, List.map_nil, List.cons.injEq, Prod.mk.injEq, Printed.number.injEq,
      true_and, and_true] at this
    obtain ⟨h1, h2, h3, h4, h5, h6⟩ := this
    rcases a with ⟨a1, a2, a3, a4, a5, a6⟩
    rcases b with ⟨b1, b2, b3, b4, b5, b6⟩
    dsimp only at *
    rw [pointer_apart h1, BitVec.eq_of_toNat_eq h2, BitVec.eq_of_toNat_eq h3, farCallMode_apart h4, bool_apart h5, bool_apart h6]
  · have := Option.some.inj ((hr a).symm.trans ((congrArg readDebug h).trans (hr b)))
    unfold recordOf at this
    simp only [Printed.record.injEq, List.map_cons, List.map_nil, List.cons.injEq, Prod.mk.injEq,
      true_and, and_true] at this
    obtain ⟨h1, h2⟩ := this
    rcases a with ⟨a1, a2⟩
    rcases b with ⟨b1, b2⟩
    dsimp only at *
    rw [pointer_apart h1, retMode_apart h2]
  · have := Option.some.inj ((hn a).symm.trans ((congrArg readDebug h).trans (hn b)))
    unfold recordOf at this
    simp only [Printed.record.injEq, List.map_cons, List.map_nil, List.cons.injEq, Prod.mk.injEq, Printed.number.injEq,
      true_and, and_true] at this
    rcases a with ⟨a1⟩
    rcases b with ⟨b1⟩
    dsimp only at this
    rw [BitVec.eq_of_toNat_eq this]
  · have := Option.some.inj ((hp a).symm.trans ((congrArg readDebug h).trans (hp b)))
    unfold recordOf at this
    simp only [Printed.record.injEq, List.map_cons, List.map_nil, List.cons.injEq, Prod.mk.injEq, Printed.number.injEq,
      true_and, and_true] at this
    obtain ⟨h1, h2, h3, h4, h5⟩ := this
    rcases a with ⟨a1, a2, a3, a4, a5⟩
    rcases b with ⟨b1, b2, b3, b4, b5⟩
    dsimp only at *
    rw [BitVec.eq_of_toNat_eq h1, BitVec.eq_of_toNat_eq h2, BitVec.eq_of_toNat_eq h3, BitVec.eq_of_toNat_eq h4, BitVec.eq_of_toNat_eq h5]
  · have := Option.some.inj ((hi a).symm.trans ((congrArg readDebug h).trans (hi b)))
    unfold recordOf at this
    simp only [Printed.record.injEq, List.map_cons, List.map_nil, List.cons.injEq, Prod.mk.injEq, Printed.number.injEq,
      true_and, and_true] at this
    obtain ⟨h1, h2, h3, h4, h5, h6, h7⟩ := this
    rcases a with ⟨a1, a2, a3, a4, a5, a6, a7⟩
    rcases b with ⟨b1, b2, b3, b4, b5, b6, b7⟩
    dsimp only at *
    rw [BitVec.eq_of_toNat_eq h1, BitVec.eq_of_toNat_eq h2, BitVec.eq_of_toNat_eq h3, BitVec.eq_of_toNat_eq h4, BitVec.eq_of_toNat_eq h5, BitVec.eq_of_toNat_eq h6, BitVec.eq_of_toNat_eq h7]
  · have := Option.some.inj ((hm a).symm.trans ((congrArg readDebug h).trans (hm b)))
    unfold recordOf at this
    simp only [Printed.record.injEq, List.map_cons, List.map_nil, List.cons.injEq, Prod.mk.injEq, Printed.number.injEq,
      true_and, and_true] at this
    obtain ⟨h1, h2, h3, h4, h5, h6⟩ := this
    rcases a with ⟨a1, a2, a3, a4, a5, a6⟩
    rcases b with ⟨b1, b2, b3, b4, b5, b6⟩
    dsimp only at *
    rw [BitVec.eq_of_toNat_eq h1, BitVec.eq_of_toNat_eq h2, BitVec.eq_of_toNat_eq h3, BitVec.eq_of_toNat_eq h4, BitVec.eq_of_toNat_eq h5, BitVec.eq_of_toNat_eq h6]
  · have := Option.some.inj ((C92_hashes.2 a).symm.trans ((congrArg readDebug h).trans (C92_hashes.2 b)))
    have h1 := (Printed.record.inj this).2
    simp only [List.map_cons, List.map_nil, List.cons.injEq, Prod.mk.injEq, true_and, and_true] at h1
    rcases a with ⟨a⟩
    rcases b with ⟨b⟩
    dsimp only at h1
    rw [storage_apart h1]

-- The text of a fat pointer, and of a variant
example : (⟨32, 2054, 0, 4294967295⟩ : FatPointer).debug =
    "FatPointer { offset: 32, memory_page: 2054, start: 0, length: 4294967295 }".toList := by decide +kernel
example : (⟨.log .precompileCall, .regOnly, .full .useStackWithOffset, ⟨false, true⟩⟩ : OpcodeVariant).debug =
    "OpcodeVariant { opcode: Log(PrecompileCall), src0_operand_type: RegOnly, dst0_operand_type: Full(UseStackWithOffset), flags: [false, true] }".toList := by
  decide +kernel
-- The reader refuses other texts.
example : readDebug "FatPointer { offset: 32, memory_page 2054 }".toList = none := by decide +kernel
example : readDebug "[1, 2".toList = none := by decide +kernel
example : readDebug "FatPointer { : 32 }".toList = none ∧ readDebug "]".toList = none := by decide +kernel
example : (debugList ([] : List Text)) = "[]".toList := by decide +kernel

end ZkEvm.Props
