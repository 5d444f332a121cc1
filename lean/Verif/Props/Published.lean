import Verif.Lemmas.Bitmask
import Verif.Lemmas.Words
import Verif.Lemmas.Coding
import Verif.Lemmas.Prices
import Verif.Spec.Published
import Verif.Model.SystemParams
import Verif.Props.Hash
/-!
# Published positions, modes, flags and usages: C69–C75
-/
namespace ZkEvm.Props
open Spec Tables Bitmask PriceLemmas PriceGenerator

/-! ## C69 -/

/-- C69: the six memory addressing modes: the list of all modes is in index order, the encoding byte is the index, the
counts are those of the list, memory is used by all but registers and immediates, and the modes of a destination are
exactly the first `num_dst_variants`. -/
theorem C69_modes (f : ImmMemHandlerFlags) :
    ImmMemHandlerFlags.allVariants[f.variantIndex]? = some f ∧
    ImmMemHandlerFlags.allVariants.length = ImmMemHandlerFlags.numVariants ∧
    ImmMemHandlerFlags.numSrcVariants = ImmMemHandlerFlags.numVariants ∧
    f.encodingByte.toNat = f.variantIndex ∧ f.variantIndex = modeNumber (.full f) ∧
    f.isMemoryUsed = usesMemory (.full f) ∧
    (f.isAllowedForDst = true ↔ f.variantIndex < ImmMemHandlerFlags.numDstVariants) ∧
    ImmMemHandlerFlags.numDstVariants = ImmMemHandlerFlags.allVariants.countP (·.isAllowedForDst) := by
  cases f <;> decide

/-- C69: the two register-or-immediate modes, whose indices are those of the memory modes of the same name. -/
theorem C69_regOrImm_modes (f : RegOrImmFlags) :
    f ∈ RegOrImmFlags.allVariants ∧ RegOrImmFlags.allVariants.Nodup ∧
    RegOrImmFlags.allVariants.length = RegOrImmFlags.numVariants ∧
    RegOrImmFlags.numSrcVariants = RegOrImmFlags.numVariants ∧
    f.encodingByte.toNat = f.variantIndex ∧ f.variantIndex = modeNumber (.regOrImm f) ∧
    f.isMemoryUsed = usesMemory (.regOrImm f) ∧
    RegOrImmFlags.numDstVariants = RegOrImmFlags.allVariants.countP (·.isAllowedForDst) ∧
    RegOrImmFlags.useRegOnly.variantIndex = ImmMemHandlerFlags.useRegOnly.variantIndex ∧
    RegOrImmFlags.useImm16Only.variantIndex = ImmMemHandlerFlags.useImm16Only.variantIndex := by
  cases f <;> decide

private theorem decoded_modes (v : OpcodeVariant) (n : Nat) (hn : n < 2048) (hv : v = entry n) :
    v.src0OperandType.variantIdx < NUM_INPUT_VARIANTS ∧ v.dst0OperandType.variantIdx < NUM_OUTPUT_VARIANTS ∧
    (∀ f, v.dst0OperandType = .full f → f.isAllowedForDst = true) := by
  have hwf : WellFormed v = true := by
    rw [hv]
    exact (mem_fullTable _).1 (List.mem_of_getElem? (fullTable_get hn))
  have hd : ∀ f, v.dst0OperandType = .full f → f.isAllowedForDst = true := by
    intro f hf
    unfold WellFormed at hwf
    rw [hf] at hwf
    revert hwf
    generalize shape v.opcode = s
    rcases s with ⟨_, d, _⟩
    cases d <;> cases f <;> simp [dstOk, ImmMemHandlerFlags.isAllowedForDst]
  have h1 := mode_fact v.src0OperandType
  have h2 := mode_fact v.dst0OperandType
  refine ⟨?_, ?_, hd⟩
  · rw [h1.1]; exact h1.2
  · rw [h2.1]; exact wf_dst_lt hwf

/-- C69: in every decoded word the source mode is below the number of input variants, the destination mode below the
number of output variants, so that both fit their groups of the bitmask; and the destination mode is allowed. -/
theorem C69_decoded :
    (∀ w : BitVec 64, ∃ o n, Production.parse w = .ok (o, n) ∧
      o.variant.src0OperandType.variantIdx < NUM_INPUT_VARIANTS ∧
      o.variant.dst0OperandType.variantIdx < NUM_OUTPUT_VARIANTS ∧
      (∀ f, o.variant.dst0OperandType = .full f → f.isAllowedForDst = true)) ∧
    (∀ w : BitVec 128, ∃ o n, Testing.parse w = .ok (o, n) ∧
      o.variant.src0OperandType.variantIdx < NUM_INPUT_VARIANTS ∧
      o.variant.dst0OperandType.variantIdx < NUM_OUTPUT_VARIANTS ∧
      (∀ f, o.variant.dst0OperandType = .full f → f.isAllowedForDst = true)) := by
  refine ⟨fun w => ?_, fun w => ?_⟩
  · obtain ⟨o, h, hv, _⟩ := Coding.prod_parse w
    exact ⟨o, _, h, decoded_modes _ _ (Nat.mod_lt _ (by decide)) hv⟩
  · obtain ⟨o, h, hv, _⟩ := Coding.test_parse w
    exact ⟨o, _, h, decoded_modes _ _ (Nat.mod_lt _ (by decide)) hv⟩

/-! ## C70 -/

/-- C70: the flags of a table instruction are exactly the named ones at their published positions: positions are
distinct, setting or clearing a named flag gives another instruction of the table, and a flag without a name is clear. -/
theorem C70_flags (t : List OpcodeVariant) (ht : OPCODES_TABLE = .ok t) (v : OpcodeVariant) (hv : v ∈ t) :
    ((flagPositions v.opcode).map (·.2)).Nodup ∧ ((flagPositions v.opcode).map (·.1)).Nodup ∧
    (∀ p ∈ flagPositions v.opcode, p.2 < 2 ∧ ∀ b, setFlagAt v p.2 b ∈ t ∧ flagAt (setFlagAt v p.2 b).flags p.2 = b) ∧
    (∀ i, i < 2 → (∀ p ∈ flagPositions v.opcode, p.2 ≠ i) → flagAt v.flags i = false ∧ setFlagAt v i true ∉ t) := by
  rw [OPCODES_TABLE_eq] at ht
  cases ht
  rw [mem_fullTable] at hv
  simp only [mem_fullTable]
  have hall := Enum.forall_variant (p := fun v => !WellFormed v ||
    (decide ((flagPositions v.opcode).map (·.2)).Nodup && decide ((flagPositions v.opcode).map (·.1)).Nodup &&
    (flagPositions v.opcode).all (fun p => decide (p.2 < 2) && [true, false].all fun b =>
      WellFormed (setFlagAt v p.2 b) && flagAt (setFlagAt v p.2 b).flags p.2 == b) &&
    [0, 1].all fun i => (flagPositions v.opcode).any (·.2 == i) ||
      (!flagAt v.flags i && !WellFormed (setFlagAt v i true)))) (by decide +kernel) v
  rw [hv] at hall
  simp only [Bool.not_true, Bool.false_or, Bool.and_eq_true, decide_eq_true_eq, List.all_eq_true] at hall
  obtain ⟨⟨⟨h1, h2⟩, h3⟩, h4⟩ := hall
  refine ⟨h1, h2, fun p hp => ⟨(h3 p hp).1, fun b => ?_⟩, fun i hi hn => ?_⟩
  · have := (h3 p hp).2 b (by cases b <;> decide)
    exact ⟨this.1, eq_of_beq this.2⟩
  · have hm : i ∈ [0, 1] := by
      have : i = 0 ∨ i = 1 := by omega
      rcases this with rfl | rfl <;> decide
    have := h4 i hm
    simp only [Bool.or_eq_true, List.any_eq_true, beq_iff_eq, Bool.and_eq_true, Bool.not_eq_true'] at this
    rcases this with ⟨p, hp, he⟩ | h
    · exact absurd he (hn p hp)
    · exact ⟨h.1, by rw [h.2]; decide⟩

/-- C70: a far call in the table has both its flags at different positions. -/
example : setFlagAt ⟨.farCall .normal, .regOnly, .regOnly, ⟨false, true⟩⟩ FAR_CALL_STATIC_FLAG_IDX true ∈
    Tables.fullTable :=
  ((C70_flags Tables.fullTable Tables.OPCODES_TABLE_eq ⟨.farCall .normal, .regOnly, .regOnly, ⟨false, true⟩⟩
    ((Tables.mem_fullTable _).2 (by decide))).2.2.1 (.staticCall, FAR_CALL_STATIC_FLAG_IDX) (by decide)).2 true |>.1

/-- C70: `swap_operands` reports the flag named so (for any variant); the flags appear in the bitmask after the
opcode and sub-variant groups, at their published positions. -/
theorem C70_swap_and_mask (v : OpcodeVariant) :
    (v.swapOperands = true ↔ ∃ i, (FlagName.swapOperands, i) ∈ flagPositions v.opcode ∧ flagAt v.flags i = true) ∧
    ∀ version : ISAVersion, version.num ≤ 1 → ∃ w n, opcodeAsIntegerBitmask v version = .ok w ∧
      maxNumVariantsForVersion version = .ok n ∧ ∀ i, i < 2 → w.getLsbD (OPCODE_TYPE_BITS + n + i) = flagAt v.flags i := by
  constructor
  · have hall := Enum.forall_variant (p := fun v => v.swapOperands ==
      (flagPositions v.opcode).any (fun p => p.1 == .swapOperands && flagAt v.flags p.2)) (by decide +kernel) v
    rw [eq_of_beq hall]
    simp only [List.any_eq_true, Bool.and_eq_true, beq_iff_eq]
    constructor
    · rintro ⟨⟨a, b⟩, h1, h2, h3⟩
      cases h2
      exact ⟨b, h1, h3⟩
    · rintro ⟨i, h1, h2⟩
      exact ⟨_, h1, rfl, h2⟩
  · intro version h
    refine ⟨_, _, bitmask_eq v h, (sizes h).variants, fun i hi => ?_⟩
    have hf := mask_flags v
    have : i = 0 ∨ i = 1 := by omega
    rcases this with rfl | rfl
    · exact hf.1
    · exact hf.2

/-- A far call in a static context (instruction 1059) -/
example : ∃ t, OPCODES_TABLE = .ok t ∧ ∃ v, t[1059]? = some v ∧ v.opcode = .farCall .normal ∧
    flagAt v.flags FAR_CALL_STATIC_FLAG_IDX = true ∧ flagAt v.flags FAR_CALL_SHARD_FLAG_IDX = false :=
  ⟨_, OPCODES_TABLE_eq, _, fullTable_get (by decide), by decide +kernel⟩

/-! ## C71 -/

/-- C71: the auxiliary bits of the bitmask are at the published offsets from the rounded description width, no bit is
set from the published total width on, and for existing instructions none between the description and its rounding. -/
theorem C71_aux_bits (v : OpcodeVariant) (version : ISAVersion) (h : version.num ≤ 1) :
    ∃ w desc base total, opcodeAsIntegerBitmask v version = .ok w ∧
      totalDescriptionBitsForVersion version = .ok desc ∧
      totalDescriptionBitsRoundedForVersion version = .ok base ∧
      totalOpcodeDescriptionAndAuxBitsForVersion version = .ok total ∧
      desc ≤ base ∧ base < desc + 16 ∧ base % 16 = 0 ∧ total = base + TOTAL_AUX_BITS ∧ total ≤ 64 ∧
      w.getLsbD (base + KERNER_MODE_FLAG_IDX) = kernelOnly v.opcode ∧
      w.getLsbD (base + CAN_BE_USED_IN_STATIC_CONTEXT_FLAG_IDX) = !changesState v.opcode ∧
      w.getLsbD (base + EXPLICIT_PANIC_FLAG_IDX) = isInvalid v.opcode ∧
      (∀ i, total ≤ i → w.getLsbD i = false) ∧
      (WellFormed v = true → ∀ i, desc ≤ i → i < base → w.getLsbD i = false) := by
  have hs := sizes h
  refine ⟨maskOf v, 38, 48, 51, bitmask_eq v h, ?_, hs.rounded, ?_, by decide, by decide, by decide, rfl, by decide,
    ?_, ?_, ?_, ?_, ?_⟩
  · unfold totalDescriptionBitsForVersion
    exact bind_eq hs.variants (bind_eq hs.flags rfl)
  · unfold totalOpcodeDescriptionAndAuxBitsForVersion
    exact bind_eq hs.rounded rfl
  · rw [mask_bit v (by decide)]; rfl
  · rw [mask_bit v (by decide)]; rfl
  · rw [mask_bit v (by decide)]; rfl
  · intro i hi
    by_cases h64 : i < 64
    · rw [mask_bit v h64, bitSpec]
      repeat' rw [if_neg (by omega)]
    · exact BitVec.getLsbD_of_ge _ _ (by omega)
  · intro hwf i h1 h2
    have hd := wf_dst_lt hwf
    rw [mask_bit v (by omega), bitSpec]
    rw [if_neg (by omega), if_neg (by omega), if_neg (by omega), if_neg (by omega), if_neg (by omega)]
    split
    · rw [beq_eq_false_iff_ne]; omega
    · repeat' rw [if_neg (by omega)]

example : totalDescriptionBitsForVersion ⟨1⟩ = .ok 38 ∧ totalOpcodeDescriptionAndAuxBitsForVersion ⟨0⟩ = .ok 51 := by
  decide +kernel

/-- C71: the groups of the bitmask of an instruction of the table, by published widths alone: first `OPCODE_TYPE_BITS` for
the opcode, then the sub-variant, the flags, `OPCODE_INPUT_VARIANT_FLAGS` for the source and
`OPCODE_OUTPUT_VARIANT_FLAGS` for the destination; each of the four exclusive groups has exactly its own bit set. The
auxiliary bits follow one another by their published widths. -/
theorem C71_groups (t : List OpcodeVariant) (ht : OPCODES_TABLE = .ok t) (v : OpcodeVariant) (hv : v ∈ t)
    (version : ISAVersion) (h : version.num ≤ 1) :
    ∃ w n f, opcodeAsIntegerBitmask v version = .ok w ∧
      maxNumVariantsForVersion version = .ok n ∧ maxNumFlagsForVersion version = .ok f ∧
      totalDescriptionBitsForVersion version =
        .ok (OPCODE_TYPE_BITS + n + f + OPCODE_INPUT_VARIANT_FLAGS + OPCODE_OUTPUT_VARIANT_FLAGS) ∧
      (familyNumber v.opcode < OPCODE_TYPE_BITS ∧
        ∀ i, i < OPCODE_TYPE_BITS → (w.getLsbD i = true ↔ i = familyNumber v.opcode)) ∧
      (subNumber v.opcode < n ∧
        ∀ i, i < n → (w.getLsbD (OPCODE_TYPE_BITS + i) = true ↔ i = subNumber v.opcode)) ∧
      (∀ i, i < f → w.getLsbD (OPCODE_TYPE_BITS + n + i) = flagAt v.flags i) ∧
      (modeNumber v.src0OperandType < OPCODE_INPUT_VARIANT_FLAGS ∧
        ∀ i, i < OPCODE_INPUT_VARIANT_FLAGS →
          (w.getLsbD (OPCODE_TYPE_BITS + n + f + i) = true ↔ i = modeNumber v.src0OperandType)) ∧
      (modeNumber v.dst0OperandType < OPCODE_OUTPUT_VARIANT_FLAGS ∧
        ∀ i, i < OPCODE_OUTPUT_VARIANT_FLAGS →
          (w.getLsbD (OPCODE_TYPE_BITS + n + f + OPCODE_INPUT_VARIANT_FLAGS + i) = true ↔
            i = modeNumber v.dst0OperandType)) ∧
      KERNER_MODE_FLAG_IDX = 0 ∧
      CAN_BE_USED_IN_STATIC_CONTEXT_FLAG_IDX = KERNER_MODE_FLAG_IDX + KERNEL_MODE_FLAG_BITS ∧
      EXPLICIT_PANIC_FLAG_IDX = CAN_BE_USED_IN_STATIC_CONTEXT_FLAG_IDX + CAN_BE_USED_IN_STATIC_CONTEXT_FLAG_BITS ∧
      TOTAL_AUX_BITS = EXPLICIT_PANIC_FLAG_IDX + EXPLICIT_PANIC_FLAG_BITS ∧ EXPLICIT_PANIC_FLAG_BITS = 1 := by
  have hs := sizes h
  rw [OPCODES_TABLE_eq] at ht
  cases ht
  have hwf : WellFormed v = true := (mem_fullTable v).1 hv
  obtain ⟨-, -, -, -, hfam, hsub⟩ := facts v.opcode
  have hsrc := (mode_fact v.src0OperandType).2
  have hdst := wf_dst_lt hwf
  have hf := mask_flags v
  refine ⟨maskOf v, 10, 2, bitmask_eq v h, hs.variants, hs.flags, ?_, ⟨hfam, fun i hi => ?_⟩, ⟨hsub, fun i hi => ?_⟩,
    fun i hi => ?_, ⟨hsrc, fun i hi => ?_⟩, ⟨hdst, fun i hi => ?_⟩, rfl, rfl, rfl, rfl, rfl⟩
  · unfold totalDescriptionBitsForVersion
    exact bind_eq hs.variants (bind_eq hs.flags rfl)
  · have hi : i < 16 := hi
    rw [mask_bit v (by omega), bitSpec, if_pos hi, beq_iff_eq]
  · show (maskOf v).getLsbD (16 + i) = true ↔ _
    rw [mask_bit v (by omega), bitSpec, if_neg (by omega), if_pos (by omega), beq_iff_eq]
    omega
  · have : i = 0 ∨ i = 1 := by omega
    rcases this with rfl | rfl
    · exact hf.1
    · exact hf.2
  · have hi : i < 6 := hi
    show (maskOf v).getLsbD (28 + i) = true ↔ _
    rw [mask_bit v (by omega), bitSpec, if_neg (by omega), if_neg (by omega), if_neg (by omega), if_neg (by omega),
      if_pos (by omega), beq_iff_eq]
    omega
  · have hi : i < 4 := hi
    show (maskOf v).getLsbD (34 + i) = true ↔ _
    rw [mask_bit v (by omega), bitSpec, if_neg (by omega), if_neg (by omega), if_neg (by omega), if_neg (by omega),
      if_neg (by omega), if_pos (by omega), beq_iff_eq]
    omega

/-- C71: a store through the stack with both source and destination in memory. -/
example : (⟨.add .add, .full .useStackWithPushPop, .full .useStackWithOffset, ⟨true, false⟩⟩ : OpcodeVariant) ∈
    Tables.fullTable := (Tables.mem_fullTable _).2 (by decide)

/-- C71: no group is wider than needed: every bit of every exclusive group is set for some instruction of the table. -/
theorem C71_groups_used (t : List OpcodeVariant) (ht : OPCODES_TABLE = .ok t) (version : ISAVersion)
    (h : version.num ≤ 1) : ∃ n, maxNumVariantsForVersion version = .ok n ∧
    (∀ i, i < OPCODE_TYPE_BITS → ∃ v ∈ t, familyNumber v.opcode = i) ∧
    (∀ i, i < n → ∃ v ∈ t, subNumber v.opcode = i) ∧
    (∀ i, i < OPCODE_INPUT_VARIANT_FLAGS → ∃ v ∈ t, modeNumber v.src0OperandType = i) ∧
    (∀ i, i < OPCODE_OUTPUT_VARIANT_FLAGS → ∃ v ∈ t, modeNumber v.dst0OperandType = i) := by
  rw [OPCODES_TABLE_eq] at ht
  cases ht
  refine ⟨10, (sizes h).variants, ?_⟩
  have wit : ∀ (f : OpcodeVariant → Nat) (k : Nat), (∀ i, i < k → ∃ n, n < 2048 ∧ f (entry n) = i) →
      ∀ i, i < k → ∃ v ∈ fullTable, f v = i := by
    intro f k hk i hi
    obtain ⟨n, hn, he⟩ := hk i hi
    exact ⟨entry n, List.mem_of_getElem? (fullTable_get hn), he⟩
  have all : ∀ (f : OpcodeVariant → Nat) (l : List Nat), l.all (fun n => n < 2048) = true →
      ∀ i, i < (l.map fun n => f (entry n)).length → (l.map fun n => f (entry n)) = List.range l.length →
        ∃ n, n < 2048 ∧ f (entry n) = i := by
    intro f l hl i hi hr
    rw [List.length_map] at hi
    refine ⟨l[i], by simpa using List.all_eq_true.1 hl l[i] (List.getElem_mem hi), ?_⟩
    have h1 : (l.map fun n => f (entry n))[i]? = some (f (entry l[i])) := by
      rw [List.getElem?_map, List.getElem?_eq_getElem hi]; rfl
    rw [hr, List.getElem?_range hi] at h1
    exact (Option.some.inj h1).symm
  refine ⟨wit (fun v => familyNumber v.opcode) _ fun i hi => all (fun v => familyNumber v.opcode)
      [0, 1, 25, 73, 169, 217, 313, 1040, 463, 319, 847, 1039, 1050, 1057, 1069, 1075]
      (by decide) i hi (by decide +kernel),
    wit (fun v => subNumber v.opcode) _ fun i hi => all (fun v => subNumber v.opcode) [0, 367, 415, 751, 1044, 1045, 1046, 1047, 1048, 1049]
      (by decide) i hi (by decide +kernel),
    wit (fun v => modeNumber v.src0OperandType) _ fun i hi => all (fun v => modeNumber v.src0OperandType) [0, 5, 9, 13, 17, 21]
      (by decide) i hi (by decide +kernel),
    wit (fun v => modeNumber v.dst0OperandType) _ fun i hi => all (fun v => modeNumber v.dst0OperandType) [0, 2, 3, 4]
      (by decide) i hi (by decide +kernel)⟩

/-- C71: some instruction sets the tenth bit of the group of subvariants. -/
example : ∃ t v, OPCODES_TABLE = .ok t ∧ v ∈ t ∧ subNumber v.opcode = 9 := by
  obtain ⟨n, hn, _, h, _⟩ := C71_groups_used _ OPCODES_TABLE_eq ⟨1⟩ (by decide)
  rw [(sizes (version := ⟨1⟩) (by decide)).variants] at hn
  cases hn
  obtain ⟨v, hv, he⟩ := h 9 (by decide)
  exact ⟨_, v, OPCODES_TABLE_eq, hv, he⟩

/-- C71: where the fields of a word are, in published constants: the opcode number in the low `OPCODES_TABLE_WIDTH`
bits, then a gap, the condition up to `VARIANT_AND_CONDITION_ENCODING_BITS`, then the registers. Both modes. -/
theorem C71_word_layout :
    OPCODES_TABLE_WIDTH ≤ CONDITIONAL_BITS_SHIFT ∧
    CONDITIONAL_BITS_SHIFT + CONDITIONAL_BITS_WIDTH = VARIANT_AND_CONDITION_ENCODING_BITS ∧
    VARIANT_AND_CONDITION_ENCODING_BITS = SRC_REGS_SHIFT ∧
    SRC_REGS_SHIFT + 2 * REGISTER_INDEX_ENCODING_BITS = DST_REGS_SHIFT ∧
    (∀ w : BitVec 64, ∃ o n, Production.parse w = .ok (o, n) ∧ n.intoUsize = bits w 0 OPCODES_TABLE_WIDTH ∧
      o.condition.variantIndex = bits w CONDITIONAL_BITS_SHIFT CONDITIONAL_BITS_WIDTH ∧
      o.src0RegIdx.toNat = bits w SRC_REGS_SHIFT REGISTER_INDEX_ENCODING_BITS ∧
      o.src1RegIdx.toNat = bits w (SRC_REGS_SHIFT + REGISTER_INDEX_ENCODING_BITS) REGISTER_INDEX_ENCODING_BITS ∧
      o.dst0RegIdx.toNat = bits w DST_REGS_SHIFT REGISTER_INDEX_ENCODING_BITS ∧
      o.dst1RegIdx.toNat = bits w (DST_REGS_SHIFT + REGISTER_INDEX_ENCODING_BITS) REGISTER_INDEX_ENCODING_BITS) ∧
    (∀ w : BitVec 128, ∃ o n, Testing.parse w = .ok (o, n) ∧ n.intoUsize = bits w 0 OPCODES_TABLE_WIDTH ∧
      o.condition.variantIndex = bits w CONDITIONAL_BITS_SHIFT CONDITIONAL_BITS_WIDTH ∧
      o.src0RegIdx.toNat = bits w SRC_REGS_SHIFT REGISTER_INDEX_ENCODING_BITS ∧
      o.src1RegIdx.toNat = bits w (SRC_REGS_SHIFT + REGISTER_INDEX_ENCODING_BITS) REGISTER_INDEX_ENCODING_BITS ∧
      o.dst0RegIdx.toNat = bits w DST_REGS_SHIFT REGISTER_INDEX_ENCODING_BITS ∧
      o.dst1RegIdx.toNat = bits w (DST_REGS_SHIFT + REGISTER_INDEX_ENCODING_BITS) REGISTER_INDEX_ENCODING_BITS) := by
  refine ⟨by decide, by decide, by decide, by decide, fun w => ?_, fun w => ?_⟩
  · obtain ⟨o, h, _, h1, h2, h3, h4, h5, _⟩ := Coding.prod_parse w
    refine ⟨o, _, h, ?_, h1, h2, h3, h4, h5⟩
    show w.toNat % 2 ^ 11 = w.toNat / 2 ^ 0 % 2 ^ 11
    rw [Nat.pow_zero, Nat.div_one]
  · obtain ⟨o, h, _, h1, h2, h3, h4, h5, _⟩ := Coding.test_parse w
    refine ⟨o, _, h, ?_, h1, h2, h3, h4, h5⟩
    show w.toNat % 2 ^ 11 = w.toNat / 2 ^ 0 % 2 ^ 11
    rw [Nat.pow_zero, Nat.div_one]

/-! ## C72 -/

/-- C72: the versions compatible with a version are the supported ones up to it, in increasing order. -/
theorem C72_compatible (v u : ISAVersion) :
    (u ∈ v.allBackwardCompatibleVersions ↔ u.num < NUM_ISA_VERSIONS ∧ u.num ≤ v.num) ∧
    v.allBackwardCompatibleVersions.Pairwise (fun a b => a.num < b.num) ∧
    (v ∈ v.allBackwardCompatibleVersions ↔ v.num < NUM_ISA_VERSIONS) := by
  have hm : ∀ u v : ISAVersion, u ∈ v.allBackwardCompatibleVersions ↔ u.num < NUM_ISA_VERSIONS ∧ u.num ≤ v.num := by
    intro u v
    rcases u with ⟨n⟩
    unfold ISAVersion.allBackwardCompatibleVersions allIsaVersions ISAVersion.le NUM_ISA_VERSIONS
    rw [List.mem_filter]
    simp only [List.mem_cons, ISAVersion.mk.injEq, List.not_mem_nil, or_false, decide_eq_true_eq]
    omega
  refine ⟨hm u v, ?_, by rw [hm]; omega⟩
  unfold ISAVersion.allBackwardCompatibleVersions
  exact List.Pairwise.sublist List.filter_sublist (by decide)

example : (⟨0⟩ : ISAVersion) ∈ (⟨7⟩ : ISAVersion).allBackwardCompatibleVersions ∧
    (⟨7⟩ : ISAVersion) ∉ (⟨7⟩ : ISAVersion).allBackwardCompatibleVersions := by decide

/-- C72: for any list of variants, of the table or not, the bit decomposition table has the bitmask of the `i`-th
variant at position `i` in versions 0 and 1; in later versions it exists only for the empty list. -/
theorem C72_decomposition (l : List OpcodeVariant) (version : ISAVersion) :
    (version.num ≤ 1 → ∃ masks, synthesizeBitDecompositionTable l version = .ok masks ∧ masks.length = l.length ∧
      ∀ (i : Nat) v, l[i]? = some v → ∃ m, masks[i]? = some m ∧ opcodeAsIntegerBitmask v version = .ok m) ∧
    (2 ≤ version.num → (Panics (synthesizeBitDecompositionTable l version) ↔ l ≠ [])) := by
  have hu : synthesizeBitDecompositionTable l version
      = collect (fun opcode => do .ok [← opcodeAsIntegerBitmask opcode version]) l := rfl
  rw [hu]
  constructor
  · intro h
    refine ⟨l.map maskOf, ?_, List.length_map _, fun i v hv => ⟨maskOf v, ?_, bitmask_eq v h⟩⟩
    · clear hu
      induction l with
      | nil => rfl
      | cons a l ih =>
        unfold collect
        rw [bitmask_eq a h, ih]
        rfl
    · rw [List.getElem?_map, hv]; rfl
  · intro h
    cases l with
    | nil => exact iff_of_false (fun ⟨e, he⟩ => (nomatch he)) (fun h => h rfl)
    | cons a l =>
      refine iff_of_true ⟨.unimplemented, ?_⟩ (by simp)
      have : maxNumVariantsForVersion version = .error .unimplemented := by
        rcases version with ⟨_ | _ | n⟩
        · simp at h
        · simp at h
        · rfl
      unfold collect opcodeAsIntegerBitmask
      rw [this]
      rfl

/-! ## C73 -/

/-- C73: there is one prototype per logical opcode: the prototypes' indices are the numbers below `NUM_OPCODES`, each
once; the trait objects listed by `all_opcodes` are those of the prototypes, position by position, and have pairwise
different names. -/
theorem C73_prototypes :
    (∀ k, k < NUM_OPCODES → ∃ o ∈ allOpcodePrototypes, o.variantIdx = k) ∧
    (allOpcodePrototypes.map Opcode.variantIdx).Nodup ∧ allOpcodePrototypes.length = NUM_OPCODES ∧
    (∀ o : Opcode, ∃ p ∈ allOpcodePrototypes, p.variantIdx = o.variantIdx) ∧
    (∃ ops, allOpcodes = .ok ops ∧ OPCODE_PROTOTYPES = .ok ops ∧ ops.length = NUM_OPCODES ∧
      (ops.map (·.name)).Nodup ∧
      ∀ (i : Nat) d p, ops[i]? = some d → allOpcodePrototypes[i]? = some p →
        d.requiresKernelMode = p.requiresKernelMode ∧ d.canBeUsedInStaticContext = p.canBeUsedInStaticContext ∧
        (∀ version, d.inputOperands version = p.inputOperands version ∧
          d.outputOperands version = p.outputOperands version ∧
          d.canHaveSrc0FromMem version = p.canHaveSrc0FromMem version ∧
          d.canWriteDst0IntoMemory version = p.canWriteDst0IntoMemory version) ∧
        (∀ version, version.num ≤ 1 → ∃ data, d.variantsData version = .ok data ∧
          data.map (·.variantIdx) = List.range (familySize p))) := by
  refine ⟨by decide, by decide, by decide, ?_, allOpcodesList, rfl, rfl, rfl, by decide, ?_⟩
  · intro o
    have hall := Enum.forall_opcode (p := fun o => allOpcodePrototypes.any (fun p => p.variantIdx == o.variantIdx))
      (by decide +kernel) o
    simpa using hall
  · intro i d p hd hp
    have hi : i < 16 := by
      obtain ⟨h, _⟩ := List.getElem?_eq_some_iff.1 hp
      exact h
    have h01 : ∀ version : ISAVersion, version.num ≤ 1 → version = ⟨0⟩ ∨ version = ⟨1⟩ := by
      rintro ⟨n⟩ h
      have h : n ≤ 1 := h
      have : n = 0 ∨ n = 1 := by omega
      rcases this with rfl | rfl
      · exact .inl rfl
      · exact .inr rfl
    have hc : i = 0 ∨ i = 1 ∨ i = 2 ∨ i = 3 ∨ i = 4 ∨ i = 5 ∨ i = 6 ∨ i = 7 ∨ i = 8 ∨ i = 9 ∨ i = 10 ∨ i = 11 ∨
      i = 12 ∨ i = 13 ∨ i = 14 ∨ i = 15 := by omega
    rcases hc with rfl | rfl | rfl | rfl | rfl | rfl | rfl | rfl | rfl | rfl | rfl | rfl | rfl | rfl | rfl | rfl <;>
    · cases hd
      cases hp
      refine ⟨rfl, rfl, fun _ => ⟨rfl, rfl, rfl, rfl⟩, fun version h => ?_⟩
      rcases h01 version h with rfl | rfl <;> exact ⟨_, rfl, rfl⟩

/-- C73 (finding): the position of a prototype is not its opcode index: binary operations are at position 7 with index
9, pointers at 9 with 10, near calls at 10 with 11, context at 11 with 7. So `OPCODE_PROTOTYPES` cannot be indexed
by `variant_idx`. -/
theorem C73_position_not_index :
    ∃ p q r s : Opcode, allOpcodePrototypes[7]? = some p ∧ p.variantIdx = 9 ∧ allOpcodePrototypes[9]? = some q ∧
      q.variantIdx = 10 ∧ allOpcodePrototypes[10]? = some r ∧ r.variantIdx = 11 ∧ allOpcodePrototypes[11]? = some s ∧
      s.variantIdx = 7 :=
  ⟨_, _, _, _, rfl, rfl, rfl, rfl, rfl, rfl, rfl, rfl⟩

/-! ## C74 -/

theorem usage_paid (o : Opcode) : (usage o).cycles * VM_CYCLE_COST_IN_ERGS + (usage o).ram * RAM_PERMUTATION_COST_IN_ERGS
    + (usage o).logs * LOG_DEMUXER_COST_IN_ERGS + (usage o).storage * STORAGE_SORTER_COST_IN_ERGS
    + (usage o).events * EVENTS_OR_L1_MESSAGES_SORTER_COST_IN_ERGS
    + (usage o).code * CODE_DECOMMITMENT_SORTER_COST_IN_ERGS ≤ priceOf o := by
  have := Enum.forall_opcode (p := fun o => decide ((usage o).cycles * VM_CYCLE_COST_IN_ERGS
    + (usage o).ram * RAM_PERMUTATION_COST_IN_ERGS
    + (usage o).logs * LOG_DEMUXER_COST_IN_ERGS + (usage o).storage * STORAGE_SORTER_COST_IN_ERGS
    + (usage o).events * EVENTS_OR_L1_MESSAGES_SORTER_COST_IN_ERGS
    + (usage o).code * CODE_DECOMMITMENT_SORTER_COST_IN_ERGS ≤ priceOf o)) (by decide +kernel) o
  exact of_decide_eq_true this

/-- C74: what an execution uses of the six kinds of circuits is covered by the ergs it spends: unit by unit at the unit
prices, and so the circuits it fills are at most `spent / ERGS_PER_CIRCUIT`, all kinds together. -/
theorem C74_usage_paid (m : Mode) (prices : List Nat) (hp : OPCODES_PRICES = .ok prices) (e e' : Nat) (ws : List (BitVec m.bits))
    (h : Executes prices e ws e') :
    (ws.map fun w => (usageOf m w).cycles).sum * VM_CYCLE_COST_IN_ERGS
      + (ws.map fun w => (usageOf m w).ram).sum * RAM_PERMUTATION_COST_IN_ERGS
      + (ws.map fun w => (usageOf m w).logs).sum * LOG_DEMUXER_COST_IN_ERGS
      + (ws.map fun w => (usageOf m w).storage).sum * STORAGE_SORTER_COST_IN_ERGS
      + (ws.map fun w => (usageOf m w).events).sum * EVENTS_OR_L1_MESSAGES_SORTER_COST_IN_ERGS
      + (ws.map fun w => (usageOf m w).code).sum * CODE_DECOMMITMENT_SORTER_COST_IN_ERGS ≤ e - e' ∧
    filledCircuits m ws * ERGS_PER_CIRCUIT ≤ e - e' := by
  have hs := executes_sum hp h
  have hsum : (ws.map fun w => (usageOf m w).cycles).sum * VM_CYCLE_COST_IN_ERGS
      + (ws.map fun w => (usageOf m w).ram).sum * RAM_PERMUTATION_COST_IN_ERGS
      + (ws.map fun w => (usageOf m w).logs).sum * LOG_DEMUXER_COST_IN_ERGS
      + (ws.map fun w => (usageOf m w).storage).sum * STORAGE_SORTER_COST_IN_ERGS
      + (ws.map fun w => (usageOf m w).events).sum * EVENTS_OR_L1_MESSAGES_SORTER_COST_IN_ERGS
      + (ws.map fun w => (usageOf m w).code).sum * CODE_DECOMMITMENT_SORTER_COST_IN_ERGS ≤ (ws.map wordPrice).sum := by
    clear h hs
    induction ws with
    | nil => simp only [List.map_nil, List.sum_nil]; decide
    | cons w ws ih =>
      simp only [List.map_cons, List.sum_cons]
      have hu : usageOf m w = usage (entry (w.toNat % 2048)).opcode := by unfold usageOf; rw [opcodeOf_eq]; rfl
      have hw := usage_paid (entry (w.toNat % 2048)).opcode
      rw [← hu] at hw
      have hpr : wordPrice w = priceOf (entry (w.toNat % 2048)).opcode := rfl
      rw [← hpr] at hw
      simp only [Nat.add_mul]
      omega
  refine ⟨by omega, ?_⟩
  have hE : ERGS_PER_CIRCUIT = 80000 := rfl
  unfold filledCircuits
  have hfit : ∀ c p u : Nat, 80000 ≤ c * p → u / c * 80000 ≤ u * p := by
    intro c p u hcp
    calc u / c * 80000 ≤ u / c * (c * p) := Nat.mul_le_mul_left _ hcp
      _ = u / c * c * p := by rw [Nat.mul_assoc]
      _ ≤ u * p := Nat.mul_le_mul_right _ (Nat.div_mul_le_self u c)
  have h1 := hfit CYCLES_PER_VM_SNAPSHOT VM_CYCLE_COST_IN_ERGS (ws.map fun w => (usageOf m w).cycles).sum (by decide)
  have h2 := hfit CYCLES_PER_RAM_PERMUTATION RAM_PERMUTATION_COST_IN_ERGS (ws.map fun w => (usageOf m w).ram).sum (by decide)
  have h3 := hfit CYCLES_FOR_LOG_DEMUXER LOG_DEMUXER_COST_IN_ERGS (ws.map fun w => (usageOf m w).logs).sum (by decide)
  have h4 := hfit CYCLES_FOR_STORAGE_SORTER STORAGE_SORTER_COST_IN_ERGS (ws.map fun w => (usageOf m w).storage).sum (by decide)
  have h5 := hfit CYCLES_FOR_EVENTS_OR_L1_MESSAGES_SORTER EVENTS_OR_L1_MESSAGES_SORTER_COST_IN_ERGS
    (ws.map fun w => (usageOf m w).events).sum (by decide)
  have h6 := hfit CYCLES_FOR_CODE_DECOMMITTER_SORTER CODE_DECOMMITMENT_SORTER_COST_IN_ERGS
    (ws.map fun w => (usageOf m w).code).sum (by decide)
  rw [hE]
  simp only [Nat.add_mul]
  refine Nat.le_trans (Nat.add_le_add (Nat.add_le_add (Nat.add_le_add (Nat.add_le_add (Nat.add_le_add h1 h2) h3) h4)
    h5) h6) (Nat.le_trans hsum ?_)
  rw [← hs, Nat.add_sub_cancel]
  exact Nat.le_refl _

/-- `n` reads of `this` (instruction 1040) cost `5 n` ergs and use `n` cycles: 23000 of them fill a VM circuit. -/
example : (∃ prices, OPCODES_PRICES = .ok prices ∧
      ∀ n, Executes prices (n * 5 + 0) (List.replicate n 1040#64) 0) ∧
    (∀ n, filledCircuits .production (List.replicate n 1040#64) = n / CYCLES_PER_VM_SNAPSHOT + n / CYCLES_PER_RAM_PERMUTATION) ∧
    0 < 23000 / CYCLES_PER_VM_SNAPSHOT := by
  refine ⟨⟨_, prices_eq, fun n => ?_⟩, fun n => ?_, by decide⟩
  · have h := executes_replicate (w := 1040#64) (prices_get prices_eq (n := 1040) (by decide)) n 0
    rw [show priceOf (entry 1040).opcode = 5 by decide +kernel] at h
    exact h
  · have hu : usageOf .production 1040#64 = ⟨1, 1, 0, 0, 0, 0⟩ := by
      unfold usageOf; rw [opcodeOf_eq .production]
      decide +kernel
    unfold filledCircuits
    simp only [List.map_replicate, hu, List.sum_replicate_nat, Nat.mul_one, Nat.mul_zero, Nat.zero_div, Nat.add_zero]

/-- C74: the price of every instruction is exactly what it uses of the circuits plus the published price for its access
to the state or callstack, or the published minimum if that is more; the prices of average and richly addressed
instructions are those of one cycle with one and with two RAM accesses; a minimum is only ever reached by writes,
messages and the invalid opcode, where it is above the parts. -/
theorem C74_breakdown (v : OpcodeVariant) :
    v.ergsPrice = max (circuitErgs (usage v.opcode) + stateErgs v.opcode) (leastErgs v.opcode) ∧
    AVERAGE_OPCODE_ERGS = circuitErgs ⟨1, 1, 0, 0, 0, 0⟩ ∧ RICH_ADDRESSING_OPCODE_ERGS = circuitErgs ⟨1, 2, 0, 0, 0, 0⟩ ∧
    (circuitErgs (usage v.opcode) + stateErgs v.opcode < leastErgs v.opcode ↔
      v.opcode = .log .storageWrite ∨ v.opcode = .log .toL1Message ∨ isInvalid v.opcode = true) := by
  refine ⟨?_, rfl, rfl, ?_⟩
  · show v.opcode.ergsPrice = _
    have := Enum.forall_opcode (p := fun o => o.ergsPrice ==
      max (circuitErgs (usage o) + stateErgs o) (leastErgs o)) (by decide +kernel) v.opcode
    exact eq_of_beq this
  · have := Enum.forall_opcode (p := fun o => decide (circuitErgs (usage o) + stateErgs o < leastErgs o ↔
      o = .log .storageWrite ∨ o = .log .toL1Message ∨ isInvalid o = true)) (by decide +kernel) v.opcode
    exact of_decide_eq_true this

/-- C74: a far call of any kind: two cycles, one RAM access, the sorters, a storage read and a callstack entry. -/
example : (⟨.farCall .mimic, .regOnly, .regOnly, ⟨true, false⟩⟩ : OpcodeVariant).ergsPrice = 182 ∧
    circuitErgs (usage (.farCall .mimic)) = 12 ∧ stateErgs (.farCall .mimic) = 170 := by decide

/-- C74: in every execution, access to the state and callstack is paid in addition to the circuits. -/
theorem C74_state_paid (m : Mode) (prices : List Nat) (hp : OPCODES_PRICES = .ok prices) (e e' : Nat)
    (ws : List (BitVec m.bits)) (h : Executes prices e ws e') :
    (ws.map fun w => circuitErgs (usageOf m w)).sum
      + ws.countP (fun w => opcodeOf m w = some (.log .storageRead)) * STORAGE_READ_IO_PRICE
      + ws.countP (fun w => opcodeOf m w = some (.log .storageWrite)) * STORAGE_WRITE_IO_PRICE
      + ws.countP (fun w => opcodeOf m w = some (.log .event)) * EVENT_IO_PRICE
      + ws.countP (fun w => opcodeOf m w = some (.log .toL1Message)) * L1_MESSAGE_IO_PRICE
      + ws.countP (fun w => opcodeOf m w = some (.nearCall .mk)) * CALL_LIKE_ERGS_COST
      + ws.countP (fun w => opcodeOf m w ∈ [some (.farCall .normal), some (.farCall .delegate), some (.farCall .mimic)])
        * (STORAGE_READ_IO_PRICE + CALL_LIKE_ERGS_COST)
      ≤ e - e' := by
  have hs := executes_sum hp h
  have hsum : (ws.map fun w => circuitErgs (usageOf m w)).sum
      + ws.countP (fun w => opcodeOf m w = some (.log .storageRead)) * STORAGE_READ_IO_PRICE
      + ws.countP (fun w => opcodeOf m w = some (.log .storageWrite)) * STORAGE_WRITE_IO_PRICE
      + ws.countP (fun w => opcodeOf m w = some (.log .event)) * EVENT_IO_PRICE
      + ws.countP (fun w => opcodeOf m w = some (.log .toL1Message)) * L1_MESSAGE_IO_PRICE
      + ws.countP (fun w => opcodeOf m w = some (.nearCall .mk)) * CALL_LIKE_ERGS_COST
      + ws.countP (fun w => opcodeOf m w ∈ [some (.farCall .normal), some (.farCall .delegate), some (.farCall .mimic)])
        * (STORAGE_READ_IO_PRICE + CALL_LIKE_ERGS_COST)
      ≤ (ws.map wordPrice).sum := by
    clear h hs
    induction ws with
    | nil => simp only [List.map_nil, List.sum_nil, List.countP_nil, Nat.zero_mul, Nat.add_zero, Nat.le_refl]
    | cons w ws ih =>
      simp only [List.map_cons, List.sum_cons, List.countP_cons, decide_eq_true_eq]
      have hu : usageOf m w = usage (entry (w.toNat % 2048)).opcode := by unfold usageOf; rw [opcodeOf_eq]; rfl
      have hpr : wordPrice w = priceOf (entry (w.toNat % 2048)).opcode := rfl
      rw [hu, hpr, opcodeOf_eq m w]
      generalize (entry (w.toNat % 2048)).opcode = o
      have hw : circuitErgs (usage o) + stateErgs o ≤ priceOf o := by
        rw [← price_eq o]
        have := (C74_breakdown ⟨o, .regOnly, .regOnly, ⟨false, false⟩⟩).1
        have : o.ergsPrice = _ := this
        rw [this]
        exact Nat.le_max_left _ _
      simp only [Nat.add_mul]
      have hst : (if some o = some (.log .storageRead) then 1 else 0) * STORAGE_READ_IO_PRICE
          + (if some o = some (.log .storageWrite) then 1 else 0) * STORAGE_WRITE_IO_PRICE
          + (if some o = some (.log .event) then 1 else 0) * EVENT_IO_PRICE
          + (if some o = some (.log .toL1Message) then 1 else 0) * L1_MESSAGE_IO_PRICE
          + (if some o = some (.nearCall .mk) then 1 else 0) * CALL_LIKE_ERGS_COST
          + (if some o ∈ [some (.farCall .normal), some (.farCall .delegate), some (.farCall .mimic)] then 1 else 0)
            * (STORAGE_READ_IO_PRICE + CALL_LIKE_ERGS_COST)
          = stateErgs o := by
        rcases o with x | x | x | x | x | x | x | x | x | x | x | x | x | x | x | x <;> cases x <;>
          simp [stateErgs]
      omega
  omega

/-- C74: `n` storage reads (instruction 1050) cost `158 n` ergs: 8 for circuits and 150 for the state each. -/
example : ∃ prices, OPCODES_PRICES = .ok prices ∧
    (∀ n, Executes prices (n * 158 + 0) (List.replicate n 1050#64) 0) ∧
    opcodeOf .production 1050#64 = some (.log .storageRead) ∧
    circuitErgs (usage (.log .storageRead)) + STORAGE_READ_IO_PRICE = 158 := by
  refine ⟨_, prices_eq, fun n => ?_, ?_, by decide⟩
  · have h := executes_replicate (w := 1050#64) (prices_get prices_eq (n := 1050) (by decide)) n 0
    rw [show priceOf (entry 1050).opcode = 158 by decide +kernel] at h
    exact h
  · rw [opcodeOf_eq .production]
    decide +kernel

/-! ## C75 -/

/-- C75: the price of decommitting any bytecode that production hashing accepts fits 32 bits; the overhead that the
message-value simulator sets aside covers it exactly up to 16000 words. -/
theorem C75_decommitment (sha256 : Digest) (words : List (Vector Byte 32)) (b : Vector Byte 32)
    (h : bytecodeToCodeHash sha256 words = .ok b) :
    words.length * ERGS_PER_CODE_WORD_DECOMMITTMENT < 2 ^ 32 ∧
    (words.length * ERGS_PER_CODE_WORD_DECOMMITTMENT ≤ DECOMMITMENT_MSG_VALUE_SIMULATOR_OVERHEAD ↔
      words.length ≤ 16000) := by
  have hl := (C55_production_ok sha256 words).1 ⟨b, h⟩
  have h1 : ERGS_PER_CODE_WORD_DECOMMITTMENT = 4 := rfl
  have h2 : DECOMMITMENT_MSG_VALUE_SIMULATOR_OVERHEAD = 64000 := rfl
  rw [h1, h2]
  omega

/-- C75: 16001 words are the first that cost more than the simulator's overhead. -/
example (sha256 : Digest) : ∃ b, bytecodeToCodeHash sha256 (List.replicate 16001 (Vector.replicate 32 7)) = .ok b ∧
    ¬ 16001 * ERGS_PER_CODE_WORD_DECOMMITTMENT ≤ DECOMMITMENT_MSG_VALUE_SIMULATOR_OVERHEAD := by
  have hl : (List.replicate 16001 (Vector.replicate 32 (7 : Byte))).length = 16001 := List.length_replicate
  obtain ⟨b, hb⟩ := (C55_production_ok sha256 (List.replicate 16001 (Vector.replicate 32 7))).2 (by rw [hl]; omega)
  have h := (C75_decommitment sha256 _ b hb).2
  rw [hl] at h
  exact ⟨b, hb, fun h' => absurd (h.1 h') (by omega)⟩

/-- C75 (finding): the overhead does not cover every bytecode whose instructions can all be addressed by the 16-bit
program counter (four instructions per word). -/
theorem C75_overhead_short (sha256 : Digest) : ∃ (words : List (Vector Byte 32)) (b : Vector Byte 32),
    bytecodeToCodeHash sha256 words = .ok b ∧ words.length * 4 ≤ 2 ^ 16 ∧
    DECOMMITMENT_MSG_VALUE_SIMULATOR_OVERHEAD < words.length * ERGS_PER_CODE_WORD_DECOMMITTMENT := by
  have hlen : ∀ n, (List.replicate n (Vector.replicate 32 (0 : Byte))).length = n := fun n => List.length_replicate
  have hn : ∃ n, n = 16383 := ⟨_, rfl⟩
  obtain ⟨n, hn⟩ := hn
  obtain ⟨b, hb⟩ := (C55_production_ok sha256 (List.replicate n (Vector.replicate 32 (0 : Byte)))).2
    (by rw [hlen]; omega)
  refine ⟨_, b, hb, ?_⟩
  rw [hlen, show ERGS_PER_CODE_WORD_DECOMMITTMENT = 4 from rfl,
    show DECOMMITMENT_MSG_VALUE_SIMULATOR_OVERHEAD = 64000 from rfl]
  omega

end ZkEvm.Props
