import Verif.Spec.Facts
import Verif.Lemmas.Tables
import Verif.Lemmas.LookupMap
/-! Closed form of the integer bitmask. -/
namespace ZkEvm.Bitmask
open Spec

theorem bind_eq {α β : Type} {r : Res α} {a : α} {f : α → Res β} {x : Res β} (h : r = .ok a)
    (hf : f a = x) : (r >>= f) = x := by subst h; exact hf

/-- A version for which the sizes are defined -/
structure Sizes (version : ISAVersion) : Prop where
  variants : maxNumVariantsForVersion version = .ok 10
  flags : maxNumFlagsForVersion version = .ok 2
  rounded : totalDescriptionBitsRoundedForVersion version = .ok 48

theorem sizes {version : ISAVersion} (h : version.num ≤ 1) : Sizes version := by
  rcases version with ⟨n⟩
  have : n = 0 ∨ n = 1 := by simp only at h; omega
  rcases this with rfl | rfl
  · exact ⟨by decide +kernel, by decide +kernel, by decide +kernel⟩
  · exact ⟨by decide +kernel, by decide +kernel, by decide +kernel⟩

theorem logical : NUM_LOGICAL_OPCODES = .ok 16 := by decide +kernel

/-- The facts of the model agree with the independent tables -/
theorem facts (o : Opcode) : o.variantIdx = familyNumber o ∧ o.materializeSubvariantIdx = subNumber o ∧
    o.requiresKernelMode = kernelOnly o ∧ o.canBeUsedInStaticContext = !changesState o ∧
    familyNumber o < 16 ∧ subNumber o < 10 := by
  have := Enum.forall_opcode (p := fun o => decide (o.variantIdx = familyNumber o ∧
    o.materializeSubvariantIdx = subNumber o ∧
    o.requiresKernelMode = kernelOnly o ∧ o.canBeUsedInStaticContext = !changesState o ∧
    familyNumber o < 16 ∧ subNumber o < 10)) (by decide +kernel) o
  simpa only [decide_eq_true_eq] using this

theorem mode_fact (o : Operand) : o.variantIdx = modeNumber o ∧ modeNumber o < 6 := by
  rcases o with _ | f | f
  · decide
  · cases f <;> decide
  · cases f <;> decide

/-- A single bit, or nothing -/
def bitIf (b : Bool) (k : Nat) : BitVec 64 := if b then 1#64 <<< k else 0#64

def maskOf (v : OpcodeVariant) : BitVec 64 :=
  1#64 <<< familyNumber v.opcode ||| 1#64 <<< (16 + subNumber v.opcode) ||| bitIf v.flags.f0 26
    ||| bitIf v.flags.f1 27 ||| 1#64 <<< (28 + modeNumber v.src0OperandType)
    ||| 1#64 <<< (34 + modeNumber v.dst0OperandType) ||| bitIf (kernelOnly v.opcode) 48
    ||| bitIf (!changesState v.opcode) 49 ||| bitIf (isInvalid v.opcode) 50

theorem shl_ok {n : Nat} (h : n < 64) : u64OneShl n = .ok (1#64 <<< n) := if_pos h

theorem step_if {b : Bool} {e : BitVec 64} {k : Nat} (h : k < 64) :
    orBitIf b e k = .ok (e ||| bitIf b k) := by
  cases b
  · simp [orBitIf, bitIf]
  · unfold orBitIf; rw [if_pos rfl, shl_ok h]; rfl

theorem isExplicitPanic_eq (v : OpcodeVariant) : v.isExplicitPanic = isInvalid v.opcode := by
  rcases v with ⟨o, s, d, f⟩
  cases o <;> rfl

theorem bitmask_eq (v : OpcodeVariant) {version : ISAVersion} (h : version.num ≤ 1) :
    opcodeAsIntegerBitmask v version = .ok (maskOf v) := by
  have hs := sizes h
  obtain ⟨h1, h2, h3, h4, h5, h6⟩ := facts v.opcode
  obtain ⟨m1, m2⟩ := mode_fact v.src0OperandType
  obtain ⟨d1, d2⟩ := mode_fact v.dst0OperandType
  unfold opcodeAsIntegerBitmask
  refine bind_eq hs.variants (bind_eq hs.flags ?_)
  rw [h1, h2, m1, d1, show v.requiresKernelMode = kernelOnly v.opcode from h3,
    show v.canBeUsedInStaticContext = !changesState v.opcode from h4, isExplicitPanic_eq]
  refine bind_eq (shl_ok (by omega)) ?_
  refine bind_eq logical ?_
  refine bind_eq (shl_ok (by omega)) ?_
  refine bind_eq (step_if (by decide)) ?_
  refine bind_eq (step_if (by decide)) ?_
  refine bind_eq (shl_ok (by omega)) ?_
  simp only [NUM_INPUT_VARIANTS, ImmMemHandlerFlags.numSrcVariants, ImmMemHandlerFlags.numVariantsConst]
  refine bind_eq (shl_ok (by omega)) ?_
  refine bind_eq hs.rounded ?_
  refine bind_eq (a := ()) (by rfl) ?_
  refine bind_eq (step_if (by decide)) ?_
  refine bind_eq (step_if (by decide)) ?_
  refine bind_eq (step_if (by decide)) ?_
  refine bind_eq (a := ()) (by rfl) ?_
  unfold maskOf
  simp only [BitVec.zero_or, Nat.zero_add, KERNEL_MODE_FLAG_BITS, CAN_BE_USED_IN_STATIC_CONTEXT_FLAG_BITS]

theorem getLsbD_bit {i k : Nat} (hi : i < 64) : (1#64 <<< k).getLsbD i = (i == k) := by
  rw [BitVec.getLsbD_shiftLeft, BitVec.getLsbD_one, Bool.eq_iff_iff]
  simp
  omega

theorem getLsbD_bitIf {b : Bool} {i k : Nat} (hi : i < 64) :
    (bitIf b k).getLsbD i = (b && i == k) := by
  cases b
  · simp [bitIf]
  · simp [bitIf, getLsbD_bit hi]

theorem mask_bit (v : OpcodeVariant) {i : Nat} (hi : i < 64) : (maskOf v).getLsbD i = bitSpec v i := by
  obtain ⟨-, -, -, -, h5, h6⟩ := facts v.opcode
  obtain ⟨-, m2⟩ := mode_fact v.src0OperandType
  obtain ⟨-, d2⟩ := mode_fact v.dst0OperandType
  unfold maskOf
  simp only [BitVec.getLsbD_or, getLsbD_bit hi, getLsbD_bitIf hi]
  unfold bitSpec
  generalize kernelOnly v.opcode = kb
  generalize changesState v.opcode = sb
  generalize isInvalid v.opcode = ib
  generalize v.flags.f0 = f0
  generalize v.flags.f1 = f1
  generalize familyNumber v.opcode = a at *
  generalize subNumber v.opcode = b at *
  generalize modeNumber v.src0OperandType = c at *
  generalize modeNumber v.dst0OperandType = d at *
  have ne : ∀ k, i ≠ k → (i == k) = false := fun k h => beq_eq_false_iff_ne.2 h
  have shift : ∀ k x, k ≤ i → (i - k == x) = (i == k + x) := by
    intro k x hk
    rw [Bool.eq_iff_iff, beq_iff_eq, beq_iff_eq]
    omega
  have e1 : 16 ≤ i → (i == a) = false := fun h => ne _ (by omega)
  have e2 : i < 16 ∨ 26 ≤ i → (i == 16 + b) = false := fun h => ne _ (by omega)
  have e5 : i < 28 ∨ 34 ≤ i → (i == 28 + c) = false := fun h => ne _ (by omega)
  have e6 : i < 34 ∨ 40 ≤ i → (i == 34 + d) = false := fun h => ne _ (by omega)
  by_cases c1 : i < 16
  · rw [if_pos c1, e2 (.inl c1), e5 (by omega), e6 (by omega), ne 26 (by omega), ne 27 (by omega),
      ne 48 (by omega), ne 49 (by omega), ne 50 (by omega)]
    simp
  rw [if_neg c1, e1 (by omega)]
  by_cases c2 : i < 26
  · rw [if_pos c2, e5 (by omega), e6 (by omega), ne 26 (by omega), ne 27 (by omega),
      ne 48 (by omega), ne 49 (by omega), ne 50 (by omega), shift 16 b (by omega)]
    simp
  rw [if_neg c2, e2 (by omega)]
  by_cases c3 : i = 26
  · subst c3; rw [if_pos rfl, e5 (by omega), e6 (by omega)]; simp
  rw [if_neg c3, ne 26 c3]
  by_cases c4 : i = 27
  · subst c4; rw [if_pos rfl, e5 (by omega), e6 (by omega)]; simp
  rw [if_neg c4, ne 27 c4]
  by_cases c5 : i < 34
  · rw [if_pos c5, e6 (by omega), ne 48 (by omega), ne 49 (by omega), ne 50 (by omega), shift 28 c (by omega)]
    simp
  rw [if_neg c5, e5 (by omega)]
  by_cases c6 : i < 40
  · rw [if_pos c6, ne 48 (by omega), ne 49 (by omega), ne 50 (by omega), shift 34 d (by omega)]
    simp
  rw [if_neg c6, e6 (by omega)]
  by_cases c7 : i = 48
  · subst c7; simp
  by_cases c8 : i = 49
  · subst c8; simp
  by_cases c9 : i = 50
  · subst c9; simp
  rw [if_neg c7, if_neg c8, if_neg c9, ne 48 c7, ne 49 c8, ne 50 c9]
  simp

theorem bitSpec_congr {a b : OpcodeVariant} (h : SameProps a b) : bitSpec a = bitSpec b := by
  obtain ⟨h1, h2, h3, h4⟩ := h
  funext i
  unfold bitSpec
  rw [h1, h2, h3, h4]

theorem eq_of_bits {a b : BitVec 64} (h : ∀ i, i < 64 → a.getLsbD i = b.getLsbD i) : a = b :=
  BitVec.eq_of_getLsbD_eq h

theorem opcode_of_numbers (a b : Opcode) (h1 : familyNumber a = familyNumber b)
    (h2 : subNumber a = subNumber b) : a = b := by
  have := Enum.forall_opcode (p := fun a => Enum.opcodes.all fun b =>
    !(decide (familyNumber a = familyNumber b) && decide (subNumber a = subNumber b)) || decide (a = b))
    (by decide +kernel) a
  have := List.all_eq_true.1 this b (Enum.mem_opcodes b)
  simpa [h1, h2] using this

theorem mask_onehot (v : OpcodeVariant) :
    OneHot (maskOf v) 0 16 (familyNumber v.opcode) ∧ OneHot (maskOf v) 16 26 (subNumber v.opcode) ∧
    OneHot (maskOf v) 28 34 (modeNumber v.src0OperandType) ∧
    OneHot (maskOf v) 34 40 (modeNumber v.dst0OperandType) := by
  obtain ⟨-, -, -, -, h5, h6⟩ := facts v.opcode
  obtain ⟨-, m2⟩ := mode_fact v.src0OperandType
  obtain ⟨-, d2⟩ := mode_fact v.dst0OperandType
  refine ⟨⟨by omega, fun i h1 h2 => ?_⟩, ⟨by omega, fun i h1 h2 => ?_⟩, ⟨by omega, fun i h1 h2 => ?_⟩,
    ⟨by omega, fun i h1 h2 => ?_⟩⟩
  · rw [mask_bit v (by omega), bitSpec, if_pos h2, beq_iff_eq]; omega
  · rw [mask_bit v (by omega), bitSpec, if_neg (by omega), if_pos h2, beq_iff_eq]; omega
  · rw [mask_bit v (by omega), bitSpec, if_neg (by omega), if_neg (by omega), if_neg (by omega),
      if_neg (by omega), if_pos h2, beq_iff_eq]; omega
  · rw [mask_bit v (by omega), bitSpec, if_neg (by omega), if_neg (by omega), if_neg (by omega),
      if_neg (by omega), if_neg (by omega), if_pos h2, beq_iff_eq]; omega

theorem onehot_unique {w : BitVec 64} {lo hi k l : Nat} (h1 : OneHot w lo hi k) (h2 : OneHot w lo hi l) :
    k = l := by
  have := (h2.2 (lo + k) (by omega) h1.1).1 ((h1.2 (lo + k) (by omega) h1.1).2 rfl)
  omega

theorem mask_flags (v : OpcodeVariant) : (maskOf v).getLsbD 26 = v.flags.f0 ∧
    (maskOf v).getLsbD 27 = v.flags.f1 := by
  constructor <;> (rw [mask_bit v (by decide)]; rfl)

theorem mask_eq_iff (a b : OpcodeVariant) : maskOf a = maskOf b ↔ SameProps a b := by
  constructor
  · intro h
    obtain ⟨a1, a2, a3, a4⟩ := mask_onehot a
    obtain ⟨b1, b2, b3, b4⟩ := mask_onehot b
    obtain ⟨a5, a6⟩ := mask_flags a
    obtain ⟨b5, b6⟩ := mask_flags b
    rw [h] at a1 a2 a3 a4 a5 a6
    refine ⟨opcode_of_numbers _ _ (onehot_unique a1 b1) (onehot_unique a2 b2), ?_, onehot_unique a3 b3,
      onehot_unique a4 b4⟩
    have e0 : a.flags.f0 = b.flags.f0 := a5.symm.trans b5
    have e1 : a.flags.f1 = b.flags.f1 := a6.symm.trans b6
    cases ha : a.flags; cases hb : b.flags
    rw [ha, hb] at e0 e1
    simp only at e0 e1
    rw [e0, e1]
  · intro h
    apply eq_of_bits
    intro i hi
    rw [mask_bit a hi, mask_bit b hi, bitSpec_congr h]

theorem src_of_mode (k : SrcKind) (a b : Operand) (ha : srcOk k a = true) (hb : srcOk k b = true)
    (h : modeNumber a = modeNumber b) : a = b := by
  cases k <;> (rcases a with _ | a | a) <;> (rcases b with _ | b | b) <;>
    first
      | rfl
      | (exfalso; revert ha; decide)
      | (exfalso; revert hb; decide)
      | (exfalso; cases ha; done)
      | (exfalso; cases hb; done)
      | (cases a <;> cases b <;> first | rfl | (exfalso; revert h; decide))

theorem dst_of_mode (k : DstKind) (a b : Operand) (ha : dstOk k a = true) (hb : dstOk k b = true)
    (h : modeNumber a = modeNumber b) : a = b ∧ modeNumber a < 4 := by
  have hall : ([DstKind.register, .memory].all fun k => Enum.operands.all fun a => Enum.operands.all fun b =>
    !(dstOk k a && dstOk k b && decide (modeNumber a = modeNumber b)) ||
      decide (a = b ∧ modeNumber a < 4)) = true := by decide +kernel
  have hk : k ∈ [DstKind.register, .memory] := by cases k <;> simp
  have := List.all_eq_true.1 (List.all_eq_true.1 (List.all_eq_true.1 hall k hk) a (Enum.mem_operands a)) b
    (Enum.mem_operands b)
  simpa [ha, hb, h] using this

theorem wf_eq_of_same {a b : OpcodeVariant} (ha : WellFormed a = true) (hb : WellFormed b = true)
    (h : SameProps a b) : a = b := by
  rcases a with ⟨ao, as, ad, af⟩
  rcases b with ⟨bo, bs, bd, bf⟩
  obtain ⟨h1, h2, h3, h4⟩ := h
  dsimp only at h1 h2 h3 h4
  subst h1 h2
  simp only [WellFormed, Bool.and_eq_true] at ha hb
  rw [src_of_mode _ _ _ ha.1.1 hb.1.1 h3, (dst_of_mode _ _ _ ha.1.2 hb.1.2 h4).1]

theorem wf_dst_lt {a : OpcodeVariant} (ha : WellFormed a = true) : modeNumber a.dst0OperandType < 4 := by
  simp only [WellFormed, Bool.and_eq_true] at ha
  exact (dst_of_mode _ _ _ ha.1.2 ha.1.2 rfl).2

/-! ## The table of bitmasks -/

theorem collect_map {α β : Type} (f : α → Res β) (g : α → β) (l : List α) (h : ∀ a, f a = .ok (g a)) :
    collect (fun a => do .ok [← f a]) l = .ok (l.map g) := by
  induction l with
  | nil => rfl
  | cons a as ih =>
    unfold collect
    rw [ih, h]
    rfl

theorem decomposition_eq (l : List OpcodeVariant) {version : ISAVersion} (h : version.num ≤ 1) :
    synthesizeBitDecompositionTable l version = .ok (l.map maskOf) := by
  unfold synthesizeBitDecompositionTable
  refine bind_eq Tables.allOpcodes_ok ?_
  refine bind_eq (a := ()) (by decide +kernel) ?_
  refine bind_eq (a := ()) (by decide +kernel) ?_
  refine bind_eq (a := ()) (by decide +kernel) ?_
  exact collect_map _ maskOf l fun v => bitmask_eq v h

theorem masks_of {t : List OpcodeVariant} (ht : OPCODES_TABLE = .ok t) (hl : t.length = 2048) :
    OPCODES_PROPS_INTEGER_BITMASKS = .ok (t.map maskOf) := by
  unfold OPCODES_PROPS_INTEGER_BITMASKS
  refine bind_eq ht (bind_eq (decomposition_eq t (by decide)) ?_)
  unfold intoArray
  rw [List.length_map, hl, if_pos (by decide)]

theorem masks_eq : OPCODES_PROPS_INTEGER_BITMASKS = .ok (Tables.fullTable.map maskOf) :=
  masks_of Tables.OPCODES_TABLE_eq Tables.length_fullTable

theorem nop_variant : NOP_OPCODE_VARIANT =
    .ok ⟨.nop .mk, .full .useRegOnly, .full .useRegOnly, Flags.none⟩ := by
  obtain ⟨m, h1, h2⟩ := LookupMap.canonical_get
  unfold NOP_OPCODE_VARIANT
  rw [h1]
  simp only [bind, Except.bind, h2]
  rfl

theorem panic_variant : PANIC_OPCODE_VARIANT = .ok ⟨.ret .panic, .regOnly, .regOnly, Flags.none⟩ := by
  obtain ⟨m, h1, h2⟩ := LookupMap.canonical_get
  unfold PANIC_OPCODE_VARIANT
  rw [h1]
  simp only [bind, Except.bind, h2]
  rfl

/-- Indexing the bitmask table by the canonical index of a well-formed variant -/
theorem spread_eq {c : Res OpcodeVariant} {v : OpcodeVariant} (hc : c = .ok v) (hv : WellFormed v = true) :
    (do let i ← (← OPCODE_TO_CANONICAL_INDEX_LOOKUP_MAP).getOrPanic (← c)
        index (← OPCODES_PROPS_INTEGER_BITMASKS) i) = .ok (maskOf v) := by
  obtain ⟨m, h1, h2⟩ := LookupMap.canonical_get
  obtain ⟨n1, n2⟩ := Numbering.entry_number v hv
  refine bind_eq h1 (bind_eq hc (bind_eq (a := Numbering.number v) ?_ (bind_eq masks_eq ?_)))
  · unfold IndexMap.getOrPanic
    rw [h2, if_pos hv]
  · unfold index
    rw [List.getElem?_map, Tables.fullTable_get (Nat.lt_trans n1 (by decide)), n2]
    rfl

end ZkEvm.Bitmask
