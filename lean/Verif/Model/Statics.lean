import Verif.Model.Decoding
import Verif.Model.SystemParams
import Verif.Model.Lazy
/-! The lazily initialised statics of the crate with their initialisers as programs that dereference other statics
(`src/lib.rs:127-228`, `src/system_params.rs:108-123`), for the concurrent model of `Model/Lazy.lean`. -/
namespace ZkEvm.Lazy

/-- The statics declared in the two `lazy_static!` blocks, `src/lib.rs:127-228` and `src/system_params.rs:108-123` -/
inductive Static where
  | opcodesTable | bitmasks | monotonicMap | canonicalMap | nopVariant | nopBitspread | panicVariant
  | panicBitspread | prototypes | numLogicalOpcodes | numInputVariants | numOutputVariants | opcodesPrices
  | bootloaderAddress | deployerAddress | nonceManagerAddress | knownCodeFactoryAddress | keccak256Address
  | sha256Address | ecrecoverAddress
deriving DecidableEq, Repr

/-- The types of the statics, same lines; `src/lib.rs:127-228` -/
@[reducible] def Static.Val : Static → Type
  | .opcodesTable => List OpcodeVariant
  | .bitmasks => List (BitVec 64)
  | .monotonicMap => List (OpcodeVariant × VariantMonotonicNumber)
  | .canonicalMap => IndexMap
  | .nopVariant | .panicVariant => OpcodeVariant
  | .nopBitspread | .panicBitspread => BitVec 64
  | .prototypes => List DynOpcode
  | .numLogicalOpcodes | .numInputVariants | .numOutputVariants => Nat
  | .opcodesPrices => List Nat
  | _ => List Byte

/-- Computations over the crate's statics; `src/lib.rs:127-228` -/
abbrev Code := Prog Static Static.Val

/-- Dereference a static of the crate; `src/lib.rs:127-228` -/
def deref (c : Static) : Code c.Val := get c
/-- Code without dereferences; `src/lib.rs:127-228` -/
def plain {α : Type} (r : Res α) : Code α := lift r

/-- `opcode_as_integer_bitmask`, `src/definitions/mod.rs:774-825`, dereferencing `NUM_LOGICAL_OPCODES`,
`NUM_INPUT_VARIANTS` and `NUM_OUTPUT_VARIANTS` where the code does -/
def bitmaskCode (v : OpcodeVariant) (version : ISAVersion) : Code (BitVec 64) := do
  let maxVariantBits ← plain (maxNumVariantsForVersion version)
  let maxNumFlags ← plain (maxNumFlagsForVersion version)
  let encoding := 0#64
  let shift : Nat := 0
  let encoding := encoding ||| (← plain (u64OneShl (shift + v.opcode.variantIdx)))
  let numLogical : Nat ← deref .numLogicalOpcodes
  let shift := shift + numLogical
  let encoding := encoding ||| (← plain (u64OneShl (shift + v.opcode.materializeSubvariantIdx)))
  let shift := shift + maxVariantBits
  let encoding ← plain (orBitIf v.flags.f0 encoding (shift + 0))
  let encoding ← plain (orBitIf v.flags.f1 encoding (shift + 1))
  let shift := shift + maxNumFlags
  let encoding := encoding ||| (← plain (u64OneShl (shift + v.src0OperandType.variantIdx)))
  let numInput : Nat ← deref .numInputVariants
  let shift := shift + numInput
  let encoding := encoding ||| (← plain (u64OneShl (shift + v.dst0OperandType.variantIdx)))
  let numOutput : Nat ← deref .numOutputVariants
  let shift := shift + numOutput
  let aligned ← plain (totalDescriptionBitsRoundedForVersion version)
  plain (rassert (decide (shift ≤ aligned)))
  let shift := aligned
  let encoding ← plain (orBitIf v.requiresKernelMode encoding shift)
  let shift := shift + KERNEL_MODE_FLAG_BITS
  let encoding ← plain (orBitIf v.canBeUsedInStaticContext encoding shift)
  let shift := shift + CAN_BE_USED_IN_STATIC_CONTEXT_FLAG_BITS
  let encoding ← plain (orBitIf v.isExplicitPanic encoding shift)
  let shift := shift + EXPLICIT_PANIC_FLAG_BITS
  plain (rassert (decide (shift ≤ 64)))
  pure encoding

/-- The loop of `synthesize_bit_decomposition_table`, `src/definitions/mod.rs:713-717` -/
def bitmasksLoop (version : ISAVersion) : List OpcodeVariant → Code (List (BitVec 64))
  | [] => pure []
  | v :: rest => do
    let m ← bitmaskCode v version
    let ms ← bitmasksLoop version rest
    pure (m :: ms)

/-- The loop of `OPCODE_TO_CANONICAL_INDEX_LOOKUP_MAP`, `src/lib.rs:152-158`: `OPCODES_TABLE[*existing]` dereferences
the table again. -/
def canonicalLoop (result : IndexMap) (idx : Nat) : List OpcodeVariant → Code IndexMap
  | [] => pure result
  | el :: rest =>
    match result.get el with
    | some existing => do
      let table ← deref .opcodesTable
      plain (do rassert ((← index table existing) == INVALID_OPCODE_VARIANT))
      canonicalLoop result (idx + 1) rest
    | none => canonicalLoop ((el, idx) :: result) (idx + 1) rest

/-- The loop of `OPCODE_TO_MONOTONIC_INDEX_NUMBER_MAP`, `src/lib.rs:138-145` -/
def monotonicLoop (result : List (OpcodeVariant × VariantMonotonicNumber)) (idx : Nat) :
    List OpcodeVariant → Code (List (OpcodeVariant × VariantMonotonicNumber))
  | [] => pure result
  | el :: rest =>
    match List.lookup el result with
    | some existing => do
      let table ← deref .opcodesTable
      plain (do rassert ((← index table existing.intoUsize) == INVALID_OPCODE_VARIANT))
      monotonicLoop result (idx + 1) rest
    | none => monotonicLoop ((el, .fromUsize idx) :: result) (idx + 1) rest

/-- `NOP_OPCODE_VARIANT` and `PANIC_OPCODE_VARIANT` once the variant is built, `src/lib.rs:170-172,190-192` -/
def checkedVariant (variant : OpcodeVariant) : Code OpcodeVariant := do
  let map : IndexMap ← deref .canonicalMap
  plain (rassert (map.get variant).isSome)
  pure variant

/-- `NOP_BITSPREAD_U64` and `PANIC_BITSPREAD_U64`, `src/lib.rs:175-180,195-200` -/
def bitspread (variant : Code OpcodeVariant) : Code (BitVec 64) := do
  let map : IndexMap ← deref .canonicalMap
  let i ← plain (map.getOrPanic (← variant))
  let masks : List (BitVec 64) ← deref .bitmasks
  plain (index masks i)

/-- The initialisers, `src/lib.rs:128-227` and `src/system_params.rs:109-122` -/
def initialiser : (c : Static) → Code c.Val
  | .opcodesTable => plain (do
      intoArray (2 ^ OPCODES_TABLE_WIDTH)
        (← synthesizeOpcodeDecodingTables OPCODES_TABLE_WIDTH DEFAULT_ISA_VERSION))
  | .bitmasks => do
      let table : List OpcodeVariant ← deref .opcodesTable
      let ops ← plain allOpcodes
      plain (rassert (ops.length == OPCODE_TYPE_BITS))
      plain (rassert (ImmMemHandlerFlags.numSrcVariants == OPCODE_INPUT_VARIANT_FLAGS))
      plain (rassert (ImmMemHandlerFlags.numDstVariants == OPCODE_OUTPUT_VARIANT_FLAGS))
      let masks ← bitmasksLoop DEFAULT_ISA_VERSION table
      plain (intoArray (2 ^ OPCODES_TABLE_WIDTH) masks)
  | .monotonicMap => do
      let table : List OpcodeVariant ← deref .opcodesTable
      monotonicLoop [] 0 table
  | .canonicalMap => do
      let table : List OpcodeVariant ← deref .opcodesTable
      canonicalLoop [] 0 table
  | .nopVariant => checkedVariant ⟨.nop .mk, .full .useRegOnly, .full .useRegOnly, Flags.none⟩
  | .nopBitspread => bitspread (deref .nopVariant)
  | .panicVariant => checkedVariant ⟨.ret .panic, .regOnly, .regOnly, Flags.none⟩
  | .panicBitspread => bitspread (deref .panicVariant)
  | .prototypes => plain allOpcodes
  | .numLogicalOpcodes => do
      let ops : List DynOpcode ← deref .prototypes
      pure (f := Code) ops.length
  | .numInputVariants => plain (.ok ImmMemHandlerFlags.numSrcVariants)
  | .numOutputVariants => plain (.ok ImmMemHandlerFlags.numDstVariants)
  | .opcodesPrices => do
      let table : List OpcodeVariant ← deref .opcodesTable
      plain (intoArray (2 ^ OPCODES_TABLE_WIDTH) (table.map OpcodeVariant.ergsPrice))
  | .bootloaderAddress => plain (.ok BOOTLOADER_FORMAL_ADDRESS)
  | .deployerAddress => plain (.ok DEPLOYER_SYSTEM_CONTRACT_ADDRESS)
  | .nonceManagerAddress => plain (.ok NONCE_MANAGER_SYSTEM_CONTRACT_ADDRESS)
  | .knownCodeFactoryAddress => plain (.ok KNOWN_CODE_FACTORY_SYSTEM_CONTRACT_ADDRESS)
  | .keccak256Address => plain (.ok KECCAK256_ROUND_FUNCTION_PRECOMPILE_FORMAL_ADDRESS)
  | .sha256Address => plain (.ok SHA256_ROUND_FUNCTION_PRECOMPILE_FORMAL_ADDRESS)
  | .ecrecoverAddress => plain (.ok ECRECOVER_INNER_FUNCTION_PRECOMPILE_FORMAL_ADDRESS)

/-- `parse_preliminary_variant_and_absolute_number` with its dereference of `OPCODES_TABLE`,
`src/decoding/encoding_mode_production.rs:29-38,78-107` -/
def parseProductionCode (rawValue : BitVec 64) : Code (DecodedOpcode 16 × VariantMonotonicNumber) := do
  let variantBits := rawValue &&& Production.VARIANT_MASK
  let table : List OpcodeVariant ← deref .opcodesTable
  let variant ← plain (index table variantBits.toNat)
  let conditionBits := (rawValue &&& Production.CONDITION_MASK) >>> CONDITIONAL_BITS_SHIFT
  let condition ← plain (Condition.materializeVariant conditionBits.toNat)
  let srcByte : Byte := (rawValue >>> SRC_REGS_SHIFT).setWidth 8
  let dstByte : Byte := (rawValue >>> DST_REGS_SHIFT).setWidth 8
  let imm0 : BitVec 16 := (rawValue >>> Production.IMM0_SHIFT).setWidth 16
  let imm1 : BitVec 16 := (rawValue >>> Production.IMM1_SHIFT).setWidth 16
  let (src0RegIdx, src1RegIdx) := splitAsU4 srcByte
  let (dst0RegIdx, dst1RegIdx) := splitAsU4 dstByte
  pure ({ variant, condition, src0RegIdx, src1RegIdx, dst0RegIdx, dst1RegIdx, imm0, imm1 },
    .fromUsize variantBits.toNat)

/-- `encode_as_integer` with its dereference of `OPCODE_TO_CANONICAL_INDEX_LOOKUP_MAP`,
`src/decoding/encoding_mode_production.rs:109-147` -/
def encodeProductionCode (build : Build) (o : DecodedOpcode 16) : Code (BitVec 64) := do
  let encoding := 0#64
  let map : IndexMap ← deref .canonicalMap
  let variantBits ← plain (match map.get o.variant with
    | some variantBits => .ok variantBits
    | none => .error .explicitPanic)
  plain (rassert (decide (trailingZeros (nextPowerOfTwo variantBits) ≤ OPCODES_TABLE_WIDTH)))
  let encoding := encoding ||| BitVec.ofNat 64 variantBits
  let condition := o.condition.variantIndex
  plain (rassert (decide (trailingZeros (nextPowerOfTwo condition) ≤ CONDITIONAL_BITS_WIDTH)))
  let encoding := encoding ||| (BitVec.ofNat 64 condition <<< CONDITIONAL_BITS_SHIFT)
  let srcRegistersByte ← plain (mergeU4 build o.src0RegIdx o.src1RegIdx)
  let encoding := encoding ||| (srcRegistersByte.setWidth 64 <<< SRC_REGS_SHIFT)
  let dstRegistersByte ← plain (mergeU4 build o.dst0RegIdx o.dst1RegIdx)
  let encoding := encoding ||| (dstRegistersByte.setWidth 64 <<< DST_REGS_SHIFT)
  let encoding := encoding ||| (o.imm0.setWidth 64 <<< Production.IMM0_SHIFT)
  let encoding := encoding ||| (o.imm1.setWidth 64 <<< Production.IMM1_SHIFT)
  pure encoding

/-- `nop_encoding` (`src/decoding/encoding_mode_production.rs:45-59`) and `exception_revert_encoding` (61-76), given the
dereference of the variant -/
def constantProductionCode (build : Build) (variant : Code OpcodeVariant) : Code (BitVec 64) := do
  encodeProductionCode build
    { variant := ← variant, condition := .always,
      src0RegIdx := 0, src1RegIdx := 0, dst0RegIdx := 0, dst1RegIdx := 0,
      imm0 := fromU64Clipped 16 0, imm1 := fromU64Clipped 16 0 }

/-- `parse_preliminary_variant_and_absolute_number` with its dereference of `OPCODES_TABLE`,
`src/decoding/encoding_mode_testing.rs:29-39,79-108` -/
def parseTestingCode (rawValue : BitVec 128) : Code (DecodedOpcode 32 × VariantMonotonicNumber) := do
  let word : BitVec 64 := rawValue.setWidth 64
  let variantBits := word &&& Testing.VARIANT_MASK
  let table : List OpcodeVariant ← deref .opcodesTable
  let variant ← plain (index table variantBits.toNat)
  let conditionBits := (word &&& Testing.CONDITION_MASK) >>> CONDITIONAL_BITS_SHIFT
  let condition ← plain (Condition.materializeVariant conditionBits.toNat)
  let srcByte : Byte := (rawValue >>> SRC_REGS_SHIFT).setWidth 8
  let dstByte : Byte := (rawValue >>> DST_REGS_SHIFT).setWidth 8
  let imm0 : BitVec 32 := (rawValue >>> Testing.IMM0_SHIFT).setWidth 32
  let imm1 : BitVec 32 := (rawValue >>> Testing.IMM1_SHIFT).setWidth 32
  let (src0RegIdx, src1RegIdx) := splitAsU4 srcByte
  let (dst0RegIdx, dst1RegIdx) := splitAsU4 dstByte
  pure ({ variant, condition, src0RegIdx, src1RegIdx, dst0RegIdx, dst1RegIdx, imm0, imm1 },
    .fromUsize variantBits.toNat)

/-- `encode_as_integer` with its dereference of `OPCODE_TO_CANONICAL_INDEX_LOOKUP_MAP`,
`src/decoding/encoding_mode_testing.rs:110-148` -/
def encodeTestingCode (build : Build) (o : DecodedOpcode 32) : Code (BitVec 128) := do
  let encoding := 0#128
  let map : IndexMap ← deref .canonicalMap
  let variantBits ← plain (match map.get o.variant with
    | some variantBits => .ok variantBits
    | none => .error .explicitPanic)
  plain (rassert (decide (trailingZeros (nextPowerOfTwo variantBits) ≤ OPCODES_TABLE_WIDTH)))
  let encoding := encoding ||| BitVec.ofNat 128 variantBits
  let condition := o.condition.variantIndex
  plain (rassert (decide (trailingZeros (nextPowerOfTwo condition) ≤ CONDITIONAL_BITS_WIDTH)))
  let encoding := encoding ||| (BitVec.ofNat 128 condition <<< CONDITIONAL_BITS_SHIFT)
  let srcRegistersByte ← plain (mergeU4 build o.src0RegIdx o.src1RegIdx)
  let encoding := encoding ||| (srcRegistersByte.setWidth 128 <<< SRC_REGS_SHIFT)
  let dstRegistersByte ← plain (mergeU4 build o.dst0RegIdx o.dst1RegIdx)
  let encoding := encoding ||| (dstRegistersByte.setWidth 128 <<< DST_REGS_SHIFT)
  let encoding := encoding ||| (o.imm0.setWidth 128 <<< Testing.IMM0_SHIFT)
  let encoding := encoding ||| (o.imm1.setWidth 128 <<< Testing.IMM1_SHIFT)
  pure encoding

/-- `nop_encoding` (`src/decoding/encoding_mode_testing.rs:46-60`) and `exception_revert_encoding` (62-77), given the
dereference of the variant -/
def constantTestingCode (build : Build) (variant : Code OpcodeVariant) : Code (BitVec 128) := do
  encodeTestingCode build
    { variant := ← variant, condition := .always,
      src0RegIdx := 0, src1RegIdx := 0, dst0RegIdx := 0, dst1RegIdx := 0,
      imm0 := fromU64Clipped 32 0, imm1 := fromU64Clipped 32 0 }

end ZkEvm.Lazy
