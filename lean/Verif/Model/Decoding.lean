import Verif.Model.Lib
import Verif.Model.Condition
import Verif.Model.Utils
/-! Model of `src/opcode.rs`, `src/decoding/mod.rs`, `src/decoding/encoding_mode_production.rs` and
`src/decoding/encoding_mode_testing.rs`. The two encoding modes are modelled separately, as they are two
separate implementations of the trait in the code. -/
namespace ZkEvm

/-- `CONDITIONAL_BITS_SHIFT`, `src/lib.rs:44` -/
def CONDITIONAL_BITS_SHIFT : Nat := 13
/-- `SRC_REGS_SHIFT`, `src/lib.rs:55` -/
def SRC_REGS_SHIFT : Nat := 16
/-- `DST_REGS_SHIFT`, `src/lib.rs:56` -/
def DST_REGS_SHIFT : Nat := 24

/-- `DecodedOpcode`, `src/opcode.rs:9-19`. `P` is `E::PcOrImm`. -/
structure DecodedOpcodeOf (P : Type) where
  variant : OpcodeVariant
  condition : Condition
  src0RegIdx : Byte
  src1RegIdx : Byte
  dst0RegIdx : Byte
  dst1RegIdx : Byte
  imm0 : P
  imm1 : P
deriving DecidableEq, Repr

/-- `DecodedOpcode`, `src/opcode.rs:9-19`, in the modes of the crate. `w` is the width of `E::PcOrImm`: 16 in production
mode (`u16`), 32 in testing mode (`u32`). -/
abbrev DecodedOpcode (w : Nat) := DecodedOpcodeOf (BitVec w)

namespace DecodedOpcodeOf
variable {P : Type}

/-- `mask_into_panic`, `src/opcode.rs:37-51` -/
def maskIntoPanic (o : DecodedOpcodeOf P) : DecodedOpcodeOf P :=
  { o with
    variant :=
      { opcode := .ret .panic, src0OperandType := .regOnly, dst0OperandType := .regOnly,
        flags := Flags.none }
    condition := .always
    src0RegIdx := 0
    src1RegIdx := 0
    dst0RegIdx := 0
    dst1RegIdx := 0 }

/-- `mask_into_nop`, `src/opcode.rs:53-65` -/
def maskIntoNop (o : DecodedOpcodeOf P) : DecodedOpcodeOf P :=
  { o with
    variant :=
      { opcode := .nop .mk, src0OperandType := .full .useRegOnly,
        dst0OperandType := .full .useRegOnly, flags := Flags.none }
    condition := .always
    src0RegIdx := 0
    src1RegIdx := 0
    dst0RegIdx := 0
    dst1RegIdx := 0 }

/-- `Default for DecodedOpcode`, `src/opcode.rs:21-34`; `zero` is the default of `E::PcOrImm` -/
def default (zero : P) : DecodedOpcodeOf P where
  variant := OpcodeVariant.default
  condition := .always
  src0RegIdx := 0
  src1RegIdx := 0
  dst0RegIdx := 0
  dst1RegIdx := 0
  imm0 := zero
  imm1 := zero

end DecodedOpcodeOf

/-- `Default for DecodedOpcode`, `src/opcode.rs:21-34`, in the modes of the crate: the default of `u16` and `u32` is 0 -/
abbrev DecodedOpcode.default (w : Nat) : DecodedOpcode w := DecodedOpcodeOf.default 0

/-! `AllowedPcOrImm` for `u16` and `u32` -/

/-- `from_u64_clipped`, `src/decoding/mod.rs:55-57` (u16) and 77-79 (u32) -/
def fromU64Clipped (w : Nat) (value : BitVec 64) : BitVec w := value.setWidth w
/-- `as_u64`, `src/decoding/mod.rs:59-61` (u16) and 81-83 (u32) -/
def asU64 {w : Nat} (x : BitVec w) : BitVec 64 := x.setWidth 64
/-- `wrapping_add`, `src/decoding/mod.rs:63-65` (u16) and 85-87 (u32) -/
def wrappingAdd {w : Nat} (x y : BitVec w) : BitVec w := x + y
/-- `wrapping_sub`, `src/decoding/mod.rs:67-69` (u16) and 89-91 (u32) -/
def wrappingSub {w : Nat} (x y : BitVec w) : BitVec w := x - y
/-- `max`, `src/decoding/mod.rs:71-73` (u16) and 93-95 (u32) -/
def pcOrImmMax (w : Nat) : BitVec w := BitVec.allOnes w

namespace Production

/-- `IMM0_SHIFT`, `src/decoding/encoding_mode_production.rs:19` -/
def IMM0_SHIFT : Nat := 32
/-- `IMM1_SHIFT`, `src/decoding/encoding_mode_production.rs:20` -/
def IMM1_SHIFT : Nat := 48
/-- `VARIANT_AND_CONDITION_BITS`, `src/decoding/encoding_mode_production.rs:21` -/
def VARIANT_AND_CONDITION_BITS : Nat := 16
/-- `VARIANT_MASK`, `src/decoding/encoding_mode_production.rs:22` -/
def VARIANT_MASK : BitVec 64 := (1#64 <<< OPCODES_TABLE_WIDTH) - 1#64
/-- `CONDITION_MASK`, `src/decoding/encoding_mode_production.rs:23` -/
def CONDITION_MASK : BitVec 64 := ((1#64 <<< CONDITIONAL_BITS_WIDTH) - 1#64) <<< CONDITIONAL_BITS_SHIFT
/-- `UNUSED_GAP_RAW_MASK`, `src/decoding/encoding_mode_production.rs:24-26` -/
def UNUSED_GAP_RAW_MASK : BitVec 64 :=
  (1#64 <<< (VARIANT_AND_CONDITION_BITS - OPCODES_TABLE_WIDTH - CONDITIONAL_BITS_WIDTH)) - 1#64
/-- `UNUSED_BITS_MASK`, `src/decoding/encoding_mode_production.rs:27` -/
def UNUSED_BITS_MASK : BitVec 64 := UNUSED_GAP_RAW_MASK <<< OPCODES_TABLE_WIDTH

/-- `variant_and_condition_from_u64_word`, `src/decoding/encoding_mode_production.rs:29-38` -/
def variantAndConditionFromU64Word (rawValue : BitVec 64) : Res (OpcodeVariant × Condition × Nat) := do
  let variantBits := rawValue &&& VARIANT_MASK
  let opcodeVariant ← index (← OPCODES_TABLE) variantBits.toNat
  let conditionBits := (rawValue &&& CONDITION_MASK) >>> CONDITIONAL_BITS_SHIFT
  let condition ← Condition.materializeVariant conditionBits.toNat
  .ok (opcodeVariant, condition, variantBits.toNat)

/-- `parse_preliminary_variant_and_absolute_number`,
`src/decoding/encoding_mode_production.rs:78-107` -/
def parse (rawValue : BitVec 64) : Res (DecodedOpcode 16 × VariantMonotonicNumber) := do
  let (variant, condition, variantBits) ← variantAndConditionFromU64Word rawValue
  let srcByte : Byte := (rawValue >>> SRC_REGS_SHIFT).setWidth 8
  let dstByte : Byte := (rawValue >>> DST_REGS_SHIFT).setWidth 8
  let imm0 : BitVec 16 := (rawValue >>> IMM0_SHIFT).setWidth 16
  let imm1 : BitVec 16 := (rawValue >>> IMM1_SHIFT).setWidth 16
  let (src0RegIdx, src1RegIdx) := splitAsU4 srcByte
  let (dst0RegIdx, dst1RegIdx) := splitAsU4 dstByte
  .ok ({ variant, condition, src0RegIdx, src1RegIdx, dst0RegIdx, dst1RegIdx, imm0, imm1 },
    .fromUsize variantBits)

/-- `encode_as_integer`, `src/decoding/encoding_mode_production.rs:109-147`; also
`DecodedOpcode::serialize_as_integer`, `src/opcode.rs:67-69`. -/
def encodeAsInteger (build : Build) (o : DecodedOpcode 16) : Res (BitVec 64) := do
  let encoding := 0#64
  let variantBits ← match (← OPCODE_TO_CANONICAL_INDEX_LOOKUP_MAP).get o.variant with
    | some variantBits => .ok variantBits
    | none => .error .explicitPanic
  rassert (decide (trailingZeros (nextPowerOfTwo variantBits) ≤ OPCODES_TABLE_WIDTH))
  let encoding := encoding ||| BitVec.ofNat 64 variantBits
  let condition := o.condition.variantIndex
  rassert (decide (trailingZeros (nextPowerOfTwo condition) ≤ CONDITIONAL_BITS_WIDTH))
  let encoding := encoding ||| (BitVec.ofNat 64 condition <<< CONDITIONAL_BITS_SHIFT)
  let srcRegistersByte ← mergeU4 build o.src0RegIdx o.src1RegIdx
  let encoding := encoding ||| (srcRegistersByte.setWidth 64 <<< SRC_REGS_SHIFT)
  let dstRegistersByte ← mergeU4 build o.dst0RegIdx o.dst1RegIdx
  let encoding := encoding ||| (dstRegistersByte.setWidth 64 <<< DST_REGS_SHIFT)
  let encoding := encoding ||| (o.imm0.setWidth 64 <<< IMM0_SHIFT)
  let encoding := encoding ||| (o.imm1.setWidth 64 <<< IMM1_SHIFT)
  .ok encoding

/-- `encode_as_bytes`, `src/decoding/encoding_mode_production.rs:149-151` with
`src/decoding/mod.rs:37-41`; also `DecodedOpcode::serialize_as_bytes`, `src/opcode.rs:71-73`. -/
def encodeAsBytes (build : Build) (o : DecodedOpcode 16) : Res (List Byte) := do
  .ok (toBeBytes 8 (← encodeAsInteger build o))

/-- `nop_encoding`, `src/decoding/encoding_mode_production.rs:45-59` -/
def nopEncoding (build : Build) : Res (BitVec 64) := do
  encodeAsInteger build
    { variant := ← NOP_OPCODE_VARIANT, condition := .always,
      src0RegIdx := 0, src1RegIdx := 0, dst0RegIdx := 0, dst1RegIdx := 0,
      imm0 := fromU64Clipped 16 0, imm1 := fromU64Clipped 16 0 }

/-- `exception_revert_encoding`, `src/decoding/encoding_mode_production.rs:61-76` -/
def exceptionRevertEncoding (build : Build) : Res (BitVec 64) := do
  encodeAsInteger build
    { variant := ← PANIC_OPCODE_VARIANT, condition := .always,
      src0RegIdx := 0, src1RegIdx := 0, dst0RegIdx := 0, dst1RegIdx := 0,
      imm0 := fromU64Clipped 16 0, imm1 := fromU64Clipped 16 0 }

/-- `split_pc`, `src/decoding/encoding_mode_production.rs:153-155` -/
def splitPc (pc : BitVec 16) : BitVec 16 × BitVec 16 := (pc >>> 2, pc &&& 0b11#16)

/-- `integer_representaiton_from_u256`, `src/decoding/encoding_mode_production.rs:157-168` -/
def integerRepresentationFromU256 (value : U256) (index : BitVec 16) : Res (BitVec 64) :=
  if index = 0#16 then .ok value.l3
  else if index = 1#16 then .ok value.l2
  else if index = 2#16 then .ok value.l1
  else if index = 3#16 then .ok value.l0
  else .error .unreachable

/-- `is_canonical_encoding`, `src/decoding/encoding_mode_production.rs:170-174` -/
def isCanonicalEncoding (value : BitVec 64) : Bool := (value &&& UNUSED_BITS_MASK) == 0#64

end Production

namespace Testing

/-- `IMM0_SHIFT`, `src/decoding/encoding_mode_testing.rs:19` -/
def IMM0_SHIFT : Nat := 32
/-- `IMM1_SHIFT`, `src/decoding/encoding_mode_testing.rs:20` -/
def IMM1_SHIFT : Nat := 64
/-- `VARIANT_AND_CONDITION_BITS`, `src/decoding/encoding_mode_testing.rs:21` -/
def VARIANT_AND_CONDITION_BITS : Nat := 16
/-- `VARIANT_MASK`, `src/decoding/encoding_mode_testing.rs:22` -/
def VARIANT_MASK : BitVec 64 := (1#64 <<< OPCODES_TABLE_WIDTH) - 1#64
/-- `CONDITION_MASK`, `src/decoding/encoding_mode_testing.rs:23` -/
def CONDITION_MASK : BitVec 64 := ((1#64 <<< CONDITIONAL_BITS_WIDTH) - 1#64) <<< CONDITIONAL_BITS_SHIFT
/-- `UNUSED_GAP_RAW_MASK`, `src/decoding/encoding_mode_testing.rs:24-26` -/
def UNUSED_GAP_RAW_MASK : BitVec 128 :=
  (1#128 <<< (VARIANT_AND_CONDITION_BITS - OPCODES_TABLE_WIDTH - CONDITIONAL_BITS_WIDTH)) - 1#128
/-- `UNUSED_BITS_MASK`, `src/decoding/encoding_mode_testing.rs:27` -/
def UNUSED_BITS_MASK : BitVec 128 := UNUSED_GAP_RAW_MASK <<< OPCODES_TABLE_WIDTH

/-- `variant_and_condition_from_u128_word`, `src/decoding/encoding_mode_testing.rs:29-39` -/
def variantAndConditionFromU128Word (rawValue : BitVec 128) : Res (OpcodeVariant × Condition × Nat) := do
  let rawValue : BitVec 64 := rawValue.setWidth 64
  let variantBits := rawValue &&& VARIANT_MASK
  let opcodeVariant ← index (← OPCODES_TABLE) variantBits.toNat
  let conditionBits := (rawValue &&& CONDITION_MASK) >>> CONDITIONAL_BITS_SHIFT
  let condition ← Condition.materializeVariant conditionBits.toNat
  .ok (opcodeVariant, condition, variantBits.toNat)

/-- `parse_preliminary_variant_and_absolute_number`, `src/decoding/encoding_mode_testing.rs:79-108` -/
def parse (rawValue : BitVec 128) : Res (DecodedOpcode 32 × VariantMonotonicNumber) := do
  let (variant, condition, variantBits) ← variantAndConditionFromU128Word rawValue
  let srcByte : Byte := (rawValue >>> SRC_REGS_SHIFT).setWidth 8
  let dstByte : Byte := (rawValue >>> DST_REGS_SHIFT).setWidth 8
  let imm0 : BitVec 32 := (rawValue >>> IMM0_SHIFT).setWidth 32
  let imm1 : BitVec 32 := (rawValue >>> IMM1_SHIFT).setWidth 32
  let (src0RegIdx, src1RegIdx) := splitAsU4 srcByte
  let (dst0RegIdx, dst1RegIdx) := splitAsU4 dstByte
  .ok ({ variant, condition, src0RegIdx, src1RegIdx, dst0RegIdx, dst1RegIdx, imm0, imm1 },
    .fromUsize variantBits)

/-- `encode_as_integer`, `src/decoding/encoding_mode_testing.rs:110-148` -/
def encodeAsInteger (build : Build) (o : DecodedOpcode 32) : Res (BitVec 128) := do
  let encoding := 0#128
  let variantBits ← match (← OPCODE_TO_CANONICAL_INDEX_LOOKUP_MAP).get o.variant with
    | some variantBits => .ok variantBits
    | none => .error .explicitPanic
  rassert (decide (trailingZeros (nextPowerOfTwo variantBits) ≤ OPCODES_TABLE_WIDTH))
  let encoding := encoding ||| BitVec.ofNat 128 variantBits
  let condition := o.condition.variantIndex
  rassert (decide (trailingZeros (nextPowerOfTwo condition) ≤ CONDITIONAL_BITS_WIDTH))
  let encoding := encoding ||| (BitVec.ofNat 128 condition <<< CONDITIONAL_BITS_SHIFT)
  let srcRegistersByte ← mergeU4 build o.src0RegIdx o.src1RegIdx
  let encoding := encoding ||| (srcRegistersByte.setWidth 128 <<< SRC_REGS_SHIFT)
  let dstRegistersByte ← mergeU4 build o.dst0RegIdx o.dst1RegIdx
  let encoding := encoding ||| (dstRegistersByte.setWidth 128 <<< DST_REGS_SHIFT)
  let encoding := encoding ||| (o.imm0.setWidth 128 <<< IMM0_SHIFT)
  let encoding := encoding ||| (o.imm1.setWidth 128 <<< IMM1_SHIFT)
  .ok encoding

/-- `encode_as_bytes`, `src/decoding/encoding_mode_testing.rs:150-152` with
`src/decoding/mod.rs:31-35` -/
def encodeAsBytes (build : Build) (o : DecodedOpcode 32) : Res (List Byte) := do
  .ok (toBeBytes 16 (← encodeAsInteger build o))

/-- `nop_encoding`, `src/decoding/encoding_mode_testing.rs:46-60` -/
def nopEncoding (build : Build) : Res (BitVec 128) := do
  encodeAsInteger build
    { variant := ← NOP_OPCODE_VARIANT, condition := .always,
      src0RegIdx := 0, src1RegIdx := 0, dst0RegIdx := 0, dst1RegIdx := 0,
      imm0 := fromU64Clipped 32 0, imm1 := fromU64Clipped 32 0 }

/-- `exception_revert_encoding`, `src/decoding/encoding_mode_testing.rs:62-77` -/
def exceptionRevertEncoding (build : Build) : Res (BitVec 128) := do
  encodeAsInteger build
    { variant := ← PANIC_OPCODE_VARIANT, condition := .always,
      src0RegIdx := 0, src1RegIdx := 0, dst0RegIdx := 0, dst1RegIdx := 0,
      imm0 := fromU64Clipped 32 0, imm1 := fromU64Clipped 32 0 }

/-- `split_pc`, `src/decoding/encoding_mode_testing.rs:154-156` -/
def splitPc (pc : BitVec 32) : BitVec 32 × BitVec 32 := (pc >>> 1, pc &&& 0b1#32)

/-- `u128` addition with overflow checks (`integer_representaiton_from_u256` below);
`src/decoding/encoding_mode_testing.rs:158-167` -/
def addU128 (a b : BitVec 128) : Res (BitVec 128) :=
  if a.toNat + b.toNat < 2 ^ 128 then .ok (a + b) else .error .arithOverflow

/-- `integer_representaiton_from_u256`, `src/decoding/encoding_mode_testing.rs:158-167` -/
def integerRepresentationFromU256 (value : U256) (index : BitVec 32) : Res (BitVec 128) :=
  if index = 0#32 then addU128 (value.l2.setWidth 128) (value.l3.setWidth 128 <<< 64)
  else if index = 1#32 then addU128 (value.l0.setWidth 128) (value.l1.setWidth 128 <<< 64)
  else .error .unreachable

/-- `is_canonical_encoding`, `src/decoding/encoding_mode_testing.rs:169-173` -/
def isCanonicalEncoding (value : BitVec 128) : Bool := (value &&& UNUSED_BITS_MASK) == 0#128

end Testing

end ZkEvm
