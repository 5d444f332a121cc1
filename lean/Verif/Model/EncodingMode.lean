import Verif.Model.Hash
/-! Model of the traits of `src/decoding/mod.rs`: an implementation of a trait is a value of a structure with one
field per item of the trait. The crate's own implementations are given by the functions of `Model/Decoding.lean`. -/
namespace ZkEvm

/-- `trait AllowedPcOrImm`, `src/decoding/mod.rs:43-51`. `zero` is the value of the supertrait `Default`; the other
supertraits are not modelled. -/
structure PcOrImmType where
  carrier : Type
  zero : carrier
  fromU64Clipped : BitVec 64 → carrier
  asU64 : carrier → BitVec 64
  wrappingAdd : carrier → carrier → carrier
  wrappingSub : carrier → carrier → carrier
  max : carrier

/-- `impl AllowedPcOrImm for u16`, `src/decoding/mod.rs:53-74`, and `for u32`, `src/decoding/mod.rs:75-96` -/
def pcOrImmOfWidth (w : Nat) : PcOrImmType where
  carrier := BitVec w
  zero := 0
  fromU64Clipped := ZkEvm.fromU64Clipped w
  asU64 := ZkEvm.asU64
  wrappingAdd := ZkEvm.wrappingAdd
  wrappingSub := ZkEvm.wrappingSub
  max := pcOrImmMax w

/-- `trait VmEncodingMode<N>`, `src/decoding/mod.rs:100-126`, with the integer representation's
`AllowedIntegerRepresentation<N>::encode_as_bytes`, `src/decoding/mod.rs:25-29`. An array `[u8; N]` is a list and a proof
that its length is `N`. Functions that can panic return a `Res`, and those that depend on overflow checks take the
build. -/
structure VmEncodingMode (N : Nat) where
  pcOrImm : PcOrImmType
  IntegerRepresentation : Type
  integerAsBytes : IntegerRepresentation → List Byte
  integerAsBytes_length : ∀ i, (integerAsBytes i).length = N
  nopEncoding : Build → Res IntegerRepresentation
  exceptionRevertEncoding : Build → Res IntegerRepresentation
  parse : IntegerRepresentation → Res (DecodedOpcodeOf pcOrImm.carrier × VariantMonotonicNumber)
  encodeAsInteger : Build → DecodedOpcodeOf pcOrImm.carrier → Res IntegerRepresentation
  encodeAsBytes : Build → DecodedOpcodeOf pcOrImm.carrier → Res (List Byte)
  encodeAsBytes_length : ∀ b o l, encodeAsBytes b o = .ok l → l.length = N
  splitPc : pcOrImm.carrier → pcOrImm.carrier × pcOrImm.carrier
  integerRepresentationFromU256 : U256 → pcOrImm.carrier → Res IntegerRepresentation
  isCanonicalEncoding : IntegerRepresentation → Bool

/-- The length of `to_be_bytes`, used for the array types of `src/decoding/mod.rs:31-41` -/
theorem toBeBytes_length_model {n : Nat} (k : Nat) (x : BitVec n) : (toBeBytes k x).length = k := by
  unfold toBeBytes
  simp

/-- `impl VmEncodingMode<8> for EncodingModeProduction`, `src/decoding/encoding_mode_production.rs:41-175`, with
`impl AllowedIntegerRepresentation<8> for u64`, `src/decoding/mod.rs:37-41` -/
def EncodingModeProduction : VmEncodingMode 8 where
  pcOrImm := pcOrImmOfWidth 16
  IntegerRepresentation := BitVec 64
  integerAsBytes := toBeBytes 8
  integerAsBytes_length := toBeBytes_length_model 8
  nopEncoding := Production.nopEncoding
  exceptionRevertEncoding := Production.exceptionRevertEncoding
  parse := Production.parse
  encodeAsInteger := Production.encodeAsInteger
  encodeAsBytes := Production.encodeAsBytes
  encodeAsBytes_length b o l h := by
    unfold Production.encodeAsBytes at h
    cases e : Production.encodeAsInteger b o with
    | error _ => rw [e] at h; exact nomatch h
    | ok x => rw [e] at h; rw [← Except.ok.inj h]; exact toBeBytes_length_model 8 x
  splitPc := Production.splitPc
  integerRepresentationFromU256 := Production.integerRepresentationFromU256
  isCanonicalEncoding := Production.isCanonicalEncoding

/-- `impl VmEncodingMode<16> for EncodingModeTesting`, `src/decoding/encoding_mode_testing.rs:42-174`, with
`impl AllowedIntegerRepresentation<16> for u128`, `src/decoding/mod.rs:31-35` -/
def EncodingModeTesting : VmEncodingMode 16 where
  pcOrImm := pcOrImmOfWidth 32
  IntegerRepresentation := BitVec 128
  integerAsBytes := toBeBytes 16
  integerAsBytes_length := toBeBytes_length_model 16
  nopEncoding := Testing.nopEncoding
  exceptionRevertEncoding := Testing.exceptionRevertEncoding
  parse := Testing.parse
  encodeAsInteger := Testing.encodeAsInteger
  encodeAsBytes := Testing.encodeAsBytes
  encodeAsBytes_length b o l h := by
    unfold Testing.encodeAsBytes at h
    cases e : Testing.encodeAsInteger b o with
    | error _ => rw [e] at h; exact nomatch h
    | ok x => rw [e] at h; rw [← Except.ok.inj h]; exact toBeBytes_length_model 16 x
  splitPc := Testing.splitPc
  integerRepresentationFromU256 := Testing.integerRepresentationFromU256
  isCanonicalEncoding := Testing.isCanonicalEncoding

namespace VmEncodingMode

/-- `DecodedOpcode<N, E>`, `src/opcode.rs:9-19` -/
abbrev Decoded {N : Nat} (E : VmEncodingMode N) := DecodedOpcodeOf E.pcOrImm.carrier

/-- `Default for DecodedOpcode<N, E>`, `src/opcode.rs:21-34` -/
def defaultOpcode {N : Nat} (E : VmEncodingMode N) : E.Decoded := .default E.pcOrImm.zero
/-- `serialize_as_integer`, `src/opcode.rs:67-69` -/
def serializeAsInteger {N : Nat} (E : VmEncodingMode N) (b : Build) (o : E.Decoded) : Res E.IntegerRepresentation :=
  E.encodeAsInteger b o
/-- `serialize_as_bytes`, `src/opcode.rs:71-73` -/
def serializeAsBytes {N : Nat} (E : VmEncodingMode N) (b : Build) (o : E.Decoded) : Res (List Byte) :=
  E.encodeAsBytes b o

/-- `bytecode_to_code_hash_for_mode::<N, E>`, `src/utils.rs:19-61` -/
def bytecodeToCodeHash {N : Nat} (E : VmEncodingMode N) (sha256 : Digest) (bytecodeWords : List (Vector Byte 32)) :
    Except Unit (Vector Byte 32) :=
  bytecodeToCodeHashUpTo sha256 (E.pcOrImm.asU64 E.pcOrImm.max) bytecodeWords

end VmEncodingMode

end ZkEvm
