import Verif.Model.Lib
/-! Model of the crate's unit tests, `src/definitions/mod.rs:913-1042`. A failing assertion is a panic; what the tests
print is not modelled. `calculator`, `check_encoding` and `check_serialize` take as parameters what the tests fix: the
width of the tables, the target and the variant looked up. -/
namespace ZkEvm.Tests

/-- `&l[..n]`, `src/definitions/mod.rs:1015,1026,1028` -/
def sliceTo {α : Type} (l : List α) (n : Nat) : Res (List α) :=
  if n ≤ l.length then .ok (l.take n) else .error .indexOutOfBounds

/-- The loop over pairs of entries, `src/definitions/mod.rs:1026-1031` -/
def assertPairs : List (OpcodeVariant × OpcodeVariant) → Res Unit
  | [] => .ok ()
  | (a, b) :: rest => do
    rassert (semanticallyEqual a b)
    assertPairs rest

/-- The loop over the numbers `from..from + count`, `src/definitions/mod.rs:1035-1037` -/
def assertPanics (table : List OpcodeVariant) (start : Nat) : Nat → Res Unit
  | 0 => .ok ()
  | count + 1 => do
    let v ← index table start
    rassert v.isExplicitPanic
    assertPanics table (start + 1) count

/-- The functions of the crate that `calculator` checks, `src/definitions/mod.rs:1008-1024`, so that the test can also be
run on others -/
structure Functions where
  allVariantsInVersion : ISAVersion → Res (List OpcodeVariant)
  synthesizeOpcodeDecodingTablesLegacy : Nat → ISAVersion → Res (List OpcodeVariant)
  synthesizeOpcodeDecodingTables : Nat → ISAVersion → Res (List OpcodeVariant)
  computeEncodingDensity : ISAVersion → Res Nat
  findNewOpcodes : List OpcodeVariant → List OpcodeVariant → Res (List OpcodeVariant × List OpcodeVariant)

/-- `calculator`, `src/definitions/mod.rs:1006-1040`, at any width, on any functions; the result is `difference` -/
def calculatorOf (f : Functions) (tableBits : Nat) : Res (List OpcodeVariant) := do
  let v0 ← f.allVariantsInVersion ⟨0⟩
  let v1 ← f.allVariantsInVersion ⟨1⟩
  let legacyV0 ← f.synthesizeOpcodeDecodingTablesLegacy tableBits ⟨0⟩
  let start ← sliceTo legacyV0 v0.length
  rassert (start == v0)
  let newV0 ← f.synthesizeOpcodeDecodingTables tableBits ⟨0⟩
  let numNonTrivialV0 ← f.computeEncodingDensity ⟨0⟩
  rassert (legacyV0 == newV0)
  let (_, difference) ← f.findNewOpcodes v0 v1
  let newV1 ← f.synthesizeOpcodeDecodingTables tableBits ⟨1⟩
  let numNonTrivialV1 ← f.computeEncodingDensity ⟨1⟩
  let a ← sliceTo newV0 numNonTrivialV0
  let b ← sliceTo newV1 numNonTrivialV0
  assertPairs (a.zip b)
  rassert (decide (numNonTrivialV0 ≤ numNonTrivialV1))
  assertPanics newV0 numNonTrivialV0 (numNonTrivialV1 - numNonTrivialV0)
  .ok difference

/-- `calculator`, `src/definitions/mod.rs:1006-1040`, at any width and target -/
def calculator (tableBits : Nat) (target : Target := .debug) : Res (List OpcodeVariant) :=
  calculatorOf ⟨allVariantsInVersion, (synthesizeOpcodeDecodingTablesLegacy · · target),
    (synthesizeOpcodeDecodingTables · · target), computeEncodingDensity, findNewOpcodes⟩ tableBits

/-- `check_encoding` and `check_serialize`, `src/definitions/mod.rs:959-985`, for any variant; the results are the index
and the mask they print -/
def lookUp (variant : OpcodeVariant) : Res (Nat × BitVec 64) := do
  let i ← (← OPCODE_TO_CANONICAL_INDEX_LOOKUP_MAP).getOrPanic variant
  let encoding ← index (← OPCODES_PROPS_INTEGER_BITMASKS) i
  .ok (i, encoding)

/-- `decode_from_raw`, `src/definitions/mod.rs:987-992` -/
def decodeFromRaw (raw : BitVec 64) : Res OpcodeVariant := do
  let propertiesIndex := raw &&& ((1 <<< OPCODES_TABLE_WIDTH) - 1)
  index (← OPCODES_TABLE) propertiesIndex.toNat

/-- `synthesize_table`, `src/definitions/mod.rs:942-948`: the entries it prints -/
def synthesizeTable : Res (List OpcodeVariant) := do
  sliceTo (← synthesizeOpcodeDecodingTables 11 ⟨0⟩) 20

/-- `synthesize_bit_encoding_table`, `src/definitions/mod.rs:950-957`: the pairs it prints -/
def synthesizeBitEncodingTable : Res (List (OpcodeVariant × BitVec 64)) := do
  let table ← synthesizeOpcodeDecodingTables 11 ⟨0⟩
  let encoding ← synthesizeBitDecompositionTable table ⟨0⟩
  .ok (((table.zip encoding).drop 40).take 20)

/-- All unit tests of the crate, `src/definitions/mod.rs:918-1040` -/
def all : List (Res Unit) :=
  [do let _ ← computeEncodingDensity ⟨0⟩; let _ ← computeEncodingDensity ⟨1⟩,
   do let _ ← computeDecodingFormat ⟨0⟩; let _ ← computeDecodingFormat ⟨1⟩,
   do let _ ← synthesizeTable,
   do let _ ← synthesizeBitEncodingTable,
   do let _ ← lookUp ⟨.add .add, .full .useImm16Only, .full .useRegOnly, ⟨false, false⟩⟩,
   do let _ ← lookUp ⟨.log .precompileCall, .regOnly, .regOnly, ⟨false, false⟩⟩,
   do let _ ← decodeFromRaw 0x000300000004001d,
   do let _ ← calculator 11]

end ZkEvm.Tests
