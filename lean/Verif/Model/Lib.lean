import Verif.Model.Table
/-! Model of the lazily initialised statics of `src/lib.rs:127-228`. A `lazy_static` is its
initialiser; forcing it panics when the initialiser does. -/
namespace ZkEvm

/-- `Vec<T>::try_into::<[T; n]>().unwrap()`; `src/lib.rs:129,133,226` -/
def intoArray {α : Type} (n : Nat) (l : List α) : Res (List α) :=
  if l.length = n then .ok l else .error .expectFailed

/-- `OPCODES_TABLE`, `src/lib.rs:128-130` -/
def OPCODES_TABLE : Res (List OpcodeVariant) := do
  intoArray (2 ^ OPCODES_TABLE_WIDTH)
    (← synthesizeOpcodeDecodingTables OPCODES_TABLE_WIDTH DEFAULT_ISA_VERSION)

/-- `OPCODES_PROPS_INTEGER_BITMASKS`, `src/lib.rs:132-134` -/
def OPCODES_PROPS_INTEGER_BITMASKS : Res (List (BitVec 64)) := do
  intoArray (2 ^ OPCODES_TABLE_WIDTH)
    (← synthesizeBitDecompositionTable (← OPCODES_TABLE) DEFAULT_ISA_VERSION)

/-- A `HashMap<OpcodeVariant, usize>` is modelled by an association list, newest entry first. Used for
`src/lib.rs:150` -/
abbrev IndexMap := List (OpcodeVariant × Nat)

/-- `HashMap::get`; `src/lib.rs:153` -/
def IndexMap.get (m : IndexMap) (v : OpcodeVariant) : Option Nat := List.lookup v m

/-- The loop of `OPCODE_TO_CANONICAL_INDEX_LOOKUP_MAP` (`src/lib.rs:152-158`) over the enumerated
table `el :: rest`, where `el` has index `idx` and `table` is the whole table. -/
def lookupMapLoop (table : List OpcodeVariant) (result : IndexMap) (idx : Nat) :
    List OpcodeVariant → Res IndexMap
  | [] => .ok result
  | el :: rest =>
    match result.get el with
    | some existing => do
      rassert ((← index table existing) == INVALID_OPCODE_VARIANT)
      lookupMapLoop table result (idx + 1) rest
    | none => lookupMapLoop table ((el, idx) :: result) (idx + 1) rest

/-- `OPCODE_TO_CANONICAL_INDEX_LOOKUP_MAP`, `src/lib.rs:150-161` -/
def OPCODE_TO_CANONICAL_INDEX_LOOKUP_MAP : Res IndexMap := do
  let table ← OPCODES_TABLE
  lookupMapLoop table [] 0 table

/-- `VariantMonotonicNumber`, `src/decoding/mod.rs:10-23` -/
structure VariantMonotonicNumber where
  val : Nat
deriving DecidableEq, Repr

/-- `from_usize`, `src/decoding/mod.rs:14-17` -/
def VariantMonotonicNumber.fromUsize (n : Nat) : VariantMonotonicNumber := ⟨n⟩
/-- `into_usize`, `src/decoding/mod.rs:19-22` -/
def VariantMonotonicNumber.intoUsize (n : VariantMonotonicNumber) : Nat := n.val

/-- The loop of `OPCODE_TO_MONOTONIC_INDEX_NUMBER_MAP`, `src/lib.rs:138-145` -/
def monotonicMapLoop (table : List OpcodeVariant)
    (result : List (OpcodeVariant × VariantMonotonicNumber)) (idx : Nat) :
    List OpcodeVariant → Res (List (OpcodeVariant × VariantMonotonicNumber))
  | [] => .ok result
  | el :: rest =>
    match List.lookup el result with
    | some existing => do
      rassert ((← index table existing.intoUsize) == INVALID_OPCODE_VARIANT)
      monotonicMapLoop table result (idx + 1) rest
    | none => monotonicMapLoop table ((el, .fromUsize idx) :: result) (idx + 1) rest

/-- `OPCODE_TO_MONOTONIC_INDEX_NUMBER_MAP`, `src/lib.rs:136-148` -/
def OPCODE_TO_MONOTONIC_INDEX_NUMBER_MAP : Res (List (OpcodeVariant × VariantMonotonicNumber)) := do
  let table ← OPCODES_TABLE
  monotonicMapLoop table [] 0 table

/-- `NOP_OPCODE_VARIANT`, `src/lib.rs:163-173` -/
def NOP_OPCODE_VARIANT : Res OpcodeVariant := do
  let variant : OpcodeVariant := {
    opcode := .nop .mk
    src0OperandType := .full .useRegOnly
    dst0OperandType := .full .useRegOnly
    flags := Flags.none }
  rassert ((← OPCODE_TO_CANONICAL_INDEX_LOOKUP_MAP).get variant).isSome
  .ok variant

/-- `HashMap` indexing `map[&key]`, panics when absent; `src/lib.rs:176,196` -/
def IndexMap.getOrPanic (m : IndexMap) (v : OpcodeVariant) : Res Nat :=
  match m.get v with
  | some i => .ok i
  | none => .error .expectFailed

/-- `NOP_BITSPREAD_U64`, `src/lib.rs:175-180` -/
def NOP_BITSPREAD_U64 : Res (BitVec 64) := do
  let i ← (← OPCODE_TO_CANONICAL_INDEX_LOOKUP_MAP).getOrPanic (← NOP_OPCODE_VARIANT)
  index (← OPCODES_PROPS_INTEGER_BITMASKS) i

/-- `PANIC_OPCODE_VARIANT`, `src/lib.rs:182-193` -/
def PANIC_OPCODE_VARIANT : Res OpcodeVariant := do
  let variant : OpcodeVariant := {
    opcode := .ret .panic
    src0OperandType := .regOnly
    dst0OperandType := .regOnly
    flags := Flags.none }
  rassert ((← OPCODE_TO_CANONICAL_INDEX_LOOKUP_MAP).get variant).isSome
  .ok variant

/-- `PANIC_BITSPREAD_U64`, `src/lib.rs:195-200` -/
def PANIC_BITSPREAD_U64 : Res (BitVec 64) := do
  let i ← (← OPCODE_TO_CANONICAL_INDEX_LOOKUP_MAP).getOrPanic (← PANIC_OPCODE_VARIANT)
  index (← OPCODES_PROPS_INTEGER_BITMASKS) i

/-- `OPCODES_PRICES`, `src/lib.rs:219-227` -/
def OPCODES_PRICES : Res (List Nat) := do
  intoArray (2 ^ OPCODES_TABLE_WIDTH) ((← OPCODES_TABLE).map OpcodeVariant.ergsPrice)

end ZkEvm
