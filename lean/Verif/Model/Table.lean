import Verif.Model.All
import Verif.Model.Consts
/-! Model of `src/definitions/mod.rs`. -/
namespace ZkEvm

/-- `NUM_OPCODES`, `src/definitions/mod.rs:57` -/
def NUM_OPCODES : Nat := 16

/-- `[bool; NUM_NON_EXCLUSIVE_FLAGS]` with `NUM_NON_EXCLUSIVE_FLAGS = 2`, `src/lib.rs:93` -/
structure Flags where
  f0 : Bool
  f1 : Bool
deriving DecidableEq, Repr

/-- Indexing `flags[i]`. Simplification: `i` is one of the published flag positions, which are 0 or 1; an index out of
bounds would be rejected by the compiler and is read as `false` here. Used for `src/definitions/mod.rs:139-141` -/
def Flags.get (f : Flags) : Nat → Bool
  | 0 => f.f0
  | 1 => f.f1
  | _ => false

/-- `[false; NUM_NON_EXCLUSIVE_FLAGS]`; `src/lib.rs:168,188` -/
def Flags.none : Flags := ⟨false, false⟩

/-- `OpcodeVariant`, `src/definitions/mod.rs:119-125` -/
structure OpcodeVariant where
  opcode : Opcode
  src0OperandType : Operand
  dst0OperandType : Operand
  flags : Flags
deriving DecidableEq, Repr

/-- `INVALID_OPCODE_VARIANT`, `src/definitions/mod.rs:59-64` -/
def INVALID_OPCODE_VARIANT : OpcodeVariant where
  opcode := .invalid .mk
  src0OperandType := .regOnly
  dst0OperandType := .regOnly
  flags := Flags.none

/-- The trait objects listed in `all_opcodes`, `src/definitions/mod.rs:67-84` -/
def allOpcodesList : List DynOpcode :=
  [ .box InvalidOpcode.mk,
    .box NopOpcode.mk,
    .box AddOpcode.add,
    .box SubOpcode.sub,
    .box MulOpcode.mk,
    .box DivOpcode.mk,
    .box JumpOpcode.mk,
    .box BinopOpcode.xor,
    .box ShiftOpcode.shl,
    .box PtrOpcode.add,
    .box NearCallOpcode.mk,
    .box ContextOpcode.this,
    .box LogOpcode.storageRead,
    .box FarCallOpcode.normal,
    .box RetOpcode.ok,
    .box UMAOpcode.heapRead ]

/-- `all_opcodes`, `src/definitions/mod.rs:66-94` -/
def allOpcodes : Res (List DynOpcode) := do
  let opcodes := allOpcodesList
  rassert (opcodes.length == NUM_OPCODES)
  let first ← index opcodes 0
  rassert (first.name == "Invalid opcode")
  .ok opcodes

/-- `all_opcode_prototypes`, `src/definitions/mod.rs:96-117` -/
def allOpcodePrototypes : List Opcode :=
  [ .invalid .mk,
    .nop .mk,
    .add .add,
    .sub .sub,
    .mul .mk,
    .div .mk,
    .jump .mk,
    .binop .xor,
    .shift .shl,
    .ptr .add,
    .nearCall .mk,
    .context .this,
    .log .storageRead,
    .farCall .normal,
    .ret .ok,
    .uma .heapRead ]

namespace OpcodeVariant

/-- `ergs_price`, `src/definitions/mod.rs:132-134` -/
def ergsPrice (v : OpcodeVariant) : Nat := v.opcode.ergsPrice

/-- `swap_operands`, `src/definitions/mod.rs:136-144` -/
def swapOperands (v : OpcodeVariant) : Bool :=
  match v.opcode with
  | .sub _ | .div _ | .shift _ => v.flags.get SWAP_OPERANDS_FLAG_IDX_FOR_ARITH_OPCODES
  | .ptr _ => v.flags.get SWAP_OPERANDS_FLAG_IDX_FOR_PTR_OPCODE
  | _ => false

/-- `requires_kernel_mode`, `src/definitions/mod.rs:146-148` -/
def requiresKernelMode (v : OpcodeVariant) : Bool := v.opcode.requiresKernelMode

/-- `can_be_used_in_static_context`, `src/definitions/mod.rs:150-152` -/
def canBeUsedInStaticContext (v : OpcodeVariant) : Bool := v.opcode.canBeUsedInStaticContext

/-- `is_explicit_panic`, `src/definitions/mod.rs:157-162` -/
def isExplicitPanic (v : OpcodeVariant) : Bool :=
  match v.opcode with
  | .invalid _ => true
  | _ => false

/-- `Default for OpcodeVariant`, `src/definitions/mod.rs:165-174` -/
def default : OpcodeVariant where
  opcode := .nop .mk
  src0OperandType := .regOnly
  dst0OperandType := .regOnly
  flags := Flags.none

end OpcodeVariant

/-- The `checker` loop: panics on a repeated opcode name.
`src/definitions/mod.rs:199-209`, repeated at 247-257, 442-452 and 727-737.
(The `HashSet` is modelled by the list of names seen so far.) -/
def checkNames (seen : List String) : List DynOpcode → Res Unit
  | [] => .ok ()
  | o :: os => if seen.contains o.name then .error .explicitPanic else checkNames (o.name :: seen) os

/-- The `match num_non_exclusive_flags` blocks, e.g. `src/definitions/mod.rs:496-523`
(the same code at 297-324, 345-369, 385-409, 541-565, 580-604, 618-642). -/
def expandFlags (tmp : OpcodeVariant) (numNonExclusiveFlags : Nat) : Res (List OpcodeVariant) :=
  match numNonExclusiveFlags with
  | 0 => .ok [tmp]
  | 1 => .ok ([false, true].map fun b => { tmp with flags := { tmp.flags with f0 := b } })
  | 2 => .ok ([false, true].flatMap fun b0 => [false, true].map fun b1 =>
      { tmp with flags := { f0 := b0, f1 := b1 } })
  | _ => .error .unreachable

/-- The arm of the addressing-mode match for operands of which both sides are `Full`:
`src/definitions/mod.rs:525-568` (and 327-373 in the legacy builder) -/
def expandFullFull (op : Opcode) (numFlags : Nat) : Res (List OpcodeVariant) :=
  collect (fun inputVariant =>
    collect (fun outputVariant =>
      if !outputVariant.isAllowedForDst then .ok []
      else expandFlags
        { INVALID_OPCODE_VARIANT with
          opcode := op, src0OperandType := .full inputVariant, dst0OperandType := .full outputVariant }
        numFlags)
      ImmMemHandlerFlags.allVariants)
    ImmMemHandlerFlags.allVariants

/-- The arm `(&[Full(_)], &[])`: `src/definitions/mod.rs:569-606` (and 374-412 in the legacy builder) -/
def expandFullNone (op : Opcode) (numFlags : Nat) : Res (List OpcodeVariant) :=
  collect (fun inputVariant =>
    expandFlags { INVALID_OPCODE_VARIANT with opcode := op, src0OperandType := .full inputVariant }
      numFlags)
    ImmMemHandlerFlags.allVariants

/-- The arms with `RegOrImm`: `src/definitions/mod.rs:607-644` -/
def expandRegOrImm (op : Opcode) (numFlags : Nat) : Res (List OpcodeVariant) :=
  collect (fun srcVariant =>
    expandFlags { INVALID_OPCODE_VARIANT with opcode := op, src0OperandType := .regOrImm srcVariant }
      numFlags)
    RegOrImmFlags.allVariants

/-- The addressing-mode match of `all_variants_in_version`, `src/definitions/mod.rs:478-652`.
(The inner `assert!(matches!(tmp.…, Operand::RegOnly))` at 494-495, 579, 617 inspect the constant
`INVALID_OPCODE_VARIANT` copy and cannot fail; they are omitted. `tmp.opcode` is re-materialised from
the same arguments as `concrete_opcode_without_addressing` and is passed as `op`.) -/
def addressingModes (op : Opcode) (numFlags : Nat) (inputs outputs : List Operand) :
    Res (List OpcodeVariant) :=
  match inputs, outputs with
  | [], []
  | [.regOnly], []
  | [], [.regOnly]
  | [.regOnly], [.regOnly]
  | [.regOnly, .regOnly], []
  | [.regOnly, .regOnly], [.regOnly]
  | [.regOnly], [.regOnly, .regOnly] =>
    expandFlags { INVALID_OPCODE_VARIANT with opcode := op } numFlags
  | [.full _], [.full _]
  | [.full _, .regOnly], [.full _]
  | [.full _, .regOnly], [.full _, .regOnly] => expandFullFull op numFlags
  | [.full _], [] => expandFullNone op numFlags
  | [.regOrImm _, .regOnly], [.regOnly]
  | [.regOrImm _], [.regOnly, .regOnly] => expandRegOrImm op numFlags
  | _, _ => .error .unreachable

/-- The body of the loop over opcodes in `all_variants_in_version`, `src/definitions/mod.rs:468-653`.
The pair is (`opcode`, `all_prototypes[i]`) at the same index `i`. -/
def variantsOfOpcode (version : ISAVersion) (p : DynOpcode × Opcode) : Res (List OpcodeVariant) := do
  let data ← p.1.variantsData version
  collect (fun (d : OpcodeVariantData) => do
    let op ← p.2.materializeSubvariantFromPrototype d.variantIdx version
    let ins ← op.inputOperands version
    let outs ← op.outputOperands version
    addressingModes op d.numNonExclusiveFlags ins outs) data

/-- `all_variants_in_version`, `src/definitions/mod.rs:433-659`.
(`all_prototypes[i]` cannot be out of bounds: both lists have `NUM_OPCODES` elements, so the loop is
over their zip.) -/
def allVariantsInVersion (version : ISAVersion) : Res (List OpcodeVariant) := do
  let ops ← allOpcodes
  checkNames [] ops
  let first ← index ops 0
  rassert (first.name == "Invalid opcode")
  let result ← collect (variantsOfOpcode version) (ops.zip allOpcodePrototypes)
  let r0 ← index result 0
  rassert (r0 == INVALID_OPCODE_VARIANT)
  .ok result

/-- `semantically_equal`, `src/definitions/mod.rs:827-848` -/
def semanticallyEqual (a b : OpcodeVariant) : Bool :=
  if a.opcode != b.opcode then false
  else if a.flags != b.flags then false
  else if a.dst0OperandType != b.dst0OperandType then false
  else if a.src0OperandType == b.src0OperandType then true
  else match a.src0OperandType, b.src0OperandType with
    | .regOnly, .regOrImm .useRegOnly => true
    | .regOrImm .useRegOnly, .regOnly => true
    | _, _ => false

/-- The sanity check at the top of `find_new_opcodes`, `src/definitions/mod.rs:851-868`
(the `HashSet` of new variants is modelled by list membership). -/
def findNewSanity (old new : List OpcodeVariant) : Res Unit :=
  match old with
  | [] => .ok ()
  | el :: rest =>
    if new.contains el || new.any (fun n => semanticallyEqual n el) then findNewSanity rest new
    else .error .assertFailed

/-- The inner loop of `find_new_opcodes`, `src/definitions/mod.rs:873-884`: replaces the first
semantically equal old entry by `new`, or reports that there is none. -/
def replaceFirst (new : OpcodeVariant) : List OpcodeVariant → Option (List OpcodeVariant)
  | [] => none
  | o :: os =>
    if semanticallyEqual new o then some (new :: os)
    else match replaceFirst new os with
      | some os' => some (o :: os')
      | none => none

/-- The outer loop of `find_new_opcodes`, `src/definitions/mod.rs:872-889`. Returns the mutated `old`
slice and the difference. -/
def findNewLoop (old : List OpcodeVariant) : List OpcodeVariant → List OpcodeVariant × List OpcodeVariant
  | [] => (old, [])
  | n :: ns =>
    match replaceFirst n old with
    | some old' => findNewLoop old' ns
    | none =>
      let r := findNewLoop old ns
      (r.1, n :: r.2)

/-- `find_new_opcodes`, `src/definitions/mod.rs:850-892`; `&mut old` is returned as first component. -/
def findNewOpcodes (old new : List OpcodeVariant) :
    Res (List OpcodeVariant × List OpcodeVariant) := do
  findNewSanity old new
  .ok (findNewLoop old new)

/-- The per-operand multiplier of `compute_encoding_density`, `src/definitions/mod.rs:748-755` -/
def srcMultiplier : Operand → Nat
  | .full _ => ImmMemHandlerFlags.numSrcVariants
  | .regOrImm _ => RegOrImmFlags.numSrcVariants
  | .regOnly => 1

/-- `src/definitions/mod.rs:757-764` -/
def dstMultiplier : Operand → Nat
  | .full _ => ImmMemHandlerFlags.numDstVariants
  | .regOrImm _ => RegOrImmFlags.numDstVariants
  | .regOnly => 1

/-- The `num_options +=` loops, `src/definitions/mod.rs:739-771`. A list of contributions is summed. -/
def densityOfOpcode (version : ISAVersion) (p : DynOpcode × Opcode) : Res (List Nat) := do
  let data ← p.1.variantsData version
  collect (fun (d : OpcodeVariantData) => do
    let op ← p.2.materializeSubvariantFromPrototype d.variantIdx version
    let ins ← op.inputOperands version
    let outs ← op.outputOperands version
    let modes := outs.foldl (fun acc el => acc * dstMultiplier el)
      (ins.foldl (fun acc el => acc * srcMultiplier el) 1)
    .ok [2 ^ d.numNonExclusiveFlags * modes]) data

/-- `compute_encoding_density`, `src/definitions/mod.rs:724-772` -/
def computeEncodingDensity (forVersion : ISAVersion) : Res Nat := do
  let ops ← allOpcodes
  checkNames [] ops
  let contributions ← collect (densityOfOpcode forVersion) (ops.zip allOpcodePrototypes)
  .ok contributions.sum

/-- The loop over versions of `synthesize_opcode_decoding_tables`, `src/definitions/mod.rs:215-226` -/
def synthesizeLoop (upTo : ISAVersion) (result : List OpcodeVariant) :
    List ISAVersion → Res (List OpcodeVariant)
  | [] => .ok result
  | version :: rest =>
    if !version.le upTo then .ok result  -- `break`
    else do
      let all ← allVariantsInVersion version
      let r ← findNewOpcodes result all
      let result' := r.1 ++ r.2
      rassert (result'.length == (← computeEncodingDensity version))
      synthesizeLoop upTo result' rest

/-- What the compilation target adds to the table builders: the build profile, the width of `usize`, and the size in
bytes of an `OpcodeVariant` (which the language does not fix). The defaults are a 64-bit debug build with 8 bytes;
the theorems about the builders (C18, C23-C25) hold for every target. Used for `src/definitions/mod.rs:211-232` -/
structure Target where
  build : Build := .debug
  usizeBits : Nat := 64
  variantSize : Nat := 8
deriving DecidableEq, Repr

/-- A 64-bit debug build; `src/definitions/mod.rs:211-232` -/
def Target.debug : Target := {}
/-- A 64-bit release build; `src/definitions/mod.rs:211-232` -/
def Target.release : Target := { build := .release }

/-- `1 << n` at type `usize`: with overflow checks (debug) an amount of at least the width panics, without
them (release) the amount is taken modulo the width. Used for `src/definitions/mod.rs:211,229,230` -/
def usizeOneShl (n : Nat) (target : Target := .debug) : Res Nat :=
  match target.build with
  | .debug => if n < target.usizeBits then .ok (2 ^ n) else .error .arithOverflow
  | .release => .ok (2 ^ (n % target.usizeBits))

/-- `Vec::<OpcodeVariant>::with_capacity(n)`, `src/definitions/mod.rs:211` and 259: panics when the bytes needed exceed
`isize::MAX`. (Running out of memory aborts the process and is not modelled.) -/
def vecWithCapacity (n : Nat) (target : Target := .debug) : Res Unit :=
  if n * target.variantSize < 2 ^ (target.usizeBits - 1) then .ok () else .error .capacityOverflow

/-- `Vec::resize` growing to `n` elements; `src/definitions/mod.rs:230,428` -/
def resizeTo (l : List OpcodeVariant) (n : Nat) (v : OpcodeVariant) : List OpcodeVariant :=
  l.take n ++ List.replicate (n - l.length) v

/-- The common tail of the two table builders, `src/definitions/mod.rs:228-232` and 426-430 -/
def finishTable (tableBits : Nat) (result : List OpcodeVariant) (target : Target := .debug) : Res (List OpcodeVariant) := do
  let r0 ← index result 0
  rassert (r0 == INVALID_OPCODE_VARIANT)
  let size ← usizeOneShl tableBits target
  rassert (decide (result.length ≤ size))
  .ok (resizeTo result size INVALID_OPCODE_VARIANT)

/-- `synthesize_opcode_decoding_tables`, `src/definitions/mod.rs:189-233`. -/
def synthesizeOpcodeDecodingTables (tableBits : Nat) (upToVersion : ISAVersion) (target : Target := .debug) :
    Res (List OpcodeVariant) := do
  let ops ← allOpcodes
  checkNames [] ops
  vecWithCapacity (← usizeOneShl tableBits target) target
  let result ← synthesizeLoop upToVersion [] allIsaVersions
  finishTable tableBits result target

/-- The addressing-mode match of the legacy builder, `src/definitions/mod.rs:279-420` (no `RegOrImm`
arms) for one `variant_data`. -/
def legacyArm (op : Opcode) (numFlags : Nat) (inputs outputs : List Operand) :
    Res (List OpcodeVariant) :=
  match inputs, outputs with
  | [], []
  | [.regOnly], []
  | [], [.regOnly]
  | [.regOnly], [.regOnly]
  | [.regOnly, .regOnly], []
  | [.regOnly, .regOnly], [.regOnly]
  | [.regOnly], [.regOnly, .regOnly] =>
    expandFlags { INVALID_OPCODE_VARIANT with opcode := op } numFlags
  | [.full _], [.full _]
  | [.full _, .regOnly], [.full _]
  | [.full _, .regOnly], [.full _, .regOnly] => expandFullFull op numFlags
  | [.full _], [] => expandFullNone op numFlags
  | _, _ => .error .unreachable

/-- The loop over opcodes of the legacy builder, `src/definitions/mod.rs:270-421`. The operands are
those of the *prototype* trait object, not of the concrete variant.
(Simplification: the match is re-done per `variant_data`; every opcode has at least one, so the
`unreachable!` arm is hit in the same runs.) -/
def legacyVariantsOfOpcode (version : ISAVersion) (p : DynOpcode × Opcode) :
    Res (List OpcodeVariant) := do
  let data ← p.1.variantsData version
  let ins ← p.1.inputOperands version
  let outs ← p.1.outputOperands version
  collect (fun (d : OpcodeVariantData) => do
    let op ← p.2.materializeSubvariantFromPrototype d.variantIdx version
    legacyArm op d.numNonExclusiveFlags ins outs) data

/-- The loop over versions of the legacy builder, `src/definitions/mod.rs:263-424`. All variants of
each version are appended. -/
def legacyLoop (upTo : ISAVersion) (result : List OpcodeVariant) :
    List ISAVersion → Res (List OpcodeVariant)
  | [] => .ok result
  | version :: rest =>
    if !version.le upTo then .ok result
    else do
      let ops ← allOpcodes
      let added ← collect (legacyVariantsOfOpcode version) (ops.zip allOpcodePrototypes)
      let result' := result ++ added
      rassert (result'.length == (← computeEncodingDensity version))
      legacyLoop upTo result' rest

/-- `synthesize_opcode_decoding_tables_legacy`, `src/definitions/mod.rs:235-431` -/
def synthesizeOpcodeDecodingTablesLegacy (tableBits : Nat) (upToVersion : ISAVersion) (target : Target := .debug) :
    Res (List OpcodeVariant) := do
  let ops ← allOpcodes
  checkNames [] ops
  vecWithCapacity (← usizeOneShl tableBits target) target
  let result ← legacyLoop upToVersion [] allIsaVersions
  finishTable tableBits result target

/-- `Iterator::max().unwrap()` on a list of results of a panicking closure; `src/definitions/mod.rs:667,687,692,695` -/
def maxOf : List Nat → Nat
  | [] => 0
  | a :: as => max a (maxOf as)

/-- `max_num_variants_for_version`, `src/definitions/mod.rs:662-671`
(`all_opcodes` is not empty, so `unwrap` cannot fail) -/
def maxNumVariantsForVersion (version : ISAVersion) : Res Nat := do
  let ops ← allOpcodes
  let l ← collect (fun op => do .ok [(← op.maxVariantIdx version) + 1]) ops
  .ok (maxOf l)

/-- `max_num_flags_for_version`, `src/definitions/mod.rs:674-699`. (`ALL_ISA_VERSIONS[0] = 0 ≤ version`,
so the inner `max().unwrap()` cannot fail.) -/
def maxNumFlagsForVersion (version : ISAVersion) : Res Nat := do
  let ops ← allOpcodes
  let l ← collect (fun (op : DynOpcode) => do
    let per ← collect (fun el => do
      let data ← op.variantsData el
      .ok [maxOf (data.map OpcodeVariantData.numNonExclusiveFlags)])
      (allIsaVersions.filter fun el => el.le version)
    .ok [maxOf per]) ops
  .ok (maxOf l)

/-! Constants of `src/lib.rs` used by the bit decomposition. -/

/-- `OPCODES_TABLE_WIDTH`, `src/lib.rs:43` -/
def OPCODES_TABLE_WIDTH : Nat := 11
/-- `OPCODE_TYPE_BITS`, `src/lib.rs:59` -/
def OPCODE_TYPE_BITS : Nat := NUM_OPCODES
/-- `OPCODE_INPUT_VARIANT_FLAGS`, `src/lib.rs:61` -/
def OPCODE_INPUT_VARIANT_FLAGS : Nat := 6
/-- `OPCODE_OUTPUT_VARIANT_FLAGS`, `src/lib.rs:62` -/
def OPCODE_OUTPUT_VARIANT_FLAGS : Nat := 4
/-- `KERNEL_MODE_FLAG_BITS`, `src/lib.rs:65` -/
def KERNEL_MODE_FLAG_BITS : Nat := 1
/-- `CAN_BE_USED_IN_STATIC_CONTEXT_FLAG_BITS`, `src/lib.rs:66` -/
def CAN_BE_USED_IN_STATIC_CONTEXT_FLAG_BITS : Nat := 1
/-- `EXPLICIT_PANIC_FLAG_BITS`, `src/lib.rs:67` -/
def EXPLICIT_PANIC_FLAG_BITS : Nat := 1
/-- `KERNER_MODE_FLAG_IDX`, `src/lib.rs:69` -/
def KERNER_MODE_FLAG_IDX : Nat := 0
/-- `CAN_BE_USED_IN_STATIC_CONTEXT_FLAG_IDX`, `src/lib.rs:70` -/
def CAN_BE_USED_IN_STATIC_CONTEXT_FLAG_IDX : Nat := 1
/-- `EXPLICIT_PANIC_FLAG_IDX`, `src/lib.rs:71` -/
def EXPLICIT_PANIC_FLAG_IDX : Nat := 2
/-- `WIDTH_MULTIPLE`, `src/lib.rs:73` -/
def WIDTH_MULTIPLE : Nat := 16
/-- `DEFAULT_ISA_VERSION`, `src/lib.rs:125` -/
def DEFAULT_ISA_VERSION : ISAVersion := ⟨1⟩

/-- `total_description_bits_for_version`, `src/lib.rs:95-103` -/
def totalDescriptionBitsForVersion (version : ISAVersion) : Res Nat := do
  .ok (OPCODE_TYPE_BITS + (← maxNumVariantsForVersion version) + (← maxNumFlagsForVersion version)
    + OPCODE_INPUT_VARIANT_FLAGS + OPCODE_OUTPUT_VARIANT_FLAGS)

/-- `total_description_bits_rounded_for_version`, `src/lib.rs:105-116` -/
def totalDescriptionBitsRoundedForVersion (version : ISAVersion) : Res Nat := do
  let total := OPCODE_TYPE_BITS + (← maxNumVariantsForVersion version)
    + (← maxNumFlagsForVersion version) + OPCODE_INPUT_VARIANT_FLAGS + OPCODE_OUTPUT_VARIANT_FLAGS
  if total % WIDTH_MULTIPLE != 0 then .ok (total + (WIDTH_MULTIPLE - total % WIDTH_MULTIPLE))
  else .ok total

/-- `TOTAL_AUX_BITS`, `src/lib.rs:118-119` -/
def TOTAL_AUX_BITS : Nat :=
  KERNEL_MODE_FLAG_BITS + CAN_BE_USED_IN_STATIC_CONTEXT_FLAG_BITS + EXPLICIT_PANIC_FLAG_BITS

/-- `total_opcode_description_and_aux_bits_for_version`, `src/lib.rs:121-123` -/
def totalOpcodeDescriptionAndAuxBitsForVersion (version : ISAVersion) : Res Nat := do
  .ok ((← totalDescriptionBitsRoundedForVersion version) + TOTAL_AUX_BITS)

/-- `1u64 << n` with overflow checks on; `src/definitions/mod.rs:784-818` -/
def u64OneShl (n : Nat) : Res (BitVec 64) :=
  if n < 64 then .ok (1#64 <<< n) else .error .arithOverflow

/-- `OPCODE_PROTOTYPES`, `src/lib.rs:202-204` -/
def OPCODE_PROTOTYPES : Res (List DynOpcode) := allOpcodes
/-- `NUM_LOGICAL_OPCODES`, `src/lib.rs:206-208` -/
def NUM_LOGICAL_OPCODES : Res Nat := do .ok (← OPCODE_PROTOTYPES).length
/-- `NUM_INPUT_VARIANTS`, `src/lib.rs:210-212` -/
def NUM_INPUT_VARIANTS : Nat := ImmMemHandlerFlags.numSrcVariants
/-- `NUM_OUTPUT_VARIANTS`, `src/lib.rs:214-216` -/
def NUM_OUTPUT_VARIANTS : Nat := ImmMemHandlerFlags.numDstVariants

/-- `if condition { encoding |= 1u64 << shift }`, `src/definitions/mod.rs:790-794`, 806-820 -/
def orBitIf (condition : Bool) (encoding : BitVec 64) (shift : Nat) : Res (BitVec 64) :=
  if condition then do .ok (encoding ||| (← u64OneShl shift)) else .ok encoding

/-- `opcode_as_integer_bitmask`, `src/definitions/mod.rs:774-825` -/
def opcodeAsIntegerBitmask (v : OpcodeVariant) (version : ISAVersion) : Res (BitVec 64) := do
  let maxVariantBits ← maxNumVariantsForVersion version
  let maxNumFlags ← maxNumFlagsForVersion version
  let encoding := 0#64
  let shift := 0
  -- first encoding logical opcode
  let encoding := encoding ||| (← u64OneShl (shift + v.opcode.variantIdx))
  let shift := shift + (← NUM_LOGICAL_OPCODES)
  -- then encode sub-variant
  let encoding := encoding ||| (← u64OneShl (shift + v.opcode.materializeSubvariantIdx))
  let shift := shift + maxVariantBits
  -- then encode flags (the loop over `flags.iter().enumerate()`, unrolled)
  let encoding ← orBitIf v.flags.f0 encoding (shift + 0)
  let encoding ← orBitIf v.flags.f1 encoding (shift + 1)
  let shift := shift + maxNumFlags
  -- then encode src0 addressing mode
  let encoding := encoding ||| (← u64OneShl (shift + v.src0OperandType.variantIdx))
  let shift := shift + NUM_INPUT_VARIANTS
  -- then dst0
  let encoding := encoding ||| (← u64OneShl (shift + v.dst0OperandType.variantIdx))
  let shift := shift + NUM_OUTPUT_VARIANTS
  let aligned ← totalDescriptionBitsRoundedForVersion version
  rassert (decide (shift ≤ aligned))
  let shift := aligned
  -- auxilary information
  let encoding ← orBitIf v.requiresKernelMode encoding shift
  let shift := shift + KERNEL_MODE_FLAG_BITS
  let encoding ← orBitIf v.canBeUsedInStaticContext encoding shift
  let shift := shift + CAN_BE_USED_IN_STATIC_CONTEXT_FLAG_BITS
  let encoding ← orBitIf v.isExplicitPanic encoding shift
  let shift := shift + EXPLICIT_PANIC_FLAG_BITS
  rassert (decide (shift ≤ 64))
  .ok encoding

/-- `synthesize_bit_decomposition_table`, `src/definitions/mod.rs:701-720` -/
def synthesizeBitDecompositionTable (opcodes : List OpcodeVariant) (assertVersion : ISAVersion) :
    Res (List (BitVec 64)) := do
  let ops ← allOpcodes
  rassert (ops.length == OPCODE_TYPE_BITS)
  rassert (ImmMemHandlerFlags.numSrcVariants == OPCODE_INPUT_VARIANT_FLAGS)
  rassert (ImmMemHandlerFlags.numDstVariants == OPCODE_OUTPUT_VARIANT_FLAGS)
  collect (fun opcode => do .ok [← opcodeAsIntegerBitmask opcode assertVersion]) opcodes

/-- `compute_decoding_format`, `src/definitions/mod.rs:894-912`: the six numbers that are formatted
(total, opcode, variant, flags, input, output). The text around them is `computeDecodingFormatText`. -/
def computeDecodingFormat (assertVersion : ISAVersion) : Res (List Nat) := do
  let ops ← allOpcodes
  let numOpcodes := ops.length
  let numOptions ← maxNumVariantsForVersion assertVersion
  let numFlags ← maxNumFlagsForVersion assertVersion
  let inputFlags := ImmMemHandlerFlags.numSrcVariants
  let outputFlags := ImmMemHandlerFlags.numDstVariants
  .ok [numOpcodes + numOptions + numFlags + inputFlags + outputFlags,
    numOpcodes, numOptions, numFlags, inputFlags, outputFlags]

end ZkEvm
