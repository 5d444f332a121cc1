import Verif.Spec.Text
import Verif.Model.Condition
import Verif.Model.Abi
import Verif.Model.Table
/-! Specification of texts as Rust's `{:?}` prints them: a reader for such texts, and the names of the instructions. The
reader knows nothing of the crate's types. Nothing in this file is a function of the crate. -/
namespace ZkEvm.Spec

/-- What a `{:?}` text says -/
inductive Printed
  | number (n : Nat)
  | word (name : List Char)
  | tuple (name : List Char) (x : Printed)
  | record (name : List Char) (fields : List (List Char × Printed))
  | list (xs : List Printed)

/-- Characters of names -/
def isNameChar (c : Char) : Bool := c.isAlphanum || c == '_'

/-- Read `x, y, z]` with a given reader of items; `fuel` bounds the number of items. -/
def readItems (read : List Char → Option (Printed × List Char)) : Nat → List Char → Option (List Printed × List Char)
  | 0, _ => none
  | fuel + 1, s => do
    let (x, s) ← read s
    match s with
    | ']' :: s => some ([x], s)
    | ',' :: ' ' :: s => do
      let (xs, s) ← readItems read fuel s
      some (x :: xs, s)
    | _ => none

/-- Read `a: x, b: y }` with a given reader of values; `fuel` bounds the number of fields. -/
def readFields (read : List Char → Option (Printed × List Char)) :
    Nat → List Char → Option (List (List Char × Printed) × List Char)
  | 0, _ => none
  | fuel + 1, s =>
    if (s.takeWhile isNameChar).isEmpty then none
    else match s.dropWhile isNameChar with
    | ':' :: ' ' :: r => do
      let (x, r) ← read r
      match r with
      | ',' :: ' ' :: r => do
        let (fs, r) ← readFields read fuel r
        some ((s.takeWhile isNameChar, x) :: fs, r)
      | ' ' :: '}' :: r => some ([(s.takeWhile isNameChar, x)], r)
      | _ => none
    | _ => none

/-- Read one value from the front of a text: a number, `[x, y]`, `Name(x)`, `Name { a: x, b: y }` or a name. -/
def readPrinted : Nat → List Char → Option (Printed × List Char)
  | 0, _ => none
  | _ + 1, [] => none
  | fuel + 1, c :: s =>
    if c = '[' then
      if s.head? = some ']' then some (.list [], s.tail)
      else (readItems (readPrinted fuel) fuel s).map fun r => (.list r.1, r.2)
    else if c.isDigit then
      some (.number (readNumber 10 ((c :: s).takeWhile Char.isDigit)), (c :: s).dropWhile Char.isDigit)
    else if isNameChar c then
      match (c :: s).dropWhile isNameChar with
      | '(' :: r =>
        match readPrinted fuel r with
        | some (x, ')' :: r) => some (.tuple ((c :: s).takeWhile isNameChar) x, r)
        | _ => none
      | ' ' :: '{' :: ' ' :: r =>
        (readFields (readPrinted fuel) fuel r).map fun p => (.record ((c :: s).takeWhile isNameChar) p.1, p.2)
      | r => some (.word ((c :: s).takeWhile isNameChar), r)
    else none

/-- Read a whole text -/
def readDebug (s : List Char) : Option Printed :=
  match readPrinted s.length s with
  | some (x, []) => some x
  | _ => none

/-! ## Names of the values without fields, as the crate declares them -/

/-- A name in a text -/
def wordOf (name : String) : Printed := .word name.toList
/-- `Name(x)` in a text -/
def tupleOf (name : String) (x : Printed) : Printed := .tuple name.toList x
/-- `Name { a: x, b: y }` in a text -/
def recordOf (name : String) (fields : List (String × Printed)) : Printed :=
  .record name.toList (fields.map fun f => (f.1.toList, f.2))

def boolWord (b : Bool) : Printed := if b then wordOf "true" else wordOf "false"

def conditionName : Condition → String
  | .always => "Always" | .gt => "Gt" | .lt => "Lt" | .eq => "Eq" | .ge => "Ge" | .le => "Le" | .ne => "Ne" | .gtOrLt => "GtOrLt"

def operandPrinted : Operand → Printed
  | .regOnly => wordOf "RegOnly"
  | .regOrImm .useRegOnly => tupleOf "RegOrImm" (wordOf "UseRegOnly")
  | .regOrImm .useImm16Only => tupleOf "RegOrImm" (wordOf "UseImm16Only")
  | .full .useRegOnly => tupleOf "Full" (wordOf "UseRegOnly")
  | .full .useStackWithPushPop => tupleOf "Full" (wordOf "UseStackWithPushPop")
  | .full .useStackWithOffset => tupleOf "Full" (wordOf "UseStackWithOffset")
  | .full .useAbsoluteOnStack => tupleOf "Full" (wordOf "UseAbsoluteOnStack")
  | .full .useImm16Only => tupleOf "Full" (wordOf "UseImm16Only")
  | .full .useCodePage => tupleOf "Full" (wordOf "UseCodePage")

/-- Family and member name of an opcode -/
def opcodeNames : Opcode → String × String
  | .invalid _ => ("Invalid", "InvalidOpcode")
  | .nop _ => ("Nop", "NopOpcode")
  | .add _ => ("Add", "Add")
  | .sub _ => ("Sub", "Sub")
  | .mul _ => ("Mul", "MulOpcode")
  | .div _ => ("Div", "DivOpcode")
  | .jump _ => ("Jump", "JumpOpcode")
  | .context o => ("Context", match o with
    | .this => "This" | .caller => "Caller" | .codeAddress => "CodeAddress" | .metaParams => "Meta" | .ergsLeft => "ErgsLeft"
    | .sp => "Sp" | .getContextU128 => "GetContextU128" | .setContextU128 => "SetContextU128"
    | .setErgsPerPubdataByte => "SetErgsPerPubdataByte" | .incrementTxNumber => "IncrementTxNumber")
  | .shift o => ("Shift", match o with | .shl => "Shl" | .shr => "Shr" | .rol => "Rol" | .ror => "Ror")
  | .binop o => ("Binop", match o with | .xor => "Xor" | .and => "And" | .or => "Or")
  | .ptr o => ("Ptr", match o with | .add => "Add" | .sub => "Sub" | .pack => "Pack" | .shrink => "Shrink")
  | .nearCall _ => ("NearCall", "NearCallOpcode")
  | .log o => ("Log", match o with
    | .storageRead => "StorageRead" | .storageWrite => "StorageWrite" | .toL1Message => "ToL1Message" | .event => "Event"
    | .precompileCall => "PrecompileCall")
  | .farCall o => ("FarCall", match o with | .normal => "Normal" | .delegate => "Delegate" | .mimic => "Mimic")
  | .ret o => ("Ret", match o with | .ok => "Ok" | .revert => "Revert" | .panic => "Panic")
  | .uma o => ("UMA", match o with
    | .heapRead => "HeapRead" | .heapWrite => "HeapWrite" | .auxHeapRead => "AuxHeapRead" | .auxHeapWrite => "AuxHeapWrite"
    | .fatPointerRead => "FatPointerRead")

/-- `Family(Member)` -/
def opcodePrinted (o : Opcode) : Printed := tupleOf (opcodeNames o).1 (wordOf (opcodeNames o).2)

/-- A variant, field by field -/
def variantPrinted (v : OpcodeVariant) : Printed :=
  recordOf "OpcodeVariant"
    [("opcode", opcodePrinted v.opcode), ("src0_operand_type", operandPrinted v.src0OperandType),
     ("dst0_operand_type", operandPrinted v.dst0OperandType), ("flags", .list [boolWord v.flags.f0, boolWord v.flags.f1])]

/-- A fat pointer, field by field -/
def pointerPrinted (p : FatPointer) : Printed :=
  recordOf "FatPointer"
    [("offset", .number p.offset.toNat), ("memory_page", .number p.memoryPage.toNat), ("start", .number p.start.toNat),
     ("length", .number p.length.toNat)]

def farCallModeName : FarCallForwardPageType → String
  | .useHeap => "UseHeap" | .forwardFatPointer => "ForwardFatPointer" | .useAuxHeap => "UseAuxHeap"

def retModeName : RetForwardPageType → String
  | .useHeap => "UseHeap" | .forwardFatPointer => "ForwardFatPointer" | .useAuxHeap => "UseAuxHeap"

end ZkEvm.Spec
