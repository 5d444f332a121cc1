import Verif.Model.Decoding
/-! Model of the text output of the crate: `Display` for `OpcodeVariant` (`src/definitions/mod.rs:176-187`) and for
`DecodedOpcode` (`src/opcode.rs:76-89`), the derived `Debug` texts they print, and `compute_decoding_format`
(`src/definitions/mod.rs:894-912`). A Rust string is modelled by its list of characters. -/
namespace ZkEvm

/-- A text, as its characters; `src/opcode.rs:76-89` -/
abbrev Text := List Char

/-! ## Derived `Debug`: the name of the variant, with the payload in parentheses -/

/-- `#[derive(Debug)]`, `src/definitions/context.rs:3-16` -/
def ContextOpcode.debug : ContextOpcode → Text
  | .this => "This".toList
  | .caller => "Caller".toList
  | .codeAddress => "CodeAddress".toList
  | .metaParams => "Meta".toList
  | .ergsLeft => "ErgsLeft".toList
  | .sp => "Sp".toList
  | .getContextU128 => "GetContextU128".toList
  | .setContextU128 => "SetContextU128".toList
  | .setErgsPerPubdataByte => "SetErgsPerPubdataByte".toList
  | .incrementTxNumber => "IncrementTxNumber".toList

/-- `#[derive(Debug)]`, `src/definitions/shift.rs:3-10` -/
def ShiftOpcode.debug : ShiftOpcode → Text
  | .shl => "Shl".toList
  | .shr => "Shr".toList
  | .rol => "Rol".toList
  | .ror => "Ror".toList

/-- `#[derive(Debug)]`, `src/definitions/binop.rs:3-9` -/
def BinopOpcode.debug : BinopOpcode → Text
  | .xor => "Xor".toList
  | .and => "And".toList
  | .or => "Or".toList

/-- `#[derive(Debug)]`, `src/definitions/ptr.rs:4-11` -/
def PtrOpcode.debug : PtrOpcode → Text
  | .add => "Add".toList
  | .sub => "Sub".toList
  | .pack => "Pack".toList
  | .shrink => "Shrink".toList

/-- `#[derive(Debug)]`, `src/definitions/log.rs:14-22` -/
def LogOpcode.debug : LogOpcode → Text
  | .storageRead => "StorageRead".toList
  | .storageWrite => "StorageWrite".toList
  | .toL1Message => "ToL1Message".toList
  | .event => "Event".toList
  | .precompileCall => "PrecompileCall".toList

/-- `#[derive(Debug)]`, `src/definitions/far_call.rs:15-21` -/
def FarCallOpcode.debug : FarCallOpcode → Text
  | .normal => "Normal".toList
  | .delegate => "Delegate".toList
  | .mimic => "Mimic".toList

/-- `#[derive(Debug)]`, `src/definitions/ret.rs:10-16` -/
def RetOpcode.debug : RetOpcode → Text
  | .ok => "Ok".toList
  | .revert => "Revert".toList
  | .panic => "Panic".toList

/-- `#[derive(Debug)]`, `src/definitions/uma.rs:13-21` -/
def UMAOpcode.debug : UMAOpcode → Text
  | .heapRead => "HeapRead".toList
  | .heapWrite => "HeapWrite".toList
  | .auxHeapRead => "AuxHeapRead".toList
  | .auxHeapWrite => "AuxHeapWrite".toList
  | .fatPointerRead => "FatPointerRead".toList

/-- `Name(payload)`, as derived `Debug` prints a tuple variant with one field (without `{:#?}`);
`src/definitions/mod.rs:171-187` -/
def debugTuple (name : String) (payload : Text) : Text := name.toList ++ ['('] ++ payload ++ [')']

/-- The writer through which `{:#?}` prints the parts of a value: four spaces before the first character of every line
(standard library: `PadAdapter`); `onNewline` says whether the next character is such a first character. Used for
`src/definitions/mod.rs:119-125` and all other derived `Debug` -/
def padLines : Bool → Text → Text
  | _, [] => []
  | onNewline, c :: s => (if onNewline then "    ".toList else []) ++ c :: padLines (c == '\n') s

/-- One padded part of a value, ended by a comma and a new line, as `{:#?}` prints it (standard library); used for
`src/definitions/mod.rs:119-125` and all other derived `Debug` -/
def prettyPart (s : Text) : Text := padLines true (s ++ ",\n".toList)

/-- A tuple variant with one field printed with `{:#?}` (standard library: `debug_tuple`); `src/definitions/all.rs:3-21` -/
def prettyTuple (name : String) (payload : Text) : Text := name.toList ++ "(\n".toList ++ prettyPart payload ++ [')']

/-- What derived `Debug` prints for a tuple variant with one field: `alt` is the `#` of `{:#?}`, kept by the formatter;
`src/definitions/all.rs:3-21` -/
def fmtTuple (alt : Bool) (name : String) (payload : Text) : Text :=
  if alt then prettyTuple name payload else debugTuple name payload

/-- `#[derive(Debug)]`, `src/definitions/all.rs:3-21`; a unit struct prints its own name
(`src/definitions/{invalid_opcode, noop, mul, div, jump, near_call}.rs:3-4`), the one-variant enums of
`src/definitions/{add, sub}.rs:3-7` print their variant. -/
def Opcode.fmtDebug (alt : Bool) : Opcode → Text
  | .invalid .mk => fmtTuple alt "Invalid" "InvalidOpcode".toList
  | .nop .mk => fmtTuple alt "Nop" "NopOpcode".toList
  | .add .add => fmtTuple alt "Add" "Add".toList
  | .sub .sub => fmtTuple alt "Sub" "Sub".toList
  | .mul .mk => fmtTuple alt "Mul" "MulOpcode".toList
  | .div .mk => fmtTuple alt "Div" "DivOpcode".toList
  | .jump .mk => fmtTuple alt "Jump" "JumpOpcode".toList
  | .context o => fmtTuple alt "Context" o.debug
  | .shift o => fmtTuple alt "Shift" o.debug
  | .binop o => fmtTuple alt "Binop" o.debug
  | .ptr o => fmtTuple alt "Ptr" o.debug
  | .nearCall .mk => fmtTuple alt "NearCall" "NearCallOpcode".toList
  | .log o => fmtTuple alt "Log" o.debug
  | .farCall o => fmtTuple alt "FarCall" o.debug
  | .ret o => fmtTuple alt "Ret" o.debug
  | .uma o => fmtTuple alt "UMA" o.debug
/-- `{:?}`, `src/definitions/all.rs:3-21` -/
def Opcode.debug (o : Opcode) : Text := o.fmtDebug false

/-- `#[derive(Debug)]`, `src/imm_mem_modifiers.rs:1-10` -/
def ImmMemHandlerFlags.debug : ImmMemHandlerFlags → Text
  | .useRegOnly => "UseRegOnly".toList
  | .useStackWithPushPop => "UseStackWithPushPop".toList
  | .useStackWithOffset => "UseStackWithOffset".toList
  | .useAbsoluteOnStack => "UseAbsoluteOnStack".toList
  | .useImm16Only => "UseImm16Only".toList
  | .useCodePage => "UseCodePage".toList

/-- `#[derive(Debug)]`, `src/imm_mem_modifiers.rs:80-85` -/
def RegOrImmFlags.debug : RegOrImmFlags → Text
  | .useRegOnly => "UseRegOnly".toList
  | .useImm16Only => "UseImm16Only".toList

/-- `#[derive(Debug)]`, `src/definitions/opcode_trait.rs:3-8` -/
def Operand.fmtDebug (alt : Bool) : Operand → Text
  | .regOnly => "RegOnly".toList
  | .regOrImm f => fmtTuple alt "RegOrImm" f.debug
  | .full f => fmtTuple alt "Full" f.debug
/-- `{:?}`, `src/definitions/opcode_trait.rs:3-8` -/
def Operand.debug (o : Operand) : Text := o.fmtDebug false

/-- `#[derive(Debug)]`, `src/definitions/condition.rs:1-12` -/
def Condition.debug : Condition → Text
  | .always => "Always".toList
  | .gt => "Gt".toList
  | .lt => "Lt".toList
  | .eq => "Eq".toList
  | .ge => "Ge".toList
  | .le => "Le".toList
  | .ne => "Ne".toList
  | .gtOrLt => "GtOrLt".toList

/-! ## Numbers -/

/-- The character of one digit, lower case; `src/opcode.rs:86-87` -/
def digitChar (d : Nat) : Char :=
  if d < 10 then Char.ofNat ('0'.toNat + d) else Char.ofNat ('a'.toNat + (d - 10))

/-- The digits of `n` in base `base`, least significant first; `fuel` bounds their number; `src/opcode.rs:83-87` -/
def digitsRev (base : Nat) : Nat → Nat → List Nat
  | 0, _ => []
  | fuel + 1, n => if n < base then [n] else n % base :: digitsRev base fuel (n / base)

/-- `{}` of an unsigned integer of at most 128 bits (standard library: `Display`; at most 39 decimal digits);
`src/opcode.rs:83-84` -/
def fmtDec (n : Nat) : Text := ((digitsRev 10 39 n).reverse).map digitChar

/-- The digits of `{:x}` of an unsigned integer of at most 128 bits (standard library: `LowerHex`);
`src/opcode.rs:86-87` -/
def fmtHexDigits (n : Nat) : Text := ((digitsRev 16 32 n).reverse).map digitChar

/-- `{:#08x}` (standard library): `0x`, then zeros so that the whole has at least 8 characters, then the digits;
`src/opcode.rs:86-87` -/
def fmtHex08 (n : Nat) : Text :=
  let digits := fmtHexDigits n
  ['0', 'x'] ++ List.replicate (8 - (2 + digits.length)) '0' ++ digits

/-- `{:#01}` of a `bool` (standard library): padding to width 1 has no effect; `src/definitions/mod.rs:183` -/
def fmtBool : Bool → Text
  | true => "true".toList
  | false => "false".toList

/-! ## `Display` -/

/-- `Display for OpcodeVariant`, `src/definitions/mod.rs:176-187` -/
def OpcodeVariant.display (v : OpcodeVariant) : Text :=
  "Opcode and variant: ".toList ++ v.opcode.debug ++ ['\n'] ++
  ("Src0 operand type: ".toList ++ v.src0OperandType.debug ++ ['\n'] ++
  ("Dst0 operand type: ".toList ++ v.dst0OperandType.debug ++ ['\n'] ++
  ("Non-exclusive flags: ".toList ++ fmtBool v.flags.f0 ++ ['|'] ++ fmtBool v.flags.f1)))

/-- `Display for DecodedOpcode`, `src/opcode.rs:76-89` -/
def DecodedOpcode.display {w : Nat} (o : DecodedOpcode w) : Text :=
  o.variant.display ++ ['\n'] ++
  ("Condition: ".toList ++ o.condition.debug ++ ['\n'] ++
  ("Register selections: src0 = r".toList ++ fmtDec o.src0RegIdx.toNat ++
    ", src1 = r".toList ++ fmtDec o.src1RegIdx.toNat ++ ", dst0 = r".toList ++ fmtDec o.dst0RegIdx.toNat ++
    ", dst1 = r".toList ++ fmtDec o.dst1RegIdx.toNat ++ ['\n'] ++
  ("IMM0 constant: ".toList ++ fmtHex08 o.imm0.toNat ++ ['\n'] ++
  ("IMM1 constant: ".toList ++ fmtHex08 o.imm1.toNat))))

/-- The text of `compute_decoding_format`, `src/definitions/mod.rs:904-911`; the numbers are those of
`computeDecodingFormat`. -/
def computeDecodingFormatText (assertVersion : ISAVersion) : Res Text := do
  match ← computeDecodingFormat assertVersion with
  | [totalBits, numOpcodes, numOptions, numFlags, inputFlags, outputFlags] =>
    .ok (fmtDec totalBits ++ " bits in total.\n".toList ++
      fmtDec numOpcodes ++ " bit flags for opcode|".toList ++
      fmtDec numOptions ++ " bit flags for variant|".toList ++
      fmtDec numFlags ++ " bit flags for flags|".toList ++
      fmtDec inputFlags ++ " bits flags for input type|".toList ++
      fmtDec outputFlags ++ " bit flags for output type".toList)
  | _ => .error .unreachable

end ZkEvm
