import Verif.Model.Exceptions
import Verif.Model.Display
/-! Model of the texts of `FatPointerValidationException`, `src/definitions/abi/fat_pointer.rs:11-16`: the writer and the
parser `bitflags::parser` (version 2, `Cargo.toml:16`), and the formatting in bases that the macro generates. The source
of `bitflags` is not part of `/repo`; it is modelled from its documentation. Standard library functions on texts
(`trim`, `split`, `strip_prefix`, `u64::from_str_radix`) are modelled from theirs. A `ParseError` is its kind, without
the text that it quotes. -/
namespace ZkEvm.FatPointerValidationException

/-- Kinds of `bitflags::parser::ParseError`; `src/definitions/abi/fat_pointer.rs:11-16` -/
inductive ParseError
  | emptyFlag
  | invalidNamedFlag
  | invalidHexFlag
deriving DecidableEq

/-! ## Writing -/

/-- The loop of the writer: a separator before every part but the first; `src/definitions/abi/fat_pointer.rs:11-16` -/
def writeParts (first : Bool) : List Text → Text
  | [] => []
  | p :: ps => (if first then [] else " | ".toList) ++ p ++ writeParts false ps

/-- `parser::to_writer`: the names, then the undeclared bits in base 16; `src/definitions/abi/fat_pointer.rs:11-16` -/
def toWriter (e : FatPointerValidationException) : Text :=
  let (names, remaining) := iterLoop e FLAGS e
  writeParts true (names.map (fun f => f.1.toList) ++
    if remaining.bits != 0#64 then ["0x".toList ++ fmtHexDigits remaining.bits.toNat] else [])

/-- `parser::to_writer_truncate`; `src/definitions/abi/fat_pointer.rs:11-16` -/
def toWriterTruncate (e : FatPointerValidationException) : Text := toWriter (fromBitsTruncate e.bits)

/-- `parser::to_writer_strict`: only the names; `src/definitions/abi/fat_pointer.rs:11-16` -/
def toWriterStrict (e : FatPointerValidationException) : Text := writeParts true (e.iterNames.map fun f => f.1.toList)

/-! ## Reading -/

/-- `char::is_whitespace`: the property `White_Space` of Unicode; `src/definitions/abi/fat_pointer.rs:11-16` -/
def isWhitespace (c : Char) : Bool :=
  let n := c.toNat
  (9 ≤ n && n ≤ 13) || n == 0x20 || n == 0x85 || n == 0xa0 || n == 0x1680 || (0x2000 ≤ n && n ≤ 0x200a) || n == 0x2028 ||
    n == 0x2029 || n == 0x202f || n == 0x205f || n == 0x3000

/-- `str::trim`; `src/definitions/abi/fat_pointer.rs:11-16` -/
def trim (t : Text) : Text := ((t.dropWhile isWhitespace).reverse.dropWhile isWhitespace).reverse

/-- `str::split('|')`, collected: one part more than there are separators; `src/definitions/abi/fat_pointer.rs:11-16` -/
def splitBar : Text → List Text
  | [] => [[]]
  | c :: t =>
    if c = '|' then [] :: splitBar t
    else match splitBar t with
      | p :: ps => (c :: p) :: ps
      | [] => [[c]]

/-- `char::to_digit(16)`; `src/definitions/abi/fat_pointer.rs:11-16` -/
def toDigit16 (c : Char) : Option Nat :=
  let n := c.toNat
  if 48 ≤ n ∧ n ≤ 57 then some (n - 48)
  else if 97 ≤ n ∧ n ≤ 102 then some (n - 87)
  else if 65 ≤ n ∧ n ≤ 70 then some (n - 55)
  else none

/-- The loop of `u64::from_str_radix(_, 16)`: checked multiplication, checked addition;
`src/definitions/abi/fat_pointer.rs:11-16` -/
def radixLoop : Nat → Text → Option Nat
  | acc, [] => some acc
  | acc, c :: t =>
    match toDigit16 c with
    | none => none
    | some d =>
      if 2 ^ 64 ≤ acc * 16 then none
      else if 2 ^ 64 ≤ acc * 16 + d then none
      else radixLoop (acc * 16 + d) t

/-- `u64::from_str_radix(_, 16)`, `ParseHex::parse_hex`: a plus sign before the digits is skipped, no digits are an error;
`src/definitions/abi/fat_pointer.rs:11-16` -/
def parseHex (t : Text) : Option Nat :=
  match t with
  | [] => none
  | ['+'] => none
  | '+' :: t => radixLoop 0 t
  | t => radixLoop 0 t

/-- One part of the parser's input, trimmed; `src/definitions/abi/fat_pointer.rs:11-16` -/
def parseFlag (flag : Text) : Except ParseError FatPointerValidationException :=
  if flag.isEmpty then .error .emptyFlag
  else match flag with
    | '0' :: 'x' :: hex =>
      match parseHex hex with
      | some n => .ok (fromBitsRetain (BitVec.ofNat 64 n))
      | none => .error .invalidHexFlag
    | _ =>
      match fromName (String.ofList flag) with
      | some f => .ok f
      | none => .error .invalidNamedFlag

/-- One part for the strict parser; `src/definitions/abi/fat_pointer.rs:11-16` -/
def parseFlagStrict (flag : Text) : Except ParseError FatPointerValidationException :=
  if flag.isEmpty then .error .emptyFlag
  else match flag with
    | '0' :: 'x' :: _ => .error .invalidHexFlag
    | _ =>
      match fromName (String.ofList flag) with
      | some f => .ok f
      | none => .error .invalidNamedFlag

/-- The loop over the parts; `src/definitions/abi/fat_pointer.rs:11-16` -/
def parseLoop (one : Text → Except ParseError FatPointerValidationException) (parsed : FatPointerValidationException) :
    List Text → Except ParseError FatPointerValidationException
  | [] => .ok parsed
  | p :: ps =>
    match one (trim p) with
    | .error e => .error e
    | .ok f => parseLoop one (parsed.insert f) ps

/-- `parser::from_str`; `src/definitions/abi/fat_pointer.rs:11-16` -/
def fromStr (input : Text) : Except ParseError FatPointerValidationException :=
  if (trim input).isEmpty then .ok empty else parseLoop parseFlag empty (splitBar input)

/-- `parser::from_str_truncate`; `src/definitions/abi/fat_pointer.rs:11-16` -/
def fromStrTruncate (input : Text) : Except ParseError FatPointerValidationException :=
  match fromStr input with
  | .ok e => .ok (fromBitsTruncate e.bits)
  | .error e => .error e

/-- `parser::from_str_strict`; `src/definitions/abi/fat_pointer.rs:11-16` -/
def fromStrStrict (input : Text) : Except ParseError FatPointerValidationException :=
  if (trim input).isEmpty then .ok empty else parseLoop parseFlagStrict empty (splitBar input)

/-! ## Formatting in bases -/

/-- The character of one digit, upper case; `src/definitions/abi/fat_pointer.rs:11-16` -/
def digitCharUpper (d : Nat) : Char :=
  if d < 10 then Char.ofNat ('0'.toNat + d) else Char.ofNat ('A'.toNat + (d - 10))

/-- `{:b}`; `src/definitions/abi/fat_pointer.rs:11-16` -/
def fmtBinary (e : FatPointerValidationException) : Text := ((digitsRev 2 64 e.bits.toNat).reverse).map digitChar

/-- `{:o}`; `src/definitions/abi/fat_pointer.rs:11-16` -/
def fmtOctal (e : FatPointerValidationException) : Text := ((digitsRev 8 22 e.bits.toNat).reverse).map digitChar

/-- `{:x}`; `src/definitions/abi/fat_pointer.rs:11-16` -/
def fmtLowerHex (e : FatPointerValidationException) : Text := fmtHexDigits e.bits.toNat

/-- `{:X}`; `src/definitions/abi/fat_pointer.rs:11-16` -/
def fmtUpperHex (e : FatPointerValidationException) : Text := ((digitsRev 16 32 e.bits.toNat).reverse).map digitCharUpper

end ZkEvm.FatPointerValidationException
