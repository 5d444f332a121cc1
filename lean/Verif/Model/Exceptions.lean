import Verif.Model.Abi
/-! Model of the methods that `bitflags::bitflags!` (version 2, `Cargo.toml:16`) generates for
`FatPointerValidationException`, `src/definitions/abi/fat_pointer.rs:11-16`. The struct has no derives, so it can be read
only by these methods: it has no `Clone`, `PartialEq` or `Debug` of its own. The source of `bitflags` is not part of
`/repo`; the methods are modelled from its documentation. `empty`, `insert`, `contains` and `is_empty` are in
`Verif/Model/Abi.lean`. -/
namespace ZkEvm.FatPointerValidationException

/-- `bits()`, `src/definitions/abi/fat_pointer.rs:12` -/
def bitsOf (e : FatPointerValidationException) : BitVec 64 := e.bits

/-- The declared flags with their names, in order of declaration; `src/definitions/abi/fat_pointer.rs:13-14` -/
def FLAGS : List (String × FatPointerValidationException) :=
  [("OFFSET_IS_NOT_ZERO_WHEN_EXPECTED", OFFSET_IS_NOT_ZERO_WHEN_EXPECTED),
   ("DEREF_BEYOND_HEAP_RANGE", DEREF_BEYOND_HEAP_RANGE)]

/-- `all()`: the declared bits; `src/definitions/abi/fat_pointer.rs:11-16` -/
def all : FatPointerValidationException := FLAGS.foldl (fun e f => ⟨e.bits ||| f.2.bits⟩) ⟨0#64⟩

/-- `from_bits_retain`; `src/definitions/abi/fat_pointer.rs:11-16` -/
def fromBitsRetain (bits : BitVec 64) : FatPointerValidationException := ⟨bits⟩

/-- `from_bits_truncate`: undeclared bits are dropped; `src/definitions/abi/fat_pointer.rs:11-16` -/
def fromBitsTruncate (bits : BitVec 64) : FatPointerValidationException := ⟨bits &&& all.bits⟩

/-- `from_bits`: `None` if there are undeclared bits; `src/definitions/abi/fat_pointer.rs:11-16` -/
def fromBits (bits : BitVec 64) : Option FatPointerValidationException :=
  if (fromBitsTruncate bits).bits = bits then some (fromBitsTruncate bits) else none

/-- `from_name`; `src/definitions/abi/fat_pointer.rs:11-16` -/
def fromName (name : String) : Option FatPointerValidationException := FLAGS.lookup name

/-- `is_all`; `src/definitions/abi/fat_pointer.rs:11-16` -/
def isAll (e : FatPointerValidationException) : Bool := all.bits ||| e.bits == e.bits

/-- `intersects`; `src/definitions/abi/fat_pointer.rs:11-16` -/
def intersects (e f : FatPointerValidationException) : Bool := e.bits &&& f.bits != 0#64

/-- `remove`, `difference` and `-`; `src/definitions/abi/fat_pointer.rs:11-16` -/
def remove (e f : FatPointerValidationException) : FatPointerValidationException := ⟨e.bits &&& ~~~f.bits⟩

/-- `toggle`, `symmetric_difference` and `^`; `src/definitions/abi/fat_pointer.rs:11-16` -/
def toggle (e f : FatPointerValidationException) : FatPointerValidationException := ⟨e.bits ^^^ f.bits⟩

/-- `set`; `src/definitions/abi/fat_pointer.rs:53,61` -/
def set (e f : FatPointerValidationException) (value : Bool) : FatPointerValidationException :=
  if value then e.insert f else e.remove f

/-- `union` and `|`; `src/definitions/abi/fat_pointer.rs:11-16` -/
def union (e f : FatPointerValidationException) : FatPointerValidationException := ⟨e.bits ||| f.bits⟩

/-- `intersection` and `&`; `src/definitions/abi/fat_pointer.rs:11-16` -/
def intersection (e f : FatPointerValidationException) : FatPointerValidationException := ⟨e.bits &&& f.bits⟩

/-- `complement` and `!`: undeclared bits are dropped; `src/definitions/abi/fat_pointer.rs:11-16` -/
def complement (e : FatPointerValidationException) : FatPointerValidationException := fromBitsTruncate (~~~e.bits)

/-- The loop of `iter_names`: what it yields and the bits that remain; `src/definitions/abi/fat_pointer.rs:11-16` -/
def iterLoop (source : FatPointerValidationException) :
    List (String × FatPointerValidationException) → FatPointerValidationException →
      List (String × FatPointerValidationException) × FatPointerValidationException
  | [], remaining => ([], remaining)
  | f :: fs, remaining =>
    if remaining.isEmpty then ([], remaining)
    else if source.contains f.2 && remaining.intersects f.2 then
      let (names, rest) := iterLoop source fs (remaining.remove f.2)
      (f :: names, rest)
    else iterLoop source fs remaining

/-- `iter_names()`, collected; `src/definitions/abi/fat_pointer.rs:11-16` -/
def iterNames (e : FatPointerValidationException) : List (String × FatPointerValidationException) := (iterLoop e FLAGS e).1

/-- `iter()`, collected: the flags, then the undeclared bits if there are any; `src/definitions/abi/fat_pointer.rs:11-16` -/
def iter (e : FatPointerValidationException) : List FatPointerValidationException :=
  let (names, rest) := iterLoop e FLAGS e
  names.map Prod.snd ++ if rest.isEmpty then [] else [rest]

/-- `extend`, and with `empty()` also `from_iter`; `src/definitions/abi/fat_pointer.rs:11-16` -/
def extend (e : FatPointerValidationException) (fs : List FatPointerValidationException) : FatPointerValidationException :=
  fs.foldl insert e

end ZkEvm.FatPointerValidationException
