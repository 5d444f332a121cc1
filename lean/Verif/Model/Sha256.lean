import Verif.Model.Hash
/-! Model of how `bytecode_to_code_hash_for_mode` uses the SHA-256 hasher of the `sha2` crate: a hasher that buffers what
is fed to it, compresses each full block of 64 bytes at once, and pads the rest at the end. The crate `sha2` is not in
the repository; its hasher is modelled from its documented behaviour, and its compression function from the SHA-256
standard, with the message schedule in a sliding window of 16 words. -/
namespace ZkEvm.Sha256

/-- A 32-bit word (in `Sha256`, `src/utils.rs:34-41`) -/
abbrev Word := BitVec 32

/-- The eight words of the hash state, or the eight working variables (in `Sha256`, `src/utils.rs:36`) -/
structure State where
  a : Word
  b : Word
  c : Word
  d : Word
  e : Word
  f : Word
  g : Word
  h : Word
deriving DecidableEq, Repr

/-- The initial hash state (in `Sha256::new()`, `src/utils.rs:36`) -/
def INITIAL : State :=
  ⟨0x6a09e667, 0xbb67ae85, 0x3c6ef372, 0xa54ff53a, 0x510e527f, 0x9b05688c, 0x1f83d9ab, 0x5be0cd19⟩

/-- The round constants (in `update` and `finalize`, `src/utils.rs:38-41`) -/
def ROUND_CONSTANTS : List Word := [
  0x428a2f98, 0x71374491, 0xb5c0fbcf, 0xe9b5dba5, 0x3956c25b, 0x59f111f1, 0x923f82a4, 0xab1c5ed5,
  0xd807aa98, 0x12835b01, 0x243185be, 0x550c7dc3, 0x72be5d74, 0x80deb1fe, 0x9bdc06a7, 0xc19bf174,
  0xe49b69c1, 0xefbe4786, 0x0fc19dc6, 0x240ca1cc, 0x2de92c6f, 0x4a7484aa, 0x5cb0a9dc, 0x76f988da,
  0x983e5152, 0xa831c66d, 0xb00327c8, 0xbf597fc7, 0xc6e00bf3, 0xd5a79147, 0x06ca6351, 0x14292967,
  0x27b70a85, 0x2e1b2138, 0x4d2c6dfc, 0x53380d13, 0x650a7354, 0x766a0abb, 0x81c2c92e, 0x92722c85,
  0xa2bfe8a1, 0xa81a664b, 0xc24b8b70, 0xc76c51a3, 0xd192e819, 0xd6990624, 0xf40e3585, 0x106aa070,
  0x19a4c116, 0x1e376c08, 0x2748774c, 0x34b0bcb5, 0x391c0cb3, 0x4ed8aa4a, 0x5b9cca4f, 0x682e6ff3,
  0x748f82ee, 0x78a5636f, 0x84c87814, 0x8cc70208, 0x90befffa, 0xa4506ceb, 0xbef9a3f7, 0xc67178f2]

/-- The words of a block, each from four bytes, the first the most significant (in `update`, `src/utils.rs:38`) -/
def wordsOf : List Byte → List Word
  | a :: b :: c :: d :: rest => (a ++ b ++ c ++ d : BitVec 32) :: wordsOf rest
  | _ => []

/-- The next word of the message schedule, from the last 16 (in `update`, `src/utils.rs:38`) -/
def nextWord (w : List Word) : Word :=
  let w1 := w.getD 1 0
  let w14 := w.getD 14 0
  (w14.rotateRight 17 ^^^ w14.rotateRight 19 ^^^ (w14 >>> 10)) + w.getD 9 0 +
    (w1.rotateRight 7 ^^^ w1.rotateRight 18 ^^^ (w1 >>> 3)) + w.getD 0 0

/-- One round on the working variables (in `update`, `src/utils.rs:38`) -/
def round (s : State) (wk : Word) : State :=
  let x := (s.e.rotateRight 6 ^^^ s.e.rotateRight 11 ^^^ s.e.rotateRight 25) + (s.g ^^^ (s.e &&& (s.f ^^^ s.g))) + wk + s.h
  let y := (s.a.rotateRight 2 ^^^ s.a.rotateRight 13 ^^^ s.a.rotateRight 22) +
    ((s.a &&& s.b) ^^^ (s.a &&& s.c) ^^^ (s.b &&& s.c))
  ⟨x + y, s.a, s.b, s.c, s.d + x, s.e, s.f, s.g⟩

/-- One step: a round with the oldest word of the window, which the next one then replaces (in `update`,
`src/utils.rs:38`) -/
def step (x : State × List Word) (k : Word) : State × List Word :=
  (round x.1 (x.2.getD 0 0 + k), x.2.tail ++ [nextWord x.2])

/-- Addition of states, word by word (in `update`, `src/utils.rs:38`) -/
def State.add (s t : State) : State :=
  ⟨s.a + t.a, s.b + t.b, s.c + t.c, s.d + t.d, s.e + t.e, s.f + t.f, s.g + t.g, s.h + t.h⟩

/-- The compression of one block into the hash state (in `update` and `finalize`, `src/utils.rs:38-41`) -/
def compress (s : State) (block : List Byte) : State :=
  s.add (ROUND_CONSTANTS.foldl step (s, wordsOf block)).1

/-- The four bytes of a word (in `finalize`, `src/utils.rs:41`) -/
def beBytes (w : Word) : List Byte :=
  [w.extractLsb' 24 8, w.extractLsb' 16 8, w.extractLsb' 8 8, w.extractLsb' 0 8]

/-- The digest: the words of the final hash state (in `finalize`, `src/utils.rs:41`) -/
def State.output (s : State) : List Byte :=
  beBytes s.a ++ beBytes s.b ++ beBytes s.c ++ beBytes s.d ++ beBytes s.e ++ beBytes s.f ++ beBytes s.g ++ beBytes s.h

/-- The hasher: hash state, number of blocks compressed, and the bytes (fewer than 64) waiting; `src/utils.rs:36`. The
state and the compression function are parameters. -/
structure Hasher (S : Type) where
  state : S
  blocks : BitVec 64
  buffer : List Byte
deriving DecidableEq

variable {S : Type} (f : S → List Byte → S)

/-- `Sha256::new()`, `src/utils.rs:36` -/
def Hasher.new (initial : S) : Hasher S := ⟨initial, 0, []⟩

/-- Compress the full blocks of the data and keep the rest (in `update`, `src/utils.rs:38`) -/
def absorb (state : S) (blocks : BitVec 64) (data : List Byte) : Hasher S :=
  if data.length < 64 then ⟨state, blocks, data⟩
  else absorb (f state (data.take 64)) (blocks + 1) (data.drop 64)
termination_by data.length
decreasing_by simp; omega

/-- `hasher.update(&w)`, `src/utils.rs:38` -/
def Hasher.update (h : Hasher S) (data : List Byte) : Hasher S :=
  if data.length < 64 - h.buffer.length then { h with buffer := h.buffer ++ data }
  else if h.buffer.isEmpty then absorb f h.state h.blocks data
  else
    absorb f (f h.state (h.buffer ++ data.take (64 - h.buffer.length))) (h.blocks + 1)
      (data.drop (64 - h.buffer.length))

/-- The number of bits hashed, in eight bytes (in `finalize`, `src/utils.rs:41`); it wraps around, as in release builds
(no bytecode is that long, C93) -/
def Hasher.lengthBytes (h : Hasher S) : List Byte :=
  let n : BitVec 64 := 8 * (BitVec.ofNat 64 h.buffer.length + 64 * h.blocks)
  [n.extractLsb' 56 8, n.extractLsb' 48 8, n.extractLsb' 40 8, n.extractLsb' 32 8,
   n.extractLsb' 24 8, n.extractLsb' 16 8, n.extractLsb' 8 8, n.extractLsb' 0 8]

/-- `hasher.finalize()`, `src/utils.rs:41`, up to the final state: a byte 0x80 after the waiting bytes, zeros, and the
number of bits at the end of the block, or of one more block if there is no room -/
def Hasher.finalize (h : Hasher S) : S :=
  let started := h.buffer ++ [0x80]
  if started.length + 8 ≤ 64 then
    f h.state (started ++ List.replicate (64 - 8 - started.length) 0 ++ h.lengthBytes)
  else
    f (f h.state (started ++ List.replicate (64 - started.length) 0)) (List.replicate (64 - 8) 0 ++ h.lengthBytes)

/-- The hasher loop, `src/utils.rs:36-41` -/
def hashWords (initial : S) (words : List (Vector Byte 32)) : S :=
  (words.foldl (fun h w => h.update f w.toList) (Hasher.new initial)).finalize f

/-- `output` of the hasher loop, `src/utils.rs:36-44` -/
def output (words : List (Vector Byte 32)) : Vector Byte 32 :=
  ⟨(hashWords compress INITIAL words).output.toArray, by simp [State.output, beBytes]⟩

/-- `bytecode_to_code_hash_for_mode`, `src/utils.rs:19-61`, with the hasher loop as written; `limit` is
`E::PcOrImm::max().as_u64()` -/
def bytecodeToCodeHashLoop (limit : BitVec 64) (bytecodeWords : List (Vector Byte 32)) : Except Unit (Vector Byte 32) :=
  if bytecodeWords.length % 2 ≠ 1 then .error ()
  else if bytecodeWords.length > limit.toNat then .error ()
  else
    let versionedHash := VersionedHash.fromDigestAndPreimageNumWords (output bytecodeWords)
      (BitVec.ofNat 16 bytecodeWords.length)
    match versionedHash.serialize with
    | some bytes => .ok bytes
    | none => .error ()

end ZkEvm.Sha256
