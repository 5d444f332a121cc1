import Verif.Model.PriceGenerator
/-! Model of how `src/circuit_pricing_generator/main.rs:43-53` puts its text into the file: `File::create`, then
`write_all`, in any number of generator processes running at the same time on the same file.

Simplifications: the text is ASCII, one byte per character; the file is its sequence of bytes; `File::create` and each
`write` system call are atomic; a `write` puts any non-empty part of what remains (short writes) at the process's own
file position, filling a gap with zeros; `ErrorKind::Interrupted` retries leave no trace. A process that crashes, or is
killed, makes no further step, so every reachable state is a crash point. What a power failure does to the disk is in
`Verif/Model/PowerFailure.lean`. -/
namespace ZkEvm.PriceGenerator

/-- `file_content.as_bytes()`, `src/circuit_pricing_generator/main.rs:51` -/
def asBytes (s : String) : List Byte := s.toList.map fun c => BitVec.ofNat 8 c.toNat

/-- Where a generator process is in `save_circiut_prices`, `src/circuit_pricing_generator/main.rs:43-53` -/
inductive Phase
  /-- before `File::create` (50) -/
  | start
  /-- in `write_all` (51), with this many bytes written -/
  | writing (pos : Nat)
  /-- returned -/
  | done
  /-- panicked in one of the `expect`s (50, 52) -/
  | failed
deriving DecidableEq, Repr

/-- Bytes of the file after `chunk` is written at position `pos`; `src/circuit_pricing_generator/main.rs:51` -/
def writeAt (file : List Byte) (pos : Nat) (chunk : List Byte) : List Byte :=
  file.take pos ++ List.replicate (pos - file.length) 0 ++ chunk ++ file.drop (pos + chunk.length)

/-- One system call of a process that wants to write `text`: the new file and phase;
`src/circuit_pricing_generator/main.rs:50-52` -/
inductive Call (text : List Byte) : List Byte × Phase → List Byte × Phase → Prop
  /-- `File::create` (50): creates or truncates -/
  | create (file) : Call text (file, .start) ([], .writing 0)
  /-- `File::create` fails (50) -/
  | createFails (file) : Call text (file, .start) (file, .failed)
  /-- one `write` of `write_all` (51), of `n` bytes -/
  | write (file pos n) (hn : 0 < n) (h : pos + n ≤ text.length) :
      Call text (file, .writing pos) (writeAt file pos ((text.drop pos).take n), .writing (pos + n))
  /-- `write` fails, or writes nothing (51-52) -/
  | writeFails (file pos) (h : pos < text.length) : Call text (file, .writing pos) (file, .failed)
  /-- everything is written; `main` returns -/
  | finish (file) : Call text (file, .writing text.length) (file, .done)

/-- The file, the processes, and the processes that have truncated the file, latest first;
`src/circuit_pricing_generator/main.rs:43-53` -/
structure World where
  file : List Byte
  procs : List Phase
  created : List Nat

/-- Some process makes a system call. Used for `src/circuit_pricing_generator/main.rs:50-52` -/
inductive Acts (text : List Byte) : World → World → Prop
  | act (w : World) (p : Nat) (ph ph' : Phase) (file') (hp : w.procs[p]? = some ph)
      (hc : Call text (w.file, ph) (file', ph')) :
      Acts text w ⟨file', w.procs.set p ph',
        if ph = .start ∧ ph' = .writing 0 then p :: w.created else w.created⟩

/-- What can happen from `w` on; `src/circuit_pricing_generator/main.rs:50-52` -/
inductive Reaches (text : List Byte) (w : World) : World → Prop
  | refl : Reaches text w w
  | step {w' w''} : Reaches text w w' → Acts text w' w'' → Reaches text w w''

/-- `n` generator processes are about to run; the file holds `old`; `src/circuit_pricing_generator/main.rs:43` -/
def launch (old : List Byte) (n : Nat) : World := ⟨old, List.replicate n .start, []⟩

end ZkEvm.PriceGenerator
