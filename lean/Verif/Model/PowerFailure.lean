import Verif.Model.GeneratorRun
/-! What a power failure does to the file that `src/circuit_pricing_generator/main.rs:43-53` writes. The generator never
calls `sync_all`, so what it wrote may be in memory only.

Simplification: the disk then holds any of the lengths the file had since the system was started, and in every place a
byte the file had there at some time since, or zero. -/
namespace ZkEvm.PriceGenerator

/-- What can happen from `w` on, with all contents the file had, newest first;
`src/circuit_pricing_generator/main.rs:50-52` -/
inductive Seen (text : List Byte) (w : World) : World → List (List Byte) → Prop
  | refl : Seen text w w [w.file]
  | step {w' w'' fs} : Seen text w w' fs → Acts text w' w'' → Seen text w w'' (w''.file :: fs)

/-- What the disk may hold after a power failure, if the file had these contents; no `sync_all` after
`src/circuit_pricing_generator/main.rs:51` -/
def Survives (seen : List (List Byte)) (disk : List Byte) : Prop :=
  (∃ f ∈ seen, disk.length = f.length) ∧
  ∀ (i : Nat) b, disk[i]? = some b → b = 0 ∨ ∃ f ∈ seen, f[i]? = some b

/-- The contents the file can have after power failures: each time the system is up, any number of generators run on it,
in any interleaving, up to any point. `src/circuit_pricing_generator/main.rs:43-53` -/
inductive Boots (text old : List Byte) : List Byte → Prop
  | first : Boots text old old
  | failure {f w seen disk} (n : Nat) : Boots text old f → Seen text (launch f n) w seen → Survives seen disk →
      Boots text old disk

end ZkEvm.PriceGenerator
