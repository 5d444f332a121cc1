import Verif.Spec.Contents
/-! A machine that runs: what it does in a cycle is a function of the state outside memory and of those bytes of memory that the
running frame can read. Nothing in this file is a function of the crate. -/
namespace ZkEvm.Spec.Interference
open Spec.Frames Spec.Isolation Spec.Contents

/-- What the running frame can read: its own pages, the slices of the pointers it holds, and code that some call has loaded,
as a machine may share it between calls -/
inductive Readable (W : World) : BitVec 32 → BitVec 32 → Prop
  | own {r : Room} {rs : List Room} {page : Nat} (a : BitVec 32) : W.rooms = r :: rs → page ∈ pagesOf r.base →
      Readable W (BitVec.ofNat 32 page) a
  | code {b : Nat} (a : BitVec 32) : b ∈ BOOTLOADER_BASE_PAGE :: W.bases → Readable W (BitVec.ofNat 32 (codePage b)) a
  | slice {r : Room} {rs : List Room} {w : U256} {p : FatPointer} {a : BitVec 32} : W.rooms = r :: rs → w ∈ r.pointers →
      Carries w p → p.start.toNat ≤ a.toNat → a.toNat < p.start.toNat + p.length.toNat → Readable W p.memoryPage a

/-- Bytes to be written -/
abbrev Patch := BitVec 32 → BitVec 32 → Option Byte

/-- The contents `μ` after writing `w` -/
def patched (w : Patch) (μ : Contents) : Contents := fun page a => (w page a).getD (μ page a)

/-- What a machine does in a cycle: the next state, the cycle, the next world, and what is written -/
structure Done (m : Mode) (S : Type) where
  state : S
  cycle : Cycle m
  world : World
  patch : Patch

/-- A machine; `S` is all its state but memory: registers, storage, code that can be loaded and so on. It stops where `step` is
`none`. -/
structure Runner (m : Mode) (S : Type) where
  step : S → World → Contents → Option (Done m S)
  /-- each cycle is one that the frames, pages and pointers allow -/
  moves : ∀ {s W μ d}, step s W μ = some d → Moves m W d.cycle d.world
  /-- it writes only where its instruction may -/
  writes : ∀ {s W μ d page a v}, step s W μ = some d → d.patch page a = some v →
    ∃ r rs, W.rooms = r :: rs ∧ MayWrite r.base W.counter d.cycle.issued.opcode page
  /-- it reads only what the running frame can read, unless it is a precompile call -/
  reads : ∀ {s W μ ν d}, step s W μ = some d → d.cycle.issued.opcode ≠ .log .precompileCall →
    (∀ page a, Readable W page a → μ page a = ν page a) → step s W ν = some d

/-- The machine runs from one state, world and contents to another; each cycle starts with more than `k` frames. -/
inductive Runs {m : Mode} {S : Type} (M : Runner m S) (k : Nat) :
    S → World → Contents → List (Cycle m) → S → World → Contents → Prop
  | none (s : S) (W : World) (μ : Contents) : Runs M k s W μ [] s W μ
  | step {s t : S} {W Y : World} {μ ν : Contents} {d : Done m S} {cs : List (Cycle m)} : k < W.frames.length →
      M.step s W μ = some d → Runs M k d.state d.world (patched d.patch μ) cs t Y ν → Runs M k s W μ (d.cycle :: cs) t Y ν

end ZkEvm.Spec.Interference
