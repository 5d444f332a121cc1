import Verif.Spec.Isolation
/-! What the memory pages of the machine of `Verif/Spec/Isolation.lean` contain, and which instructions may change it. Pages and
addresses have 32-bit numbers, as in the pointers of the crate. Nothing in this file is a function of the crate. -/
namespace ZkEvm.Spec.Contents
open Spec.Frames Spec.Isolation

/-- The byte at each address of each page -/
abbrev Contents := BitVec 32 → BitVec 32 → Byte

/-- The code page of the frame whose base page is `b` -/
def codePage (b : Nat) : Nat := b + (BOOTLOADER_CODE_PAGE - BOOTLOADER_BASE_PAGE)

/-- Its stack page -/
def stackPage (b : Nat) : Nat := b + (BOOTLOADER_STACK_PAGE - BOOTLOADER_BASE_PAGE)

/-- The pages that the instruction `op` may change in the frame with base page `b`, while the page counter is `n` -/
inductive MayWrite (b n : Nat) (op : Opcode) : BitVec 32 → Prop
  /-- any instruction may have a destination on the stack -/
  | stack : MayWrite b n op (BitVec.ofNat 32 (stackPage b))
  | heap : op = .uma .heapWrite → MayWrite b n op (BitVec.ofNat 32 (heapPage b))
  | auxHeap : op = .uma .auxHeapWrite → MayWrite b n op (BitVec.ofNat 32 (auxHeapPage b))
  /-- the code of the callee is loaded -/
  | code {k : FarCallOpcode} : op = .farCall k → MayWrite b n op (BitVec.ofNat 32 (codePage n))
  /-- the pages a precompile works on are named by its caller -/
  | precompile {page : BitVec 32} : op = .log .precompileCall → MayWrite b n op page

/-- The cycle `c` of the world `W` changes the contents `μ` to `ν`. -/
def Writes {m : Mode} (W : World) (c : Cycle m) (μ ν : Contents) : Prop :=
  ∀ page a, ν page a ≠ μ page a → ∃ r rs, W.rooms = r :: rs ∧ MayWrite r.base W.counter c.issued.opcode page

/-- The cycles `cs`, oldest first, lead from one world and its contents to another, and each starts with more than `k` frames. -/
inductive Evolves (m : Mode) (k : Nat) : World → Contents → List (Cycle m) → World → Contents → Prop
  | none (W : World) (μ : Contents) : Evolves m k W μ [] W μ
  | step {W X Y : World} {μ ν ξ : Contents} {c : Cycle m} {cs : List (Cycle m)} : k < W.frames.length → Moves m W c X →
      Writes W c μ ν → Evolves m k X ν cs Y ξ → Evolves m k W μ (c :: cs) Y ξ

/-- One of the cycles `cs`, which start at `W`, is a precompile call, made by a frame whose address is in the kernel's space. -/
def Precompiles {m : Mode} (W : World) (cs : List (Cycle m)) : Prop :=
  ∃ cs₁ c cs₂ Y, cs = cs₁ ++ c :: cs₂ ∧ Lives m W cs₁ Y ∧ c.issued.opcode = .log .precompileCall ∧
    ∃ f rest, Y.frames = f :: rest ∧ f.this < ADDRESS_UNRESTRICTED_SPACE.toNat

end ZkEvm.Spec.Contents
