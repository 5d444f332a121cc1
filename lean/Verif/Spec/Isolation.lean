import Verif.Spec.Frames
import Verif.Spec.Pointers
/-! How a virtual machine with call frames gives out memory pages and pointers into them. On top of the stack of
`Verif/Spec/Frames.lean`, each frame has the pages of its base page and holds some words that are marked as pointers, in
registers or on its stack; only such a word lets it read a page that is not its own. Nothing in this file is a function of the
crate. -/
namespace ZkEvm.Spec.Isolation
open Spec.Frames

/-- The heap page of the frame whose base page is `b` -/
def heapPage (b : Nat) : Nat := b + (BOOTLOADER_HEAP_PAGE - BOOTLOADER_BASE_PAGE)

/-- Its auxiliary heap page -/
def auxHeapPage (b : Nat) : Nat := b + (BOOTLOADER_AUX_HEAP_PAGE - BOOTLOADER_BASE_PAGE)

/-- What belongs to a frame: its base page and the words marked as pointers that it holds -/
structure Room where
  base : Nat
  pointers : List U256
deriving DecidableEq

/-- The instructions that make a pointer word `w` from a pointer word `v`, each under its check -/
inductive Makes (v w : U256) : Prop
  /-- `Ptr::Add` -/
  | add {p : FatPointer} (x : U256) (offset : BitVec 32) : Carries v p → u256Nat x < u256Nat MAX_OFFSET_FOR_ADD_SUB →
      offset.toNat = p.offset.toNat + u256Nat x → Carries w { p with offset } → Makes v w
  /-- `Ptr::Sub` -/
  | sub {p : FatPointer} (x : U256) (offset : BitVec 32) : Carries v p → u256Nat x < u256Nat MAX_OFFSET_FOR_ADD_SUB →
      offset.toNat + u256Nat x = p.offset.toNat → Carries w { p with offset } → Makes v w
  /-- `Ptr::Shrink` -/
  | shrink {p : FatPointer} (x : U256) (length : BitVec 32) : Carries v p → u256Nat x < u256Nat MAX_OFFSET_FOR_ADD_SUB →
      length.toNat + u256Nat x = p.length.toNat → Carries w { p with length } → Makes v w
  /-- `Ptr::Pack` -/
  | pack (x : U256) : u256Nat x % 2 ^ 128 = 0 → u256Nat w = u256Nat v % 2 ^ 128 + u256Nat x → Makes v w
  /-- `UMA::FatPointerRead` with increment -/
  | advance {p : FatPointer} (offset : BitVec 32) : Carries v p → p.offset.toNat ≤ u256Nat MAX_OFFSET_TO_DEREF →
      offset.toNat = p.offset.toNat + 32 → Carries w { p with offset } → Makes v w

/-- The page on which a far call with the ABI word `abi` makes a new pointer, if it does not forward one -/
def farPage (b : Nat) (abi : U256) : Option Nat :=
  match (FarCallABI.fromU256 abi).forwardingMode with
  | .useHeap => some (heapPage b)
  | .useAuxHeap => some (auxHeapPage b)
  | .forwardFatPointer => none

/-- The same for a return -/
def retPage (b : Nat) (abi : U256) : Option Nat :=
  match (RetABI.fromU256 abi).pageForwardingMode with
  | .useHeap => some (heapPage b)
  | .useAuxHeap => some (auxHeapPage b)
  | .forwardFatPointer => none

/-- `Passes r abi q page ps new`: a far call or return of the frame of `r` with the ABI word `abi`, whose pointer part is `q`,
passes the pointer words `ps` and creates the pointers `new`, each recorded with the base page of the frame that creates it. -/
inductive Passes (r : Room) (abi : U256) (q : FatPointer) : Option Nat → List U256 → List (Nat × FatPointer) → Prop
  /-- the call or return fails -/
  | nothing {page : Option Nat} : Passes r abi q page [] []
  /-- a new pointer to an own page, which must pass the full validation; pages have 32-bit numbers -/
  | fresh {page : Nat} {w : U256} : (q.validate true).isEmpty = true → Carries w { q with memoryPage := BitVec.ofNat 32 page } →
      Passes r abi q (some page) [w] [(r.base, { q with memoryPage := BitVec.ofNat 32 page })]
  /-- the rest of a slice: the ABI word itself must be marked as a pointer -/
  | forwarded {w : U256} : abi ∈ r.pointers → q.validateAsSlice = true → Carries w (remainder q) → Passes r abi q none [w] []

/-- The rooms after the running frame has ended: its caller receives `ps`. -/
def receive (ps : List U256) : List Room → List Room
  | [] => []
  | r :: rs => { r with pointers := ps ++ r.pointers } :: rs

/-- The frames and what belongs to them, running frame first, the page counter, the base pages handed out by it, and all
pointers created so far with the base page of their creators -/
structure World where
  frames : List CallFrame
  rooms : List Room
  counter : Nat
  bases : List Nat
  created : List (Nat × FatPointer)

/-- One cycle -/
inductive Moves (m : Mode) : World → Cycle m → World → Prop
  /-- anything but calls and returns: each pointer held afterwards was held before or is made from such a one -/
  | proceed {s s' : List CallFrame} {c : Cycle m} {r : Room} {rs : List Room} {n : Nat} {bs : List Nat}
      {cr : List (Nat × FatPointer)} (ps : List U256) :
      Step m s c s' → (∀ o, c.issued.opcode ≠ .nearCall o) → (∀ o, c.issued.opcode ≠ .farCall o) →
      (∀ o, c.issued.opcode ≠ .ret o) → (∀ w ∈ ps, w ∈ r.pointers ∨ ∃ v ∈ r.pointers, Makes v w) →
      Moves m ⟨s, r :: rs, n, bs, cr⟩ c ⟨s', ⟨r.base, ps⟩ :: rs, n, bs, cr⟩
  /-- a near call: the new frame works with the same pages and pointers -/
  | nearCall {s s' : List CallFrame} {c : Cycle m} {r : Room} {rs : List Room} {n : Nat} {bs : List Nat}
      {cr : List (Nat × FatPointer)} :
      Step m s c s' → c.issued.opcode = .nearCall .mk → Moves m ⟨s, r :: rs, n, bs, cr⟩ c ⟨s', r :: r :: rs, n, bs, cr⟩
  /-- a far call: the new frame has the page counter as its base page and the pointer that is passed -/
  | farCall {s s' : List CallFrame} {c : Cycle m} {r : Room} {rs : List Room} {n : Nat} {bs : List Nat}
      {cr new : List (Nat × FatPointer)} {k : FarCallOpcode} {abi : U256} {dest : Nat} {ps : List U256} :
      Step m s c s' → c.issued.opcode = .farCall k → c.call = some (abi, dest) →
      Passes r abi (FarCallABI.fromU256 abi).memoryQuasiFatPointer (farPage r.base abi) ps new →
      Moves m ⟨s, r :: rs, n, bs, cr⟩ c
        ⟨s', ⟨n, ps⟩ :: r :: rs, n + NEW_MEMORY_PAGES_PER_FAR_CALL, n :: bs, new ++ cr⟩
  /-- return or revert from a far call: the caller receives the pointer that is passed -/
  | farRet {f : CallFrame} {s s' : List CallFrame} {c : Cycle m} {r : Room} {rs : List Room} {n : Nat} {bs : List Nat}
      {cr new : List (Nat × FatPointer)} {k : RetOpcode} {ps : List U256} (abi : U256) :
      Step m (f :: s) c s' → c.issued.opcode = .ret k → k ≠ .panic → f.isLocal = false →
      Passes r abi (RetABI.fromU256 abi).memoryQuasiFatPointer (retPage r.base abi) ps new →
      Moves m ⟨f :: s, r :: rs, n, bs, cr⟩ c ⟨s', receive ps rs, n, bs, new ++ cr⟩
  /-- the end of a near call, by a panic too: registers and stack stay as they are -/
  | nearRet {f : CallFrame} {s s' : List CallFrame} {c : Cycle m} {r : Room} {rs : List Room} {n : Nat} {bs : List Nat}
      {cr : List (Nat × FatPointer)} {k : RetOpcode} :
      Step m (f :: s) c s' → c.issued.opcode = .ret k → f.isLocal = true →
      Moves m ⟨f :: s, r :: rs, n, bs, cr⟩ c ⟨s', receive r.pointers rs, n, bs, cr⟩
  /-- panic: nothing is passed -/
  | panic {s s' : List CallFrame} {c : Cycle m} {r : Room} {rs : List Room} {n : Nat} {bs : List Nat}
      {cr : List (Nat × FatPointer)} :
      Step m s c s' → c.issued.opcode = .ret .panic → Moves m ⟨s, r :: rs, n, bs, cr⟩ c ⟨s', rs, n, bs, cr⟩

/-- The cycles `cs`, oldest first, lead from one world to the other. -/
inductive Lives (m : Mode) : World → List (Cycle m) → World → Prop
  | none (W : World) : Lives m W [] W
  | step {W X Y : World} {c : Cycle m} {cs : List (Cycle m)} : Moves m W c X → Lives m X cs Y → Lives m W (c :: cs) Y

/-- The bootloader's frame `f` at the start: it holds no pointer. -/
def start (f : CallFrame) : World := ⟨[f], [⟨BOOTLOADER_BASE_PAGE, []⟩], STARTING_BASE_PAGE, [], []⟩

/-- A frame of the world holds the pointer `p`. -/
def Holds (W : World) (p : FatPointer) : Prop := ∃ r ∈ W.rooms, ∃ w ∈ r.pointers, Carries w p

end ZkEvm.Spec.Isolation
