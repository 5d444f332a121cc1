import Verif.Spec.Words
import Verif.Model.Abi
import Verif.Model.Consts
/-! How a virtual machine gets pointers and hands them on, with the checks and constants of the crate. The machine is not
part of the crate; only what it does with pointer words is described here, in numbers. -/
namespace ZkEvm.Spec

/-- The low 128 bits of `w` are the packed pointer `p`; the upper 128 bits are anything. -/
def Carries (w : U256) (p : FatPointer) : Prop := u256Nat w % 2 ^ 128 = u256Nat p.toU256

/-- The rest of the slice, from the offset on: what is passed in a call or a return. In `u32` arithmetic, which wraps
around. -/
def remainder (p : FatPointer) : FatPointer := ⟨0, p.memoryPage, p.start + p.offset, p.length - p.offset⟩

/-- The pointer words that can be made from the fresh pointer `p₀`: `p₀` passed the full validation; a pointer can be
moved forwards and backwards, shortened, given another upper half, advanced by a read, and passed on in a call or a return,
each under its check. -/
inductive Handed (p₀ : FatPointer) : U256 → Prop
  /-- a new pointer -/
  | fresh {w} : (p₀.validate true).isEmpty = true → Carries w p₀ → Handed p₀ w
  /-- `Ptr::Add`: the summand is below `MAX_OFFSET_FOR_ADD_SUB`, the sum fits 32 bits -/
  | add {v w} {p : FatPointer} (x : U256) (offset : BitVec 32) : Handed p₀ v → Carries v p →
      u256Nat x < u256Nat MAX_OFFSET_FOR_ADD_SUB → offset.toNat = p.offset.toNat + u256Nat x →
      Carries w { p with offset } → Handed p₀ w
  /-- `Ptr::Sub`: likewise, the difference is not negative -/
  | sub {v w} {p : FatPointer} (x : U256) (offset : BitVec 32) : Handed p₀ v → Carries v p →
      u256Nat x < u256Nat MAX_OFFSET_FOR_ADD_SUB → offset.toNat + u256Nat x = p.offset.toNat →
      Carries w { p with offset } → Handed p₀ w
  /-- `Ptr::Shrink`: the slice loses `x` bytes at its end -/
  | shrink {v w} {p : FatPointer} (x : U256) (length : BitVec 32) : Handed p₀ v → Carries v p →
      u256Nat x < u256Nat MAX_OFFSET_FOR_ADD_SUB → length.toNat + u256Nat x = p.length.toNat →
      Carries w { p with length } → Handed p₀ w
  /-- `Ptr::Pack`: the upper half is replaced by that of a word whose lower half is zero -/
  | pack {v w} (x : U256) : Handed p₀ v → u256Nat x % 2 ^ 128 = 0 →
      u256Nat w = u256Nat v % 2 ^ 128 + u256Nat x → Handed p₀ w
  /-- `UMA::FatPointerRead` with increment: the offset can be dereferenced and goes up by 32 -/
  | advance {v w} {p : FatPointer} (offset : BitVec 32) : Handed p₀ v → Carries v p →
      p.offset.toNat ≤ u256Nat MAX_OFFSET_TO_DEREF → offset.toNat = p.offset.toNat + 32 →
      Carries w { p with offset } → Handed p₀ w
  /-- a far call that forwards its pointer: the callee gets the rest of the slice -/
  | farCall {v w} : Handed p₀ v → (FarCallABI.fromU256 v).forwardingMode = .forwardFatPointer →
      (FarCallABI.fromU256 v).memoryQuasiFatPointer.validateAsSlice = true →
      Carries w (remainder (FarCallABI.fromU256 v).memoryQuasiFatPointer) → Handed p₀ w
  /-- a return that forwards its pointer -/
  | ret {v w} : Handed p₀ v → (RetABI.fromU256 v).pageForwardingMode = .forwardFatPointer →
      (RetABI.fromU256 v).memoryQuasiFatPointer.validateAsSlice = true →
      Carries w (remainder (RetABI.fromU256 v).memoryQuasiFatPointer) → Handed p₀ w

/-- The slice of `p` lies in the slice of `q`: same page, and every byte of the one is a byte of the other. -/
def Within (p q : FatPointer) : Prop :=
  p.memoryPage = q.memoryPage ∧ q.start.toNat ≤ p.start.toNat ∧
  p.start.toNat + p.length.toNat ≤ q.start.toNat + q.length.toNat

end ZkEvm.Spec
