import Verif.Model.Basic
/-! Model of `src/imm_mem_modifiers.rs`. -/
namespace ZkEvm

/-- `src/imm_mem_modifiers.rs:1-10` -/
inductive ImmMemHandlerFlags where
  | useRegOnly
  | useStackWithPushPop
  | useStackWithOffset
  | useAbsoluteOnStack
  | useImm16Only
  | useCodePage
deriving DecidableEq, Repr

namespace ImmMemHandlerFlags

/-- `NUM_VARIANTS`, `src/imm_mem_modifiers.rs:13` -/
def numVariantsConst : Nat := 6

/-- `all_variants`, `src/imm_mem_modifiers.rs:15-24` -/
def allVariants : List ImmMemHandlerFlags :=
  [useRegOnly, useStackWithPushPop, useStackWithOffset, useAbsoluteOnStack, useImm16Only, useCodePage]

/-- `*self as u8` with `#[repr(u8)]` and `UseRegOnly = 0`: the declaration position.
`variant_index`, `src/imm_mem_modifiers.rs:69-71` (discriminants: 1-10) -/
def variantIndex : ImmMemHandlerFlags → Nat
  | useRegOnly => 0
  | useStackWithPushPop => 1
  | useStackWithOffset => 2
  | useAbsoluteOnStack => 3
  | useImm16Only => 4
  | useCodePage => 5

/-- `encoding_byte`, `src/imm_mem_modifiers.rs:26-28` -/
def encodingByte (f : ImmMemHandlerFlags) : Byte := BitVec.ofNat 8 f.variantIndex

/-- `is_memory_used`, `src/imm_mem_modifiers.rs:29-34` -/
def isMemoryUsed : ImmMemHandlerFlags → Bool
  | useRegOnly | useImm16Only => false
  | _ => true

/-- `num_variants`, `src/imm_mem_modifiers.rs:35-37` -/
def numVariants : Nat := numVariantsConst
/-- `num_src_variants`, `src/imm_mem_modifiers.rs:38-40` -/
def numSrcVariants : Nat := numVariantsConst
/-- `num_dst_variants`, `src/imm_mem_modifiers.rs:41-43` -/
def numDstVariants : Nat := numVariantsConst - 2

/-- `is_allowed_for_dst`, `src/imm_mem_modifiers.rs:72-77` -/
def isAllowedForDst : ImmMemHandlerFlags → Bool
  | useImm16Only | useCodePage => false
  | _ => true

end ImmMemHandlerFlags

/-- `src/imm_mem_modifiers.rs:80-85` -/
inductive RegOrImmFlags where
  | useRegOnly
  | useImm16Only
deriving DecidableEq, Repr

namespace RegOrImmFlags

/-- `NUM_VARIANTS`, `src/imm_mem_modifiers.rs:88` -/
def numVariantsConst : Nat := 2

/-- `all_variants`, `src/imm_mem_modifiers.rs:90-92` -/
def allVariants : List RegOrImmFlags := [useRegOnly, useImm16Only]

/-- `variant_index`, `src/imm_mem_modifiers.rs:109-111` (discriminants 0 and 4: 82-85) -/
def variantIndex : RegOrImmFlags → Nat
  | useRegOnly => 0
  | useImm16Only => 4

/-- `encoding_byte`, `src/imm_mem_modifiers.rs:94-96` -/
def encodingByte (f : RegOrImmFlags) : Byte := BitVec.ofNat 8 f.variantIndex

/-- `is_memory_used`, `src/imm_mem_modifiers.rs:97-99` -/
def isMemoryUsed : RegOrImmFlags → Bool := fun _ => false

/-- `num_variants`, `src/imm_mem_modifiers.rs:100-102` -/
def numVariants : Nat := numVariantsConst
/-- `num_src_variants`, `src/imm_mem_modifiers.rs:103-105` -/
def numSrcVariants : Nat := numVariantsConst
/-- `num_dst_variants`, `src/imm_mem_modifiers.rs:106-108` -/
def numDstVariants : Nat := numVariantsConst - 1

/-- `is_allowed_for_dst`, `src/imm_mem_modifiers.rs:112-117` -/
def isAllowedForDst : RegOrImmFlags → Bool
  | useImm16Only => false
  | _ => true

end RegOrImmFlags
end ZkEvm
