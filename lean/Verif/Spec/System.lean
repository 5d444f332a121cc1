import Verif.Model.SystemParams
import Verif.Model.Consts
/-! Specification vocabulary for system parameters: memory pages, addresses, registers. -/
namespace ZkEvm.Spec

/-- The pages of a frame whose base page is `b`: code, stack, heap and auxiliary heap, in the layout of the
bootloader's pages (`BOOTLOADER_CODE_PAGE`, ...) -/
def pagesOf (b : Nat) : List Nat :=
  [b + (BOOTLOADER_CODE_PAGE - BOOTLOADER_BASE_PAGE), b + (BOOTLOADER_STACK_PAGE - BOOTLOADER_BASE_PAGE),
   b + (BOOTLOADER_HEAP_PAGE - BOOTLOADER_BASE_PAGE), b + (BOOTLOADER_AUX_HEAP_PAGE - BOOTLOADER_BASE_PAGE)]

/-- The bootloader's own pages -/
def bootloaderPages : List Nat :=
  [BOOTLOADER_CODE_PAGE, BOOTLOADER_CALLDATA_PAGE, BOOTLOADER_STACK_PAGE, BOOTLOADER_HEAP_PAGE, BOOTLOADER_AUX_HEAP_PAGE]

/-- `PageHistory counter bases`: after some far calls, the page counter is `counter` and the base pages handed out so
far are `bases`. Every far call takes the counter as its base page and advances it. -/
inductive PageHistory : Nat → List Nat → Prop
  | start : PageHistory STARTING_BASE_PAGE []
  | farCall {counter : Nat} {bases : List Nat} : PageHistory counter bases →
      PageHistory (counter + NEW_MEMORY_PAGES_PER_FAR_CALL) (counter :: bases)

/-- All named 16-bit addresses of system contracts and precompiles -/
def namedAddresses : List (BitVec 16) :=
  [ADDRESS_ECRECOVER, ADDRESS_SHA256, ADDRESS_RIPEMD160, ADDRESS_IDENTITY, ADDRESS_BOOTLOADER,
   ADDRESS_ACCOUNT_CODE_STORAGE, ADDRESS_NONCE_HOLDER, ADDRESS_KNOWN_CODES_STORAGE, ADDRESS_IMMUTABLE_SIMULATOR,
   ADDRESS_CONTRACT_DEPLOYER, ADDRESS_FORCE_DEPLOYER, ADDRESS_L1_MESSENGER, ADDRESS_MSG_VALUE, ADDRESS_ETH_TOKEN,
   ADDRESS_SYSTEM_CONTEXT, ADDRESS_BOOTLOADER_UTILITIES, ADDRESS_EVENT_WRITER, ADDRESS_KECCAK256]

/-- The roles of registers on a far call: calldata pointer, constructor marker, system ABI, reserved, implicit
parameter -/
def callRoles (r : Nat) : List Bool :=
  [r == CALL_IMPLICIT_CALLDATA_FAT_PTR_REGISTER, r == CALL_IMPLICIT_CONSTRUCTOR_MARKER_REGISTER,
   CALL_SYSTEM_ABI_REGISTERS.1 ≤ r && r < CALL_SYSTEM_ABI_REGISTERS.2,
   CALL_RESERVED_RANGE.1 ≤ r && r < CALL_RESERVED_RANGE.2, r == CALL_IMPLICIT_PARAMETER_REG_IDX]

/-- Ergs for growing a new frame's heap to `size` bytes -/
def heapGrowthCost (size : Nat) : Nat := (size - NEW_FRAME_MEMORY_STIPEND) * MEMORY_GROWTH_ERGS_PER_BYTE

end ZkEvm.Spec
