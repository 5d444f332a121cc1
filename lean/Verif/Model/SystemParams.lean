import Verif.Model.Prices
import Verif.Model.Utils
/-! Model of the addresses of `src/system_params.rs` and the memory-page constants of `src/lib.rs`. -/
namespace ZkEvm

/-- `INITIAL_FRAME_SUCCESSFUL_EXIT_PC`, `src/system_params.rs:17` -/
def INITIAL_FRAME_SUCCESSFUL_EXIT_PC : BitVec 16 := 0
/-- `INITIAL_FRAME_FORMAL_EH_LOCATION`, `src/system_params.rs:18` -/
def INITIAL_FRAME_FORMAL_EH_LOCATION : BitVec 16 := BitVec.allOnes 16
/-- `SYSTEM_CONTRACTS_OFFSET_ADDRESS`, `src/system_params.rs:20` -/
def SYSTEM_CONTRACTS_OFFSET_ADDRESS : BitVec 16 := 1#16 <<< 15
/-- `KECCAK256_ROUND_FUNCTION_PRECOMPILE_ADDRESS`, `src/system_params.rs:22` -/
def KECCAK256_ROUND_FUNCTION_PRECOMPILE_ADDRESS : BitVec 16 := SYSTEM_CONTRACTS_OFFSET_ADDRESS + 0x10
/-- `SHA256_ROUND_FUNCTION_PRECOMPILE_ADDRESS`, `src/system_params.rs:23` -/
def SHA256_ROUND_FUNCTION_PRECOMPILE_ADDRESS : BitVec 16 := 0x02
/-- `ECRECOVER_INNER_FUNCTION_PRECOMPILE_ADDRESS`, `src/system_params.rs:24` -/
def ECRECOVER_INNER_FUNCTION_PRECOMPILE_ADDRESS : BitVec 16 := 0x01
/-- `NUM_SPONGES`, `src/system_params.rs:40` -/
def NUM_SPONGES : Nat := 4
/-- `BOOTLOADER_MAX_MEMORY`, `src/system_params.rs:70`: `u32::MAX` -/
def BOOTLOADER_MAX_MEMORY : Nat := 2 ^ 32 - 1
/-- `NEW_FRAME_MEMORY_STIPEND`, `src/system_params.rs:71` -/
def NEW_FRAME_MEMORY_STIPEND : Nat := 1 <<< 10
/-- `MSG_VALUE_SIMULATOR_PUBDATA_BYTES_TO_PREPAY`, `src/system_params.rs:73` -/
def MSG_VALUE_SIMULATOR_PUBDATA_BYTES_TO_PREPAY : Nat := 32 + 32 + 32 + 32
/-- `MEMORY_GROWTH_ERGS_PER_BYTE`, `src/lib.rs:45` -/
def MEMORY_GROWTH_ERGS_PER_BYTE : Nat := 1
/-- `INITIAL_SP_ON_FAR_CALL`, `src/lib.rs:75` -/
def INITIAL_SP_ON_FAR_CALL : Nat := 0
/-- `MAX_PENDING_CYCLES`, `src/lib.rs:89` -/
def MAX_PENDING_CYCLES : Nat := 1
/-- `LOG2_NUM_ADDRESSABLE_HEAP_BYTES`, `src/lib.rs:91` -/
def LOG2_NUM_ADDRESSABLE_HEAP_BYTES : Nat := 24
/-- `STORAGE_AUX_BYTE`, `src/system_params.rs:35` -/
def STORAGE_AUX_BYTE : Byte := 0
/-- `EVENT_AUX_BYTE`, `src/system_params.rs:36` -/
def EVENT_AUX_BYTE : Byte := 1
/-- `L1_MESSAGE_AUX_BYTE`, `src/system_params.rs:37` -/
def L1_MESSAGE_AUX_BYTE : Byte := 2
/-- `PRECOMPILE_AUX_BYTE`, `src/system_params.rs:38` -/
def PRECOMPILE_AUX_BYTE : Byte := 3
/-- `BOOTLOADER_FORMAL_ADDRESS_LOW`, `src/system_params.rs:44` -/
def BOOTLOADER_FORMAL_ADDRESS_LOW : BitVec 16 := SYSTEM_CONTRACTS_OFFSET_ADDRESS + 0x01
/-- `DEPLOYER_SYSTEM_CONTRACT_ADDRESS_LOW`, `src/system_params.rs:45` -/
def DEPLOYER_SYSTEM_CONTRACT_ADDRESS_LOW : BitVec 16 := SYSTEM_CONTRACTS_OFFSET_ADDRESS + 0x02
/-- `ADDRESS_UNRESTRICTED_SPACE`, `src/system_params.rs:48` -/
def ADDRESS_UNRESTRICTED_SPACE : BitVec 64 := 1#64 <<< 16
/-- `src/system_params.rs:50` -/
def ADDRESS_ECRECOVER : BitVec 16 := 0x0001
/-- `src/system_params.rs:51` -/
def ADDRESS_SHA256 : BitVec 16 := 0x0002
/-- `src/system_params.rs:52` -/
def ADDRESS_RIPEMD160 : BitVec 16 := 0x0003
/-- `src/system_params.rs:53` -/
def ADDRESS_IDENTITY : BitVec 16 := 0x0004
/-- `src/system_params.rs:55` -/
def ADDRESS_BOOTLOADER : BitVec 16 := 0x8001
/-- `src/system_params.rs:56` -/
def ADDRESS_ACCOUNT_CODE_STORAGE : BitVec 16 := 0x8002
/-- `src/system_params.rs:57` -/
def ADDRESS_NONCE_HOLDER : BitVec 16 := 0x8003
/-- `src/system_params.rs:58` -/
def ADDRESS_KNOWN_CODES_STORAGE : BitVec 16 := 0x8004
/-- `src/system_params.rs:59` -/
def ADDRESS_IMMUTABLE_SIMULATOR : BitVec 16 := 0x8005
/-- `src/system_params.rs:60` -/
def ADDRESS_CONTRACT_DEPLOYER : BitVec 16 := 0x8006
/-- `src/system_params.rs:61` -/
def ADDRESS_FORCE_DEPLOYER : BitVec 16 := 0x8007
/-- `src/system_params.rs:62` -/
def ADDRESS_L1_MESSENGER : BitVec 16 := 0x8008
/-- `src/system_params.rs:63` -/
def ADDRESS_MSG_VALUE : BitVec 16 := 0x8009
/-- `src/system_params.rs:64` -/
def ADDRESS_ETH_TOKEN : BitVec 16 := 0x800A
/-- `src/system_params.rs:65` -/
def ADDRESS_SYSTEM_CONTEXT : BitVec 16 := 0x800B
/-- `src/system_params.rs:66` -/
def ADDRESS_BOOTLOADER_UTILITIES : BitVec 16 := 0x800C
/-- `src/system_params.rs:67` -/
def ADDRESS_EVENT_WRITER : BitVec 16 := 0x800D
/-- `src/system_params.rs:68` -/
def ADDRESS_KECCAK256 : BitVec 16 := 0x8010

/-- `Address::from_low_u64_be` (external crate `ethereum_types`): 20 bytes, the last 8 being the
big-endian bytes of the argument. Used for `src/system_params.rs:108-123` -/
def addressFromLowU64Be (x : BitVec 64) : List Byte := List.replicate 12 0 ++ toBeBytes 8 x

/-- `src/system_params.rs:109-110` -/
def BOOTLOADER_FORMAL_ADDRESS : List Byte := addressFromLowU64Be (BOOTLOADER_FORMAL_ADDRESS_LOW.setWidth 64)
/-- `src/system_params.rs:111-112` -/
def DEPLOYER_SYSTEM_CONTRACT_ADDRESS : List Byte :=
  addressFromLowU64Be (DEPLOYER_SYSTEM_CONTRACT_ADDRESS_LOW.setWidth 64)
/-- `src/system_params.rs:113-114` -/
def NONCE_MANAGER_SYSTEM_CONTRACT_ADDRESS : List Byte :=
  addressFromLowU64Be (SYSTEM_CONTRACTS_OFFSET_ADDRESS.setWidth 64 + 0x03)
/-- `src/system_params.rs:115-116` -/
def KNOWN_CODE_FACTORY_SYSTEM_CONTRACT_ADDRESS : List Byte :=
  addressFromLowU64Be (SYSTEM_CONTRACTS_OFFSET_ADDRESS.setWidth 64 + 0x04)
/-- `src/system_params.rs:117-118` -/
def KECCAK256_ROUND_FUNCTION_PRECOMPILE_FORMAL_ADDRESS : List Byte :=
  addressFromLowU64Be (KECCAK256_ROUND_FUNCTION_PRECOMPILE_ADDRESS.setWidth 64)
/-- `src/system_params.rs:119-120` -/
def SHA256_ROUND_FUNCTION_PRECOMPILE_FORMAL_ADDRESS : List Byte :=
  addressFromLowU64Be (SHA256_ROUND_FUNCTION_PRECOMPILE_ADDRESS.setWidth 64)
/-- `src/system_params.rs:121-122` -/
def ECRECOVER_INNER_FUNCTION_PRECOMPILE_FORMAL_ADDRESS : List Byte :=
  addressFromLowU64Be (ECRECOVER_INNER_FUNCTION_PRECOMPILE_ADDRESS.setWidth 64)

/-- `BOOTLOADER_BASE_PAGE`, `src/lib.rs:78` -/
def BOOTLOADER_BASE_PAGE : Nat := 8
/-- `BOOTLOADER_CODE_PAGE`, `src/lib.rs:79` -/
def BOOTLOADER_CODE_PAGE : Nat := BOOTLOADER_BASE_PAGE
/-- `BOOTLOADER_CALLDATA_PAGE`, `src/lib.rs:80` -/
def BOOTLOADER_CALLDATA_PAGE : Nat := BOOTLOADER_BASE_PAGE - 1
/-- `BOOTLOADER_STACK_PAGE`, `src/lib.rs:81` -/
def BOOTLOADER_STACK_PAGE : Nat := BOOTLOADER_BASE_PAGE + 1
/-- `BOOTLOADER_HEAP_PAGE`, `src/lib.rs:82` -/
def BOOTLOADER_HEAP_PAGE : Nat := BOOTLOADER_BASE_PAGE + 2
/-- `BOOTLOADER_AUX_HEAP_PAGE`, `src/lib.rs:83` -/
def BOOTLOADER_AUX_HEAP_PAGE : Nat := BOOTLOADER_BASE_PAGE + 3
/-- `UNMAPPED_PAGE`, `src/lib.rs:76` -/
def UNMAPPED_PAGE : Nat := 0
/-- `NEW_MEMORY_PAGES_PER_FAR_CALL`, `src/lib.rs:85` -/
def NEW_MEMORY_PAGES_PER_FAR_CALL : Nat := 8
/-- `STARTING_TIMESTAMP`, `src/lib.rs:86` -/
def STARTING_TIMESTAMP : Nat := 1024
/-- `STARTING_BASE_PAGE`, `src/lib.rs:87` -/
def STARTING_BASE_PAGE : Nat := 2048
/-- `TIME_DELTA_PER_CYCLE`, `src/lib.rs:88` -/
def TIME_DELTA_PER_CYCLE : Nat := 4

end ZkEvm
