import Verif.Spec.Lazy
import Verif.Model.Statics
/-! The values of the crate's statics, and the list of all statics. -/
namespace ZkEvm.Spec
open ZkEvm.Lazy

/-- `env` gives every static the value its sequential initialiser computes. -/
structure StaticValues (env : (c : Static) → c.Val) : Prop where
  table : OPCODES_TABLE = .ok (env .opcodesTable)
  masks : OPCODES_PROPS_INTEGER_BITMASKS = .ok (env .bitmasks)
  monotonic : OPCODE_TO_MONOTONIC_INDEX_NUMBER_MAP = .ok (env .monotonicMap)
  canonical : OPCODE_TO_CANONICAL_INDEX_LOOKUP_MAP = .ok (env .canonicalMap)
  nop : NOP_OPCODE_VARIANT = .ok (env .nopVariant)
  nopMask : NOP_BITSPREAD_U64 = .ok (env .nopBitspread)
  pan : PANIC_OPCODE_VARIANT = .ok (env .panicVariant)
  panMask : PANIC_BITSPREAD_U64 = .ok (env .panicBitspread)
  prototypes : OPCODE_PROTOTYPES = .ok (env .prototypes)
  logical : NUM_LOGICAL_OPCODES = .ok (env .numLogicalOpcodes)
  input : NUM_INPUT_VARIANTS = env .numInputVariants
  output : NUM_OUTPUT_VARIANTS = env .numOutputVariants
  prices : OPCODES_PRICES = .ok (env .opcodesPrices)
  bootloader : BOOTLOADER_FORMAL_ADDRESS = env .bootloaderAddress
  deployer : DEPLOYER_SYSTEM_CONTRACT_ADDRESS = env .deployerAddress
  nonceManager : NONCE_MANAGER_SYSTEM_CONTRACT_ADDRESS = env .nonceManagerAddress
  knownCode : KNOWN_CODE_FACTORY_SYSTEM_CONTRACT_ADDRESS = env .knownCodeFactoryAddress
  keccak : KECCAK256_ROUND_FUNCTION_PRECOMPILE_FORMAL_ADDRESS = env .keccak256Address
  sha : SHA256_ROUND_FUNCTION_PRECOMPILE_FORMAL_ADDRESS = env .sha256Address
  ecrecover : ECRECOVER_INNER_FUNCTION_PRECOMPILE_FORMAL_ADDRESS = env .ecrecoverAddress

/-- Every static of the crate -/
def allStatics : List Static :=
  [.opcodesTable, .bitmasks, .monotonicMap, .canonicalMap, .nopVariant, .nopBitspread, .panicVariant,
   .panicBitspread, .prototypes, .numLogicalOpcodes, .numInputVariants, .numOutputVariants, .opcodesPrices,
   .bootloaderAddress, .deployerAddress, .nonceManagerAddress, .knownCodeFactoryAddress, .keccak256Address,
   .sha256Address, .ecrecoverAddress]

end ZkEvm.Spec
