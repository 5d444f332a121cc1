{"id": "C01", "title": "Every word decodes, with fixed bit positions", "statement": "Decoding never panics, on any 64-bit word in production mode and on any 128-bit word in testing mode. Every field of the result is read from a fixed bit range of the word: opcode number from bits 0-10 (also returned as the absolute number), condition from bits 13-15, src0/src1/dst0/dst1 registers from bits 16-19/20-23/24-27/28-31, and the immediates from bits 32-47 and 48-63 (production) or 32-63 and 64-95 (testing).", "quantifier": "all 2^64 production words and all 2^128 testing words", "why_tests_cant": "2^64 and 2^128 inputs cannot be enumerated; a panic or a misplaced bit on one word is invisible to samples", "anchors": ["src/decoding/encoding_mode_production.rs:parse_preliminary_variant_and_absolute_number", "src/decoding/encoding_mode_production.rs:variant_and_condition_from_u64_word", "src/decoding/encoding_mode_testing.rs:parse_preliminary_variant_and_absolute_number", "src/decoding/encoding_mode_testing.rs:variant_and_condition_from_u128_word", "src/utils.rs:split_as_u4"]}
{"id": "C02", "title": "Production encode then decode is the identity", "statement": "For every instruction whose variant is part of the instruction set and whose four register indices are below 16, production serialisation succeeds in debug and release builds, and decoding the resulting word gives back exactly that instruction together with the variant's table number.", "quantifier": "all decoded instructions: every variant, condition, 16^4 register choices, 2^32 immediates, both build profiles", "why_tests_cant": "about 2^62 instructions; a single colliding field would break bytecode that no test contains", "anchors": ["src/decoding/encoding_mode_production.rs:encode_as_integer", "src/decoding/encoding_mode_production.rs:parse_preliminary_variant_and_absolute_number", "src/opcode.rs:DecodedOpcode::serialize_as_integer"]}
{"id": "C03", "title": "Testing encode then decode is the identity", "statement": "The same round trip holds in testing mode with 32-bit immediates and 128-bit words.", "quantifier": "all decoded instructions with 32-bit immediates", "why_tests_cant": "about 2^94 instructions", "anchors": ["src/decoding/encoding_mode_testing.rs:encode_as_integer", "src/decoding/encoding_mode_testing.rs:parse_preliminary_variant_and_absolute_number"]}
{"id": "C04", "title": "Production decode then encode: exactly which words survive", "statement": "Re-encoding a decoded production word gives the same word if and only if the two gap bits 11 and 12 are zero and the opcode number is assigned (below 1093). For every other word the result is the word with the gap bits cleared and an unassigned opcode number replaced by 0. Re-encoding never panics.", "quantifier": "all 2^64 words", "why_tests_cant": "the claim is an iff over 2^64 words", "anchors": ["src/decoding/encoding_mode_production.rs:encode_as_integer", "src/decoding/encoding_mode_production.rs:parse_preliminary_variant_and_absolute_number"]}
{"id": "C05", "title": "Testing decode then encode: exactly which words survive", "statement": "Re-encoding a decoded testing word gives the same word if and only if bits 11, 12 and 96..127 are zero and the opcode number is assigned; the top 32 bits are silently dropped.", "quantifier": "all 2^128 words", "why_tests_cant": "an iff over 2^128 words", "anchors": ["src/decoding/encoding_mode_testing.rs:encode_as_integer", "src/decoding/encoding_mode_testing.rs:parse_preliminary_variant_and_absolute_number"]}
{"id": "C06", "title": "Canonicality check", "statement": "is_canonical_encoding accepts a word exactly when bits 11 and 12 are zero, in both modes; every word produced by serialisation is accepted.", "quantifier": "all words and all encodable instructions", "why_tests_cant": "universally quantified over words", "anchors": ["src/decoding/encoding_mode_production.rs:is_canonical_encoding", "src/decoding/encoding_mode_testing.rs:is_canonical_encoding"]}
{"id": "C07", "title": "Serialisation panics exactly on unknown variants (and on wide registers in debug builds)", "statement": "Serialising an instruction panics if and only if its variant is not one of the variants of the instruction set, or, in a build with debug assertions, one of the register indices is 16 or more. This holds in both encoding modes.", "quantifier": "all instructions, both builds, both modes", "why_tests_cant": "the panic set must be exact for every instruction, including malformed ones nobody writes in a test", "anchors": ["src/decoding/encoding_mode_production.rs:encode_as_integer", "src/decoding/encoding_mode_testing.rs:encode_as_integer", "src/utils.rs:merge_u4"]}
{"id": "C08", "title": "Distinct instructions never share an encoding", "statement": "Two serialisable instructions with registers below 16 that serialise to the same integer are equal (both modes). The same holds for the byte serialisation.", "quantifier": "all pairs of instructions", "why_tests_cant": "quantifies over pairs from a set of about 2^62 (2^94) elements", "anchors": ["src/decoding/encoding_mode_production.rs:encode_as_integer", "src/decoding/encoding_mode_production.rs:encode_as_bytes", "src/decoding/encoding_mode_testing.rs:encode_as_integer", "src/decoding/encoding_mode_testing.rs:encode_as_bytes"]}
{"id": "C09", "title": "A serialised program is executed instruction by instruction", "statement": "Take any list of serialisable instructions, concatenate their byte serialisations, pad to 32-byte words and read the words as big-endian U256 values. For every program counter below the program length that fits the PC type, splitting the PC, fetching that word, extracting the sub-word and decoding it yields exactly the instruction at that position. Both modes.", "quantifier": "all programs of any length and all program counters", "why_tests_cant": "unbounded program length", "anchors": ["src/decoding/encoding_mode_production.rs:split_pc", "src/decoding/encoding_mode_production.rs:integer_representaiton_from_u256", "src/decoding/encoding_mode_production.rs:encode_as_bytes", "src/decoding/encoding_mode_testing.rs:split_pc", "src/decoding/encoding_mode_testing.rs:integer_representaiton_from_u256", "src/decoding/encoding_mode_testing.rs:encode_as_bytes"]}
{"id": "C10", "title": "Program counter splitting is a bijection and fetching never panics", "statement": "split_pc maps each PC to (word index, sub-word index) with pc = 4*word+sub (production) or 2*word+sub (testing) and sub in range; distinct PCs give distinct pairs and every in-range pair is hit; extracting the sub-word selected by split_pc from any U256 never panics, while any other sub-word index panics. In production only the first 16384 words of code are addressable.", "quantifier": "all PCs, all U256 values, all indices", "why_tests_cant": "all 2^16 / 2^32 PCs and 2^256 words", "anchors": ["src/decoding/encoding_mode_production.rs:split_pc", "src/decoding/encoding_mode_production.rs:integer_representaiton_from_u256", "src/decoding/encoding_mode_testing.rs:split_pc", "src/decoding/encoding_mode_testing.rs:integer_representaiton_from_u256"]}
{"id": "C11", "title": "Masking into nop/panic yields the dedicated encodings", "statement": "After mask_into_panic (mask_into_nop) any instruction - even a malformed one - has condition Always, zero registers and the Ret.Panic (Nop) variant, and it serialises without panicking. If the immediates were zero its encoding is exactly exception_revert_encoding (nop_encoding); in general the encoding differs from it only in the immediate fields, which are preserved. Masking is idempotent.", "quantifier": "all instructions, both modes and builds", "why_tests_cant": "must hold for any instruction the VM may have to mask", "anchors": ["src/opcode.rs:mask_into_panic", "src/opcode.rs:mask_into_nop", "src/decoding/encoding_mode_production.rs:exception_revert_encoding", "src/decoding/encoding_mode_production.rs:nop_encoding", "src/decoding/encoding_mode_testing.rs:exception_revert_encoding", "src/decoding/encoding_mode_testing.rs:nop_encoding"]}
{"id": "C12", "title": "Zero and unassigned words are explicit panics that burn everything", "statement": "A word whose opcode number is 0 or unassigned (1093..2047), in particular the all-zero word, decodes to the Invalid variant, which is an explicit panic whose price is u32::MAX; no other word does.", "quantifier": "all 2^64 and 2^128 words", "why_tests_cant": "safety of executing arbitrary data as code: must hold for every word", "anchors": ["src/decoding/encoding_mode_production.rs:parse_preliminary_variant_and_absolute_number", "src/definitions/mod.rs:is_explicit_panic", "src/definitions/mod.rs:INVALID_OPCODE_VARIANT", "src/lib.rs:OPCODES_PRICES", "src/lib.rs:INVALID_OPCODE_ERGS"]}
{"id": "C13", "title": "Release builds confine an over-wide register index to its register byte", "statement": "In a release build, serialising with register indices of 16 or more does not panic; the resulting word still decodes to the same variant, condition and immediates, and a wide index in a source (destination) register can only change the source (destination) register byte: src0 (dst0) decodes to its low four bits, src1 (dst1) to its low four bits or-ed with the excess bits of src0 (dst0).", "quantifier": "all instructions with arbitrary u8 register indices", "why_tests_cant": "all 2^32 combinations of register bytes times all instructions", "anchors": ["src/utils.rs:merge_u4", "src/decoding/encoding_mode_production.rs:encode_as_integer", "src/decoding/encoding_mode_testing.rs:encode_as_integer"]}
{"id": "C14", "title": "The two encoding modes agree on the low 32 bits", "statement": "Two words, one of each mode, with equal low 32 bits decode to the same variant, condition, registers and number; and encoding instructions with the same variant, condition and registers gives words with equal low 32 bits.", "quantifier": "all pairs of words / instructions", "why_tests_cant": "pairs over 2^64 x 2^128", "anchors": ["src/decoding/encoding_mode_production.rs:encode_as_integer", "src/decoding/encoding_mode_testing.rs:encode_as_integer"]}
{"id": "C15", "title": "Default instruction is not encodable", "statement": "DecodedOpcode::default() is not part of the instruction set: serialising it panics in every mode and build (finding: a user may expect the default to be a nop; the encodable nop uses Full(UseRegOnly) operands).", "quantifier": "both modes and builds", "why_tests_cant": "a panic-freedom expectation of the Default implementation that no test exercises", "anchors": ["src/opcode.rs:Default for DecodedOpcode", "src/definitions/mod.rs:Default for OpcodeVariant"]}
{"id": "C16", "title": "Exact numbering of the instruction set (version 1)", "statement": "Building the default table succeeds, has 2048 entries, and the entry at number n is given by an explicit closed formula: 0 is Invalid, then Nop, Add, Sub, Mul, Div, Jump, Binop, Shift, Ptr, NearCall, Context, Log, FarCall, Ret, UMA in consecutive blocks, in each block the sub-variant is the most significant digit, then source mode, destination mode, and flags; 1085..1092 are the immediate forms of heap accesses; all others are Invalid.", "quantifier": "all 2048 numbers", "why_tests_cant": "the numbering is consensus critical; the code computes it by nested loops and a merge, tests only check length", "anchors": ["src/definitions/mod.rs:synthesize_opcode_decoding_tables", "src/definitions/mod.rs:all_variants_in_version", "src/definitions/mod.rs:find_new_opcodes", "src/lib.rs:OPCODES_TABLE"]}
{"id": "C17", "title": "Old bytecode keeps its meaning: version 0 versus version 1", "statement": "The version-0 table exists and the version-1 table agrees with it on every number below 1085: the same opcode, destination, flags, and the same source operand except that register-only heap accesses are renamed to RegOrImm(UseRegOnly), which is semantically equal. So every word whose number is assigned in version 0 decodes to a semantically equal instruction in version 1.", "quantifier": "all numbers and all words", "why_tests_cant": "for all words of existing bytecode", "anchors": ["src/definitions/mod.rs:synthesize_opcode_decoding_tables", "src/definitions/mod.rs:find_new_opcodes", "src/definitions/mod.rs:semantically_equal"]}
{"id": "C18", "title": "Table construction for every width", "statement": "synthesize_opcode_decoding_tables(bits, version), memory permitting, succeeds exactly when 11 <= bits, bits is below the width of usize and the table is at most isize::MAX bytes (release builds first reduce bits modulo the width of usize); otherwise it panics: on the shift, on the capacity, or on the size assertion. The result has 2^bits entries and is the assigned prefix followed only by Invalid entries, so the numbering depends neither on the width nor on the target.", "quantifier": "all table widths (unbounded), ISA versions, pointer widths, build profiles and in-memory sizes of a variant", "why_tests_cant": "unbounded parameter", "anchors": ["src/definitions/mod.rs:synthesize_opcode_decoding_tables"]}
{"id": "C19", "title": "Lookup maps invert the table", "statement": "Both lookup maps are built without panicking, are defined exactly on the variants occurring in the table, and map a variant to its least table index; apart from Invalid no variant occurs twice; the two maps agree.", "quantifier": "all opcode variants (including ones not in the table) and all 2048 numbers", "why_tests_cant": "iff over all variants", "anchors": ["src/lib.rs:OPCODE_TO_CANONICAL_INDEX_LOOKUP_MAP", "src/lib.rs:OPCODE_TO_MONOTONIC_INDEX_NUMBER_MAP"]}
{"id": "C20", "title": "Which operand and flag combinations exist", "statement": "A variant is in the table if and only if it is well formed: the operand kinds are those of its opcode's declared operands (destination never an immediate or code page) and flags beyond the declared number are false.", "quantifier": "all opcode variants", "why_tests_cant": "iff over all variants", "anchors": ["src/definitions/mod.rs:all_variants_in_version", "src/definitions/mod.rs:synthesize_opcode_decoding_tables"]}
{"id": "C21", "title": "Merging a new ISA version preserves old numbers", "statement": "For all lists of variants old and new: if the merge does not panic, the old list keeps its length and each old entry is replaced only by a semantically equal one, the difference consists of exactly the new entries that have no semantic equivalent in old, in order; and the merge panics exactly if some old entry has no semantic equivalent in new. If the keys are pairwise distinct, the combined list contains each semantic class exactly once.", "quantifier": "all pairs of lists of variants of any length", "why_tests_cant": "unbounded lists: this is what future ISA versions rely on", "anchors": ["src/definitions/mod.rs:find_new_opcodes", "src/definitions/mod.rs:semantically_equal"]}
{"id": "C22", "title": "Semantic equality is an equivalence relation", "statement": "semantically_equal is reflexive, symmetric and transitive, and two variants are semantically equal iff they differ at most in the spelling RegOnly versus RegOrImm(UseRegOnly) of the source operand; semantically equal variants have the same price, flags, and integer bitmask.", "quantifier": "all pairs and triples of variants", "why_tests_cant": "all variants", "anchors": ["src/definitions/mod.rs:semantically_equal"]}
{"id": "C23", "title": "The legacy table builder", "statement": "On every target, synthesize_opcode_decoding_tables_legacy at version 0 returns exactly the same table as the current builder for every width, and panics for every version >= 1 and every width.", "quantifier": "all widths, all versions", "why_tests_cant": "unbounded parameters", "anchors": ["src/definitions/mod.rs:synthesize_opcode_decoding_tables_legacy"]}
{"id": "C24", "title": "Unsupported ISA versions", "statement": "For versions above 1 the sizes (variant count, description bits, decoding format, encoding density, bit masks) panic, while the table builder returns the version-1 table and the flag count is still 2.", "quantifier": "all ISA versions >= 2", "why_tests_cant": "all versions", "anchors": ["src/definitions/mod.rs:max_num_variants_for_version", "src/definitions/mod.rs:max_num_flags_for_version", "src/definitions/mod.rs:compute_decoding_format", "src/lib.rs:total_description_bits_for_version"]}
{"id": "C25", "title": "Encoding density equals the number of assigned numbers", "statement": "For every supported version, the density computed by multiplying operand counts equals the number of variants produced by enumeration (1085 for version 0, 1093 for version 1), so the internal assertion never fires.", "quantifier": "all ISA versions", "why_tests_cant": "all versions", "anchors": ["src/definitions/mod.rs:compute_encoding_density"]}
{"id": "C26", "title": "Bit layout of the integer bitmask", "statement": "For every variant, the bitmask for versions 0 and 1 exists and bit i of it is set iff: i<16 and i is the opcode's logical index; 16<=i<26 and i-16 is the sub-variant index; i=26/27 and flag 0/1 is set; 28<=i<34 and i-28 is the source mode; 34<=i<38 and i-34 is the destination mode; i=48 and kernel mode required; i=49 and usable in static context; i=50 and explicit panic. No other bit is ever set, except that for destination modes 4 and 5, which no instruction of the table has, the destination bit is 38 or 39.", "quantifier": "all variants and all 64 bit positions", "why_tests_cant": "all variants including those not in the table", "anchors": ["src/definitions/mod.rs:opcode_as_integer_bitmask", "src/definitions/mod.rs:synthesize_bit_decomposition_table"]}
{"id": "C27", "title": "Bitmasks identify instructions up to semantic equality", "statement": "Two table variants have the same bitmask iff they are equal; two arbitrary variants have the same bitmask iff they have the same opcode, flags and source/destination mode numbers.", "quantifier": "all pairs of variants", "why_tests_cant": "pairs", "anchors": ["src/definitions/mod.rs:opcode_as_integer_bitmask", "src/lib.rs:OPCODES_PROPS_INTEGER_BITMASKS"]}
{"id": "C28", "title": "The bitmask table can be decoded", "statement": "From OPCODES_PROPS_INTEGER_BITMASKS[n] alone one can recover the opcode, flags and operand modes of OPCODES_TABLE[n], for every n; exactly one bit is set in each of the one-hot groups.", "quantifier": "all 2048 numbers", "why_tests_cant": "the circuit relies on it for every number", "anchors": ["src/lib.rs:OPCODES_PROPS_INTEGER_BITMASKS"]}
{"id": "C29", "title": "Nop and panic constants", "statement": "NOP_OPCODE_VARIANT and PANIC_OPCODE_VARIANT initialise without panicking, are in the table, and NOP_BITSPREAD_U64 / PANIC_BITSPREAD_U64 are the bitmask of that variant; masking any instruction yields a variant with that bitmask.", "quantifier": "all instructions being masked", "why_tests_cant": "for all masked instructions", "anchors": ["src/lib.rs:NOP_BITSPREAD_U64", "src/lib.rs:PANIC_BITSPREAD_U64"]}
{"id": "C30", "title": "Sub-variant index round trip", "statement": "For every opcode and every supported version, materialising the sub-variant with the opcode's own index from any prototype of the same family gives that opcode back; an index that is not the index of a sub-variant panics.", "quantifier": "all opcodes, all indices (unbounded), all versions", "why_tests_cant": "indices are unbounded usize values", "anchors": ["src/definitions/all.rs:materialize_subvariant_from_prototype", "src/definitions/all.rs:materialize_subvariant_idx"]}
{"id": "C31", "title": "Operand declarations are consistent with addressing predicates", "statement": "can_have_src0_from_mem / can_write_dst0_into_memory hold for an opcode iff its first declared input/output is a Full operand, and in the table a memory operand mode occurs only for such opcodes; only UMA has RegOrImm operands and only from version 1 on. The declared lists have as many operands as the instruction reads and produces; only the first can be other than a plain register, and it is written in register mode.", "quantifier": "all opcodes, versions and table entries", "why_tests_cant": "all opcodes", "anchors": ["src/definitions/opcode_trait.rs:can_have_src0_from_mem", "src/definitions/opcode_trait.rs:can_write_dst0_into_memory", "src/definitions/all.rs:input_operands", "src/definitions/all.rs:output_operands"]}
{"id": "C32", "title": "Kernel-mode and static-context restrictions", "statement": "The set of opcodes requiring kernel mode and the set forbidden in static context are exactly the listed ones, and an instruction decoded from any word has the kernel/static bits of its bitmask set accordingly; every state-changing opcode (storage write, event, L1 message, context setters) is forbidden in static context.", "quantifier": "all opcodes and all words", "why_tests_cant": "for every word", "anchors": ["src/definitions/all.rs:requires_kernel_mode", "src/definitions/all.rs:can_be_used_in_static_context"]}
{"id": "C33", "title": "Operand swap flag", "statement": "swap_operands is true only for Sub, Div, Shift (flag 1) and Ptr (flag 0), so it is false for every decoded commutative or non-arithmetic instruction; for a table entry with no declared flag of that index it is false.", "quantifier": "all variants and all words", "why_tests_cant": "all variants", "anchors": ["src/definitions/mod.rs:swap_operands"]}
{"id": "C34", "title": "Version availability filter (finding)", "statement": "variants_for_version(v) should list all variants introduced up to v, but is_available_for_version compares the wrong way round: with all sub-variants introduced in version 0, variants_for_version(0) lists everything and variants_for_version(v) is empty for every v >= 1. variants_added_in_version(v) lists exactly the variants introduced in v, also for a family with variants introduced later.", "quantifier": "all versions and all opcodes", "why_tests_cant": "all versions", "anchors": ["src/definitions/opcode_trait.rs:is_available_for_version", "src/definitions/opcode_trait.rs:variants_for_version"]}
{"id": "C35", "title": "Maximal sub-variant index (finding)", "statement": "For every opcode family except Ptr the reported max_variant_idx is the largest sub-variant index and at least the index of every variant in the table; for Ptr it is 2 although Shrink has index 3. Nevertheless the number of bits reserved for sub-variants suffices for all opcodes. The other accessor, max_variant_idx_for_version, is right for every family, Ptr too.", "quantifier": "all opcodes and supported versions", "why_tests_cant": "all opcodes", "anchors": ["src/definitions/ptr.rs:max_variant_idx", "src/definitions/mod.rs:max_num_variants_for_version"]}
{"id": "C36", "title": "Condition numbering is a bijection", "statement": "materialize_variant and variant_index are mutually inverse on 0..7, ALL_CONDITIONS lists the conditions in index order, and materialising any index >= 8 panics.", "quantifier": "all indices (unbounded)", "why_tests_cant": "unbounded usize", "anchors": ["src/definitions/condition.rs:materialize_variant", "src/definitions/condition.rs:variant_index"]}
{"id": "C37", "title": "Every instruction costs at least 5 ergs and prices fit u32", "statement": "OPCODES_PRICES initialises, the price of word w's instruction is OPCODES_PRICES[w mod 2048], is at least 5 and at most u32::MAX, and equals u32::MAX only for Invalid. Hence any execution with E ergs runs at most E/5 instructions.", "quantifier": "all words; all instruction sequences of any length; both encoding modes", "why_tests_cant": "unbounded sequences", "anchors": ["src/lib.rs:OPCODES_PRICES", "src/definitions/all.rs:ergs_price"]}
{"id": "C38", "title": "A transaction can send at most 512 L1 messages", "statement": "For every sequence of instructions whose total price is within MAX_TX_ERGS_LIMIT, the number of L1-message instructions is at most the merklizer circuit's capacity of 512. So the L1 messages of one transaction fit into the public data of a block.", "quantifier": "all instruction sequences of any length; both encoding modes", "why_tests_cant": "unbounded histories", "anchors": ["src/definitions/log.rs:ergs_price", "src/circuit_pricing_generator/main.rs:LIMIT_FOR_L1_MESSAGES_MERKLIZER", "src/system_params.rs:MAX_TX_ERGS_LIMIT", "src/system_params.rs:L1_MESSAGE_PUBDATA_BYTES", "src/system_params.rs:MAX_PUBDATA_PER_BLOCK"]}
{"id": "C39", "title": "Call depth stays below VM_MAX_STACK_DEPTH", "statement": "In every history of calls and returns that starts with VM_INITIAL_FRAME_ERGS ergs, where each near/far call is paid for by its price before its frame is pushed, and at most 80 unpaid frames are pushed, the call stack depth never exceeds VM_MAX_STACK_DEPTH.", "quantifier": "all call/return histories of any length; both encoding modes", "why_tests_cant": "unbounded histories", "anchors": ["src/system_params.rs:VM_MAX_STACK_DEPTH", "src/definitions/near_call.rs:ergs_price", "src/definitions/far_call.rs:ergs_price"]}
{"id": "C40", "title": "Transfer stipends do not pay for a storage write", "statement": "An instruction sequence whose total price is at most 2300 ergs, or at most the message-value simulator's stipend, contains no storage write.", "quantifier": "all instruction sequences of any length; both encoding modes", "why_tests_cant": "unbounded histories; reentrancy protection", "anchors": ["src/system_params.rs:MIN_STORAGE_WRITE_COST", "src/definitions/log.rs:ergs_price"]}
{"id": "C41", "title": "Circuit prices cover circuit capacity", "statement": "ceil_div is the exact ceiling whenever it does not overflow; debug builds panic exactly on b = 0 or overflow, release builds panic on b = 0 only and are silently wrong on overflow; each generated price p for a circuit of capacity c satisfies c*p >= ERGS_PER_CIRCUIT and is the least such; so work paid with E ergs opens at most E/ERGS_PER_CIRCUIT circuits, rounded up.", "quantifier": "all u32 pairs; all amounts of work", "why_tests_cant": "2^64 argument pairs", "anchors": ["src/circuit_pricing_generator/main.rs:ceil_div"]}
{"id": "C42", "title": "The committed price file is what the generator writes", "statement": "In debug and release builds, running the generator writes byte for byte the committed src/circuit_prices.rs, without overflow.", "quantifier": "the generator's single run, whole text", "why_tests_cant": "the price constants used by the crate could silently diverge from the generator; no test compares them", "anchors": ["src/circuit_pricing_generator/main.rs:main", "src/circuit_prices.rs"]}
{"id": "C43", "title": "Fat pointer packing", "statement": "FatPointer::from_u256(to_u256(p)) = p for all p; to_u256(from_u256(v)) is v with its upper 128 bits cleared; as an integer the packing is offset + 2^32*page + 2^64*start + 2^96*length. The empty pointer is exactly the one packed as 0 and the one read from words whose lower 128 bits are 0.", "quantifier": "all 2^128 pointers, all 2^256 words", "why_tests_cant": "input space", "anchors": ["src/definitions/abi/fat_pointer.rs:from_u256", "src/definitions/abi/fat_pointer.rs:to_u256"]}
{"id": "C44", "title": "Fat pointer validation is exact", "statement": "validate(fresh) reports OFFSET_IS_NOT_ZERO_WHEN_EXPECTED iff fresh and offset != 0, reports DEREF_BEYOND_HEAP_RANGE iff start+length >= 2^32, and never sets any other bit.", "quantifier": "all pointers", "why_tests_cant": "2^128 pointers", "anchors": ["src/definitions/abi/fat_pointer.rs:validate"]}
{"id": "C45", "title": "Validated pointers address only their slice", "statement": "If a pointer passes validation and is in bounds then the absolute address start+offset does not wrap around 2^32 and lies inside [start, start+length); if it is a valid slice, the remaining range [start+offset, start+length) is within the 32-bit address space; in-bounds implies valid slice; trivial implies valid slice but not in bounds.", "quantifier": "all pointers", "why_tests_cant": "memory safety for every pointer", "anchors": ["src/definitions/abi/fat_pointer.rs:validate_in_bounds", "src/definitions/abi/fat_pointer.rs:validate_as_slice", "src/definitions/abi/fat_pointer.rs:is_trivial"]}
{"id": "C46", "title": "Inner precompile ABI is a bijection with U256", "statement": "PrecompileCallInnerABI::from_u256 and to_u256 are inverse to each other in both directions, with fixed positions.", "quantifier": "all 2^256 words and all ABI values", "why_tests_cant": "input space", "anchors": ["src/definitions/abi/precompile_call.rs:PrecompileCallInnerABI"]}
{"id": "C47", "title": "Outer precompile ABI is the inner ABI without the pages", "statement": "PrecompileCallABI::from_u256 agrees with the inner ABI on offsets, lengths and extra data and is independent of the third 64-bit limb.", "quantifier": "all 2^256 words", "why_tests_cant": "input space", "anchors": ["src/definitions/abi/precompile_call.rs:PrecompileCallABI"]}
{"id": "C48", "title": "Far call ABI byte positions", "statement": "FarCallABI::from_u256 reads ergs from bytes 24..27, forwarding mode, shard id, constructor and system flags from bytes FAR_CALL_*_BYTE_IDX = 28, 29, 30, 31 (little-endian byte order) of the word, the pointer from the low 16 bytes, and ignores bytes 16..23; unknown forwarding modes mean UseHeap.", "quantifier": "all 2^256 words", "why_tests_cant": "input space", "anchors": ["src/definitions/abi/far_call.rs:FarCallABI::from_u256", "src/definitions/abi/far_call.rs:FAR_CALL_FORWARDING_MODE_BYTE_IDX"]}
{"id": "C49", "title": "Return ABI agrees with the far call ABI", "statement": "RetABI::from_u256 and FarCallABI::from_u256 extract the same pointer and the same forwarding mode from every word, and RetABI ignores everything else.", "quantifier": "all 2^256 words", "why_tests_cant": "input space", "anchors": ["src/definitions/abi/ret.rs:RetABI::from_u256"]}
{"id": "C50", "title": "Near call ABI", "statement": "NearCallABI::from_u256 is the word modulo 2^32, independent of all higher bits.", "quantifier": "all 2^256 words", "why_tests_cant": "input space", "anchors": ["src/definitions/abi/near_call.rs:NearCallABI::from_u256"]}
{"id": "C51", "title": "Meta parameters are packed injectively at fixed positions", "statement": "VmMetaParameters::to_u256 puts ergs-per-pubdata at bits 0..31, heap size at 64..95, aux heap size at 96..127, shard ids at 224..231, 232..239, 240..247, and zero elsewhere; so it is injective.", "quantifier": "all parameter values", "why_tests_cant": "2^120 inputs", "anchors": ["src/definitions/abi/meta.rs:VmMetaParameters::to_u256"]}
{"id": "C52", "title": "Heap dereference bound excludes 32-bit overflow", "statement": "For every offset up to MAX_OFFSET_TO_DEREF, offset + 32 does not overflow u32 (so the incremented pointer fits 32 bits too), and the bound plus 1 is the largest offset with offset+32 <= 2^32; every offset below MAX_OFFSET_FOR_ADD_SUB fits 32 bits and no larger one does.", "quantifier": "all 2^256 offsets", "why_tests_cant": "input space", "anchors": ["src/definitions/uma.rs:MAX_OFFSET_TO_DEREF", "src/definitions/ptr.rs:MAX_OFFSET_FOR_ADD_SUB"]}
{"id": "C53", "title": "Versioned hash serialisation round trip", "statement": "Deserialising a serialised storage layout returns it; try_create_from_raw succeeds iff the first byte is 1 and then serialize returns the input bytes unchanged.", "quantifier": "all layouts, all 32-byte arrays", "why_tests_cant": "2^256 inputs", "anchors": ["src/definitions/versioned_hash/mod.rs:serialize", "src/definitions/versioned_hash/mod.rs:try_deserialize"]}
{"id": "C54", "title": "Stored form of the hash clears only the construction marker", "statement": "serialize_to_stored equals serialize except that byte 1 is zero; it is idempotent through deserialisation, and two layouts have the same stored form iff they have equal length and partial hash. The marker of a contract under construction (byte 1 equal to 1) and the marker at rest (0) give two different accepted serialisations, which differ in byte 1 only and have the same stored form.", "quantifier": "all layouts", "why_tests_cant": "2^248 inputs", "anchors": ["src/definitions/versioned_hash/mod.rs:serialize_to_stored", "src/definitions/versioned_hash/mod.rs:YET_CONSTRUCTED_MARKER"]}
{"id": "C55", "title": "Bytecode hash format and errors", "statement": "For every bytecode and every digest function: hashing succeeds iff the number of words is odd and at most the PC maximum; the result has version byte 1, marker 0, the length big-endian in bytes 2..3 (production) and the last 28 digest bytes of the concatenated words; it is accepted by try_create_from_raw.", "quantifier": "all bytecodes of any length, all digest functions", "why_tests_cant": "unbounded length", "anchors": ["src/utils.rs:bytecode_to_code_hash", "src/utils.rs:bytecode_to_code_hash_for_mode", "src/definitions/versioned_hash/mod.rs:from_digest_and_preimage_num_words"]}
{"id": "C56", "title": "Equal production hashes imply equal length and a digest collision", "statement": "If two bytecodes hash to the same production versioned hash, they have the same number of words and their SHA-256 digests agree on the last 28 bytes; so if the truncated digest is collision free on them they are equal.", "quantifier": "all pairs of bytecodes", "why_tests_cant": "pairs of unbounded inputs", "anchors": ["src/utils.rs:bytecode_to_code_hash"]}
{"id": "C57", "title": "Testing-mode hashes truncate the length (finding)", "statement": "In testing mode the length field is the word count modulo 2^16, so bytecodes of different length can carry the same length field; the length is faithful iff fewer than 65536 words. Otherwise the format is that of production hashes (version byte, rest marker, last 28 digest bytes), and where the truncated digest has no collision equal hashes still mean equal bytecodes.", "quantifier": "all bytecodes of any length", "why_tests_cant": "unbounded length", "anchors": ["src/utils.rs:bytecode_to_code_hash_for_mode"]}
{"id": "C58", "title": "PC and immediate arithmetic", "statement": "from_u64_clipped is reduction modulo 2^width and inverse to as_u64 below max; as_u64 is injective; wrapping_add/sub are modular and inverse to each other; max is the greatest value.", "quantifier": "all u16/u32/u64 values", "why_tests_cant": "input space", "anchors": ["src/decoding/mod.rs:AllowedPcOrImm"]}
{"id": "C59", "title": "Nibble split and merge", "statement": "merge_u4(split_as_u4(b)) = b for every byte, split_as_u4(merge_u4(l,h)) = (l,h) for l,h < 16; merge_u4 panics in debug builds exactly if one argument is >= 16 and never in release builds, where the low nibbles are kept and the excess of the first argument is or-ed into the second.", "quantifier": "all bytes and pairs, both builds", "why_tests_cant": "build dependent behaviour", "anchors": ["src/utils.rs:split_as_u4", "src/utils.rs:merge_u4"]}
{"id": "C60", "title": "Pubdata keeps write circuits within capacity", "statement": "For every sequence of storage writes whose pubdata fits MAX_PUBDATA_PER_BLOCK, the number of initial writes is at most 4600 and of repeated writes at most 7400 (the hasher circuits' limits), even though the generated minimal prices are 0.", "quantifier": "all sequences of writes of any length", "why_tests_cant": "unbounded histories", "anchors": ["src/circuit_pricing_generator/main.rs:main", "src/system_params.rs:MAX_PUBDATA_PER_BLOCK"]}
{"id": "C61", "title": "System addresses", "statement": "All named system-contract addresses lie below ADDRESS_UNRESTRICTED_SPACE and are pairwise distinct: 1 to 4 for the Ethereum precompiles, 0x8001 to 0x800D in order for the system contracts, 0x8010 for keccak256; the formal 20-byte addresses are the zero-extended 16-bit ones. Finding: DEPLOYER_SYSTEM_CONTRACT_ADDRESS is 0x8002, the account code storage, not ADDRESS_CONTRACT_DEPLOYER (0x8006).", "quantifier": "all pairs of addresses, all 64-bit low words", "why_tests_cant": "all pairs; constant drift is not tested", "anchors": ["src/system_params.rs:DEPLOYER_SYSTEM_CONTRACT_ADDRESS", "src/system_params.rs:ADDRESS_CONTRACT_DEPLOYER"]}
{"id": "C62", "title": "Memory pages never collide", "statement": "With the page-numbering constants, the pages of the bootloader and of every far call in any history (base page STARTING_BASE_PAGE + 8*k, with code/stack/heap/aux heap offsets) are pairwise distinct and none is the unmapped page. The frame owning a page is found by rounding the page number down to a multiple of the pages reserved per far call.", "quantifier": "all histories of far calls", "why_tests_cant": "unbounded number of far calls", "anchors": ["src/lib.rs:NEW_MEMORY_PAGES_PER_FAR_CALL", "src/lib.rs:STARTING_BASE_PAGE", "src/lib.rs:BOOTLOADER_BASE_PAGE"]}
{"id": "C63", "title": "Implicit call and return registers partition the register file", "statement": "On a far call every one of the 15 registers has exactly one role (calldata pointer, constructor marker, system ABI, reserved, implicit parameter); the four return registers are pairwise distinct and all roles fit REGISTERS_COUNT; every register index fits the 4-bit encoding.", "quantifier": "all register indices", "why_tests_cant": "for all registers", "anchors": ["src/definitions/far_call.rs:CALL_SYSTEM_ABI_REGISTERS", "src/definitions/ret.rs:RET_RESERVED_REGISTER_0"]}
{"id": "C64", "title": "Page and timestamp counters never overflow", "statement": "In every execution that starts with VM_INITIAL_FRAME_ERGS and pays the table price of each instruction, the memory page counter (advanced by NEW_MEMORY_PAGES_PER_FAR_CALL on every far call) and the timestamp (advanced by TIME_DELTA_PER_CYCLE every cycle) stay below 2^32.", "quantifier": "all executions of any length; both encoding modes", "why_tests_cant": "the executions that come near the bound have hundreds of millions of steps", "anchors": ["src/lib.rs:NEW_MEMORY_PAGES_PER_FAR_CALL", "src/lib.rs:TIME_DELTA_PER_CYCLE", "src/system_params.rs:VM_INITIAL_FRAME_ERGS"]}
{"id": "C65", "title": "Heap growth stays below the dereference limit", "statement": "With MEMORY_GROWTH_ERGS_PER_BYTE and NEW_FRAME_MEMORY_STIPEND, no frame paying within MAX_TX_ERGS_LIMIT can grow a heap to an offset at or above MAX_OFFSET_TO_DEREF, so offset + 32 never overflows 32 bits. Every heap of up to 2^LOG2_NUM_ADDRESSABLE_HEAP_BYTES bytes can be paid for, but so can larger ones: prices do not enforce that bound. An access of 32 bytes ends within the bootloader memory exactly when its offset may be dereferenced.", "quantifier": "all offsets", "why_tests_cant": "for every offset", "anchors": ["src/lib.rs:MEMORY_GROWTH_ERGS_PER_BYTE", "src/system_params.rs:NEW_FRAME_MEMORY_STIPEND", "src/definitions/uma.rs:MAX_OFFSET_TO_DEREF_LOW_U32", "src/system_params.rs:BOOTLOADER_MAX_MEMORY"]}
{"id": "C66", "title": "Printed instructions are unambiguous", "statement": "Two opcode variants with the same Display text are equal; two decoded instructions (production or testing mode) with the same Display text are equal in every field. The text has eight lines; each register index stands in decimal after its own label and each immediate in hexadecimal after its own label, in six digits in production mode and six to eight in testing mode.", "quantifier": "all pairs of variants and all pairs of decoded instructions", "why_tests_cant": "injectivity over all pairs of instructions", "anchors": ["src/definitions/mod.rs:OpcodeVariant", "src/opcode.rs:DecodedOpcode"]}
{"id": "C67", "title": "The described decoding format is the one the bitmask uses", "statement": "compute_decoding_format reports, for every supported ISA version, the widths of the opcode, sub-variant, flag, input and output fields of the opcode bitmask and their total; for every unsupported version it panics.", "quantifier": "all ISA versions", "why_tests_cant": "for every version number", "anchors": ["src/definitions/mod.rs:compute_decoding_format"]}
{"id": "C68", "title": "Instruction variants are totally ordered", "statement": "The derived order on variants, opcodes, operands, flags and conditions is total, antisymmetric, transitive and consistent with equality; opcodes are ordered by logical index then sub-variant index; within one logical opcode version-0 numbers follow this order, but the table as a whole does not.", "quantifier": "all variants, all pairs and triples of them", "why_tests_cant": "all triples of variants", "anchors": ["src/definitions/mod.rs:OpcodeVariant", "src/definitions/all.rs:Opcode", "src/definitions/condition.rs:Condition"]}
{"id": "C69", "title": "Addressing modes are numbered consistently", "statement": "The list of all addressing modes is complete and in index order, the encoding byte is the index, the counts of source and destination modes are those of the list, memory is used by every mode but registers and immediates; register-or-immediate modes have the indices of the memory modes of the same name; in every decoded word the source and destination modes are below the published numbers of input and output variants and the destination mode is allowed for a destination.", "quantifier": "all modes, all 64-bit words", "why_tests_cant": "every word must decode to a mode that fits its bitmask group", "anchors": ["src/imm_mem_modifiers.rs:ImmMemHandlerFlags", "src/imm_mem_modifiers.rs:RegOrImmFlags", "src/lib.rs:NUM_INPUT_VARIANTS", "src/lib.rs:NUM_OUTPUT_VARIANTS"]}
{"id": "C70", "title": "Flags mean what their published positions say", "statement": "For every instruction of the table, the flags named by the published position constants (set flags, swap operands, static, shard, first message, to label, increment) are exactly the flags the instruction can have: toggling a named flag gives another instruction of the table, a nameless flag is always clear and setting it leaves the table; swap_operands reports the flag of that name, and flag i is at bit OPCODE_TYPE_BITS + max_num_variants + i of the bitmask.", "quantifier": "all instructions of the table, all variants", "why_tests_cant": "all instructions times all flag settings", "anchors": ["src/definitions/mod.rs:SET_FLAGS_FLAG_IDX", "src/definitions/far_call.rs:FAR_CALL_STATIC_FLAG_IDX", "src/definitions/log.rs:FIRST_MESSAGE_FLAG_IDX", "src/definitions/ret.rs:RET_TO_LABEL_BIT_IDX", "src/definitions/uma.rs:UMA_INCREMENT_FLAG_IDX", "src/definitions/mod.rs:swap_operands"]}
{"id": "C71", "title": "Published bit positions are the ones in use", "statement": "For every instruction of the table the bitmask consists of groups of the published widths (opcode, sub-variant, flags, source, destination), with exactly one bit set in each exclusive group; its auxiliary bits (kernel mode, static context, explicit panic) are at the published offsets from the rounded description width; no bit is set at or above the published total width, nor, for existing instructions, between the description width and its rounding; the fields of every production and testing word are at the published shifts and widths, which do not overlap.", "quantifier": "all variants, supported versions, all words", "why_tests_cant": "every variant and every word", "anchors": ["src/lib.rs:KERNER_MODE_FLAG_IDX", "src/lib.rs:total_opcode_description_and_aux_bits_for_version", "src/lib.rs:CONDITIONAL_BITS_SHIFT", "src/lib.rs:OPCODES_TABLE_WIDTH", "src/lib.rs:OPCODE_INPUT_VARIANT_FLAGS", "src/lib.rs:OPCODE_OUTPUT_VARIANT_FLAGS", "src/lib.rs:TOTAL_AUX_BITS"]}
{"id": "C72", "title": "Version lists and bit decomposition tables", "statement": "all_backward_compatible_versions of any version is the increasing list of supported versions not above it; synthesize_bit_decomposition_table of any list of variants has the bitmask of the i-th variant at position i for versions 0 and 1, and for later versions panics exactly on non-empty lists.", "quantifier": "all version numbers, all lists of variants", "why_tests_cant": "unbounded lists and version numbers", "anchors": ["src/definitions/opcode_trait.rs:all_backward_compatible_versions", "src/definitions/mod.rs:synthesize_bit_decomposition_table"]}
{"id": "C73", "title": "One prototype per logical opcode", "statement": "The prototypes' indices are the numbers below NUM_OPCODES, each once, and cover the index of every opcode; the trait objects of all_opcodes agree with the prototypes position by position in properties, operands and sub-variant indices and have distinct names; positions are not the indices.", "quantifier": "all opcodes, all versions", "why_tests_cant": "for every opcode and version number", "anchors": ["src/definitions/mod.rs:all_opcode_prototypes", "src/definitions/mod.rs:all_opcodes"]}
{"id": "C74", "title": "Circuit usage and access to the state are paid for", "statement": "For every sequence of instructions paid at table prices, the VM cycles, RAM accesses, log, storage, event queue entries and code requests counted per instruction, at their unit prices, are at most the ergs spent; hence the circuits they fill, over all kinds together, times ERGS_PER_CIRCUIT are at most the ergs spent. The price of every instruction is exactly that usage at unit prices plus the published price for its access to storage, events, messages or the callstack, or the published minimum where that is more (storage writes, messages, the invalid opcode); so in every execution these accesses are paid on top of the circuits. (A third RAM access of instructions with two memory operands is, by a comment in the code, deliberately not charged and not counted.)", "quantifier": "all instruction sequences and budgets; both encoding modes", "why_tests_cant": "unbounded executions", "anchors": ["src/lib.rs:RICH_ADDRESSING_OPCODE_ERGS", "src/circuit_prices.rs", "src/circuit_pricing_generator/main.rs", "src/lib.rs:STORAGE_READ_IO_PRICE", "src/lib.rs:CALL_LIKE_ERGS_COST", "src/system_params.rs:MIN_STORAGE_WRITE_COST"]}
{"id": "C75", "title": "Decommitment prices", "statement": "For every bytecode production hashing accepts, words times ERGS_PER_CODE_WORD_DECOMMITTMENT fits u32; the overhead set aside for the message-value simulator covers it exactly up to 16000 words, which is fewer than a 16-bit program counter addresses.", "quantifier": "all accepted bytecodes", "why_tests_cant": "unbounded inputs", "anchors": ["src/system_params.rs:DECOMMITMENT_MSG_VALUE_SIMULATOR_OVERHEAD", "src/lib.rs:ERGS_PER_CODE_WORD_DECOMMITTMENT"]}
{"id": "C76", "title": "Lazily built tables under any schedule", "statement": "However many threads use the crate's lazily initialised tables, maps, constants and addresses, first use included, and however they are interleaved: each table is built at most once, no build panics or deadlocks, every thread that decodes, encodes or reads a table gets exactly the result a single-threaded program gets, and all threads finish within a bounded number of steps. Should an initialiser panic, it is not run again: the static stays poisoned and every thread that needs it panics.", "quantifier": "all numbers of threads, all computations over the lazy statics, all schedules", "why_tests_cant": "a test runs some schedules of some threads; circular or blocked first uses depend on the interleaving", "anchors": ["src/lib.rs:lazy_static!", "src/system_params.rs:lazy_static!", "src/decoding/encoding_mode_production.rs", "src/decoding/encoding_mode_testing.rs"]}
{"id": "C77", "title": "Numbers across any history of ISA versions", "statement": "Merging the variant lists of any sequence of ISA versions, oldest first: a number assigned after an earlier part of the history keeps its meaning (up to the register-only spelling of an immediate-capable source) in every later table, and tables only grow. If no version has two variants of the same meaning, the merge succeeds exactly if each version contains every meaning of the version before, and the result consists of exactly the variants of the last version, in as many numbers. The table builder is such a history cut before the first version above the limit, with the table as long after each version as its encoding density.", "quantifier": "all finite histories of versions with arbitrary variant lists, all limits", "why_tests_cant": "only two versions exist today; the next one must not renumber opcodes of deployed bytecode", "anchors": ["src/definitions/mod.rs:synthesize_opcode_decoding_tables", "src/definitions/mod.rs:find_new_opcodes"]}
{"id": "C78", "title": "Crash points and concurrent runs of the price generator", "statement": "Any number of price generators running at once over the same file, with every write split arbitrarily, and each stoppable at any point: once all have finished, or the one that opened the file last has, the file is exactly the generated text; before any of them has opened it the file is untouched; in between it is no longer than the generated text and each byte is either the right one or zero. A single generator stopped anywhere leaves the old file or a prefix of the new text; reading a prefix yields prices that are a prefix of the right ones, never a wrong price. The write is not atomic: a crash can leave an empty file, whatever was there before.", "quantifier": "all initial file contents, numbers of processes, interleavings, splits of writes and crash points", "why_tests_cant": "the outcomes depend on schedules and crash points", "anchors": ["src/circuit_pricing_generator/main.rs:main", "src/circuit_prices.rs"]}
{"id": "C79", "title": "No dependence on hash seeds", "statement": "Whatever the (randomly seeded) hash function, however the hash tables grow, and whether they chain colliding entries or probe further slots (in any order that visits all of them, such as the standard library's): the variant-to-number maps initialise, and answer every lookup with the least number at which the table has the variant; the duplicate-name checks and the check that a version keeps all older opcodes have the same outcome. Two processes with different seeds, even with differently implemented maps, answer every lookup alike.", "quantifier": "all hash functions, growth policies, tags, probe sequences, map implementations meeting the contract of maps, tables, name lists and keys", "why_tests_cant": "each process draws its own seed, so a test sees a handful of hash functions", "anchors": ["src/lib.rs:OPCODE_TO_CANONICAL_INDEX_LOOKUP_MAP", "src/lib.rs:OPCODE_TO_MONOTONIC_INDEX_NUMBER_MAP", "src/definitions/mod.rs:find_new_opcodes", "src/definitions/mod.rs:compute_encoding_density"]}
{"id": "C80", "title": "Deployed programs", "statement": "Every encodable program of at most 2^16 instructions (2^32 in testing mode) can be assembled, padded with zeros to an odd number of 32-byte words and hashed to an accepted versioned hash whose length field is the number of words (modulo 2^16 in testing mode). A machine that fetches from the code page holding those words reads exactly the program's instructions at every program counter, and an explicit panic beyond the end, also in the padding. If the truncated digest has no collision, two programs with the same hash agree at every position except for trailing all-zero (invalid) instructions; that exception is needed. The formal exception handler of the initial frame lies outside every program of fewer than 2^16 instructions, so a fetch there is an explicit panic.", "quantifier": "all programs, program counters, digest functions, builds and paddings", "why_tests_cant": "programs and digests are unbounded; the statement composes the assembler, padding, hashing, fetch and decoder", "anchors": ["src/utils.rs:bytecode_to_code_hash", "src/decoding/encoding_mode_production.rs:EncodingModeProduction", "src/decoding/encoding_mode_testing.rs:EncodingModeTesting", "src/definitions/versioned_hash/mod.rs:try_create_from_raw", "src/system_params.rs:INITIAL_FRAME_FORMAL_EH_LOCATION"]}
{"id": "C81", "title": "Declared variant data (finding)", "statement": "variants_data lists every sub-variant of the family once, in index order, in versions 0 and 1 and panics in any other. The declared number of immediates of each sub-variant is what its declared operands can need (imm_0 for an input from an immediate or memory, imm_1 for an output to memory), plus the code positions of calls and returns; except that heap accesses in version 1 can take their offset from imm_0 and still declare 0.", "quantifier": "all opcodes, sub-variants and versions", "why_tests_cant": "all opcodes in all versions, related to every operand form", "anchors": ["src/definitions/opcode_trait.rs:full_variants_product", "src/definitions/opcode_trait.rs:OpcodeVariantData", "src/definitions/uma.rs:variants_data", "src/definitions/log.rs:variants_data"]}
{"id": "C82", "title": "Log query kinds and prepaid public data", "statement": "Every number below NUM_SPONGES is the auxiliary byte of exactly one of the four kinds of log query, and no other number is one. The public data prepaid for the MsgValueSimulator covers any two storage writes, and not three initial ones.", "quantifier": "all numbers; all sequences of storage writes", "why_tests_cant": "unbounded sequences", "anchors": ["src/system_params.rs:STORAGE_AUX_BYTE", "src/system_params.rs:NUM_SPONGES", "src/system_params.rs:MSG_VALUE_SIMULATOR_PUBDATA_BYTES_TO_PREPAY"]}
{"id": "C83", "title": "Running encoded code refines running the instructions", "statement": "Take any virtual machine, whatever its instructions do, that may use each instruction, its price and its property mask. Assemble, pad and load any programs of existing instructions into code pages. Then any number of cycles of: split the program counter, fetch the word, parse it, look up price and mask under the parsed number, execute, never panics in the crate and reaches exactly the state reached by executing the programs' instructions directly (the all-zero instruction after the end). If the programs have the same code hashes as other ones, and the truncated digest has no collision, no machine can tell them apart.", "quantifier": "all machines, states, families of programs, builds, page contents that hold them, numbers of cycles; both encoding modes", "why_tests_cant": "runs are unbounded and the machine is arbitrary", "anchors": ["src/decoding/encoding_mode_production.rs:EncodingModeProduction", "src/decoding/encoding_mode_testing.rs:EncodingModeTesting", "src/decoding/mod.rs:parse_preliminary_variant_and_absolute_number", "src/lib.rs:OPCODES_PRICES", "src/lib.rs:OPCODES_PROPS_INTEGER_BITMASKS", "src/utils.rs:bytecode_to_code_hash"]}
{"id": "C84", "title": "Guarded execution", "statement": "A machine that replaces an instruction by mask_into_panic when its table price exceeds the ergs left or the three auxiliary bits of its table mask forbid it (explicit panic, kernel mode, static context), and by mask_into_nop when its condition does not hold, executes unchanged exactly the instructions that are affordable, valid, permitted and whose condition holds. Whatever is in the code pages, such a machine never panics in the crate; in a static history nothing that only state-changing opcodes modify is modified; in a history outside the kernel nothing that only kernel opcodes modify is modified; every executed instruction can be encoded.", "quantifier": "all words, page contents, states, checks, effects and numbers of cycles; both encoding modes", "why_tests_cant": "histories are unbounded and range over arbitrary code and arbitrary machines", "anchors": ["src/lib.rs:OPCODES_PROPS_INTEGER_BITMASKS", "src/lib.rs:KERNER_MODE_FLAG_IDX", "src/lib.rs:CAN_BE_USED_IN_STATIC_CONTEXT_FLAG_IDX", "src/lib.rs:EXPLICIT_PANIC_FLAG_IDX", "src/opcode.rs:mask_into_panic", "src/opcode.rs:mask_into_nop"]}
{"id": "C85", "title": "Encoding modes as an interface", "statement": "Take any implementation of VmEncodingMode, inside or outside the crate, that meets a contract: its PcOrImm counts from 0 to max() and calculates modulo max() + 1; representable instructions encode, canonically, and decode to themselves; encode_as_bytes gives the bytes of encode_as_integer; different integers have different bytes; nop_encoding and exception_revert_encoding are the encodings of the default instruction masked into a no-operation and a panic; split_pc divides the program counter by the number of instructions per word; integer_representaiton_from_u256 reads the group of N bytes at that position. Then every program of representable instructions assembles to N bytes per instruction, different programs have different bytecode, every program counter within it fetches and decodes the instruction as written, counting up from zero visits the instructions in order, and any machine runs on the words as it runs on the instructions. Both built-in modes meet the contract. In every mode bytecode_to_code_hash_for_mode accepts exactly odd numbers of words up to the largest program counter, and masking keeps only the immediates.", "quantifier": "all implementations of the trait for all N, all programs, machines, program counters, builds and numbers of cycles", "why_tests_cant": "ranges over implementations that do not exist yet, and over unbounded programs and runs", "anchors": ["src/decoding/mod.rs:VmEncodingMode", "src/decoding/mod.rs:AllowedPcOrImm", "src/decoding/mod.rs:AllowedIntegerRepresentation", "src/opcode.rs:DecodedOpcode", "src/utils.rs:bytecode_to_code_hash_for_mode"]}
{"id": "C86", "title": "Kinds of versioned hashes as an interface", "statement": "For every implementation of VersionedHashDef whose deserialisation and serialisation are inverse to each other and whose serialised hashes begin with its version byte: try_create_from_raw accepts bytes as a hash exactly when they are its serialisation, serialising is injective, and among kinds with different version bytes at most one accepts given bytes, namely the one found by the first byte. ContractCodeSha256 is such a kind and accepts exactly the bytes that begin with its version byte.", "quantifier": "all implementations of the trait, all lists of kinds, all 32-byte arrays", "why_tests_cant": "ranges over implementations that do not exist yet and over all 32-byte arrays", "anchors": ["src/definitions/versioned_hash/mod.rs:VersionedHashDef", "src/definitions/versioned_hash/mod.rs:VersionedHashGeneric", "src/definitions/versioned_hash/mod.rs:ContractCodeSha256"]}
{"id": "C87", "title": "What the compile-time checks promise", "statement": "Each unnamed constant check of the crate passes exactly when its promise holds, for every choice of the constants: growing a heap by n bytes costs n ergs, the decommitter sorter cost fits into a u16, shared addressing modes have the same index in both operand classes, and far calls and returns have their forwarding mode in the same byte of every word. All checks pass, so growing a heap beyond the stipend costs one erg per byte, every register-or-immediate mode is a full mode with the same index, byte and memory use, and the return ABI reads every word as the far call ABI does.", "quantifier": "all values of the constants, all heap sizes, all words", "why_tests_cant": "ranges over all words, sizes and constants", "anchors": ["src/lib.rs:MEMORY_GROWTH_ERGS_PER_BYTE", "src/lib.rs:CODE_DECOMMITTER_SORTER_COST_IN_ERGS", "src/imm_mem_modifiers.rs:RegOrImmFlags", "src/definitions/abi/ret.rs:RET_FORWARDING_MODE_BYTE_IDX"]}
{"id": "C88", "title": "The price generator for any parameters", "statement": "For every choice of circuit capacities and of block and transaction limits, a price file the generator produces with overflow checks is well formed, declares the crate's constants in order, and prices everything right: each per-unit price is the least that pays for a full circuit, an L1 message costs the least at which one circuit's messages take all ergs of a transaction, and the minimal price of a write is zero when the block's pubdata bounds the number of writes already and otherwise the least price that does; so writes and messages never outnumber their circuits' capacity. The generator panics exactly when a capacity is zero or an intermediate value exceeds 32 bits. The two numbers of pubdata bytes, machine words in the crate, are assumed to fit 32 bits here; the generator sees their low 32 bits only, and cuts off a larger one without a panic. Without overflow checks it writes the same file whenever the checked build succeeds, but may silently write a wrong one otherwise.", "quantifier": "all values of the nineteen capacities and limits, all numbers of writes and messages, both build profiles", "why_tests_cant": "a test runs the generator with the one set of parameters in the crate; the next upgrade changes them", "anchors": ["src/circuit_pricing_generator/main.rs", "src/circuit_prices.rs"]}
{"id": "C89", "title": "Hashing tells values apart", "statement": "Derived hashing of instructions, opcodes, operands, conditions, ABI values and versioned hashes meets the contract of std::hash::Hash: what one value feeds to a hasher is never a prefix of what a different value feeds, in calls as well as in raw bytes, for every byte order and width of usize. Pairs and lists of such values inherit this. Hence with any hasher and any growth of the tables, the lookup maps find every instruction at its first number.", "quantifier": "all pairs of values of each type, all platforms, all hashers, all lists of values", "why_tests_cant": "ranges over all pairs of 2^128 and more values and all hashers", "anchors": ["src/definitions/mod.rs:OpcodeVariant", "src/definitions/all.rs:Opcode", "src/definitions/abi", "src/definitions/versioned_hash/mod.rs"]}
{"id": "C90", "title": "Order of ABI values", "statement": "Fat pointers, far call, return, near call, precompile and meta parameters are totally ordered, consistently with equality, by their fields in declaration order. For fat pointers this is not the order of the packed words, which compares length, start, page and offset in that order.", "quantifier": "all triples of values of each type", "why_tests_cant": "ranges over all triples of values", "anchors": ["src/definitions/abi/fat_pointer.rs:FatPointer", "src/definitions/abi/far_call.rs:FarCallABI", "src/definitions/abi/ret.rs:RetABI", "src/definitions/abi/precompile_call.rs", "src/definitions/abi/meta.rs"]}
{"id": "C91", "title": "Upgrading the instruction set does not change running programs", "statement": "Take any history of instruction set versions merged in order, any machine that does not care how a register source is spelled, and any code. As long as the machine of an earlier version fetches words its version knows, the machine of every later version goes through exactly the same states. The crate's fetch, decoder, price table and mask table are the machine of the version it publishes; so programs of version 0 words run on it as they did on version 0. Words new in version 1 do run differently.", "quantifier": "all histories of versions, all machines, code pages, initial states and numbers of cycles, both encoding modes", "why_tests_cant": "ranges over all machines, programs and run lengths and over future versions", "anchors": ["src/definitions/mod.rs:synthesize_opcode_decoding_tables", "src/lib.rs:OPCODES_TABLE", "src/decoding/encoding_mode_production.rs", "src/decoding/encoding_mode_testing.rs", "src/utils.rs"]}
{"id": "C92", "title": "Debug texts can be read back", "statement": "The {:?} text of every instruction, variant, list of variants, ABI value, versioned hash, version, number and variant data is a well-formed Rust debug text from which a reader that knows nothing of the crate recovers the type's name and every field under its name with its exact value, so that different variants, lists of variants, instructions, ABI values and versioned hashes never print alike in a panic message or log.", "quantifier": "all values of each type, lists of any length", "why_tests_cant": "ranges over 2^128 and more values and lists of any length", "anchors": ["src/opcode.rs:DecodedOpcode", "src/definitions/mod.rs:OpcodeVariant", "src/definitions/all.rs:Opcode", "src/definitions/abi", "src/definitions/versioned_hash/mod.rs", "src/definitions/opcode_trait.rs"]}
{"id": "C93", "title": "Code hashes are SHA-256, and a collision of code hashes is a collision of its compression function", "statement": "Hashing a code word by word, as bytecode_to_code_hash does, gives the SHA-256 of the standard (FIPS 180-4) of the concatenated words, however the bytes are split into updates; a code of an odd number n of words is processed in exactly (n+1)/2 rounds, two words per round, the last round holding the last word, the end marker and the bit length; and whenever two different codes have the same code hash, two different inputs of the compression function that occur while hashing them have outputs that agree on the last 224 bits.", "quantifier": "all codes of any odd length below the limit, all ways of splitting a message into updates, all compression functions for the reduction", "why_tests_cant": "ranges over codes of any length and over all pairs of codes", "anchors": ["src/utils.rs:bytecode_to_code_hash", "src/definitions/versioned_hash/mod.rs"]}
{"id": "C94", "title": "Decommitting a code is paid for", "statement": "The price per code word covers the SHA-256 rounds of a code exactly when the code has at least five words (one and three word codes cost more proving than their words pay: a finding); for every execution in which each far call loads at most one code, the ergs charged for the instructions together with the price of the loaded words cover every circuit instance that execution and decommitment fill completely.", "quantifier": "all executions of any length, all sequences of loaded codes of any lengths", "why_tests_cant": "ranges over executions and codes of any length", "anchors": ["src/circuit_prices.rs", "src/circuit_pricing_generator/main.rs", "src/system_params.rs", "src/definitions/far_call.rs", "src/utils.rs:bytecode_to_code_hash"]}
{"id": "C95", "title": "A code hash pins down behaviour, up to collisions of the compression function", "statement": "If two families of programs have been assembled, padded and loaded and bytecode_to_code_hash (or its testing mode version) gives each contract's two codes the same versioned hash, then every virtual machine goes through the same states on both families, on words as on instructions, for any number of cycles; unless hashing the two codes of some contract runs SHA-256's compression function on two different inputs whose results agree in all words but the first.", "quantifier": "all families of programs of any lengths, all machines, all initial states, any number of cycles", "why_tests_cant": "ranges over all pairs of programs, all machines and unbounded executions", "anchors": ["src/utils.rs:bytecode_to_code_hash", "src/definitions/versioned_hash/mod.rs", "src/decoding"]}
{"id": "C96", "title": "First use of the tables is safe at the level of single atomic operations", "statement": "The lazily initialised tables behave as if every dereference, every start and every end of an initialiser were one step, although each is a sequence of loads, weak compare-and-exchanges, swaps, futex waits and wake-ups that threads interleave arbitrarily: no thread reads a table before it is stored, no two threads access the storage of a table at once if one writes it, a stored table never changes again, no wake-up is lost, every thread finishes with the sequential result, and the number of operations is bounded in terms of the number of spurious wake-ups, spurious compare-and-exchange failures and loads of outdated words.", "quantifier": "any number of threads, any computations over the tables, every schedule of atomic operations, any number of spurious events at any place, any set of statics whose initialisers may panic or depend on each other", "why_tests_cant": "A test runs a few schedules on one machine; lost wake-ups and races hide in schedules and spurious events that hardly ever occur.", "anchors": ["src/lib.rs:OPCODES_TABLE", "src/lib.rs:OPCODES_PROPS_INTEGER_BITMASKS", "src/lib.rs:OPCODE_TO_CANONICAL_INDEX_LOOKUP_MAP", "src/lib.rs:OPCODES_PRICES", "Cargo.toml:lazy_static"]}
{"id": "C97", "title": "What the crate's own unit tests check holds for every input", "statement": "The checks of the unit tests hold beyond the inputs they use: the comparison of the version-0 and version-1 tables (legacy and current builder agree, the version-0 table starts with its variants in order, every assigned version-0 number keeps its meaning, every number new in version 1 was a panic before) passes for every table width and target the builder accepts and otherwise panics exactly as the builder does; what it reports as new is exactly the version-1 variants whose meaning no version-0 variant has, in the order of their numbers; looking up the number and properties mask of a variant succeeds for exactly the variants of the table and gives that variant's own mask; decoding the variant of a raw word never panics and agrees with the production parser; the tests that print parts of the version-0 table print exactly entries 0 to 19, and entries 40 to 59 each with its own mask; and all eight tests pass. Run on any other functions in place of the crate's, the comparison passes exactly if none of them panics and those conditions hold of them.", "quantifier": "every table width, pointer width, variant size and build; every opcode variant; every 64-bit word; for the comparison, also every choice of the functions it compares", "why_tests_cant": "The tests run at width 11 on one target, on two variants and on one word, and mostly print what they compute instead of checking it.", "anchors": ["src/definitions/mod.rs:test::calculator", "src/definitions/mod.rs:test::check_encoding", "src/definitions/mod.rs:test::check_serialize", "src/definitions/mod.rs:test::decode_from_raw", "src/definitions/mod.rs:test::synthesize_table", "src/definitions/mod.rs:test::synthesize_bit_encoding_table", "src/definitions/mod.rs:synthesize_opcode_decoding_tables", "src/definitions/mod.rs:find_new_opcodes"]}
{"id": "C98", "title": "Pointers never leave the slice they were made from", "statement": "Take a fat pointer that passes validate(true) and let a virtual machine move it (ptr.add, ptr.sub), shorten it (ptr.shrink), change its upper half (ptr.pack), advance it by reads, and pass it on in far calls and returns with FarCallABI/RetABI::from_u256, each under the crate's check or bound, any number of times: the pointers obtained are exactly those whose slice lies in the original slice; they pass validation again; an offset that passes validate_in_bounds addresses a byte of the original slice in 32-bit arithmetic; reads at offsets up to MAX_OFFSET_TO_DEREF do not wrap around; a callee can make nothing its caller could not; pointers into different frames never meet. Leaving out validate or validate_as_slice breaks this.", "quantifier": "all fresh pointers, all histories of pointer operations, calls and returns of any length, all upper halves", "why_tests_cant": "ranges over unbounded histories of operations on 128-bit pointers", "anchors": ["src/definitions/abi/fat_pointer.rs:FatPointer", "src/definitions/abi/far_call.rs:FarCallABI::from_u256", "src/definitions/abi/ret.rs:RetABI::from_u256", "src/definitions/ptr.rs:MAX_OFFSET_FOR_ADD_SUB", "src/definitions/uma.rs:MAX_OFFSET_TO_DEREF", "src/lib.rs:NEW_MEMORY_PAGES_PER_FAR_CALL"]}
{"id": "C99", "title": "First use of the tables is free of data races under the memory orders of the language", "statement": "Even if a thread may see outdated values of the words that guard the lazily initialised tables, as the acquire, release and relaxed orders of the atomic operations allow, the tables behave as if every dereference, every start and every end of an initialiser were one step: when a thread reads a table, the write of that table happened before; a table is written while nobody has read or written it; a stored table never changes again; no wake-up is lost; every thread finishes with the sequential result; and the number of operations without delay is bounded in terms of the delayed and spurious ones. The two orders that this needs are that loads acquire and that the final swap releases: if either is relaxed, two threads dereferencing one table can race.", "quantifier": "any number of threads, any computations over the tables, every schedule of atomic operations, every choice of the word each load sees among those the memory model allows, any number of spurious events, any set of statics whose initialisers may panic or depend on each other, every combination of memory orders", "why_tests_cant": "Most test machines never show a thread an outdated word, and a data race need not have a visible effect in a run.", "anchors": ["src/lib.rs:OPCODES_TABLE", "src/lib.rs:OPCODES_PROPS_INTEGER_BITMASKS", "src/lib.rs:OPCODE_TO_CANONICAL_INDEX_LOOKUP_MAP", "src/lib.rs:OPCODES_PRICES", "Cargo.toml:lazy_static"]}
{"id": "C100", "title": "Power failures and damage to the generated price file", "statement": "A file that is no longer than the generated text and has in every place the generated byte or zero never reads as a wrong price: it is unreadable, or declares some of the crate's price constants with their values, in order. So generators running at the same time, stopped anywhere, never leave a file with a wrong price once one of them has opened it; nor does any number of power failures, each at any moment, if the file was empty or generated before. In general every byte is then the one from the beginning, the generated one, or zero. Generators that run to their end afterwards write exactly the generated text. The write itself is not durable: even after the generator has returned, a power failure may leave the old file or the new one with bytes zeroed.", "quantifier": "every file content of the given kind; every initial content, number of generators, interleaving, short write, stop, number and moment of power failures, and every part of the written data that survives", "why_tests_cant": "A test cannot cut the power at every moment, nor choose which of the unsynchronised bytes survive.", "anchors": ["src/circuit_pricing_generator/main.rs:main", "src/circuit_prices.rs"]}
{"id": "C101", "title": "Validation results say the same however they are read", "statement": "The set of exceptions that validating a fat pointer returns says exactly which of the two problems the pointer has, and nothing else, whether it is read by its bits, by asking whether it contains or intersects a named flag, is empty or full, by its complement, or by the names it lists; its bits convert back to it. Collecting the results of any number of validations gives the problems that some of the pointers has. On any values, also with undeclared bits, the methods are the operations on sets of bits, and collecting what iteration yields gives the value back.", "quantifier": "every pointer, freshness, list of pointers, pair of exception sets (all 64-bit values) and 64-bit word", "why_tests_cant": "There are 2^128 pointers and 2^64 exception words, and lists of any length.", "anchors": ["src/definitions/abi/fat_pointer.rs:FatPointerValidationException", "src/definitions/abi/fat_pointer.rs:FatPointer::validate"]}
{"id": "C102", "title": "Partial reading, serialisation methods and hashes from digests", "statement": "Reading only the variant and condition of a word gives, for every word of either mode, the number in its low 11 bits, the table's variant under that number and the condition in bits 13 to 15, the same as a full parse, and never panics. serialize_as_integer and serialize_as_bytes of an instruction that exists succeed in every mode that keeps the contract of encoding modes, parse back to it, and agree: the bytes are the word, big-endian in the crate's modes. The versioned hash made from a digest and a number of words, whatever they are, serialises to version 1, no marker, that number and the last 28 bytes of the digest, parses back to itself, has the same stored form, and two such hashes are equal exactly if the numbers and those 28 bytes are.", "quantifier": "every 64-bit and 128-bit word, every instruction and build, every lawful encoding mode, every 32-byte digest and 16-bit length", "why_tests_cant": "There are 2^128 words, 2^272 digests with lengths, and encoding modes that do not exist yet.", "anchors": ["src/decoding/encoding_mode_production.rs:variant_and_condition_from_u64_word", "src/decoding/encoding_mode_testing.rs:variant_and_condition_from_u128_word", "src/opcode.rs:serialize_as_integer", "src/opcode.rs:serialize_as_bytes", "src/definitions/versioned_hash/mod.rs:from_digest_and_preimage_num_words"]}
{"id": "C103", "title": "Pretty debug texts", "statement": "The {:#?} text of every opcode, operand, variant, list of variants, instruction, ABI value, versioned hash, version, number and variant data is its {:?} text with only the layout changed: what stands between two brackets is put on lines of its own, one part to a line, indented by four spaces for each open bracket and followed by a comma, and only the empty list stays on its line. Taking the layout away gives the {:?} text back, so values that print alike with {:#?} are the same.", "quantifier": "all values of each type, lists of any length, brackets nested to any depth", "why_tests_cant": "ranges over 2^128 and more values and lists of any length", "anchors": ["src/opcode.rs:DecodedOpcode", "src/definitions/mod.rs:OpcodeVariant", "src/definitions/all.rs:Opcode", "src/definitions/abi", "src/definitions/versioned_hash/mod.rs", "src/definitions/opcode_trait.rs"]}
{"id": "C104", "title": "Ergs bound executions with call frames", "statement": "Take a machine that in each cycle decodes a word, looks up its price and mask, executes it, or a nop or panic in its place, and keeps a stack of call frames that near calls, far calls, returns and panics push and pop; memory growth, loading of code and any further spending are paid from the running frame. Then in every history and at whatever depth: the ergs given to a call pay for all instructions executed in it and below it, and what is left of them covers the memory bought and the code loaded; the frames below lose nothing and, when the call ends, the caller has what it kept and at most what it gave besides, and is otherwise unchanged, but for its heaps after a near call. What a call does to the stack does not depend on the frames below. A near call that names an amount costs its caller at most that and 25 ergs; a far call spends at most the amount its ABI word names, with the additive cost for the message-value simulator. From the initial ergs, and at most 80 frames, the stack stays within VM_MAX_STACK_DEPTH and timestamps, also of cycles that are not paid, and page numbers within 32 bits. A call with the ergs of a transaction sends at most 512 messages to L1, and offsets in all its heaps can be dereferenced; one with 2300 ergs or the simulator's stipend never writes storage. The ergs of a call cover the circuits filled by it, including those that load code. The exit program counter tells success from failure of the first frame.", "quantifier": "all histories of cycles of any length over all words of both modes, all stacks, all ABI words, destinations, amounts of memory and loaded code", "why_tests_cant": "There are infinitely many histories of nested calls; a test fixes one.", "anchors": ["src/definitions/all.rs:ergs_price", "src/circuit_prices.rs", "src/system_params.rs:VM_MAX_STACK_DEPTH", "src/system_params.rs:VM_INITIAL_FRAME_ERGS", "src/system_params.rs:NEW_FRAME_MEMORY_STIPEND", "src/system_params.rs:MSG_VALUE_SIMULATOR_ADDITIVE_COST", "src/definitions/abi/near_call.rs:NearCallABI", "src/definitions/abi/far_call.rs:FarCallABI", "src/opcode.rs:mask_into_panic", "src/lib.rs:OPCODES_PRICES"]}
{"id": "C105", "title": "Static calls, callers and kernel rights across frames", "statement": "In the same machine, nothing executed in a static call, at whatever depth, is an instruction that changes state visible outside the call, and a far call is static if it has the static flag or comes from a static frame. In every stack reached, each frame names as its caller the contract that called it, or acts for that contract and names the same caller, or was called by a contract with kernel rights; so where no such contract has called, callers cannot be forged: every caller named is that of the first frame or the contract of a frame below. An instruction reserved for the kernel is issued only in a frame of a contract below ADDRESS_UNRESTRICTED_SPACE which runs that contract's own code, is the first frame, or was called by another such frame.", "quantifier": "all histories of cycles of any length over all words of both modes, and all stacks", "why_tests_cant": "Quantifies over all programs of all contracts that call each other to any depth.", "anchors": ["src/definitions/all.rs:requires_kernel_mode", "src/definitions/all.rs:can_be_used_in_static_context", "src/definitions/far_call.rs:FAR_CALL_STATIC_FLAG_IDX", "src/definitions/far_call.rs:FarCallOpcode", "src/system_params.rs:ADDRESS_UNRESTRICTED_SPACE", "src/opcode.rs:mask_into_panic", "src/lib.rs:OPCODES_PROPS_INTEGER_BITMASKS"]}
{"id": "C106", "title": "Memory isolation across frames", "statement": "In the machine with call frames, let each far call give its callee the pages after the page counter, and let a frame get pointers only by making one to its own heap or auxiliary heap in a far call or return whose ABI word says so and whose pointer passes the full validation, by changing one it holds with the pointer instructions under their checks, or by being passed the rest of a slice in a call or return that forwards a pointer. Then in every history that starts with the bootloader and at most the initial ergs: every pointer any frame holds leads to the heap or auxiliary heap of a frame that has made a pointer to it, within the slice of that pointer, never to the code or stack of a frame; so each byte read through it is one its owner has passed. Nobody holds a pointer to a page of a frame that has made none. A pointer is made only while the owner of its page is running, in a far call that does not forward or a return that is no panic. The pages of a new frame belong to no frame before it and no pointer leads to them. No page number or address wraps around.", "quantifier": "all histories of cycles of any length over all words of both modes, all ABI words, pointers and instructions on them", "why_tests_cant": "Quantifies over everything that contracts calling each other can do with pointers; a test fixes one history.", "anchors": ["src/definitions/abi/fat_pointer.rs:FatPointer", "src/definitions/abi/far_call.rs:FarCallForwardPageType", "src/definitions/abi/ret.rs:RetForwardPageType", "src/lib.rs:NEW_MEMORY_PAGES_PER_FAR_CALL", "src/lib.rs:STARTING_BASE_PAGE", "src/lib.rs:BOOTLOADER_HEAP_PAGE", "src/lib.rs:BOOTLOADER_AUX_HEAP_PAGE", "src/definitions/ptr.rs:MAX_OFFSET_FOR_ADD_SUB", "src/definitions/all.rs:ergs_price"]}
{"id": "C107", "title": "Memory contents under calls", "statement": "In the machine with call frames and pages, let an instruction change memory only on the stack of the running frame, on its heap if it is a heap write, on its auxiliary heap if it is an auxiliary heap write, on the code page of a callee whose code a far call loads, and anywhere if it is a precompile call. Then in every history that starts with the bootloader and at most the initial ergs: a page of a frame changes only while that frame is running, by an instruction that writes to this very page, and loaded code never changes; during a far call no page of any frame that was there before changes, so neither does the page behind any pointer that is passed or held at its start; once a frame has ended its pages belong to no frame again and never change, so what it returned stays; and the pages of a new frame, its loaded code apart, have the contents they had at the very start. The only exception to any of this is a precompile call, and only a frame whose address is in the kernel's space can make one.", "quantifier": "all histories of cycles of any length over all words of both modes, all contents of memory and all changes of it that the instructions allow", "why_tests_cant": "Quantifies over everything that a callee, the frames it calls and all later frames can do; a test fixes one history.", "anchors": ["src/lib.rs:NEW_MEMORY_PAGES_PER_FAR_CALL", "src/lib.rs:STARTING_BASE_PAGE", "src/lib.rs:BOOTLOADER_CODE_PAGE", "src/lib.rs:BOOTLOADER_STACK_PAGE", "src/lib.rs:BOOTLOADER_HEAP_PAGE", "src/lib.rs:BOOTLOADER_AUX_HEAP_PAGE", "src/definitions/uma.rs:UMAOpcode", "src/definitions/log.rs:LogOpcode", "src/definitions/log.rs:requires_kernel_mode"]}
{"id": "C108", "title": "Frames do not interfere through memory", "statement": "Take any machine with call frames, pages and pointers that does in each cycle what the rest of its state and the bytes readable by the running frame determine, where a frame can read its own pages, the slices of the pointers it holds and the code that calls have loaded, and that writes only where its instruction may; precompile calls may read anything. Then a far call learns of the memory that was there before only the slices it is passed: run during the call, without precompile calls, from two memories that agree on those slices, on loaded code and on the pages not handed out yet, the machine does the same cycles and reaches the same state, and bytes that differ afterwards are old ones. And once a frame has ended, its memory, loaded code apart, matters only in the slices that frames hold: run on from two memories that agree on these, on the code and on all other pages, the machine does the same for ever.", "quantifier": "all machines of this kind, all histories of cycles of any length over all words of both modes, all calls and all pairs of memories", "why_tests_cant": "A statement about all pairs of executions of all programs; a test compares two executions of one.", "anchors": ["src/definitions/abi/fat_pointer.rs:FatPointer", "src/definitions/abi/far_call.rs:FarCallForwardPageType", "src/definitions/abi/ret.rs:RetForwardPageType", "src/definitions/ptr.rs:MAX_OFFSET_FOR_ADD_SUB", "src/lib.rs:NEW_MEMORY_PAGES_PER_FAR_CALL", "src/lib.rs:STARTING_BASE_PAGE", "src/lib.rs:BOOTLOADER_HEAP_PAGE", "src/lib.rs:BOOTLOADER_AUX_HEAP_PAGE", "src/definitions/log.rs:requires_kernel_mode"]}
{"id": "C109", "title": "A frame's stack is a stack", "statement": "For every word, and whether the instruction itself, a nop or a panic is executed for it, the source and destination bits of its property mask lead to exactly the operands that the addressing modes of the decoded instruction name, and the destination can be written. An instruction replaced by a nop or a panic leaves stack and stack pointer alone. From the start of a frame (stack pointer INITIAL_SP_ON_FAR_CALL, whatever the cells hold) any sequence of cycles that keeps to the stack and never has more words on it than there are addresses reads and writes what it would on a list that grows and shrinks at one end. In testing mode no frame can pay for exceeding the addresses with pushes of one word. In production it can, for less than half a percent of the ergs of a transaction, and then the bottom of the stack is overwritten.", "quantifier": "all words of both modes, all sequences of cycles of any length, all offsets, values and initial contents of the stack", "why_tests_cant": "A refinement over all sequences of instructions and all offsets; a test runs a few, and the overflow needs tens of thousands of cycles.", "anchors": ["src/lib.rs:INITIAL_SP_ON_FAR_CALL", "src/lib.rs:OPCODES_PROPS_INTEGER_BITMASKS", "src/lib.rs:NOP_BITSPREAD_U64", "src/lib.rs:PANIC_BITSPREAD_U64", "src/lib.rs:OPCODES_PRICES", "src/imm_mem_modifiers.rs:ImmMemHandlerFlags", "src/opcode.rs:mask_into_nop", "src/opcode.rs:mask_into_panic"]}
{"id": "C110", "title": "Contracts with constants run their code and read their constants", "statement": "A program of existing instructions followed, from the next word on, by any 32-byte constants can be deployed if together they take fewer than 2^16 words in production (2^32 in testing): its words have a hash, which is accepted as a versioned hash. Fetching at any program counter that does not point into the constants gives the instruction of the program at that position, or, beyond its end, one that panics, and all positions of the program are such. An executed instruction whose source is on the code page and whose offset is the position of a constant is led to the code page at this offset and finds the constant there; in a contract production accepts all constants have 16-bit offsets. The hash together with the number of instructions determines the program, and the constants but for zeros at the end, unless the digests collide. Two limits of the format are also true: a constant whose bytes are instructions runs as these when the program counter points into it, and four instructions have the same words as a contract that only has them as a constant.", "quantifier": "all programs, constants, program counters, offsets and digest functions, both modes, both build profiles", "why_tests_cant": "Ranges over all programs and all constants; where constants begin depends on the length of the program modulo the word size, and tests here use no constants at all.", "anchors": ["src/utils.rs:bytecode_to_code_hash", "src/utils.rs:bytecode_to_code_hash_for_mode", "src/decoding/encoding_mode_production.rs:EncodingModeProduction", "src/decoding/encoding_mode_testing.rs:EncodingModeTesting", "src/imm_mem_modifiers.rs:ImmMemHandlerFlags", "src/definitions/versioned_hash/mod.rs:try_create_from_raw"]}
{"id": "C111", "title": "Public data: sizes, limits and readability", "statement": "The public data sizes of L1 messages, initial and repeated storage writes are the numbers of bytes of these when they are published (a message: shard, service flag, transaction number, sender, key and value; an initial write: key and value; a repeated one: an 8-byte slot number and the value). Whatever is published of a block within MAX_PUBDATA_PER_BLOCK has no more initial and repeated writes than the hasher circuits take. The messages of a transaction that executes within MAX_TX_ERGS_LIMIT fit into a block. The public data prepaid for the MsgValueSimulator covers the bytes of any two storage writes but not of three initial ones. Exactly 1718 initial writes, 2750 repeated ones or 1250 messages alone fit into a block. If it is known which kinds of things are published in which order, their bytes determine them.", "quantifier": "all lists of published messages and writes of any length and contents, all executions", "why_tests_cant": "Ranges over all contents of blocks and all executions; the constants are only related through sizes of messages and writes that no test of the crate builds.", "anchors": ["src/system_params.rs:L1_MESSAGE_PUBDATA_BYTES", "src/system_params.rs:INITIAL_STORAGE_WRITE_PUBDATA_BYTES", "src/system_params.rs:REPEATED_STORAGE_WRITE_PUBDATA_BYTES", "src/system_params.rs:MAX_PUBDATA_PER_BLOCK", "src/system_params.rs:MSG_VALUE_SIMULATOR_PUBDATA_BYTES_TO_PREPAY", "src/circuit_pricing_generator/main.rs:LIMIT_FOR_INITIAL_WRITES_PUBDATA_HASHER", "src/circuit_pricing_generator/main.rs:LIMIT_FOR_REPEATED_WRITES_PUBDATA_HASHER"]}
{"id": "C112", "title": "Every code is a program", "statement": "Whatever words a code page holds, assembled or not, they can be disassembled in exactly one way, into instructions that exist, and every machine that fetches, decodes and executes from such pages goes through exactly the states it goes through on the disassembled programs, without a panic of the crate. Disassembling an assembled, padded program gives the program followed by all-zero instructions. Assembling a disassembled code gives a code of the same length, and the same code exactly if every piece has zeros in its unused bits and the number of an instruction. Two codes have the same disassembly exactly if they have the same length and agree, piece by piece, in the used bits, numbers of no instruction counting as number 0; so every code that is not empty has another one of the same length, with the same disassembly, and no machine tells them apart by running them. In general no machine tells two codes apart exactly if they decode to the same instructions at all positions a program counter can have, the all-zero instruction following the end; so what a production code has after its first 2^14 words (2^31 in testing) is never run, although production hashes allow almost 2^16 words.", "quantifier": "all code words of any number and contents, all machines, all numbers of cycles, both encodings", "why_tests_cant": "Ranges over all contents of code pages, also ones no assembler writes, and over all executions of all machines; tests only decode chosen words.", "anchors": ["src/decoding/mod.rs:parse_preliminary_variant_and_absolute_number", "src/decoding/encoding_mode_production.rs:split_pc", "src/decoding/encoding_mode_production.rs:integer_representaiton_from_u256", "src/decoding/encoding_mode_testing.rs:split_pc", "src/decoding/encoding_mode_testing.rs:integer_representaiton_from_u256"]}
{"id": "C113", "title": "Listings of programs", "statement": "A program printed instruction by instruction has eight lines for each instruction, those of its text, in order. One listing begins with another exactly if the program begins with the other program; so a listing determines the program. The listings of what two codes decode to are the same exactly if the codes have the same length and agree in all used bits, numbers of no instruction counting as number 0; among codes with zeros in the unused bits and numbers of instructions only, the listing determines the code. A listing does not say for which encoding it is: a production and a testing program have the same one exactly if their instructions have the same contents.", "quantifier": "all programs of any length, with any registers and immediates, encodable or not, and all code words, in both encodings", "why_tests_cant": "Ranges over pairs of programs and of codes of any length.", "anchors": ["src/opcode.rs:Display for DecodedOpcode", "src/definitions/mod.rs:Display for OpcodeVariant", "src/decoding/mod.rs:parse_preliminary_variant_and_absolute_number"]}
{"id": "C114", "title": "Machines may keep the last code word", "statement": "Whatever the code pages hold, every machine can run forever from every state without a panic of the crate. A machine that keeps the last code word, and reads the page only if the next instruction is in another word or of another contract, goes through the same states as one that reads a word in every cycle; it reads one in the first cycle and then exactly when the contract or the word index that split_pc gives changes. n instructions one after the other from position p are read with (p + n - 1) / 4 - p / 4 + 1 reads in production, and with 2 for 4 in testing.", "quantifier": "all machines, code pages, executions of any length, positions; both encodings", "why_tests_cant": "Ranges over all executions of all machines on all pages.", "anchors": ["src/decoding/encoding_mode_production.rs:split_pc", "src/decoding/encoding_mode_production.rs:integer_representaiton_from_u256", "src/decoding/encoding_mode_testing.rs:split_pc", "src/decoding/encoding_mode_testing.rs:integer_representaiton_from_u256"]}
{"id": "C115", "title": "What checking code for canonical instructions gives", "statement": "Every assembled and padded program is a code all of whose instructions is_canonical_encoding accepts. In production, a code that passes this check is the only passing one with its disassembly exactly if all its instructions have a number between 1 and 1092; one with numbers below 1093 is what its disassembly assembles to. In testing the check does not look at the ignored bits 96 to 127, so every passing code that is not empty has another passing one of the same length that runs the same.", "quantifier": "all codes, programs; both encodings and builds", "why_tests_cant": "Ranges over all pairs of codes of any length.", "anchors": ["src/decoding/encoding_mode_production.rs:is_canonical_encoding", "src/decoding/encoding_mode_testing.rs:is_canonical_encoding", "src/decoding/encoding_mode_production.rs:parse_preliminary_variant_and_absolute_number"]}
{"id": "C116", "title": "Masks and bit fields say everything about an instruction", "statement": "A circuit that never decodes instructions, but cuts each word into bit fields, looks up price and property mask under the number, and replaces the mask by PANIC_BITSPREAD_U64 or NOP_BITSPREAD_U64 (and the condition and registers by 0) where an instruction is not affordable, not allowed, or its condition does not hold, goes through exactly the states of the machine that decodes instructions and uses mask_into_panic and mask_into_nop, if both do the same with an instruction and with its mask and fields. Masks and fields tell all instructions apart, so for every such machine, whatever its instructions do, there is such a circuit. Neither ever panics in the crate.", "quantifier": "all machines and circuits, checks, states, code pages, numbers of cycles; both encodings", "why_tests_cant": "Ranges over all machines and all executions of any length on pages with any contents.", "anchors": ["src/lib.rs:OPCODES_PROPS_INTEGER_BITMASKS", "src/lib.rs:NOP_BITSPREAD_U64", "src/lib.rs:PANIC_BITSPREAD_U64", "src/lib.rs:OPCODES_PRICES", "src/opcode.rs:mask_into_panic", "src/opcode.rs:mask_into_nop", "src/decoding/encoding_mode_production.rs:parse_preliminary_variant_and_absolute_number"]}
{"id": "C117", "title": "Runs read only the instructions they visit, and code can be moved", "statement": "A run depends on the code only through the bytes of the instructions at the positions it visits: a machine that executes the same and finds the same bytes wherever the first one looks, in whatever code, contract and position, goes through the same states. So code that is not visited can be replaced; words can be appended without a machine that stays in the code noticing; and with whole words of other code in front, a machine that adds four (testing: two) positions per word, with from_u64_clipped and wrapping_add, goes through the same states as before, as long as no position exceeds 2^16 (2^32). A position that does exceed it falls into the code in front.", "quantifier": "all machines, codes of any length and contents, replaced parts, runs of any length; both encodings", "why_tests_cant": "Ranges over all machines, codes and runs.", "anchors": ["src/decoding/encoding_mode_production.rs:split_pc", "src/decoding/encoding_mode_production.rs:integer_representaiton_from_u256", "src/decoding/mod.rs:AllowedPcOrImm", "src/decoding/encoding_mode_testing.rs:split_pc"]}
{"id": "C118", "title": "Machines and assemblers on many threads deliver what they deliver alone", "statement": "When any number of threads of a process run virtual machines and assemble programs at the same time, the lazily initialised tables not being built at the start, every thread that finishes delivers exactly what it delivers alone: a machine the state the instructions of its code prescribe, an assembler the bytes of its program, or the panic it meets alone. No table is built twice, some thread can go on as long as one has not finished, all can always finish, and the number of operations is bounded in terms of the lookups of the jobs. So two nodes whose threads are scheduled differently, with other work next to them and with differently strong atomic orders, agree on the same work, even for codes that differ but disassemble alike.", "quantifier": "all lists of jobs of any number and length, all machines, codes and programs, both encodings and builds, all schedules and weak-memory executions with sufficient orders", "why_tests_cant": "Ranges over all schedules of any number of threads, all memory orders and all programs.", "anchors": ["src/lib.rs:OPCODES_TABLE", "src/lib.rs:OPCODES_PRICES", "src/lib.rs:OPCODES_PROPS_INTEGER_BITMASKS", "src/decoding/encoding_mode_production.rs:parse_preliminary_variant_and_absolute_number", "src/decoding/encoding_mode_production.rs:encode_as_bytes", "src/decoding/encoding_mode_testing.rs:parse_preliminary_variant_and_absolute_number"]}
{"id": "C119", "title": "Timestamps let the memory of an execution be checked from a sorted log", "statement": "With a 32-bit timestamp that starts at STARTING_TIMESTAMP and goes up by TIME_DELTA_PER_CYCLE per cycle, plus the phase of the cycle, no execution paid with the initial ergs makes it wrap, whatever calls it makes; and of two accesses to one word of a page of which one is a write, the earlier one has the lower timestamp. So if the log of all accesses is sorted by page, index and timestamp, in whatever way, comparing each read with its neighbour says exactly whether every read gave what the word held. Without the bound from ergs (after 2^30 cycles) or with more phases than TIME_DELTA_PER_CYCLE, a wrong read passes the comparison.", "quantifier": "all executions with any calls, all logs of accesses of any length, all initial memories, all sorted orders", "why_tests_cant": "Ranges over executions of up to 10^9 cycles and all logs.", "anchors": ["src/lib.rs:STARTING_TIMESTAMP", "src/lib.rs:TIME_DELTA_PER_CYCLE", "src/system_params.rs:VM_INITIAL_FRAME_ERGS", "src/definitions/all.rs:ergs_price"]}
{"id": "C120", "title": "Programs mean the same in both encodings", "statement": "An instruction of the production encoding carried over to the testing encoding, with as_u64 and from_u64_clipped for its immediates, exists if it did, keeps everything, and comes from one instruction only; exactly the instructions with immediates below 2^16 are reached. Two machines that do the same with the same instruction, price and mask, one running programs assembled for production and one running the same programs assembled for testing, in whatever builds, never panic and stay in corresponding states, also beyond the ends of programs. Every production code, assembled or not, has such a testing code, of twice the bytes up to padding. Only stepping over the last production position with wrapping_add separates them.", "quantifier": "all pairs of machines, programs and codes of any length and contents, runs of any length, both builds", "why_tests_cant": "Ranges over all machines, programs and runs.", "anchors": ["src/decoding/mod.rs:AllowedPcOrImm", "src/decoding/encoding_mode_production.rs:encode_as_bytes", "src/decoding/encoding_mode_testing.rs:encode_as_bytes", "src/decoding/encoding_mode_production.rs:parse_preliminary_variant_and_absolute_number", "src/decoding/encoding_mode_testing.rs:parse_preliminary_variant_and_absolute_number"]}
{"id": "C121", "title": "What damage to an instruction word does", "statement": "Take two instruction words of a mode, one a damaged copy of the other, with any bits changed. The decoded instructions differ in exactly those parts (variant, condition, each register, each immediate) in whose bits the words differ; only two numbers that belong to no instruction stand for the same variant. So a single inverted bit changes exactly the part it belongs to, if any, and two words stand for the same instruction exactly when they agree in all the bits of the parts, up to unassigned numbers. Words carry no redundancy: changing any bits of the word of an existing instruction from bit 13 up to the end of the immediates gives the canonical word of another existing instruction, which decoding cannot tell from an intended one.", "quantifier": "all pairs of words of both modes, all bits, all instructions, both builds", "why_tests_cant": "Ranges over all 2^128 and 2^256 pairs of words.", "anchors": ["src/decoding/encoding_mode_production.rs:parse_preliminary_variant_and_absolute_number", "src/decoding/encoding_mode_testing.rs:parse_preliminary_variant_and_absolute_number", "src/decoding/encoding_mode_production.rs:encode_as_integer", "src/decoding/encoding_mode_production.rs:is_canonical_encoding"]}
{"id": "C122", "title": "Release builds do what debug builds did", "statement": "Whatever the crate returns in a debug build it returns in a release build, for every function with debug assertions or checked arithmetic: encoding an instruction as an integer or bytes in both modes, the nop and panic encodings, merge_u4, both table builders for every width, version and target, ceil_div and the generated price file for any parameters. Builds differ only by panics, exactly here: encoding an existing variant with a register index above 15, merging values above 15, tables as wide as usize or wider whose width taken modulo the size of usize can be built, and a ceil_div whose sum overflows. So a program of any length assembles in a debug build exactly when it assembles in a release build and all its register indices are below 16, and to the same code.", "quantifier": "all instructions, programs of any length, table widths, versions, targets, arguments and price parameters", "why_tests_cant": "Ranges over all inputs of functions of two builds, while a test runs in one of them.", "anchors": ["src/utils.rs:merge_u4", "src/decoding/encoding_mode_production.rs:encode_as_integer", "src/decoding/encoding_mode_testing.rs:encode_as_integer", "src/definitions/mod.rs:synthesize_opcode_decoding_tables", "src/definitions/mod.rs:synthesize_opcode_decoding_tables_legacy", "src/circuit_pricing_generator/main.rs:ceil_div"]}
{"id": "C123", "title": "Exactly which calls panic", "statement": "First use of any of the crate's tables, maps and constants never panics, nor does decoding any word, the nop and panic encodings in any build, fetching with the second half of a split program counter, what opcodes say about their outputs and the number of flags in any version. The functions that take an instruction, a word, an index or a version panic exactly here: encoding (as an integer or as bytes) if the variant does not exist or, in debug builds only, a register index is above 15; merge_u4 in debug builds if an argument is above 15; fetching at an index of 4 or more (2 in testing mode); materializing a condition from 8 up or a subvariant from the size of its family up; what depends on the version (numbers of variants and bits, density, printed format, masks, all variants of a family) from version 2 up, though a decomposition of no opcodes does not panic, and the largest index and the inputs of an opcode only for UMA; building a table if its effective width is below 11, not below the size of usize, or the table cannot be allocated, and the legacy builder also from version 1 up.", "quantifier": "all words, instructions, builds, program counters, indices, versions, opcodes, widths and targets", "why_tests_cant": "That a call never panics, or only then, is a claim about all its inputs.", "anchors": ["src/definitions/mod.rs:synthesize_opcode_decoding_tables", "src/definitions/mod.rs:synthesize_opcode_decoding_tables_legacy", "src/definitions/all.rs:materialize_subvariant_from_prototype", "src/lib.rs:OPCODES_TABLE", "src/decoding/encoding_mode_production.rs:parse_preliminary_variant_and_absolute_number", "src/decoding/encoding_mode_production.rs:integer_representaiton_from_u256", "src/definitions/condition.rs:materialize_variant", "src/utils.rs:merge_u4"]}
{"id": "C124", "title": "Texts of validation results", "statement": "A validation result of a fat pointer, or any other value of its type, can be written as text by the writers of bitflags and read back: the writer and parser that keep all bits return every value, the truncating and the strict ones lose only bits that are not declared, so different values have different texts. The parsers accept exactly the grammar: white space for the empty set, otherwise names and base-16 numbers of at most 64 bits, separated by bars and surrounded by any white space; the value is the union of the parts, whatever their order and repetition; the strict parser accepts names only. Every other text is refused, with the error that fits the first part that cannot be read: empty, not a name, or not a number. The text of a validation result is empty exactly for a valid pointer, otherwise it lists the names of exactly the pointer's problems, the same with every writer, and every parser returns the result from it. Formatting in base 2, 8 and 16 gives numerals of the bits, and the parser reads the base-16 ones back.", "quantifier": "all texts of any length, all 2^64 values, all pointers, fresh or not", "why_tests_cant": "Ranges over all texts and all 64-bit values.", "anchors": ["src/definitions/abi/fat_pointer.rs:FatPointerValidationException", "src/definitions/abi/fat_pointer.rs:validate"]}
{"id": "C125", "title": "Parts of assembled instructions can be filled in later", "statement": "A linker that does not decode instructions can fill in immediates and register pairs of assembled code by overwriting bytes: in production mode bytes 0-1 of an instruction are immediate 1, bytes 2-3 immediate 0, byte 4 the destination and byte 5 the source registers; in testing mode bytes 4-7, 8-11, 12 and 13; numbers are big-endian, the second register of a pair in the high half of its byte. After any number of such steps the bytes are exactly what assembling the program with these parts filled in gives; steps for different parts may be taken in any order. Deployed, linked code runs on any machine like the program with these parts filled in. For any word at all, canonical or not, overwriting a part changes what the word decodes to in that part only.", "quantifier": "all programs of any length, all lists of linker steps of any length, all values, all words, both modes, both builds", "why_tests_cant": "Ranges over all programs, all sequences and orders of steps, and all words.", "anchors": ["src/decoding/encoding_mode_production.rs:encode_as_bytes", "src/decoding/encoding_mode_testing.rs:encode_as_bytes", "src/decoding/encoding_mode_production.rs:parse_preliminary_variant_and_absolute_number", "src/decoding/encoding_mode_testing.rs:parse_preliminary_variant_and_absolute_number", "src/opcode.rs:serialize_as_bytes"]}
