{
 "claims": [
  {
   "property": "C01",
   "status": "proved",
   "theorems": [
    "ZkEvm.Props.C01_decode_production",
    "ZkEvm.Props.C01_decode_testing"
   ],
   "note": "Every word decodes, with fixed bit positions"
  },
  {
   "property": "C02",
   "status": "proved",
   "theorems": [
    "ZkEvm.Props.C02_roundtrip_production"
   ],
   "note": "Production encode then decode is the identity"
  },
  {
   "property": "C03",
   "status": "proved",
   "theorems": [
    "ZkEvm.Props.C03_roundtrip_testing"
   ],
   "note": "Testing encode then decode is the identity"
  },
  {
   "property": "C04",
   "status": "proved",
   "theorems": [
    "ZkEvm.Props.C04_decode_encode_production"
   ],
   "note": "Production decode then encode: exactly which words survive"
  },
  {
   "property": "C05",
   "status": "proved",
   "theorems": [
    "ZkEvm.Props.C05_decode_encode_testing"
   ],
   "note": "Testing decode then encode: exactly which words survive"
  },
  {
   "property": "C06",
   "status": "proved",
   "theorems": [
    "ZkEvm.Props.C06_canonical_iff",
    "ZkEvm.Props.C06_encoded_canonical",
    "ZkEvm.Props.C06_canonical_not_roundtrip"
   ],
   "note": "Canonicality check"
  },
  {
   "property": "C07",
   "status": "proved",
   "theorems": [
    "ZkEvm.Props.C07_encode_panics_iff"
   ],
   "note": "Serialisation panics exactly on unknown variants (and on wide registers in debug builds)"
  },
  {
   "property": "C08",
   "status": "proved",
   "theorems": [
    "ZkEvm.Props.C08_injective",
    "ZkEvm.Props.C08_injective_bytes",
    "ZkEvm.Props.C08_bytes_big_endian"
   ],
   "note": "Distinct instructions never share an encoding"
  },
  {
   "property": "C09",
   "status": "proved",
   "theorems": [
    "ZkEvm.Props.C09_program_production",
    "ZkEvm.Props.C09_program_testing",
    "ZkEvm.Props.C09_assembles",
    "ZkEvm.Props.C09_beyond_end_production",
    "ZkEvm.Props.C09_beyond_end_testing",
    "ZkEvm.Props.C09_word_exists"
   ],
   "note": "A serialised program is executed instruction by instruction"
  },
  {
   "property": "C10",
   "status": "proved",
   "theorems": [
    "ZkEvm.Props.C10_split_pc_production",
    "ZkEvm.Props.C10_split_pc_testing",
    "ZkEvm.Props.C10_fetch"
   ],
   "note": "Program counter splitting is a bijection and fetching never panics"
  },
  {
   "property": "C11",
   "status": "proved",
   "theorems": [
    "ZkEvm.Props.C11_mask_fields",
    "ZkEvm.Props.C11_mask_encoding_production",
    "ZkEvm.Props.C11_mask_encoding_testing"
   ],
   "note": "Masking into nop/panic yields the dedicated encodings"
  },
  {
   "property": "C12",
   "status": "proved",
   "theorems": [
    "ZkEvm.Props.C12_explicit_panic",
    "ZkEvm.Props.C12_zero_word"
   ],
   "note": "Zero and unassigned words are explicit panics that burn everything"
  },
  {
   "property": "C13",
   "status": "proved",
   "theorems": [
    "ZkEvm.Props.C13_release_wide_registers_production",
    "ZkEvm.Props.C13_release_wide_registers_testing",
    "ZkEvm.Props.C13_register_bits_confined"
   ],
   "note": "Release builds confine an over-wide register index to its register byte"
  },
  {
   "property": "C14",
   "status": "proved",
   "theorems": [
    "ZkEvm.Props.C14_modes_agree_decode",
    "ZkEvm.Props.C14_modes_agree_encode"
   ],
   "note": "The two encoding modes agree on the low 32 bits"
  },
  {
   "property": "C15",
   "status": "proved",
   "theorems": [
    "ZkEvm.Props.C15_default_not_encodable",
    "ZkEvm.Props.C15_encodable_nop"
   ],
   "note": "Default instruction is not encodable"
  },
  {
   "property": "C16",
   "status": "proved",
   "theorems": [
    "ZkEvm.Props.C16_table_numbering",
    "ZkEvm.Props.C16_assigned_distinct"
   ],
   "note": "Exact numbering of the instruction set (version 1)"
  },
  {
   "property": "C17",
   "status": "proved",
   "theorems": [
    "ZkEvm.Props.C17_old_words_keep_meaning",
    "ZkEvm.Props.C17_v0_vs_v1"
   ],
   "note": "Old bytecode keeps its meaning: version 0 versus version 1"
  },
  {
   "property": "C18",
   "status": "proved",
   "theorems": [
    "ZkEvm.Props.C18_width",
    "ZkEvm.Props.C18_default",
    "ZkEvm.Props.C18_shape",
    "ZkEvm.Props.C18_targets",
    "ZkEvm.Props.C18_release"
   ],
   "note": "Table construction for every width"
  },
  {
   "property": "C19",
   "status": "proved",
   "theorems": [
    "ZkEvm.Props.C19_loop_any_table",
    "ZkEvm.Props.C19_lookup_maps",
    "ZkEvm.Props.C19_inverse"
   ],
   "note": "Lookup maps invert the table"
  },
  {
   "property": "C20",
   "status": "proved",
   "theorems": [
    "ZkEvm.Props.C20_wellformed",
    "ZkEvm.Props.C20_declared"
   ],
   "note": "Which operand and flag combinations exist"
  },
  {
   "property": "C21",
   "status": "proved",
   "theorems": [
    "ZkEvm.Props.C21_merge_panics_iff",
    "ZkEvm.Props.C21_merge",
    "ZkEvm.Props.C21_merge_distinct"
   ],
   "note": "Merging a new ISA version preserves old numbers"
  },
  {
   "property": "C22",
   "status": "proved",
   "theorems": [
    "ZkEvm.Props.C22_semantic_equality",
    "ZkEvm.Props.C22_equivalence",
    "ZkEvm.Props.C22_same_behaviour"
   ],
   "note": "Semantic equality is an equivalence relation"
  },
  {
   "property": "C23",
   "status": "proved",
   "theorems": [
    "ZkEvm.Props.C23_legacy"
   ],
   "note": "The legacy table builder"
  },
  {
   "property": "C24",
   "status": "proved",
   "theorems": [
    "ZkEvm.Props.C24_unsupported_versions"
   ],
   "note": "Unsupported ISA versions"
  },
  {
   "property": "C25",
   "status": "proved",
   "theorems": [
    "ZkEvm.Props.C25_density"
   ],
   "note": "Encoding density equals the number of assigned numbers"
  },
  {
   "property": "C26",
   "status": "proved",
   "theorems": [
    "ZkEvm.Props.C26_layout",
    "ZkEvm.Props.C26_unsupported"
   ],
   "note": "Bit layout of the integer bitmask"
  },
  {
   "property": "C27",
   "status": "proved",
   "theorems": [
    "ZkEvm.Props.C27_same_mask_iff",
    "ZkEvm.Props.C27_table_injective",
    "ZkEvm.Props.C27_semantic"
   ],
   "note": "Bitmasks identify instructions up to semantic equality"
  },
  {
   "property": "C28",
   "status": "proved",
   "theorems": [
    "ZkEvm.Props.C28_mask_table",
    "ZkEvm.Props.C28_readable"
   ],
   "note": "The bitmask table can be decoded"
  },
  {
   "property": "C29",
   "status": "proved",
   "theorems": [
    "ZkEvm.Props.C29_constants",
    "ZkEvm.Props.C29_masking",
    "ZkEvm.Props.C29_values"
   ],
   "note": "Nop and panic constants"
  },
  {
   "property": "C30",
   "status": "proved",
   "theorems": [
    "ZkEvm.Props.C30_roundtrip",
    "ZkEvm.Props.C30_index"
   ],
   "note": "Sub-variant index round trip"
  },
  {
   "property": "C31",
   "status": "proved",
   "theorems": [
    "ZkEvm.Props.C31_predicates",
    "ZkEvm.Props.C31_which",
    "ZkEvm.Props.C31_table",
    "ZkEvm.Props.C31_regOrImm",
    "ZkEvm.Props.C31_lists"
   ],
   "note": "Operand declarations are consistent with addressing predicates"
  },
  {
   "property": "C32",
   "status": "proved",
   "theorems": [
    "ZkEvm.Props.C32_sets",
    "ZkEvm.Props.C32_words"
   ],
   "note": "Kernel-mode and static-context restrictions"
  },
  {
   "property": "C33",
   "status": "proved",
   "theorems": [
    "ZkEvm.Props.C33_swap",
    "ZkEvm.Props.C33_decoded",
    "ZkEvm.Props.C33_both_settings"
   ],
   "note": "Operand swap flag"
  },
  {
   "property": "C34",
   "status": "proved",
   "theorems": [
    "ZkEvm.Props.C34_filter",
    "ZkEvm.Props.C34_added",
    "ZkEvm.Props.C34_all_families",
    "ZkEvm.Props.C34_expected_fails"
   ],
   "note": "Version availability filter (finding)"
  },
  {
   "property": "C35",
   "status": "proved",
   "theorems": [
    "ZkEvm.Props.C35_max_index",
    "ZkEvm.Props.C35_ptr",
    "ZkEvm.Props.C35_for_version",
    "ZkEvm.Props.C35_bits_suffice"
   ],
   "note": "Maximal sub-variant index (finding)"
  },
  {
   "property": "C36",
   "status": "proved",
   "theorems": [
    "ZkEvm.Props.C36_condition",
    "ZkEvm.Props.C36_condition_numbers"
   ],
   "note": "Condition numbering is a bijection"
  },
  {
   "property": "C37",
   "status": "proved",
   "theorems": [
    "ZkEvm.Props.C37_prices",
    "ZkEvm.Props.C37_prices_testing",
    "ZkEvm.Props.C37_steps"
   ],
   "note": "Every instruction costs at least 5 ergs and prices fit u32"
  },
  {
   "property": "C38",
   "status": "proved",
   "theorems": [
    "ZkEvm.Props.C38_l1_messages",
    "ZkEvm.Props.C38_pubdata"
   ],
   "note": "A transaction can send at most 512 L1 messages"
  },
  {
   "property": "C39",
   "status": "proved",
   "theorems": [
    "ZkEvm.Props.C39_stack_depth"
   ],
   "note": "Call depth stays below VM_MAX_STACK_DEPTH"
  },
  {
   "property": "C40",
   "status": "proved",
   "theorems": [
    "ZkEvm.Props.C40_stipend"
   ],
   "note": "Transfer stipends do not pay for a storage write"
  },
  {
   "property": "C41",
   "status": "proved",
   "theorems": [
    "ZkEvm.Props.C41_ceil_div",
    "ZkEvm.Props.C41_ceil_div_release",
    "ZkEvm.Props.C41_generated",
    "ZkEvm.Props.C41_circuits"
   ],
   "note": "Circuit prices cover circuit capacity"
  },
  {
   "property": "C42",
   "status": "proved",
   "theorems": [
    "ZkEvm.Props.C42_file",
    "ZkEvm.Props.C42_constants"
   ],
   "note": "The committed price file is what the generator writes"
  },
  {
   "property": "C43",
   "status": "proved",
   "theorems": [
    "ZkEvm.Props.C43_layout",
    "ZkEvm.Props.C43_read",
    "ZkEvm.Props.C43_roundtrip",
    "ZkEvm.Props.C43_empty"
   ],
   "note": "Fat pointer packing"
  },
  {
   "property": "C44",
   "status": "proved",
   "theorems": [
    "ZkEvm.Props.C44_validate"
   ],
   "note": "Fat pointer validation is exact"
  },
  {
   "property": "C45",
   "status": "proved",
   "theorems": [
    "ZkEvm.Props.C45_addresses",
    "ZkEvm.Props.C45_checks"
   ],
   "note": "Validated pointers address only their slice"
  },
  {
   "property": "C46",
   "status": "proved",
   "theorems": [
    "ZkEvm.Props.C46_bijection",
    "ZkEvm.Props.C46_read"
   ],
   "note": "Inner precompile ABI is a bijection with U256"
  },
  {
   "property": "C47",
   "status": "proved",
   "theorems": [
    "ZkEvm.Props.C47_agrees",
    "ZkEvm.Props.C47_ignores"
   ],
   "note": "Outer precompile ABI is the inner ABI without the pages"
  },
  {
   "property": "C48",
   "status": "proved",
   "theorems": [
    "ZkEvm.Props.C48_read",
    "ZkEvm.Props.C48_ignores",
    "ZkEvm.Props.C48_modes"
   ],
   "note": "Far call ABI byte positions"
  },
  {
   "property": "C49",
   "status": "proved",
   "theorems": [
    "ZkEvm.Props.C49_agrees",
    "ZkEvm.Props.C49_ignores",
    "ZkEvm.Props.C49_modes"
   ],
   "note": "Return ABI agrees with the far call ABI"
  },
  {
   "property": "C50",
   "status": "proved",
   "theorems": [
    "ZkEvm.Props.C50_near_call"
   ],
   "note": "Near call ABI"
  },
  {
   "property": "C51",
   "status": "proved",
   "theorems": [
    "ZkEvm.Props.C51_layout",
    "ZkEvm.Props.C51_injective"
   ],
   "note": "Meta parameters are packed injectively at fixed positions"
  },
  {
   "property": "C52",
   "status": "proved",
   "theorems": [
    "ZkEvm.Props.C52_deref",
    "ZkEvm.Props.C52_add_sub"
   ],
   "note": "Heap dereference bound excludes 32-bit overflow"
  },
  {
   "property": "C53",
   "status": "proved",
   "theorems": [
    "ZkEvm.Props.C53_layout",
    "ZkEvm.Props.C53_roundtrip",
    "ZkEvm.Props.C53_raw",
    "ZkEvm.Props.C53_injective"
   ],
   "note": "Versioned hash serialisation round trip"
  },
  {
   "property": "C54",
   "status": "proved",
   "theorems": [
    "ZkEvm.Props.C54_stored",
    "ZkEvm.Props.C54_idempotent",
    "ZkEvm.Props.C54_same_stored",
    "ZkEvm.Props.C54_raw",
    "ZkEvm.Props.C54_lifecycle"
   ],
   "note": "Stored form of the hash clears only the construction marker"
  },
  {
   "property": "C55",
   "status": "proved",
   "theorems": [
    "ZkEvm.Props.C55_production_ok",
    "ZkEvm.Props.C55_testing_ok",
    "ZkEvm.Props.C55_production_format"
   ],
   "note": "Bytecode hash format and errors"
  },
  {
   "property": "C56",
   "status": "proved",
   "theorems": [
    "ZkEvm.Props.C56_equal_hashes",
    "ZkEvm.Props.C56_collision_free"
   ],
   "note": "Equal production hashes imply equal length and a digest collision"
  },
  {
   "property": "C57",
   "status": "proved",
   "theorems": [
    "ZkEvm.Props.C57_testing_length",
    "ZkEvm.Props.C57_testing_format",
    "ZkEvm.Props.C57_collision_free",
    "ZkEvm.Props.C57_ambiguous"
   ],
   "note": "Testing-mode hashes truncate the length (finding)"
  },
  {
   "property": "C58",
   "status": "proved",
   "theorems": [
    "ZkEvm.Props.C58_pc_or_imm"
   ],
   "note": "PC and immediate arithmetic"
  },
  {
   "property": "C59",
   "status": "proved",
   "theorems": [
    "ZkEvm.Props.C59_nibbles"
   ],
   "note": "Nibble split and merge"
  },
  {
   "property": "C60",
   "status": "proved",
   "theorems": [
    "ZkEvm.Props.C60_writes"
   ],
   "note": "Pubdata keeps write circuits within capacity"
  },
  {
   "property": "C61",
   "status": "proved",
   "theorems": [
    "ZkEvm.Props.C61_distinct",
    "ZkEvm.Props.C61_published",
    "ZkEvm.Props.C61_formal",
    "ZkEvm.Props.C61_values",
    "ZkEvm.Props.C61_deployer_mismatch"
   ],
   "note": "System addresses"
  },
  {
   "property": "C62",
   "status": "proved",
   "theorems": [
    "ZkEvm.Props.C62_pages",
    "ZkEvm.Props.C62_owner"
   ],
   "note": "Memory pages never collide"
  },
  {
   "property": "C63",
   "status": "proved",
   "theorems": [
    "ZkEvm.Props.C63_call_registers",
    "ZkEvm.Props.C63_return_registers"
   ],
   "note": "Implicit call and return registers partition the register file"
  },
  {
   "property": "C64",
   "status": "proved",
   "theorems": [
    "ZkEvm.Props.C64_counters"
   ],
   "note": "Page and timestamp counters never overflow"
  },
  {
   "property": "C65",
   "status": "proved",
   "theorems": [
    "ZkEvm.Props.C65_heap",
    "ZkEvm.Props.C65_bootloader",
    "ZkEvm.Props.C65_addressable"
   ],
   "note": "Heap growth stays below the dereference limit"
  },
  {
   "property": "C66",
   "status": "proved",
   "theorems": [
    "ZkEvm.Props.C66_variant",
    "ZkEvm.Props.C66_instruction",
    "ZkEvm.Props.C66_fields"
   ],
   "note": "Printed instructions are unambiguous"
  },
  {
   "property": "C67",
   "status": "proved",
   "theorems": [
    "ZkEvm.Props.C67_format"
   ],
   "note": "The described decoding format is the one the bitmask uses"
  },
  {
   "property": "C68",
   "status": "proved",
   "theorems": [
    "ZkEvm.Props.C68_total",
    "ZkEvm.Props.C68_parts_total",
    "ZkEvm.Props.C68_index",
    "ZkEvm.Props.C68_family_sorted",
    "ZkEvm.Props.C68_table_not_sorted"
   ],
   "note": "Instruction variants are totally ordered"
  },
  {
   "property": "C69",
   "status": "proved",
   "theorems": [
    "ZkEvm.Props.C69_modes",
    "ZkEvm.Props.C69_regOrImm_modes",
    "ZkEvm.Props.C69_decoded"
   ],
   "note": "Addressing modes are numbered consistently"
  },
  {
   "property": "C70",
   "status": "proved",
   "theorems": [
    "ZkEvm.Props.C70_flags",
    "ZkEvm.Props.C70_swap_and_mask"
   ],
   "note": "Flags mean what their published positions say"
  },
  {
   "property": "C71",
   "status": "proved",
   "theorems": [
    "ZkEvm.Props.C71_aux_bits",
    "ZkEvm.Props.C71_groups",
    "ZkEvm.Props.C71_groups_used",
    "ZkEvm.Props.C71_word_layout"
   ],
   "note": "Published bit positions are the ones in use"
  },
  {
   "property": "C72",
   "status": "proved",
   "theorems": [
    "ZkEvm.Props.C72_compatible",
    "ZkEvm.Props.C72_decomposition"
   ],
   "note": "Version lists and bit decomposition tables"
  },
  {
   "property": "C73",
   "status": "proved",
   "theorems": [
    "ZkEvm.Props.C73_prototypes",
    "ZkEvm.Props.C73_position_not_index"
   ],
   "note": "One prototype per logical opcode"
  },
  {
   "property": "C74",
   "status": "proved",
   "theorems": [
    "ZkEvm.Props.C74_usage_paid",
    "ZkEvm.Props.C74_breakdown",
    "ZkEvm.Props.C74_state_paid"
   ],
   "note": "Circuit usage and access to the state are paid for"
  },
  {
   "property": "C75",
   "status": "proved",
   "theorems": [
    "ZkEvm.Props.C75_decommitment",
    "ZkEvm.Props.C75_overhead_short"
   ],
   "note": "Decommitment prices"
  },
  {
   "property": "C76",
   "status": "proved",
   "theorems": [
    "ZkEvm.Props.C76_any_schedule",
    "ZkEvm.Props.C76_finishes",
    "ZkEvm.Props.C76_coders",
    "ZkEvm.Props.C76_any_statics",
    "ZkEvm.Props.C76_permanent",
    "ZkEvm.Props.C76_agree"
   ],
   "note": "Lazily built tables under any schedule"
  },
  {
   "property": "C77",
   "status": "proved",
   "theorems": [
    "ZkEvm.Props.C77_numbers_keep_meaning",
    "ZkEvm.Props.C77_last_version",
    "ZkEvm.Props.C77_builder"
   ],
   "note": "Numbers across any history of ISA versions"
  },
  {
   "property": "C78",
   "status": "proved",
   "theorems": [
    "ZkEvm.Props.C78_concurrent",
    "ZkEvm.Props.C78_all_done",
    "ZkEvm.Props.C78_crash",
    "ZkEvm.Props.C78_run",
    "ZkEvm.Props.C78_prefix_prices",
    "ZkEvm.Props.C78_not_atomic"
   ],
   "note": "Crash points and concurrent runs of the price generator"
  },
  {
   "property": "C79",
   "status": "proved",
   "theorems": [
    "ZkEvm.Props.C79_map",
    "ZkEvm.Props.C79_open",
    "ZkEvm.Props.C79_std",
    "ZkEvm.Props.C79_set",
    "ZkEvm.Props.C79_canonical",
    "ZkEvm.Props.C79_monotonic",
    "ZkEvm.Props.C79_statics",
    "ZkEvm.Props.C79_seeds",
    "ZkEvm.Props.C79_names",
    "ZkEvm.Props.C79_sanity"
   ],
   "note": "No dependence on hash seeds"
  },
  {
   "property": "C80",
   "status": "proved",
   "theorems": [
    "ZkEvm.Props.C80_deployable_production",
    "ZkEvm.Props.C80_deployable_testing",
    "ZkEvm.Props.C80_runs_production",
    "ZkEvm.Props.C80_runs_testing",
    "ZkEvm.Props.C80_exception_handler",
    "ZkEvm.Props.C80_hash_identifies_production",
    "ZkEvm.Props.C80_hash_identifies_testing",
    "ZkEvm.Props.C80_trailing_zero"
   ],
   "note": "Deployed programs"
  },
  {
   "property": "C81",
   "status": "proved",
   "theorems": [
    "ZkEvm.Props.C81_data",
    "ZkEvm.Props.C81_immediates",
    "ZkEvm.Props.C81_heap_offset"
   ],
   "note": "Declared variant data (finding)"
  },
  {
   "property": "C82",
   "status": "proved",
   "theorems": [
    "ZkEvm.Props.C82_log_kinds",
    "ZkEvm.Props.C82_prepaid_pubdata"
   ],
   "note": "Log query kinds and prepaid public data"
  },
  {
   "property": "C83",
   "status": "proved",
   "theorems": [
    "ZkEvm.Props.C83_refinement_production",
    "ZkEvm.Props.C83_refinement_testing",
    "ZkEvm.Props.C83_hash_determines_production",
    "ZkEvm.Props.C83_hash_determines_testing"
   ],
   "note": "Running encoded code refines running the instructions"
  },
  {
   "property": "C84",
   "status": "proved",
   "theorems": [
    "ZkEvm.Props.C84_guarded_production",
    "ZkEvm.Props.C84_guarded_testing",
    "ZkEvm.Props.C84_histories_production",
    "ZkEvm.Props.C84_histories_testing"
   ],
   "note": "Guarded execution"
  },
  {
   "property": "C85",
   "status": "proved",
   "theorems": [
    "ZkEvm.Props.C85_assembles",
    "ZkEvm.Props.C85_program",
    "ZkEvm.Props.C85_straight_line",
    "ZkEvm.Props.C85_injective",
    "ZkEvm.Props.C85_refinement",
    "ZkEvm.Props.C85_hash",
    "ZkEvm.Props.C85_builtin",
    "ZkEvm.Props.C85_masks"
   ],
   "note": "Encoding modes as an interface"
  },
  {
   "property": "C86",
   "status": "proved",
   "theorems": [
    "ZkEvm.Props.C86_raw",
    "ZkEvm.Props.C86_dispatch",
    "ZkEvm.Props.C86_builtin"
   ],
   "note": "Kinds of versioned hashes as an interface"
  },
  {
   "property": "C87",
   "status": "proved",
   "theorems": [
    "ZkEvm.Props.C87_meaning",
    "ZkEvm.Props.C87_pass"
   ],
   "note": "What the compile-time checks promise"
  },
  {
   "property": "C88",
   "status": "proved",
   "theorems": [
    "ZkEvm.Props.C88_generated",
    "ZkEvm.Props.C88_panics",
    "ZkEvm.Props.C88_bounded",
    "ZkEvm.Props.C88_release",
    "ZkEvm.Props.C88_release_wrong",
    "ZkEvm.Props.C88_cast",
    "ZkEvm.Props.C88_cast_wrong"
   ],
   "note": "The price generator for any parameters"
  },
  {
   "property": "C89",
   "status": "proved",
   "theorems": [
    "ZkEvm.Props.C89_bytes",
    "ZkEvm.Props.C89_calls",
    "ZkEvm.Props.C89_composite",
    "ZkEvm.Props.C89_lookup",
    "ZkEvm.Props.C89_numbers"
   ],
   "note": "Hashing tells values apart"
  },
  {
   "property": "C90",
   "status": "proved",
   "theorems": [
    "ZkEvm.Props.C90_fields",
    "ZkEvm.Props.C90_total",
    "ZkEvm.Props.C90_versions",
    "ZkEvm.Props.C90_packed"
   ],
   "note": "Order of ABI values"
  },
  {
   "property": "C91",
   "status": "proved",
   "theorems": [
    "ZkEvm.Props.C91_history",
    "ZkEvm.Props.C91_current",
    "ZkEvm.Props.C91_version_0",
    "ZkEvm.Props.C91_new_words"
   ],
   "note": "Upgrading the instruction set does not change running programs"
  },
  {
   "property": "C92",
   "status": "proved",
   "theorems": [
    "ZkEvm.Props.C92_instructions",
    "ZkEvm.Props.C92_abi",
    "ZkEvm.Props.C92_hashes",
    "ZkEvm.Props.C92_numbers",
    "ZkEvm.Props.C92_apart"
   ],
   "note": "Debug texts can be read back"
  },
  {
   "property": "C93",
   "status": "proved",
   "theorems": [
    "ZkEvm.Props.C93_constants",
    "ZkEvm.Props.C93_compress",
    "ZkEvm.Props.C93_streaming",
    "ZkEvm.Props.C93_code_hash",
    "ZkEvm.Props.C93_rounds",
    "ZkEvm.Props.C93_reduction",
    "ZkEvm.Props.C93_code_collision"
   ],
   "note": "Code hashes are SHA-256, and a collision of code hashes is a collision of its compression function"
  },
  {
   "property": "C94",
   "status": "proved",
   "theorems": [
    "ZkEvm.Props.C94_rounds_paid",
    "ZkEvm.Props.C94_short_codes",
    "ZkEvm.Props.C94_loaded_codes"
   ],
   "note": "Decommitting a code is paid for"
  },
  {
   "property": "C95",
   "status": "proved",
   "theorems": [
    "ZkEvm.Props.C95_production",
    "ZkEvm.Props.C95_testing"
   ],
   "note": "A code hash pins down behaviour, up to collisions of the compression function"
  },
  {
   "property": "C96",
   "status": "proved",
   "theorems": [
    "ZkEvm.Props.C96_as_if_atomic",
    "ZkEvm.Props.C96_no_race",
    "ZkEvm.Props.C96_references_valid",
    "ZkEvm.Props.C96_no_lost_wakeup",
    "ZkEvm.Props.C96_any_schedule",
    "ZkEvm.Props.C96_finishes"
   ],
   "note": "First use of the tables is safe at the level of single atomic operations"
  },
  {
   "property": "C97",
   "status": "proved",
   "theorems": [
    "ZkEvm.Props.C97_version_check",
    "ZkEvm.Props.C97_version_check_of",
    "ZkEvm.Props.C97_look_up",
    "ZkEvm.Props.C97_decode",
    "ZkEvm.Props.C97_printed",
    "ZkEvm.Props.C97_tests_pass"
   ],
   "note": "What the crate's own unit tests check holds for every input"
  },
  {
   "property": "C98",
   "status": "proved",
   "theorems": [
    "ZkEvm.Props.C98_one_pointer",
    "ZkEvm.Props.C98_inside",
    "ZkEvm.Props.C98_reads",
    "ZkEvm.Props.C98_exact",
    "ZkEvm.Props.C98_nested",
    "ZkEvm.Props.C98_isolated",
    "ZkEvm.Props.C98_checks_needed"
   ],
   "note": "Pointers never leave the slice they were made from"
  },
  {
   "property": "C99",
   "status": "proved",
   "theorems": [
    "ZkEvm.Props.C99_as_if_atomic",
    "ZkEvm.Props.C99_no_race",
    "ZkEvm.Props.C99_references_valid",
    "ZkEvm.Props.C99_no_lost_wakeup",
    "ZkEvm.Props.C99_any_schedule",
    "ZkEvm.Props.C99_finishes",
    "ZkEvm.Props.C99_orders_needed"
   ],
   "note": "First use of the tables is free of data races under the memory orders of the language"
  },
  {
   "property": "C100",
   "status": "proved",
   "theorems": [
    "ZkEvm.Props.C100_damaged",
    "ZkEvm.Props.C100_concurrent_prices",
    "ZkEvm.Props.C100_power_failures",
    "ZkEvm.Props.C100_repair",
    "ZkEvm.Props.C100_not_durable"
   ],
   "note": "Power failures and damage to the generated price file"
  },
  {
   "property": "C101",
   "status": "proved",
   "theorems": [
    "ZkEvm.Props.C101_validate",
    "ZkEvm.Props.C101_collect",
    "ZkEvm.Props.C101_sets",
    "ZkEvm.Props.C101_iter"
   ],
   "note": "Validation results say the same however they are read"
  },
  {
   "property": "C102",
   "status": "proved",
   "theorems": [
    "ZkEvm.Props.C102_preview_production",
    "ZkEvm.Props.C102_preview_testing",
    "ZkEvm.Props.C102_serialize",
    "ZkEvm.Props.C102_big_endian",
    "ZkEvm.Props.C102_digest"
   ],
   "note": "Partial reading, serialisation methods and hashes from digests"
  },
  {
   "property": "C103",
   "status": "proved",
   "theorems": [
    "ZkEvm.Props.C103_instructions",
    "ZkEvm.Props.C103_values",
    "ZkEvm.Props.C103_apart"
   ],
   "note": "Pretty debug texts"
  },
  {
   "property": "C104",
   "status": "proved",
   "theorems": [
    "ZkEvm.Props.C104_call",
    "ZkEvm.Props.C104_returns",
    "ZkEvm.Props.C104_local",
    "ZkEvm.Props.C104_near",
    "ZkEvm.Props.C104_far",
    "ZkEvm.Props.C104_counters",
    "ZkEvm.Props.C104_messages",
    "ZkEvm.Props.C104_heaps",
    "ZkEvm.Props.C104_stipend",
    "ZkEvm.Props.C104_circuits",
    "ZkEvm.Props.C104_exit"
   ],
   "note": "Ergs bound executions with call frames"
  },
  {
   "property": "C105",
   "status": "proved",
   "theorems": [
    "ZkEvm.Props.C105_static",
    "ZkEvm.Props.C105_static_call",
    "ZkEvm.Props.C105_caller",
    "ZkEvm.Props.C105_unforged",
    "ZkEvm.Props.C105_kernel"
   ],
   "note": "Static calls, callers and kernel rights across frames"
  },
  {
   "property": "C106",
   "status": "proved",
   "theorems": [
    "ZkEvm.Props.C106_pointers",
    "ZkEvm.Props.C106_reads",
    "ZkEvm.Props.C106_private",
    "ZkEvm.Props.C106_maker",
    "ZkEvm.Props.C106_fresh"
   ],
   "note": "Memory isolation across frames"
  },
  {
   "property": "C107",
   "status": "proved",
   "theorems": [
    "ZkEvm.Props.C107_writer",
    "ZkEvm.Props.C107_call",
    "ZkEvm.Props.C107_passed",
    "ZkEvm.Props.C107_finished",
    "ZkEvm.Props.C107_new"
   ],
   "note": "Memory contents under calls"
  },
  {
   "property": "C108",
   "status": "proved",
   "theorems": [
    "ZkEvm.Props.C108_callee",
    "ZkEvm.Props.C108_finished"
   ],
   "note": "Frames do not interfere through memory"
  },
  {
   "property": "C109",
   "status": "proved",
   "theorems": [
    "ZkEvm.Props.C109_places",
    "ZkEvm.Props.C109_replaced",
    "ZkEvm.Props.C109_stack",
    "ZkEvm.Props.C109_testing",
    "ZkEvm.Props.C109_production_overflow"
   ],
   "note": "A frame's stack is a stack"
  },
  {
   "property": "C110",
   "status": "proved",
   "theorems": [
    "ZkEvm.Props.C110_deployable_production",
    "ZkEvm.Props.C110_deployable_testing",
    "ZkEvm.Props.C110_runs_production",
    "ZkEvm.Props.C110_runs_testing",
    "ZkEvm.Props.C110_positions",
    "ZkEvm.Props.C110_constants",
    "ZkEvm.Props.C110_constants_run",
    "ZkEvm.Props.C110_hash_identifies_production",
    "ZkEvm.Props.C110_hash_identifies_testing",
    "ZkEvm.Props.C110_same_words"
   ],
   "note": "Contracts with constants run their code and read their constants"
  },
  {
   "property": "C111",
   "status": "proved",
   "theorems": [
    "ZkEvm.Props.C111_sizes",
    "ZkEvm.Props.C111_total",
    "ZkEvm.Props.C111_block",
    "ZkEvm.Props.C111_messages",
    "ZkEvm.Props.C111_prepaid",
    "ZkEvm.Props.C111_capacity",
    "ZkEvm.Props.C111_readable"
   ],
   "note": "Public data: sizes, limits and readability"
  },
  {
   "property": "C112",
   "status": "proved",
   "theorems": [
    "ZkEvm.Props.C112_disassembly_production",
    "ZkEvm.Props.C112_runs_production",
    "ZkEvm.Props.C112_indistinguishable_production",
    "ZkEvm.Props.C112_full_abstraction_production",
    "ZkEvm.Props.C112_first_words_production",
    "ZkEvm.Props.C112_reassembled_production",
    "ZkEvm.Props.C112_roundtrip_production",
    "ZkEvm.Props.C112_same_production",
    "ZkEvm.Props.C112_not_unique_production",
    "ZkEvm.Props.C112_disassembly_testing",
    "ZkEvm.Props.C112_runs_testing",
    "ZkEvm.Props.C112_indistinguishable_testing",
    "ZkEvm.Props.C112_full_abstraction_testing",
    "ZkEvm.Props.C112_first_words_testing",
    "ZkEvm.Props.C112_reassembled_testing",
    "ZkEvm.Props.C112_roundtrip_testing",
    "ZkEvm.Props.C112_same_testing",
    "ZkEvm.Props.C112_not_unique_testing"
   ],
   "note": "Every code is a program"
  },
  {
   "property": "C113",
   "status": "proved",
   "theorems": [
    "ZkEvm.Props.C113_lines",
    "ZkEvm.Props.C113_prefix",
    "ZkEvm.Props.C113_unambiguous",
    "ZkEvm.Props.C113_modes",
    "ZkEvm.Props.C113_codes_production",
    "ZkEvm.Props.C113_canonical_production",
    "ZkEvm.Props.C113_codes_testing",
    "ZkEvm.Props.C113_canonical_testing"
   ],
   "note": "Listings of programs"
  },
  {
   "property": "C114",
   "status": "proved",
   "theorems": [
    "ZkEvm.Props.C114_goes_on_production",
    "ZkEvm.Props.C114_kept_production",
    "ZkEvm.Props.C114_straight_production",
    "ZkEvm.Props.C114_goes_on_testing",
    "ZkEvm.Props.C114_kept_testing",
    "ZkEvm.Props.C114_straight_testing"
   ],
   "note": "Machines may keep the last code word"
  },
  {
   "property": "C115",
   "status": "proved",
   "theorems": [
    "ZkEvm.Props.C115_assembled_production",
    "ZkEvm.Props.C115_assembled_testing",
    "ZkEvm.Props.C115_unique_production",
    "ZkEvm.Props.C115_reassembled_production",
    "ZkEvm.Props.C115_not_unique_testing"
   ],
   "note": "What checking code for canonical instructions gives"
  },
  {
   "property": "C116",
   "status": "proved",
   "theorems": [
    "ZkEvm.Props.C116_views",
    "ZkEvm.Props.C116_circuit_production",
    "ZkEvm.Props.C116_follows_production",
    "ZkEvm.Props.C116_circuit_testing",
    "ZkEvm.Props.C116_follows_testing"
   ],
   "note": "Masks and bit fields say everything about an instruction"
  },
  {
   "property": "C117",
   "status": "proved",
   "theorems": [
    "ZkEvm.Props.C117_local_production",
    "ZkEvm.Props.C117_patched_production",
    "ZkEvm.Props.C117_moved_production",
    "ZkEvm.Props.C117_wraps_production",
    "ZkEvm.Props.C117_appended_production",
    "ZkEvm.Props.C117_local_testing",
    "ZkEvm.Props.C117_patched_testing",
    "ZkEvm.Props.C117_moved_testing",
    "ZkEvm.Props.C117_wraps_testing",
    "ZkEvm.Props.C117_appended_testing"
   ],
   "note": "Runs read only the instructions they visit, and code can be moved"
  },
  {
   "property": "C118",
   "status": "proved",
   "theorems": [
    "ZkEvm.Props.C118_results",
    "ZkEvm.Props.C118_finish",
    "ZkEvm.Props.C118_bounded",
    "ZkEvm.Props.C118_alone",
    "ZkEvm.Props.C118_nodes"
   ],
   "note": "Machines and assemblers on many threads deliver what they deliver alone"
  },
  {
   "property": "C119",
   "status": "proved",
   "theorems": [
    "ZkEvm.Props.C119_timestamps",
    "ZkEvm.Props.C119_offline",
    "ZkEvm.Props.C119_sortable",
    "ZkEvm.Props.C119_wraps",
    "ZkEvm.Props.C119_phases"
   ],
   "note": "Timestamps let the memory of an execution be checked from a sorted log"
  },
  {
   "property": "C120",
   "status": "proved",
   "theorems": [
    "ZkEvm.Props.C120_instructions",
    "ZkEvm.Props.C120_runs",
    "ZkEvm.Props.C120_codes",
    "ZkEvm.Props.C120_last_position"
   ],
   "note": "Programs mean the same in both encodings"
  },
  {
   "property": "C121",
   "status": "proved",
   "theorems": [
    "ZkEvm.Props.C121_damage_production",
    "ZkEvm.Props.C121_damage_testing",
    "ZkEvm.Props.C121_same_production",
    "ZkEvm.Props.C121_one_bit_production",
    "ZkEvm.Props.C121_undetected_production",
    "ZkEvm.Props.C121_same_testing",
    "ZkEvm.Props.C121_one_bit_testing",
    "ZkEvm.Props.C121_undetected_testing"
   ],
   "note": "What damage to an instruction word does"
  },
  {
   "property": "C122",
   "status": "proved",
   "theorems": [
    "ZkEvm.Props.C122_carries_over",
    "ZkEvm.Props.C122_differences",
    "ZkEvm.Props.C122_programs"
   ],
   "note": "Release builds do what debug builds did"
  },
  {
   "property": "C123",
   "status": "proved",
   "theorems": [
    "ZkEvm.Props.C123_never",
    "ZkEvm.Props.C123_instructions",
    "ZkEvm.Props.C123_versions"
   ],
   "note": "Exactly which calls panic"
  },
  {
   "property": "C124",
   "status": "proved",
   "theorems": [
    "ZkEvm.Props.C124_read",
    "ZkEvm.Props.C124_refused",
    "ZkEvm.Props.C124_roundtrip",
    "ZkEvm.Props.C124_validate",
    "ZkEvm.Props.C124_bases"
   ],
   "note": "Texts of validation results"
  },
  {
   "property": "C125",
   "status": "proved",
   "theorems": [
    "ZkEvm.Props.C125_words_production",
    "ZkEvm.Props.C125_words_testing",
    "ZkEvm.Props.C125_link_production",
    "ZkEvm.Props.C125_order_production",
    "ZkEvm.Props.C125_link_testing",
    "ZkEvm.Props.C125_order_testing",
    "ZkEvm.Props.C125_runs_production",
    "ZkEvm.Props.C125_runs_testing"
   ],
   "note": "Parts of assembled instructions can be filled in later"
  }
 ]
}