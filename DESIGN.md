# Design: a Lean 4 model of era-zkevm_opcode_defs

The crate defines the zkEVM instruction set: the table that numbers every instruction variant, the
64-bit (production) and 128-bit (testing) instruction encodings, prices, ABI packings, versioned
bytecode hashes and system constants. Its only shared state is the lazily built tables (C76). What has to hold "for all" is
therefore about all words, all instructions, all table widths, all ISA versions, all programs, all
merge inputs and all histories of paid instructions.

## Layout

| directory | content |
|---|---|
| `lean/Verif/Model/` | the model, function by function, each definition cites `/repo` lines |
| `lean/Verif/Spec/` | small independent specifications used in theorem statements |
| `lean/Verif/Lemmas/` | helper lemmas (no property lives here) |
| `lean/Verif/Props/` | the property theorems `Cnn_...`, each with a non-vacuity `example` beside it |

## Trusted base

* Lean 4.33.0's kernel.
* The axioms reported by `#print axioms` for each theorem: at most `propext`, `Classical.choice`,
  `Quot.sound` (listed theorem by theorem in the appendix). No axiom is added. There is no `sorry`, `admit`, `native_decide`, `bv_decide`,
  `implemented_by`, `extern` or `unsafe`. `decide +kernel` is used only on closed propositions over a
  complete finite domain (the 1085 + 1093 table entries, the finitely many opcodes), or in examples, and is evaluated by the
  kernel itself; the results are lifted to the general statements by lemmas.
* That `lean/Verif/Model` says what the Rust source says. This is by reading; every definition cites lines.
* The Lean standard library's `BitVec`, `List`, `Vector`, `Except`, used to write the statements.

### Modelled

`src/lib.rs` (constants, all lazy statics), `src/imm_mem_modifiers.rs`, `src/opcode.rs`, `src/utils.rs`,
`src/circuit_prices.rs`, `src/system_params.rs`, `src/circuit_pricing_generator/main.rs` (the text it
produces), `src/decoding/*`, `src/definitions/*` (all sixteen opcode families, the trait defaults, both table
builders, the version merge, density, bitmasks, `Condition`), `src/definitions/abi/*`,
`src/definitions/versioned_hash/mod.rs`. The traits `VmEncodingMode` and `VersionedHashDef` are modelled as structures of
functions, the `const _` checks as functions of the constants they check, the generator as a function of its parameters.

### Not modelled, or simplified

* `Display`/`Debug` formatting: texts are `List Char`; the standard `{}`, `{:?}`, `{:#?}`, `{:#08x}` formatting of integers,
  booleans, enums, structs and arrays is modelled from its documentation (`Model/Display.lean`, `Model/Debug.lean`).
  The methods that `bitflags` generates for the validation exceptions are modelled from their
  documentation (`Model/Exceptions.lean`), as are its parser and writer and the standard functions on texts they call
  (`Model/FlagText.lean`; parse errors without the text they quote); the struct derives nothing. Derived `Ord` and `Hash` are modelled (`Model/Order.lean`, `Model/Derived.lean`).
* SHA-256 itself (external crate `sha2`, not in the repository): an arbitrary function from byte lists to 32 bytes in most of
  the model; those theorems hold for every such function. C93 additionally models a streaming SHA-256 (`Model/Sha256.lean`: the
  block buffer as the crate documents it, the rounds as every portable implementation writes them) and proves it against the text of FIPS 180-4
  (`Spec/Sha256.lean`). That the crate computes SHA-256 is trusted; its source is not here.
* `ethereum_types::U256`: only its four-limb representation.
* `HashMap`/`HashSet`: association list / list in most of the model. C79 proves that every implementation that meets
  the contract of maps (`Spec/MapContract.lean`) behaves the same, and that two implementations meet it: tables with chaining,
  and open-addressed tables with tags and groups of slots, for every hash function, tags, growth policy and probe sequence
  that visits all slots, among them the standard library's triangular one (`Model/HashTable.lean`). The standard library's
  unsafe code (raw allocation, SIMD group scans) is not modelled.
* Memory allocation: running out of memory is not modelled. The capacity overflow panic of the table builders is, for every
  `Target` (build profile, width of `usize`, size of a variant).
* The generator's file: `File::create` truncates in one step, `write_all` is any sequence of short writes at the process's own
  position (`Model/GeneratorRun.lean`). `File::create` and a write may fail with an I/O error, which
  panics. A power failure leaves any length the file had since the start of the system and in every place a byte it had
  there, or zero (`Model/PowerFailure.lean`); file systems that put other data there are not modelled.
* `lazy_static` on `std::sync::Once`, three times. In `Model/Lazy.lean` threads interleave at dereferences; entering an
  initialiser, completing one and reading an initialised static are single steps. In `Model/Atomics.lean` each of these
  is the sequence of loads, weak compare-and-exchanges, swaps, futex waits and wake-ups of `Lazy::get` and of the futex
  implementation of `Once`, with spurious failures; C96 proves that the second refines the first. The library sources
  are not in `/repo`: the model follows lazy_static 1.4 and the standard library from memory. In
  `Model/Weak.lean` the operations have memory orders: a load may see any word that the thread is not bound to have
  overtaken, `Acquire` and `Release` pass on what happened before, and touching a storage without that is undefined
  behaviour; C99 proves that this refines `Model/Atomics.lean`. Not modelled: loads that see words written later, which
  the language rules for these programs do not produce; memory orders inside the kernel's futex.
* Rust panics are the error value of `Except Panic`. Every panicking call (`assert!`, `unreachable!`,
  `unimplemented!`, `expect`, indexing, checked arithmetic where overflow is possible) is modelled.
* `usize` and erg prices are `Nat` (64-bit target; the table builders take the width of `usize` from `Target`); where overflow can happen (shift amounts, generator
  arithmetic, `u128` addition) the check is in the model. That prices fit `u32` is proved (C37).
* `debug_assert!`, out-of-range shifts and overflow in the generator's arithmetic depend on an explicit `Build`
  parameter, debug or release.
* A plain constant nothing is claimed about: `MAX_PENDING_CYCLES`.
* The virtual machine is not in the repository. The machines of C83, C84, C91, C95 (`Spec/Machine.lean`) and C104–C110
  (`Spec/Frames.lean`, `Spec/Isolation.lean`, `Spec/Contents.lean`, `Spec/Interference.lean`, `Spec/Stack.lean`) are part of the statements, not of the model: they say how a machine is assumed to use the crate. They
  take every word, price, mask and ABI field from the model and leave the effects of instructions open. `Spec/Frames.lean` keeps of a frame only ergs, addresses, the static
  and local flags and the sizes of its heaps; refunds, and limits on what a far call may pass, are left out (a frame never gains ergs but from a
  call that ends, and a far call may pass any amount up to the one it names).
* `ISAVersion`'s payload is any natural number (superset of `u8`).

## Method

* **Table.** `allVariantsInVersion` at versions 0 and 1 is evaluated by the kernel once (linear cost). The
  quadratic version merge is *not* evaluated: a general theorem about the merge (for all lists) gives its
  result from the facts that the keys are pairwise distinct and that all new entries follow the old ones.
  Distinctness comes from a closed-form numbering `opcodeNumber`, an explicit inverse of the table.
* **Words.** The decode/encode theorems are about arbitrary `BitVec`s, by `getLsbD` extensionality or `toNat`
  arithmetic. No enumeration of words.
* **Histories.** Inductive proofs over lists of instructions / call-return events of any length.
* **Findings.** Where the code does not do what its documentation or name says, the negation is proved with
  a witness, and the strongest true statement is proved beside it.

## Plan per property

| id | model | statement and proof |
|---|---|---|
| C01 | `Production.parse`, `Testing.parse` | for every word the result is `ok` with each field equal to an independent bit-range spec (`extractLsb'`); bit extensionality |
| C02, C03 | `encodeAsInteger`, `parse` | `parse (encode o) = ok (o, number)` for all well-formed `o`; table lookup lemma + bit extensionality |
| C04, C05 | same | exact description of `encode ∘ parse`, and iff for equality |
| C06 | `isCanonicalEncoding` | iff on bits 11, 12; encoded words are canonical |
| C07 | `encodeAsInteger` | error iff variant not well formed or debug and a register ≥ 16 |
| C08 | same, `encodeAsBytes` | injectivity from C02/C03 and injectivity of `toBeBytes` |
| C09 | `splitPc`, `integerRepresentationFromU256`, `parse` | program memory as a list of U256 built from bytes in the spec; induction over the program |
| C10 | `splitPc`, `integerRepresentationFromU256` | bijection, panics exactly out of range |
| C11 | `maskIntoPanic`, `maskIntoNop` | fields, encoding equal to the dedicated encodings up to immediates, idempotence |
| C12 | `parse`, `isExplicitPanic`, `ergsPrice` | iff on the opcode number |
| C13 | `mergeU4`, `encodeAsInteger .release` | decoded fields and unchanged bits for arbitrary register bytes |
| C14 | both modes | equality of decoded fields / low 32 bits |
| C15 | `DecodedOpcode.default` | encode = explicit panic |
| C16 | `OPCODES_TABLE` | equals the closed-form `Spec.entry` at every number |
| C17 | `synthesizeOpcodeDecodingTables` | v0 and v1 compared at every number; lifted to words |
| C18 | same, for every `Target` | iff on the width for all widths, versions and targets, for each kind of panic, and the shape of the result |
| C19 | lookup maps | general theorem about the map-building loop, then the table |
| C20 | `OPCODES_TABLE` | membership iff `Spec.WellFormed` |
| C21 | `findNewOpcodes` | general theorem by induction over arbitrary lists |
| C22 | `semanticallyEqual` | key function, equivalence |
| C23 | legacy builder | equality at v0 for all widths, panic for v ≥ 1 |
| C24 | sizes | errors for versions ≥ 2, table equal to the v1 table |
| C25 | `computeEncodingDensity` | equals number of enumerated variants |
| C26–C28 | `opcodeAsIntegerBitmask` | bit-level spec for all variants, injectivity, decoding function |
| C29 | `NOP_*`, `PANIC_*` | initialise and equal the bitmasks |
| C30 | `materializeSubvariantFromPrototype` | round trip and panic iff |
| C31 | operand predicates | iff, table entries, and the exact declared lists |
| C32, C33 | kernel/static/swap | exact sets, lifted to decoded words and bitmask bits |
| C34 | `isAvailableForVersion` | negation of intended statement + exact behaviour |
| C35 | `maxVariantIdx` | negation for Ptr + exact behaviour elsewhere |
| C36 | `Condition` | inverse functions, panic iff index ≥ 8 |
| C37–C40 | prices | bounds for all words, then induction over instruction sequences / call histories |
| C41, C42 | generator | arithmetic for all u32; equality of the text with the committed file |
| C43–C51 | ABIs | bit extensionality; independent byte/bit/integer positions |
| C52 | bounds | arithmetic over all 256-bit offsets |
| C53–C57 | versioned hash | vectors extensionality; arbitrary digest |
| C58, C59 | integer helpers | bit vectors |
| C60 | pubdata limits | induction over write sequences |
| C61 | addresses | finite list of constants, pairwise; all low words |
| C62 | pages | arithmetic over all far-call numbers |
| C63 | registers | unique role for every index |
| C64 | page / timestamp counters | induction over executions that pay table prices |
| C65 | heap growth | arithmetic over all offsets and budgets |
| C66 | `OpcodeVariant.display`, `DecodedOpcode.display` | injectivity by splitting at separators; digits read back by an independent reader |
| C67 | `computeDecodingFormatText` | exact text for versions 0 and 1, panic for others |
| C68 | derived `cmp` | `cmp` equals comparison of an injective numeric key; table chain of increasing keys |
| C69 | addressing modes | cases on the mode; decoded words by the table's well-formedness |
| C70 | flag positions, `swapOperands` | `Spec.flagPositions`; all variants, membership in the table by `Spec.WellFormed` |
| C71 | bitmask sizes, group widths, shifts | bit specification of C26, field specification of C01 |
| C72 | `allBackwardCompatibleVersions`, `synthesizeBitDecompositionTable` | arbitrary versions; induction over arbitrary lists |
| C73 | prototypes, trait objects | cases on the position |
| C74 | prices and their published parts, circuit capacities | independent tables `Spec.usage`, `Spec.stateErgs`, `Spec.leastErgs`; induction over executions |
| C75 | decommitment constants, hashing | arithmetic over all accepted lengths (C55) |
| C76 | `Once`, the 20 lazy statics as computations that dereference other statics, threads, scheduler | inductive invariant over all runs: a rank decreasing along dereferences rules out waiting cycles; a step count bounds every run; coders evaluate to the sequential functions; a second invariant, without the rank, for any statics: no initialiser starts twice even after a panic, initialised and poisoned are final, threads agree |
| C77 | version merge folded over arbitrary histories, `synthesizeLoop` | induction over the history from the general merge theorem (C21) |
| C78 | generator processes over one file: create (truncating), arbitrary short writes, crash anywhere | inductive invariant on the file relative to the last opener; reader of truncated files |
| C79 | maps as an interface with a contract; tables with chaining and with open addressing, arbitrary hash, growth, tags, probing | invariants (entries in their bucket; entries reachable past full groups; keys distinct) give the contract; simulation of the loops over lists |
| C80 | assembler, hashing, fetch, decoder composed; padding and code page are specification (`Spec.PaddedTo`, `Spec.pageWord`): the crate does neither | composition of C01–C09, C55–C57; list arithmetic over arbitrary paddings |
| C81 | `variantsData`, operand lists | all opcodes by cases; `Spec.operandImmediates` read off the operand API |
| C82 | auxiliary bytes, public data constants | counting; induction over sequences of writes |
| C83 | fetch, decoder, price and mask tables composed; the machine is an arbitrary function (`Spec.Machine`), the crate contains none | refinement by induction over cycles: each cycle on words is one step on instructions |
| C84 | mask and price tables, `mask_into_panic`, `mask_into_nop`; the checks of the machine are specification (`Spec.guarded`) | all outcomes of the checks; invariant over histories on arbitrary code pages |
| C85 | the trait `VmEncodingMode` as a structure of functions, both implementations as values | assembly, fetch and decoding from the contract `Spec.Lawful` alone, for any `N`; the built-in modes meet it by C02, C03, C10; induction over cycles |
| C86 | the trait `VersionedHashDef`, `VersionedHashGeneric` | from the contract `Spec.LawfulKind`; the built-in kind meets it by C53 |
| C87 | the `const _` checks as functions of the constants | equivalence of each check with its promise |
| C88 | the generator as a function of its nineteen parameters | case analysis of its bind chain, rounding lemmas, the price reader of C78 on arbitrary digits |
| C89 | the calls derived `Hash` makes, from the documentation of `std::hash` | unique decoding of byte streams, composed type by type |
| C90 | derived `Ord` of the ABI structs | reduction to lexicographic order of lists of numbers, induction |
| C91 | arbitrary machines of any version's table, on the modelled fetch, decoder, prices and masks | induction on cycles over C77/C17; witness for words the old version does not know |
| C92 | derived `Debug` of all structs and enums, as `{:?}` prints them | a separate reader of such texts; one lemma per form of text, recursion over fields and items |
| C93 | streaming SHA-256 (buffer, 16-word window, rounds) and the loop of `bytecode_to_code_hash` over it; FIPS 180-4 as specification | buffer invariant over updates; window invariant over rounds; round constants as exact roots of primes; Merkle–Damgård reduction by induction from the last block, for every compression function |
| C94 | rounds per code (C93), the price per word, executions with their loaded codes | linear arithmetic per code, induction over codes and over the execution; the slack of far calls pays the missing word |
| C95 | C83's machines, C93's hashes | contraposition: different codes with equal hashes give a collision of rounds (C93_code_collision), equal codes give equal runs (C83) |
| C96 | `Lazy::get`, `Once::call_once`, `Once::call` and `CompletionGuard::drop` as single atomic operations with spurious events, among them loads of outdated words | forward simulation into C76's model; an invariant on program counters, storage and sleepers; a potential that every operation decreases bounds the run |
| C97 | the unit tests, `src/definitions/mod.rs:913-1042`, with width, target, variant and word as parameters, and `calculator` also with the functions it checks | C18, C19, C21, C23 and C28 give the hypotheses of a lemma about the test over arbitrary lists; the values that are printed are modelled, the text around them is not |
| C98 | histories of pointer operations as a specification over the modelled checks, packing and ABIs | invariant by induction on the history; conversely every slice inside is made in four steps; witnesses for left-out checks |
| C99 | the operations of C96 with memory orders: sequences of words, views of threads and of words, choices of loads, release sequences | simulation into C96's model, outdated loads being spurious events there; an invariant on the views that come with words; a schedule that races if an order is relaxed |
| C100 | what the disk may hold after a power failure, over the generator processes of C78; a reader of declarations as a specification | an invariant on length and bytes over steps, failures and restarts; zeroed bytes only lose lines or make the file unreadable, by induction on the text |
| C101 | the methods generated by `bitflags!` for `FatPointerValidationException` | bit by bit; induction over the collected list; the loop of the iterator by cases on the two declared bits |
| C102 | `variant_and_condition_from_*_word`, `serialize_as_*`, `from_digest_and_preimage_num_words` | field specification of C01; contract of encoding modes (C85); layout of C53 |
| C103 | derived `Debug` of all structs and enums, as `{:#?}` prints them (with the standard library's `PadAdapter`) | a separate layout function on `{:?}` texts and its inverse, both on characters only; one lemma per form of text, for any depth |
| C104 | `OPCODES_PRICES`, bitmasks, parsing, masking, call ABIs and the parameters of `system_params.rs`, as a machine with call frames uses them | `Spec/Frames.lean` is a separate transition relation on stacks of frames that consults only what the crate returns; induction over histories with potentials (ergs and 20 ergs per frame, ergs and 5 ergs per frame and cycle), and a locality lemma: a call's history is one on its frame alone |
| C105 | the same machine, the static and kernel bits of the masks and the static flag of far calls | invariant between neighbouring frames of every stack reached (static, identity, caller), by induction over histories |
| C106 | `FatPointer`, its checks, the call ABIs, the page layout of `lib.rs` and prices, as a machine whose frames own pages and pass pointers uses them | `Spec/Isolation.lean` puts pages and pointer words on the stack of C104; invariant over histories (every word held descends, in the sense of C98, from a pointer made by the owner of its page); C104 keeps page numbers below 2^32, C62 keeps pages apart |
| C107 | The page layout of `lib.rs`, the opcode numbers, the kernel-mode property and prices, as a machine whose instructions write memory uses them | `Spec/Contents.lean` says which pages each instruction may change; every change of a page is traced to one cycle, the owner of the page (C62) must be running then, and the base pages of a call's frames are at or above the counter at its start; C105 says who can make a precompile call, C104 keeps page numbers below 2^32 |
| C108 | The pointer checks, call ABIs and page layout, as any deterministic machine that reads memory only through its frames' pages and pointers uses them | `Spec/Interference.lean` says what a frame can read (all loaded code too, as a machine may run code that an earlier call has loaded) and what a machine is; unwinding: a set of bytes that contains the pages of all frames of the call and the slices of all their pointers (C98 keeps these inside what was passed) is kept by every cycle, so two runs that agree on it take the same step and still agree |
| C109 | `OPCODES_PROPS_INTEGER_BITMASKS`, `NOP_BITSPREAD_U64`, `PANIC_BITSPREAD_U64`, `INITIAL_SP_ON_FAR_CALL`, `parse`, as a machine uses them to find operands | `Spec/Stack.lean` has a machine that reads operand places off the mask bits, with a wrapping stack pointer, and lists with push and pop; refinement by induction over cycles, with the invariant that the cells below the stack pointer are the list; for the overflow a run of 65538 cycles, built by induction |
| C110 | `bytecode_to_code_hash`, `bytecode_to_code_hash_for_mode`, `encode_as_bytes`, `split_pc`, `integer_representaiton_from_u256`, `parse`, the code page bits of the property masks | `Spec/Constants.lean` says what it is to link instructions and constants into words; reduction of every word outside the constants to C09's padded code, of constants to slices of the code page, of hashes to C56/C57, of operand places to C109 |
| C111 | The public data constants of `system_params.rs` and of the generator | `Spec/Pubdata.lean` has the published things and their bytes; sizes by cases, totals and readability by induction over what is published, messages by C38 |
| C112 | `parse`, `split_pc`, `integer_representaiton_from_u256`, `encode_as_bytes`, in both modes | `Spec/Disassembly.lean` says what it is to disassemble words; existence by decoding each piece (C01), runs by refinement as C83 but for arbitrary words, reassembly by C04/C05 lifted from pieces to codes, the other code by toggling bit 11 of the first piece |
| C113 | `Display` of instructions and variants, `parse` | `Spec/Listing.lean` says what a listing is; induction over programs with C66 for one instruction, codes by C112 |
| C114 | `split_pc`, `integer_representaiton_from_u256`, `parse`, tables of prices and masks | `Spec/Caching.lean` has the machine that keeps a word; invariant: the kept word is the one in the page; the number of reads by induction over the execution, straight code by division |
| C115 | `is_canonical_encoding`, `parse`, `serialize_as_integer` | `Spec/CanonicalCode.lean` has codes that pass the check; uniqueness by C112 and by replacing one piece of a code; all pieces together give the code |
| C116 | tables of prices and masks, `NOP_BITSPREAD_U64`, `PANIC_BITSPREAD_U64`, `mask_into_panic`, `mask_into_nop`, `parse` | `Spec/Circuit.lean` has the circuit, which uses no decoder; simulation cycle by cycle; injectivity of masks and fields on encodable instructions (C27) gives the circuit for a machine |
| C117 | `split_pc`, `integer_representaiton_from_u256`, `parse`, `wrapping_add`, `from_u64_clipped` | machines of C83; each cycle reads one piece of the code (C112), so two machines that find equal pieces agree, by induction over the run; moved and appended code by the pieces of concatenations |
| C118 | the `lazy_static` tables as used by `parse`, `serialize_as_integer`, prices and masks, in both modes | `Spec/Threads.lean` says what machines (C83) and assemblers do as code that dereferences tables and what they do alone; every schedule by C99, the code evaluates to the sequential function by induction over cycles and programs, disassembly by C112 |
| C119 | `STARTING_TIMESTAMP`, `TIME_DELTA_PER_CYCLE`, prices | executions of C104; `Spec/Timestamps.lean` says what logs, consistency and the pass over neighbours are; consistency is expressed by the last write with a lower timestamp, which no reordering changes, and in a sorted log by neighbours, by induction |
| C120 | `as_u64`, `from_u64_clipped`, `wrapping_add`, assembling, decoding and fetching in both modes | `Spec/Retarget.lean` says what carrying over is and when machines do the same; both runs are reduced to runs on instructions (C83, C112), related by induction |
| C121 | decoding, encoding and the canonicality check of both modes | `Spec/Damage.lean` says where the parts of an instruction are written and when words differ there; each part of a decoded instruction is a bit range of its word (C01) and numbers of instructions are distinct (C16) |
| C122 | every function whose model takes a build or a target: encoding, constant encodings, `merge_u4`, table builders, `ceil_div`, price generator | results of both builds are determined by decoding (C02–C05), by nibbles (C59), by the effective width (C18, C23) and by C88; panics by C07, C18, C41; programs by induction |
| C123 | every public function of the model with a panicking path, and those which have none | no table, constant or decoding panics by C01, C11, C19, C29, C73; the others by exact conditions from C07, C10, C18, C23, C24, C30, C31, C35, C36, C59, C67, C72, C81 |
| C124 | the writers, parsers and base formatting that `bitflags` provides for `FatPointerValidationException` | `Spec/FlagText.lean` has a grammar of texts; parser = grammar by induction on texts, with the error of the first bad part; written texts are in the grammar; validation results by C101 |
| C125 | `encode_as_bytes`, `parse` of both modes | `Spec/Linking.lean` says where the parts are and what a linker does; bits outside the overwritten bytes stay (arithmetic on big-endian numbers), so decoding changes in one part (C01) and encoding follows (C02–C05, C08); programs and lists of steps by induction, orders by induction on permutations; runs by C83 |

All properties can be expressed in the model; none is declared not applicable.

## Findings (behaviour that differs from documentation or name)

1. `PtrOpcode::max_variant_idx` returns the index of `Pack` (2) although `Shrink` has index 3 (C35).
2. `is_available_for_version` compares the wrong way round; `variants_for_version(v)` is empty for v ≥ 1 (C34).
3. `OpcodeVariant::default()` / `DecodedOpcode::default()` are not in the table; serialising the default
   instruction panics (C15).
4. `is_canonical_encoding` looks only at bits 11 and 12: words with unassigned opcode numbers, and in testing
   mode words with bits 96..127 set, are "canonical" but do not survive decode-encode (C04, C05, C06).
5. Testing-mode bytecode hashes truncate the length to 16 bits (C57).
6. `DEPLOYER_SYSTEM_CONTRACT_ADDRESS` is 0x8002, which is `ADDRESS_ACCOUNT_CODE_STORAGE`, while
   `ADDRESS_CONTRACT_DEPLOYER` is 0x8006 (C61).
7. Production bytecode hashing admits 65535 words, but a 16-bit PC addresses only the first 16384 (C10).
8. `mask_into_panic` zeroes the registers although its comment says they are not touched; immediates are kept (C11).
9. The legacy table builder panics for every version ≥ 1 (C23); sizes panic for versions ≥ 2 while the table
   builder silently returns the version-1 table (C24).
10. The table's numbers do not follow the derived order of variants: number order and `Ord` disagree between logical
    opcodes (shift/binop/context) and for the version-1 heap accesses (C68).
11. Release builds reduce an out-of-range table width modulo 64 instead of panicking (C18), and `ceil_div` returns a
    wrong quotient when `a + b` overflows (C41), so that a release build of the generator may silently write a file in which
    L1 messages are free (C88). The generator casts the `usize` numbers of pubdata bytes with `as u32`, so that a value
    beyond 32 bits would be cut off without a panic in every build (C88_cast_wrong). The inputs in the repository do none of
    this.
12. `LOG2_NUM_ADDRESSABLE_HEAP_BYTES` is 24, but the transaction limit pays for heaps of more than 2^24 bytes (C65).
13. The position of a family in `all_opcode_prototypes` / `OPCODE_PROTOTYPES` is not its `variant_idx` (C73).
14. `DECOMMITMENT_MSG_VALUE_SIMULATOR_OVERHEAD` (64000) covers 16000 words, not the 16384 that can be addressed (C75).
15. The price generator truncates `src/circuit_prices.rs` before writing it; a crash can leave it empty or cut off, and the
    generator itself depends on the crate that includes this file, so it may not build again (C78, `C78_not_atomic`).
16. `UMAOpcode::variants_data` declares no used immediates in version 1, although heap accesses can take their offset from
    `imm_0` there (C81).
17. The derived order of fat pointers is not the order of their packed words (C90).
18. The price per code word does not cover the SHA-256 rounds of codes of one or three words (C94_short_codes): (n+1)/2 rounds of
    80000/12100 ergs against 4n ergs. A far call is overcharged by more than the difference, so executions are covered (C94_loaded_codes).
19. The price generator does not call `sync_all`: after it has returned, a power failure may leave the old file, or the new
    one with bytes zeroed (`C100_not_durable`). A damaged file never reads as a wrong price, but may read as fewer prices.
20. Production stack addresses have 16 bits, and the prices do not keep a frame from pushing more words than that: a machine
    whose stack pointer wraps overwrites the bottom of the stack, for 393228 ergs (`C109_production_overflow`).
21. Nothing in the format of a contract tells constants from instructions. A constant whose bytes are instructions runs as these
    when a jump points into it (`C110_constants_run`), and the hash alone does not say where code ends (`C110_same_words`).
22. Codes are not canonical: two bits of every production instruction (34 of every testing one) are ignored, and all 955 numbers
    without an instruction decode as the invalid one, so every code has others, with other hashes, that no machine tells apart
    (`C112_not_unique_production`, `C112_not_unique_testing`).
23. Production codes may have 65535 words, but a 16-bit position reaches only the instructions of the first 16384: later words
    never run (`C112_first_words_production`) and are only good for constants.
24. Code that passes `is_canonical_encoding` everywhere is still not canonical: number 0 and the 955 numbers without an instruction
    decode alike in both encodings, and the testing check does not look at the ignored bits 96 to 127 (C115).

## Appendix: axioms of each theorem

As printed by `#print axioms` for every theorem named in MANIFEST.json (all in `ZkEvm.Props`).

* No axioms (12 theorems): C11_mask_fields, C36_condition_numbers, C42_constants, C48_modes, C49_modes, C61_distinct, C61_published, C61_values, C61_deployer_mismatch, C63_return_registers, C85_masks, C102_serialize.
* `propext` (24 theorems): C22_semantic_equality, C22_equivalence, C30_roundtrip, C31_predicates, C31_which, C31_regOrImm, C31_lists, C34_filter, C34_added, C35_for_version, C42_file, C49_agrees, C52_add_sub, C69_modes, C69_regOrImm_modes, C73_position_not_index, C79_set, C79_sanity, C81_data, C81_immediates, C85_assembles, C104_exit, C111_sizes, C111_readable.
* `propext`, `Quot.sound` (81 theorems): C09_word_exists, C10_fetch, C16_assigned_distinct, C19_loop_any_table, C20_declared, C21_merge, C21_merge_distinct, C22_same_behaviour, C26_unsupported, C28_readable, C30_index, C32_sets, C33_swap, C35_max_index, C35_bits_suffice, C36_condition, C41_ceil_div_release, C41_generated, C41_circuits, C43_layout, C43_roundtrip, C43_empty, C44_validate, C45_checks, C46_bijection, C47_agrees, C51_layout, C51_injective, C55_production_ok, C55_testing_ok, C58_pc_or_imm, C60_writes, C65_addressable, C68_total, C68_parts_total, C68_index, C72_decomposition, C73_prototypes, C74_breakdown, C76_coders, C76_any_statics, C76_permanent, C76_agree, C77_numbers_keep_meaning, C79_canonical, C79_monotonic, C79_names, C82_prepaid_pubdata, C85_program, C85_straight_line, C85_injective, C85_refinement, C86_raw, C86_dispatch, C87_meaning, C87_pass, C88_bounded, C88_release, C88_cast, C89_bytes, C89_calls, C89_numbers, C90_versions, C90_packed, C93_constants, C93_rounds, C96_as_if_atomic, C96_no_race, C96_references_valid, C97_version_check_of, C106_maker, C111_total, C114_kept_production, C114_kept_testing, C117_wraps_production, C117_wraps_testing, C119_sortable, C119_wraps, C119_phases, C120_instructions, C120_last_position.
* `propext`, `Classical.choice`, `Quot.sound` (350 theorems): C01_decode_production, C01_decode_testing, C02_roundtrip_production, C03_roundtrip_testing, C04_decode_encode_production, C05_decode_encode_testing, C06_canonical_iff, C06_encoded_canonical, C06_canonical_not_roundtrip, C07_encode_panics_iff, C08_injective, C08_injective_bytes, C08_bytes_big_endian, C09_program_production, C09_program_testing, C09_assembles, C09_beyond_end_production, C09_beyond_end_testing, C10_split_pc_production, C10_split_pc_testing, C11_mask_encoding_production, C11_mask_encoding_testing, C12_explicit_panic, C12_zero_word, C13_release_wide_registers_production, C13_release_wide_registers_testing, C13_register_bits_confined, C14_modes_agree_decode, C14_modes_agree_encode, C15_default_not_encodable, C15_encodable_nop, C16_table_numbering, C17_old_words_keep_meaning, C17_v0_vs_v1, C18_width, C18_default, C18_shape, C18_targets, C18_release, C19_lookup_maps, C19_inverse, C20_wellformed, C21_merge_panics_iff, C23_legacy, C24_unsupported_versions, C25_density, C26_layout, C27_same_mask_iff, C27_table_injective, C27_semantic, C28_mask_table, C29_constants, C29_masking, C29_values, C31_table, C32_words, C33_decoded, C33_both_settings, C34_all_families, C34_expected_fails, C35_ptr, C37_prices, C37_prices_testing, C37_steps, C38_l1_messages, C38_pubdata, C39_stack_depth, C40_stipend, C41_ceil_div, C43_read, C45_addresses, C46_read, C47_ignores, C48_read, C48_ignores, C49_ignores, C50_near_call, C52_deref, C53_layout, C53_roundtrip, C53_raw, C53_injective, C54_stored, C54_idempotent, C54_same_stored, C54_raw, C54_lifecycle, C55_production_format, C56_equal_hashes, C56_collision_free, C57_testing_length, C57_testing_format, C57_collision_free, C57_ambiguous, C59_nibbles, C61_formal, C62_pages, C62_owner, C63_call_registers, C64_counters, C65_heap, C65_bootloader, C66_variant, C66_instruction, C66_fields, C67_format, C68_family_sorted, C68_table_not_sorted, C69_decoded, C70_flags, C70_swap_and_mask, C71_aux_bits, C71_groups, C71_groups_used, C71_word_layout, C72_compatible, C74_usage_paid, C74_state_paid, C75_decommitment, C75_overhead_short, C76_any_schedule, C76_finishes, C77_last_version, C77_builder, C78_concurrent, C78_all_done, C78_crash, C78_run, C78_prefix_prices, C78_not_atomic, C79_map, C79_open, C79_std, C79_statics, C79_seeds, C80_deployable_production, C80_deployable_testing, C80_runs_production, C80_runs_testing, C80_exception_handler, C80_hash_identifies_production, C80_hash_identifies_testing, C80_trailing_zero, C81_heap_offset, C82_log_kinds, C83_refinement_production, C83_refinement_testing, C83_hash_determines_production, C83_hash_determines_testing, C84_guarded_production, C84_guarded_testing, C84_histories_production, C84_histories_testing, C85_hash, C85_builtin, C86_builtin, C88_generated, C88_panics, C88_release_wrong, C88_cast_wrong, C89_composite, C89_lookup, C90_fields, C90_total, C91_history, C91_current, C91_version_0, C91_new_words, C92_instructions, C92_abi, C92_hashes, C92_numbers, C92_apart, C93_compress, C93_streaming, C93_code_hash, C93_reduction, C93_code_collision, C94_rounds_paid, C94_short_codes, C94_loaded_codes, C95_production, C95_testing, C96_no_lost_wakeup, C96_any_schedule, C96_finishes, C97_version_check, C97_look_up, C97_decode, C97_printed, C97_tests_pass, C98_one_pointer, C98_inside, C98_reads, C98_exact, C98_nested, C98_isolated, C98_checks_needed, C99_as_if_atomic, C99_no_race, C99_references_valid, C99_no_lost_wakeup, C99_any_schedule, C99_finishes, C99_orders_needed, C100_damaged, C100_concurrent_prices, C100_power_failures, C100_repair, C100_not_durable, C101_validate, C101_collect, C101_sets, C101_iter, C102_preview_production, C102_preview_testing, C102_big_endian, C102_digest, C103_instructions, C103_values, C103_apart, C104_call, C104_returns, C104_local, C104_near, C104_far, C104_counters, C104_messages, C104_heaps, C104_stipend, C104_circuits, C105_static, C105_static_call, C105_caller, C105_unforged, C105_kernel, C106_pointers, C106_reads, C106_private, C106_fresh, C107_writer, C107_call, C107_passed, C107_finished, C107_new, C108_callee, C108_finished, C109_places, C109_replaced, C109_stack, C109_testing, C109_production_overflow, C110_deployable_production, C110_deployable_testing, C110_runs_production, C110_runs_testing, C110_positions, C110_constants, C110_constants_run, C110_hash_identifies_production, C110_hash_identifies_testing, C110_same_words, C111_block, C111_messages, C111_prepaid, C111_capacity, C112_disassembly_production, C112_runs_production, C112_indistinguishable_production, C112_full_abstraction_production, C112_first_words_production, C112_reassembled_production, C112_roundtrip_production, C112_same_production, C112_not_unique_production, C112_disassembly_testing, C112_runs_testing, C112_indistinguishable_testing, C112_full_abstraction_testing, C112_first_words_testing, C112_reassembled_testing, C112_roundtrip_testing, C112_same_testing, C112_not_unique_testing, C113_lines, C113_prefix, C113_unambiguous, C113_modes, C113_codes_production, C113_canonical_production, C113_codes_testing, C113_canonical_testing, C114_goes_on_production, C114_straight_production, C114_goes_on_testing, C114_straight_testing, C115_assembled_production, C115_assembled_testing, C115_unique_production, C115_reassembled_production, C115_not_unique_testing, C116_views, C116_circuit_production, C116_follows_production, C116_circuit_testing, C116_follows_testing, C117_local_production, C117_patched_production, C117_moved_production, C117_appended_production, C117_local_testing, C117_patched_testing, C117_moved_testing, C117_appended_testing, C118_results, C118_finish, C118_bounded, C118_alone, C118_nodes, C119_timestamps, C119_offline, C120_runs, C120_codes, C121_damage_production, C121_damage_testing, C121_same_production, C121_one_bit_production, C121_undetected_production, C121_same_testing, C121_one_bit_testing, C121_undetected_testing, C122_carries_over, C122_differences, C122_programs, C123_never, C123_instructions, C123_versions, C124_read, C124_refused, C124_roundtrip, C124_validate, C124_bases, C125_words_production, C125_words_testing, C125_link_production, C125_order_production, C125_link_testing, C125_order_testing, C125_runs_production, C125_runs_testing.
