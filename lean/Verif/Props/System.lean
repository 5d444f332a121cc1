import Verif.Spec.System
import Verif.Lemmas.Words
import Verif.Lemmas.Program
import Verif.Lemmas.Prices
/-!
# System parameters: C61–C65

Vocabulary in `Verif/Spec/System.lean`; executions are those of `Verif/Spec/History.lean`.
-/
namespace ZkEvm.Props
open Spec PriceLemmas

/-! ## C61 -/

/-- C61: the named addresses are pairwise distinct and below the unrestricted space. -/
theorem C61_distinct : namedAddresses.Nodup ∧ ∀ a ∈ namedAddresses, a.toNat < ADDRESS_UNRESTRICTED_SPACE.toNat := by
  refine ⟨by decide, fun a _ => ?_⟩
  rw [show ADDRESS_UNRESTRICTED_SPACE.toNat = 2 ^ 16 by decide]
  exact a.isLt

/-- C61: the values of the named addresses: the Ethereum precompiles keep their numbers 1 to 4, the system contracts
follow each other from 0x8001, and keccak256 is at 0x8010. -/
theorem C61_published :
    namedAddresses.map BitVec.toNat = [1, 2, 3, 4] ++ (List.range 13).map (0x8001 + ·) ++ [0x8010] := by decide

/-- C61: a formal address has 20 bytes and is the zero-extended big-endian argument, for every argument. -/
theorem C61_formal (x : BitVec 64) :
    (addressFromLowU64Be x).length = 20 ∧ beNat (addressFromLowU64Be x) = x.toNat := by
  constructor
  · unfold addressFromLowU64Be toBeBytes
    simp
  · unfold addressFromLowU64Be
    have hx := x.isLt
    rw [Program.beNat_append, Program.beNat_zeros, Words.beNat_toBeBytes, Nat.zero_mul, Nat.zero_add,
      Nat.mod_eq_of_lt (by exact hx)]

/-- C61: the formal addresses are those of the named contracts. -/
theorem C61_values :
    beNat BOOTLOADER_FORMAL_ADDRESS = ADDRESS_BOOTLOADER.toNat ∧
    beNat NONCE_MANAGER_SYSTEM_CONTRACT_ADDRESS = ADDRESS_NONCE_HOLDER.toNat ∧
    beNat KNOWN_CODE_FACTORY_SYSTEM_CONTRACT_ADDRESS = ADDRESS_KNOWN_CODES_STORAGE.toNat ∧
    beNat KECCAK256_ROUND_FUNCTION_PRECOMPILE_FORMAL_ADDRESS = ADDRESS_KECCAK256.toNat ∧
    beNat SHA256_ROUND_FUNCTION_PRECOMPILE_FORMAL_ADDRESS = ADDRESS_SHA256.toNat ∧
    beNat ECRECOVER_INNER_FUNCTION_PRECOMPILE_FORMAL_ADDRESS = ADDRESS_ECRECOVER.toNat := by
  decide +kernel

/-- C61 (finding): the deployer's formal address is that of the account code storage, not of the contract deployer. -/
theorem C61_deployer_mismatch :
    beNat DEPLOYER_SYSTEM_CONTRACT_ADDRESS = ADDRESS_ACCOUNT_CODE_STORAGE.toNat ∧
    beNat DEPLOYER_SYSTEM_CONTRACT_ADDRESS ≠ ADDRESS_CONTRACT_DEPLOYER.toNat := by
  decide +kernel

/-! ## C62 -/

/-- C62: in every history of far calls, all pages of all frames, the bootloader's pages and the unmapped page are
pairwise distinct. -/
theorem C62_pages (counter : Nat) (bases : List Nat) (h : PageHistory counter bases) :
    (UNMAPPED_PAGE :: bootloaderPages ++ bases.flatMap pagesOf).Nodup := by
  have inv : (bases.flatMap pagesOf).Nodup ∧ STARTING_BASE_PAGE ≤ counter ∧
      ∀ p ∈ bases.flatMap pagesOf, STARTING_BASE_PAGE ≤ p ∧ p < counter := by
    induction h with
    | start => exact ⟨List.Pairwise.nil, Nat.le_refl _, fun p hp => by cases hp⟩
    | @farCall counter bases _ ih =>
      obtain ⟨h1, h2, h3⟩ := ih
      have hs : ∀ p ∈ pagesOf counter, counter ≤ p ∧ p < counter + 4 := by
        intro p hp
        simp [pagesOf, BOOTLOADER_CODE_PAGE, BOOTLOADER_STACK_PAGE, BOOTLOADER_HEAP_PAGE, BOOTLOADER_AUX_HEAP_PAGE,
          BOOTLOADER_BASE_PAGE] at hp
        omega
      have hn : (pagesOf counter).Nodup := by
        simp [pagesOf, BOOTLOADER_CODE_PAGE, BOOTLOADER_STACK_PAGE, BOOTLOADER_HEAP_PAGE, BOOTLOADER_AUX_HEAP_PAGE,
          BOOTLOADER_BASE_PAGE]
      have h8 : NEW_MEMORY_PAGES_PER_FAR_CALL = 8 := rfl
      rw [List.flatMap_cons]
      refine ⟨List.nodup_append.2 ⟨hn, h1, fun a ha b hb => ?_⟩, by omega, fun p hp => ?_⟩
      · have := hs a ha
        have := h3 b hb
        omega
      · rcases List.mem_append.1 hp with hp | hp
        · have := hs p hp
          omega
        · have := h3 p hp
          omega
  refine List.nodup_append.2 ⟨by decide, inv.1, fun a ha b hb => ?_⟩
  have h1 := (inv.2.2 b hb).1
  have h2 : STARTING_BASE_PAGE = 2048 := rfl
  have h3 : ∀ x ∈ UNMAPPED_PAGE :: bootloaderPages, x < 2048 := by decide
  have := h3 a ha
  omega

/-- C62: two far calls. -/
example : (UNMAPPED_PAGE :: bootloaderPages ++ [2056, 2048].flatMap pagesOf).Nodup :=
  C62_pages 2064 [2056, 2048] (.farCall (.farCall .start))

/-- C62: every base page is a multiple of the pages reserved per far call, so the frame owning a page, the bootloader's
included, is found by rounding the page number down. -/
theorem C62_owner (counter : Nat) (bases : List Nat) (h : PageHistory counter bases) :
    (∀ b ∈ BOOTLOADER_BASE_PAGE :: bases, ∀ p ∈ pagesOf b, b = p - p % NEW_MEMORY_PAGES_PER_FAR_CALL) ∧
    pagesOf BOOTLOADER_BASE_PAGE =
      [BOOTLOADER_CODE_PAGE, BOOTLOADER_STACK_PAGE, BOOTLOADER_HEAP_PAGE, BOOTLOADER_AUX_HEAP_PAGE] := by
  refine ⟨?_, by decide⟩
  have inv : counter % 8 = 0 ∧ ∀ b ∈ bases, b % 8 = 0 := by
    induction h with
    | start => exact ⟨by decide, nofun⟩
    | @farCall counter bases _ ih =>
      have h8 : NEW_MEMORY_PAGES_PER_FAR_CALL = 8 := rfl
      refine ⟨by omega, fun b hb => ?_⟩
      rcases List.mem_cons.1 hb with rfl | hb
      · exact ih.1
      · exact ih.2 b hb
  intro b hb p hp
  have h8 : b % 8 = 0 := by
    rcases List.mem_cons.1 hb with rfl | hb
    · decide
    · exact inv.2 b hb
  have : b ≤ p ∧ p < b + 4 := by
    simp [pagesOf, BOOTLOADER_CODE_PAGE, BOOTLOADER_STACK_PAGE, BOOTLOADER_HEAP_PAGE, BOOTLOADER_AUX_HEAP_PAGE,
      BOOTLOADER_BASE_PAGE] at hp
    omega
  rw [show NEW_MEMORY_PAGES_PER_FAR_CALL = 8 from rfl]
  omega

example : PageHistory 2064 [2056, 2048] := .farCall (.farCall .start)

/-! ## C63 -/

/-- C63: on a far call each of the 15 registers has exactly one role, and no other index has any. -/
theorem C63_call_registers (r : Nat) :
    ((callRoles r).count true = 1 ↔ r < REGISTERS_COUNT) ∧ ((callRoles r).count true = 0 ↔ REGISTERS_COUNT ≤ r) := by
  have hc : REGISTERS_COUNT = 15 := rfl
  by_cases h : r < 15
  · have : ∀ r, r < 15 → (callRoles r).count true = 1 := by decide
    rw [this r h, hc]
    omega
  · have : (callRoles r).count true = 0 := by
      have e : callRoles r = [false, false, false, false, false] := by
        have hne : ∀ k, k < 15 → (r == k) = false := fun k hk => by
          rw [beq_eq_false_iff_ne]
          omega
        unfold callRoles
        have hr : ∀ a b, b ≤ 15 → (decide (a ≤ r) && decide (r < b)) = false := fun a b hb => by
          have : ¬ r < b := by omega
          simp [this]
        rw [hne _ (by decide), hne _ (by decide), hr _ _ (by decide), hr _ _ (by decide), hne _ (by decide)]
      rw [e]; rfl
    rw [this, hc]
    omega

/-- C63: the return registers are pairwise distinct registers, and register numbers 0 (the zero register) to 15 are
exactly those of the 4-bit encoding. -/
theorem C63_return_registers :
    [RET_IMPLICIT_RETURNDATA_PARAMS_REGISTER, RET_RESERVED_REGISTER_0, RET_RESERVED_REGISTER_1,
      RET_RESERVED_REGISTER_2].Nodup ∧
    (∀ r ∈ [RET_IMPLICIT_RETURNDATA_PARAMS_REGISTER, RET_RESERVED_REGISTER_0, RET_RESERVED_REGISTER_1,
      RET_RESERVED_REGISTER_2], r < REGISTERS_COUNT) ∧
    REGISTERS_COUNT + 1 = 2 ^ REGISTER_INDEX_ENCODING_BITS := by decide

/-! ## C64 -/

/-- C64: an execution paid with the initial ergs makes so few far calls and steps that neither the page counter nor
the timestamp overflows 32 bits. -/
theorem C64_counters (m : Mode) (prices : List Nat) (hp : OPCODES_PRICES = .ok prices) (e' : Nat) (ws : List (BitVec m.bits))
    (h : Executes prices VM_INITIAL_FRAME_ERGS ws e') :
    (∀ counter bases, PageHistory counter bases →
      bases.length ≤ ws.countP (fun w => match opcodeOf m w with | some (.farCall _) => true | _ => false) →
      counter < 2 ^ 32) ∧
    STARTING_TIMESTAMP + TIME_DELTA_PER_CYCLE * ws.length < 2 ^ 32 := by
  have hs := executes_sum hp h
  have hi : VM_INITIAL_FRAME_ERGS = 4294967295 := rfl
  constructor
  · intro counter bases hh hb
    have hc := count_le_sum (fun w => match opcodeOf m w with | some (.farCall _) => true | _ => false) wordPrice 182
      (fun w hw => by
        rw [opcodeOf_eq] at hw
        unfold wordPrice
        generalize (entry (w.toNat % 2048)).opcode = o at hw
        cases o <;> first | exact Nat.le_refl _ | cases hw) ws
    have hcount : counter = 2048 + 8 * bases.length := by
      clear hb
      induction hh with
      | start => rfl
      | farCall _ ih =>
        rw [ih, List.length_cons, show NEW_MEMORY_PAGES_PER_FAR_CALL = 8 from rfl]
        omega
    omega
  · have hc := count_le_sum (fun _ => true) wordPrice 5 (fun w _ => (price_ge _).1) ws
    rw [show List.countP (fun _ => true) ws = ws.length from List.countP_eq_length.2 (fun _ _ => rfl)] at hc
    have h1 : STARTING_TIMESTAMP = 1024 := rfl
    have h2 : TIME_DELTA_PER_CYCLE = 4 := rfl
    rw [h1, h2]
    omega

/-- An execution of nothing but far calls (instruction 1057) spends the initial ergs on 23598721 of them. -/
example : ∃ prices, OPCODES_PRICES = .ok prices ∧
    Executes prices VM_INITIAL_FRAME_ERGS (List.replicate 23598721 1057#64) 73 := by
  refine ⟨_, prices_eq, ?_⟩
  generalize hn : 23598721 = n
  have h := executes_replicate (w := 1057#64) (prices_get prices_eq (n := 1057) (by decide)) n 73
  rw [show priceOf (entry 1057).opcode = 182 by decide +kernel,
    show n * 182 + 73 = VM_INITIAL_FRAME_ERGS by subst hn; rfl] at h
  exact h

/-! ## C65 -/

/-- C65: within the transaction limit no heap can be grown so far that a word at an offset above
`MAX_OFFSET_TO_DEREF` would be reached. -/
theorem C65_heap (offset : Nat) (h : heapGrowthCost (offset + 32) ≤ MAX_TX_ERGS_LIMIT) :
    offset < u256Nat MAX_OFFSET_TO_DEREF ∧ offset + 32 < 2 ^ 32 := by
  have h1 : u256Nat MAX_OFFSET_TO_DEREF = 4294967263 := by decide
  have h2 : MAX_TX_ERGS_LIMIT = 80000000 := rfl
  unfold heapGrowthCost at h
  rw [show NEW_FRAME_MEMORY_STIPEND = 1024 from rfl, show MEMORY_GROWTH_ERGS_PER_BYTE = 1 from rfl] at h
  omega

example : heapGrowthCost (80000992 + 32) = MAX_TX_ERGS_LIMIT := by decide

/-- C65: an access of 32 bytes ends within the bootloader's memory exactly when its offset may be dereferenced. -/
theorem C65_bootloader (offset : Nat) :
    offset ≤ u256Nat MAX_OFFSET_TO_DEREF ↔ offset + 32 ≤ BOOTLOADER_MAX_MEMORY := by
  have h1 : u256Nat MAX_OFFSET_TO_DEREF = 4294967263 := by decide
  have h2 : BOOTLOADER_MAX_MEMORY = 4294967295 := rfl
  omega

/-- C65 (finding): the transaction limit pays for heaps larger than the `2 ^ LOG2_NUM_ADDRESSABLE_HEAP_BYTES` bytes
said to be addressable: that bound is not enforced by prices. Without other costs a heap within it is always paid. -/
theorem C65_addressable :
    (∃ size, 2 ^ LOG2_NUM_ADDRESSABLE_HEAP_BYTES < size ∧ heapGrowthCost size ≤ MAX_TX_ERGS_LIMIT) ∧
    (∀ size, size ≤ 2 ^ LOG2_NUM_ADDRESSABLE_HEAP_BYTES → heapGrowthCost size ≤ MAX_TX_ERGS_LIMIT) := by
  refine ⟨⟨2 ^ 25, by decide, by decide⟩, fun size h => ?_⟩
  have h1 : 2 ^ LOG2_NUM_ADDRESSABLE_HEAP_BYTES = 16777216 := by decide
  have h2 : MAX_TX_ERGS_LIMIT = 80000000 := rfl
  unfold heapGrowthCost
  rw [h1] at h
  rw [show NEW_FRAME_MEMORY_STIPEND = 1024 from rfl, show MEMORY_GROWTH_ERGS_PER_BYTE = 1 from rfl, h2]
  omega

/-! ## C82 -/

/-- C82: the auxiliary bytes of log queries tell storage, events, L1 messages and precompile calls apart, and number the
sponges: every number below `NUM_SPONGES` belongs to exactly one of the four kinds of query, and no other number does. -/
theorem C82_log_kinds (n : Nat) :
    [STORAGE_AUX_BYTE, EVENT_AUX_BYTE, L1_MESSAGE_AUX_BYTE, PRECOMPILE_AUX_BYTE].countP (fun b => b.toNat == n)
      = if n < NUM_SPONGES then 1 else 0 := by
  by_cases h : n < 4
  · have : ∀ n, n < 4 → [STORAGE_AUX_BYTE, EVENT_AUX_BYTE, L1_MESSAGE_AUX_BYTE, PRECOMPILE_AUX_BYTE].countP
        (fun b => b.toNat == n) = if n < NUM_SPONGES then 1 else 0 := by decide
    exact this n h
  · rw [if_neg (show ¬ n < NUM_SPONGES from h), List.countP_eq_zero]
    intro b hb he
    have : ∀ b ∈ [STORAGE_AUX_BYTE, EVENT_AUX_BYTE, L1_MESSAGE_AUX_BYTE, PRECOMPILE_AUX_BYTE], b.toNat < 4 := by decide
    have := this b hb
    have := beq_iff_eq.1 he
    omega

/-- C82: the pubdata prepaid for a call through the `MsgValueSimulator` covers any two storage writes (the balances of
sender and receiver), and no more initial writes than two. -/
theorem C82_prepaid_pubdata (writes : List Bool) :
    let bytes := (writes.map fun initial =>
      if initial then INITIAL_STORAGE_WRITE_PUBDATA_BYTES else REPEATED_STORAGE_WRITE_PUBDATA_BYTES).sum
    (writes.length ≤ 2 → bytes ≤ MSG_VALUE_SIMULATOR_PUBDATA_BYTES_TO_PREPAY) ∧
    (writes.all id → bytes ≤ MSG_VALUE_SIMULATOR_PUBDATA_BYTES_TO_PREPAY → writes.length ≤ 2) := by
  have h1 : INITIAL_STORAGE_WRITE_PUBDATA_BYTES = 64 := rfl
  have h2 : REPEATED_STORAGE_WRITE_PUBDATA_BYTES = 40 := rfl
  have h3 : MSG_VALUE_SIMULATOR_PUBDATA_BYTES_TO_PREPAY = 128 := rfl
  simp only [h1, h2, h3]
  refine ⟨fun h => ?_, fun h => ?_⟩
  · have : (writes.map fun initial => if initial then 64 else 40).sum ≤ 64 * writes.length := by
      clear h
      induction writes with
      | nil => exact Nat.le_refl 0
      | cons a l ih => cases a <;> simp <;> omega
    omega
  · have : (writes.map fun initial => if initial then 64 else 40).sum = 64 * writes.length := by
      induction writes with
      | nil => rfl
      | cons a l ih =>
        rw [List.all_cons, Bool.and_eq_true] at h
        have := ih h.2
        have ha : a = true := h.1
        subst ha
        simp; omega
    omega

example : ([true, true].map fun initial =>
    if initial then INITIAL_STORAGE_WRITE_PUBDATA_BYTES else REPEATED_STORAGE_WRITE_PUBDATA_BYTES).sum = 128 := by decide

end ZkEvm.Props
