import Verif.Lemmas.Prices
import Verif.Spec.PriceFile
import Verif.Spec.Facts
/-!
# Prices and what they bound: C37–C42, C60

`Verif/Spec/History.lean` says what it means to execute instructions within an ergs budget, what a history of calls
and returns is, and has the explicit price list `priceOf`. `Verif/Spec/PriceFile.lean` has the text of the committed
price file.
-/
namespace ZkEvm.Props
open Spec Tables PriceLemmas PriceGenerator

/-! ## C37 -/

/-- C37: the price table initialises and gives for every 64-bit word the price of the instruction it decodes to:
the price listed in `priceOf`, at least 5, within 32 bits, and `u32::MAX` only for invalid instructions. -/
theorem C37_prices : ∃ prices, OPCODES_PRICES = .ok prices ∧ prices.length = 2048 ∧
    ∀ w : BitVec 64, ∃ (decoded : DecodedOpcode 16) (k : VariantMonotonicNumber) (p : Nat),
      Production.parse w = .ok (decoded, k) ∧ prices[w.toNat % 2048]? = some p ∧
      p = decoded.variant.ergsPrice ∧ p = priceOf decoded.variant.opcode ∧
      5 ≤ p ∧ p ≤ 2 ^ 32 - 1 ∧ (p = 2 ^ 32 - 1 ↔ isInvalid decoded.variant.opcode = true) := by
  refine ⟨_, prices_eq, ?_, fun w => ?_⟩
  · rw [List.length_map, length_fullTable]
  · obtain ⟨o, h, hv, _⟩ := Coding.prod_parse w
    have h11 : w.toNat % 2 ^ 11 = w.toNat % 2048 := rfl
    rw [h11] at hv
    have hp := prices_get prices_eq (n := w.toNat % 2048) (Nat.mod_lt _ (by decide))
    rw [← hv] at hp
    have hg := price_ge o.variant.opcode
    refine ⟨o, _, _, h, hp, (price_eq _).symm, rfl, hg.1, hg.2, ?_⟩
    have hall : Enum.opcodes.all (fun o => decide (priceOf o = 2 ^ 32 - 1 ↔ isInvalid o = true)) = true := by
      decide +kernel
    exact of_decide_eq_true (Enum.forall_opcode hall o.variant.opcode)

/-- C37: the same table prices the instructions of testing mode, again by the low 11 bits of the word; and an instruction
costs the same in both modes. -/
theorem C37_prices_testing (prices : List Nat) (hp : OPCODES_PRICES = .ok prices) :
    (∀ w : BitVec 128, ∃ (decoded : DecodedOpcode 32) (k : VariantMonotonicNumber) (p : Nat),
      Testing.parse w = .ok (decoded, k) ∧ prices[w.toNat % 2048]? = some p ∧
      p = decoded.variant.ergsPrice ∧ p = priceOf decoded.variant.opcode ∧
      5 ≤ p ∧ p ≤ 2 ^ 32 - 1 ∧ (p = 2 ^ 32 - 1 ↔ isInvalid decoded.variant.opcode = true)) ∧
    (∀ (w : BitVec 64) (w' : BitVec 128) o o' k k', Production.parse w = .ok (o, k) → Testing.parse w' = .ok (o', k') →
      o.variant = o'.variant → prices[w.toNat % 2048]? = prices[w'.toNat % 2048]?) := by
  have key : ∀ w : BitVec 128, ∃ (decoded : DecodedOpcode 32) (k : VariantMonotonicNumber) (p : Nat),
      Testing.parse w = .ok (decoded, k) ∧ prices[w.toNat % 2048]? = some p ∧
      p = decoded.variant.ergsPrice ∧ p = priceOf decoded.variant.opcode ∧
      5 ≤ p ∧ p ≤ 2 ^ 32 - 1 ∧ (p = 2 ^ 32 - 1 ↔ isInvalid decoded.variant.opcode = true) := by
    intro w
    obtain ⟨o, h, hv, _⟩ := Coding.test_parse w
    have h11 : w.toNat % 2 ^ 11 = w.toNat % 2048 := rfl
    rw [h11] at hv
    have hp := prices_get hp (n := w.toNat % 2048) (Nat.mod_lt _ (by decide))
    rw [← hv] at hp
    have hg := price_ge o.variant.opcode
    refine ⟨o, _, _, h, hp, (price_eq _).symm, rfl, hg.1, hg.2, ?_⟩
    have hall : Enum.opcodes.all (fun o => decide (priceOf o = 2 ^ 32 - 1 ↔ isInvalid o = true)) = true := by
      decide +kernel
    exact of_decide_eq_true (Enum.forall_opcode hall o.variant.opcode)
  refine ⟨key, fun w w' o o' k k' h h' hv => ?_⟩
  obtain ⟨d, k2, p, h1, h2, h3, _⟩ := key w'
  rw [h'] at h1; cases h1
  obtain ⟨prices', hp', _, hall⟩ := C37_prices
  rw [hp] at hp'; cases hp'
  obtain ⟨d, k2, q, h4, h5, h6, _⟩ := hall w
  rw [h] at h4; cases h4
  rw [h2, h5, h3, h6, hv]

-- A storage write has the same price in both modes.
example : ∃ p, OPCODES_PRICES = .ok p ∧ ∃ w : BitVec 64, ∃ w' : BitVec 128, ∃ o o' k k',
    Production.parse w = .ok (o, k) ∧ Testing.parse w' = .ok (o', k') ∧ o.variant = o'.variant ∧
    p[w.toNat % 2048]? = p[w'.toNat % 2048]? := by
  obtain ⟨p, hp, _, _⟩ := C37_prices
  obtain ⟨o, h, hv, _⟩ := Coding.prod_parse 0x1_0000_0411#64
  obtain ⟨o', h', hv', _⟩ := Coding.test_parse 0x5_0000_0411#128
  have he : o.variant = o'.variant := hv.trans hv'.symm
  exact ⟨p, hp, _, _, o, o', _, _, h, h', he, (C37_prices_testing p hp).2 _ _ _ _ _ _ h h' he⟩

/-- C37: whatever the program, `e` ergs pay for at most `e / 5` instructions. -/
theorem C37_steps (m : Mode) (prices : List Nat) (hp : OPCODES_PRICES = .ok prices) (e e' : Nat) (ws : List (BitVec m.bits))
    (h : Executes prices e ws e') : ws.length ≤ e / 5 ∧ e' ≤ e := by
  have hs := executes_sum hp h
  have hc := count_le_sum (fun _ => true) wordPrice 5 (fun w _ => (price_ge _).1) ws
  rw [show List.countP (fun _ => true) ws = ws.length from List.countP_eq_length.2 (fun _ _ => rfl)] at hc
  omega

/-- The bound is attained: instruction 1040 (context, this address) costs 5. -/
example : ∃ prices, OPCODES_PRICES = .ok prices ∧ ∀ e, Executes prices e (List.replicate (e / 5) 1040#64) (e % 5) := by
  refine ⟨_, prices_eq, fun e => ?_⟩
  have h := executes_replicate (w := 1040#64) (prices_get prices_eq (n := 1040) (by decide)) (e / 5) (e % 5)
  rw [show priceOf (entry 1040).opcode = 5 by decide +kernel, Nat.div_add_mod' e 5] at h
  exact h

/-! ## C38 -/

/-- C38: every execution within the transaction limit sends at most 512 messages to L1. -/
theorem C38_l1_messages (m : Mode) (prices : List Nat) (hp : OPCODES_PRICES = .ok prices) (e e' : Nat) (ws : List (BitVec m.bits))
    (he : e ≤ MAX_TX_ERGS_LIMIT) (h : Executes prices e ws e') :
    ws.countP (fun w => opcodeOf m w = some (.log .toL1Message)) ≤ LIMIT_FOR_L1_MESSAGES_MERKLIZER ∧
    LIMIT_FOR_L1_MESSAGES_MERKLIZER = 512 := by
  refine ⟨?_, rfl⟩
  have hs := executes_sum hp h
  have hc := count_le_sum (fun w => decide (opcodeOf m w = some (.log .toL1Message))) wordPrice 156250
    (fun w hw => by
      have := of_decide_eq_true hw
      rw [opcodeOf_eq] at this
      unfold wordPrice
      rw [Option.some.inj this]
      exact Nat.le_refl _) ws
  have hl : MAX_TX_ERGS_LIMIT = 512 * 156250 := rfl
  rw [hl] at he
  show _ ≤ 512
  omega

/-- C38: three messages (instruction 1053, here in production words), started with 500000 ergs. -/
example : ∃ prices, OPCODES_PRICES = .ok prices ∧ Executes prices 500000 (List.replicate 3 1053#64) 31250 ∧
    (List.replicate 3 1053#64).countP (fun w => opcodeOf .production w = some (.log .toL1Message)) ≤ 512 := by
  have h := executes_replicate (w := 1053#64) (prices_get prices_eq (n := 1053) (by decide)) 3 31250
  rw [show priceOf (entry 1053).opcode = 156250 by decide +kernel] at h
  exact ⟨_, prices_eq, h, (C38_l1_messages .production _ prices_eq _ _ _ (by decide) h).1⟩

/-- C38: so the L1 messages of one transaction fit into the public data of a block. -/
theorem C38_pubdata (m : Mode) (prices : List Nat) (hp : OPCODES_PRICES = .ok prices) (e e' : Nat) (ws : List (BitVec m.bits))
    (he : e ≤ MAX_TX_ERGS_LIMIT) (h : Executes prices e ws e') :
    ws.countP (fun w => opcodeOf m w = some (.log .toL1Message)) * L1_MESSAGE_PUBDATA_BYTES < MAX_PUBDATA_PER_BLOCK := by
  obtain ⟨h1, h2⟩ := C38_l1_messages m prices hp e e' ws he h
  have h3 : L1_MESSAGE_PUBDATA_BYTES = 88 := rfl
  have h4 : MAX_PUBDATA_PER_BLOCK = 110000 := rfl
  rw [h3]
  omega

/-- The limit is reached: 512 messages (instruction 1053, here in testing words) cost exactly the transaction limit. -/
example : ∃ prices ws, OPCODES_PRICES = .ok prices ∧ Executes prices MAX_TX_ERGS_LIMIT ws 0 ∧
    ws.countP (fun w => opcodeOf .testing w = some (.log .toL1Message)) = 512 := by
  refine ⟨_, List.replicate 512 1053#128, prices_eq, ?_, ?_⟩
  · have h := executes_replicate (w := 1053#128) (prices_get prices_eq (n := 1053) (by decide)) 512 0
    rw [show priceOf (entry 1053).opcode = 156250 by decide +kernel] at h
    exact h
  · have h : opcodeOf .testing 1053#128 = some (.log .toL1Message) :=
      (opcodeOf_eq .testing _).trans (congrArg some (by decide +kernel))
    rw [List.countP_replicate, if_pos (decide_eq_true h)]

/-! ## C39 -/

/-- C39: in every history of calls and returns from a frame with the initial ergs and with at most 80 unpaid frames,
the call stack has at most `VM_MAX_STACK_DEPTH` frames. -/
theorem C39_stack_depth (m : Mode) (prices : List Nat) (hp : OPCODES_PRICES = .ok prices) (s : List Frame)
    (h : CallHistory m prices VM_INITIAL_FRAME_ERGS 80 s) : s.length ≤ VM_MAX_STACK_DEPTH := by
  obtain ⟨h1, h2⟩ := call_invariant hp h
  rw [length_frames]
  have hi : VM_INITIAL_FRAME_ERGS = 4294967295 := rfl
  have hm : VM_MAX_STACK_DEPTH = 214748444 := rfl
  omega

/-- A near call (instruction 1039) inside an unpaid frame, with the price taken from the table. -/
example : ∃ prices, OPCODES_PRICES = .ok prices ∧
    CallHistory .production prices VM_INITIAL_FRAME_ERGS 80 [⟨100, true⟩, ⟨875, false⟩, ⟨4294966295, false⟩] := by
  refine ⟨_, prices_eq, ?_⟩
  refine .step (s := [⟨1000, false⟩, ⟨4294966295, false⟩]) (.step .start ?_ (by decide)) ?_ (by decide)
  · exact .pushUnpaid (passed := 1000) (f := ⟨4294967295, false⟩) (by decide)
  · refine .call (m := .production) (f := ⟨1000, false⟩) (w := 1039#64) (o := .nearCall .mk) (p := 25) (passed := 100) ?_
      (.inl ⟨_, rfl⟩) ?_ (by decide)
    · exact (opcodeOf_eq .production _).trans (congrArg some (by decide +kernel))
    · rw [show (1039#64).toNat % 2048 = 1039 from rfl, prices_get prices_eq (by decide)]
      exact congrArg some (by decide +kernel)

/-! ## C40 -/

/-- C40: an execution paid with 2300 ergs, or with the stipend of the message-value simulator (its additive cost
less the ergs it uses itself), contains no storage write. -/
theorem C40_stipend (m : Mode) (prices : List Nat) (hp : OPCODES_PRICES = .ok prices) (e e' : Nat) (ws : List (BitVec m.bits))
    (he : e ≤ 2300 ∨ e ≤ MSG_VALUE_SIMULATOR_ADDITIVE_COST - MSG_VALUE_SIMULATOR_MIN_USED_ERGS)
    (h : Executes prices e ws e') : ∀ w ∈ ws, opcodeOf m w ≠ some (.log .storageWrite) := by
  have hs := executes_sum hp h
  have hc := count_le_sum (fun w => decide (opcodeOf m w = some (.log .storageWrite))) wordPrice 3501
    (fun w hw => by
      have := of_decide_eq_true hw
      rw [opcodeOf_eq] at this
      unfold wordPrice
      rw [Option.some.inj this]
      exact Nat.le_refl _) ws
  have h35 : MSG_VALUE_SIMULATOR_ADDITIVE_COST - MSG_VALUE_SIMULATOR_MIN_USED_ERGS = 3500 := rfl
  rw [h35] at he
  have h0 : List.countP (fun w => decide (opcodeOf m w = some (.log .storageWrite))) ws = 0 := by omega
  intro w hw heq
  have := List.countP_eq_zero.1 h0 w hw
  exact this (decide_eq_true heq)

/-- One erg more than the larger stipend pays for a storage write (instruction 1051). -/
example : ∃ prices, OPCODES_PRICES = .ok prices ∧ opcodeOf .production 1051#64 = some (.log .storageWrite) ∧
    Executes prices (MSG_VALUE_SIMULATOR_ADDITIVE_COST - MSG_VALUE_SIMULATOR_MIN_USED_ERGS + 1) [1051#64] 0 := by
  refine ⟨_, prices_eq, ?_, ?_⟩
  · exact (opcodeOf_eq .production _).trans (congrArg some (by decide +kernel))
  · have h := executes_replicate (w := 1051#64) (prices_get prices_eq (n := 1051) (by decide)) 1 0
    rw [show priceOf (entry 1051).opcode = 3501 by decide +kernel] at h
    exact h

/-! ## C41 -/

/-- C41: for all `u32` arguments `ceil_div` is the quotient rounded up, and it panics iff the divisor is zero or the
sum of the arguments overflows. -/
theorem C41_ceil_div (a b : BitVec 32) :
    (∀ q, ceilDiv a.toNat b.toNat = .ok q → IsCeilDiv a.toNat b.toNat q) ∧
    ((∃ e, ceilDiv a.toNat b.toNat = .error e) ↔ b.toNat = 0 ∨ 2 ^ 32 ≤ a.toNat + b.toNat) := by
  have hgen : ∀ a b : Nat, ceilDiv a b = if a + b < 2 ^ 32 then
      (if 1 ≤ a + b then (if b = 0 then .error .divByZero else .ok ((a + b - 1) / b)) else .error .arithOverflow)
      else .error .arithOverflow := by
    intro a b
    unfold ceilDiv addU32
    dsimp only
    by_cases h1 : a + b < 2 ^ 32
    · rw [if_pos h1, if_pos h1]
      show (subU32 (a + b) 1 >>= fun y => divU32 y b) = _
      unfold subU32
      dsimp only
      by_cases h2 : 1 ≤ a + b
      · rw [if_pos h2, if_pos h2]; rfl
      · rw [if_neg h2, if_neg h2]; rfl
    · rw [if_neg h1, if_neg h1]; rfl
  rw [hgen]
  generalize a.toNat = a
  generalize b.toNat = b
  by_cases h1 : a + b < 2 ^ 32
  · rw [if_pos h1]
    by_cases h2 : 1 ≤ a + b
    · rw [if_pos h2]
      by_cases h3 : b = 0
      · rw [if_pos h3]
        exact ⟨fun q h => (nomatch h), fun _ => .inl h3, fun _ => ⟨_, rfl⟩⟩
      · rw [if_neg h3]
        refine ⟨fun q h => ?_, fun ⟨e, he⟩ => (nomatch he), fun h => by omega⟩
        injection h with h
        rw [← h]
        exact isCeilDiv_div a b (by omega)
    · rw [if_neg h2]
      exact ⟨fun q h => (nomatch h), fun _ => .inl (by omega), fun _ => ⟨_, rfl⟩⟩
  · rw [if_neg h1]
    exact ⟨fun q h => (nomatch h), fun _ => .inr (by omega), fun _ => ⟨_, rfl⟩⟩

/-- C41, builds without overflow checks: `ceil_div` panics only for divisor 0, and its result is the quotient rounded up
iff the mathematical sum of the arguments is at most `2 ^ 32`; beyond that it silently returns a wrong value. -/
theorem C41_ceil_div_release (a b : BitVec 32) :
    ((∃ e, ceilDiv a.toNat b.toNat .release = .error e) ↔ b.toNat = 0) ∧
    (∀ q, ceilDiv a.toNat b.toNat .release = .ok q →
      (IsCeilDiv a.toNat b.toNat q ↔ a.toNat + b.toNat ≤ 2 ^ 32)) := by
  have hgen : ∀ a b : Nat, ceilDiv a b .release = if b = 0 then .error .divByZero else
      .ok (((a + b) % 2 ^ 32 + 2 ^ 32 - 1) % 2 ^ 32 / b) := fun a b => rfl
  rw [hgen]
  have ha := a.isLt
  have hb := b.isLt
  generalize a.toNat = a at *
  generalize b.toNat = b at *
  by_cases h0 : b = 0
  · rw [if_pos h0]
    exact ⟨⟨fun _ => h0, fun _ => ⟨_, rfl⟩⟩, fun q h => (nomatch h)⟩
  · rw [if_neg h0]
    refine ⟨⟨fun ⟨e, he⟩ => (nomatch he), fun h => absurd h h0⟩, fun q h => ?_⟩
    injection h with h
    subst h
    have hc := isCeilDiv_div a b (by omega)
    by_cases hs : a + b ≤ 2 ^ 32
    · rw [show ((a + b) % 2 ^ 32 + 2 ^ 32 - 1) % 2 ^ 32 = a + b - 1 by omega]
      exact ⟨fun _ => hs, fun _ => hc⟩
    · rw [show ((a + b) % 2 ^ 32 + 2 ^ 32 - 1) % 2 ^ 32 = a + b - 1 - 2 ^ 32 by omega]
      refine ⟨fun h => ?_, fun h => absurd h hs⟩
      exfalso
      have h1 := h.1
      have h2 := Nat.mul_div_le (a + b - 1 - 2 ^ 32) b
      omega

example : ceilDiv (2 ^ 32 - 1) 23000 .release = .ok 0 := by decide

/-- C41: the generator computes for every circuit capacity the least price that covers `ERGS_PER_CIRCUIT`, and for
L1 messages the least price that makes 512 of them exhaust the transaction limit. -/
theorem C41_generated : ∃ items, circuitPrices = .ok items ∧
    (∀ name c, (name, c) ∈ capacities → ∃ p, Item.const name p ∈ items ∧ IsCeilDiv ERGS_PER_CIRCUIT c p) ∧
    (∃ p, Item.const "L1_MESSAGE_MIN_COST_IN_ERGS" p ∈ items ∧ IsCeilDiv MAX_TX_ERGS_LIMIT 512 p) := by
  refine ⟨_, rfl, fun name c h => ?_, _, ?_, isCeilDiv_div _ _ (by decide)⟩
  · have hall : ∀ x ∈ capacities, 0 < x.2 ∧ Item.const x.1 ((ERGS_PER_CIRCUIT + x.2 - 1) / x.2) ∈
      (circuitPrices.toOption.getD []) := by decide +kernel
    have := hall _ h
    exact ⟨_, this.2, isCeilDiv_div _ _ this.1⟩
  · show _ ∈ (circuitPrices.toOption.getD [])
    decide +kernel

/-- C41: if the price of a unit covers a circuit of `c` units, the units paid with `e` ergs open at most
`e / ERGS_PER_CIRCUIT` circuits, rounded up. -/
theorem C41_circuits (c p e units opened bound : Nat) (hcp : IsCeilDiv ERGS_PER_CIRCUIT c p)
    (hpaid : units * p ≤ e) (ho : IsCeilDiv units c opened) (hb : IsCeilDiv e ERGS_PER_CIRCUIT bound) :
    opened ≤ bound := by
  apply ho.2
  have h1 := hcp.1
  have hE : 0 < ERGS_PER_CIRCUIT := by decide
  have hp : 0 < p := by
    rcases Nat.eq_zero_or_pos p with h | h
    · rw [h, Nat.mul_zero] at h1; omega
    · exact h
  have h2 : ERGS_PER_CIRCUIT * bound ≤ c * p * bound := Nat.mul_le_mul_right _ h1
  have h3 : units * p ≤ c * bound * p := by
    have := hb.1
    have he : c * p * bound = c * bound * p := by rw [Nat.mul_assoc, Nat.mul_assoc, Nat.mul_comm p]
    omega
  exact Nat.le_of_mul_le_mul_right h3 hp

/-- 23000 cycles fill one VM circuit, at 4 ergs each; 92000 ergs may open two. -/
example : IsCeilDiv ERGS_PER_CIRCUIT 23000 4 ∧ IsCeilDiv 23000 23000 1 ∧ IsCeilDiv 92000 ERGS_PER_CIRCUIT 2 :=
  ⟨isCeilDiv_div 80000 23000 (by decide), isCeilDiv_div 23000 23000 (by decide), isCeilDiv_div 92000 80000 (by decide)⟩

/-! ## C42 -/

/-- C42: in every build the generator's run succeeds and its output is the committed file. -/
theorem C42_file (build : Build) : fileContent build = .ok committedPriceFile := by
  cases build <;> decide +kernel

/-- C42: the values the generator computes are those the crate is compiled with, name by name, in file order. -/
theorem C42_constants : ∃ items, circuitPrices = .ok items ∧
    items.filterMap (fun | .const n v => some (n, v) | .comment _ => none) = priceConstants :=
  ⟨_, rfl, by decide +kernel⟩

/-! ## C60 -/

/-- C60: every sequence of storage writes whose pubdata fits a block has at most 4600 initial and at most 7400
repeated writes, the capacities of the single-instance hasher circuits, although their generated minimal prices are
zero. -/
theorem C60_writes (ws : List WriteKind) (h : pubdata ws ≤ MAX_PUBDATA_PER_BLOCK) :
    ws.count .initial ≤ LIMIT_FOR_INITIAL_WRITES_PUBDATA_HASHER ∧
    ws.count .repeated ≤ LIMIT_FOR_REPEATED_WRITES_PUBDATA_HASHER ∧
    LIMIT_FOR_INITIAL_WRITES_PUBDATA_HASHER = 4600 ∧ LIMIT_FOR_REPEATED_WRITES_PUBDATA_HASHER = 7400 ∧
    minPriceForInitialPubdataWrite = .ok 0 ∧ minPriceForRepeatedPubdataWrite = .ok 0 := by
  have hp : pubdata ws = 64 * ws.count .initial + 40 * ws.count .repeated := by
    clear h
    induction ws with
    | nil => rfl
    | cons w ws ih =>
      have hc : pubdata (w :: ws) = (match w with | .initial => 64 | .repeated => 40) + pubdata ws := by
        cases w <;> rfl
      rw [hc, ih, List.count_cons, List.count_cons]
      cases w <;> simp <;> omega
  have hm : MAX_PUBDATA_PER_BLOCK = 110000 := rfl
  refine ⟨?_, ?_, rfl, rfl, rfl, rfl⟩
  · show _ ≤ 4600; omega
  · show _ ≤ 7400; omega

example : pubdata (List.replicate 1718 .initial) = 109952 ∧ 109952 ≤ MAX_PUBDATA_PER_BLOCK := by decide +kernel

end ZkEvm.Props
