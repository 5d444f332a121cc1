import Verif.Lemmas.Machine
import Verif.Props.Deploy
import Verif.Props.Published
/-!
# Machines driven by the crate's decoder, prices and masks: C83 and C84
-/
namespace ZkEvm.Props
open Spec Tables Bitmask Coding Words Program Deploy MachineLemmas

variable {State Contract : Type}

theorem zero_bytes_production (b : Build) :
    Production.encodeAsBytes b (zeroInstruction 16) = .ok (List.replicate 8 0) := by
  obtain ⟨t, o, _, hp, _, hv, hc, g1, g2, g3, g4, g5, g6⟩ := C01_decode_production 0#64
  have e : o = zeroInstruction 16 := by
    cases o
    simp only [zeroInstruction, DecodedOpcodeOf.mk.injEq]
    refine ⟨hv.trans (by decide +kernel), (Option.some.inj hc).symm, BitVec.eq_of_toNat_eq g1, BitVec.eq_of_toNat_eq g2,
      BitVec.eq_of_toNat_eq g3, BitVec.eq_of_toNat_eq g4, BitVec.eq_of_toNat_eq g5, BitVec.eq_of_toNat_eq g6⟩
  obtain ⟨w', hw', _, _, _, hiff⟩ := C04_decode_encode_production b 0#64 o _ hp
  rw [hiff.2 (by decide), e] at hw'
  unfold Production.encodeAsBytes
  rw [hw']
  rfl

theorem zero_bytes_testing (b : Build) :
    Testing.encodeAsBytes b (zeroInstruction 32) = .ok (List.replicate 16 0) := by
  obtain ⟨t, o, _, hp, _, hv, hc, g1, g2, g3, g4, g5, g6⟩ := C01_decode_testing 0#128
  have e : o = zeroInstruction 32 := by
    cases o
    simp only [zeroInstruction, DecodedOpcodeOf.mk.injEq]
    refine ⟨hv.trans (by decide +kernel), (Option.some.inj hc).symm, BitVec.eq_of_toNat_eq g1, BitVec.eq_of_toNat_eq g2,
      BitVec.eq_of_toNat_eq g3, BitVec.eq_of_toNat_eq g4, BitVec.eq_of_toNat_eq g5, BitVec.eq_of_toNat_eq g6⟩
  obtain ⟨w', hw', _, _, _, _, hiff⟩ := C05_decode_encode_testing b 0#128 o _ hp
  rw [hiff.2 (by decide), e] at hw'
  unfold Testing.encodeAsBytes
  rw [hw']
  rfl

private theorem extended_ok {w : Nat} {prog : List (DecodedOpcode w)} (hE : ∀ o ∈ prog, Encodable o)
    (hz : Encodable (zeroInstruction w)) (k : Nat) : ∀ o ∈ prog ++ List.replicate k (zeroInstruction w), Encodable o := by
  intro o ho
  rcases List.mem_append.1 ho with h | h
  · exact hE o h
  · rw [(List.mem_replicate.1 h).2]; exact hz

private theorem fetch_production {b : Build} {prog : List (DecodedOpcode 16)} {words : List (Vector Byte 32)}
    {page : Nat → U256} (hE : ∀ o ∈ prog, Encodable o) (hD : Deployed (Production.encodeAsBytes b) prog words page)
    (pc : BitVec 16) : ∃ raw n, Production.integerRepresentationFromU256 (page (Production.splitPc pc).1.toNat)
      (Production.splitPc pc).2 = .ok raw ∧ Production.parse raw = .ok (instructionAt prog pc.toNat, n) := by
  obtain ⟨code, hA, hp, hv⟩ := hD
  have hw := holds_pad (holds_of_page hp (hv (Production.splitPc pc).1.toNat)) ((pc.toNat + 1 - prog.length) * 8)
  exact C09_program_production b _ _ (extended_ok hE (by decide) _)
    (assembled_append hA (assembled_zeros (zero_bytes_production b) _)) pc _ (at_extended prog pc.toNat) _ hw

private theorem fetch_testing {b : Build} {prog : List (DecodedOpcode 32)} {words : List (Vector Byte 32)}
    {page : Nat → U256} (hE : ∀ o ∈ prog, Encodable o) (hD : Deployed (Testing.encodeAsBytes b) prog words page)
    (pc : BitVec 32) : ∃ raw n, Testing.integerRepresentationFromU256 (page (Testing.splitPc pc).1.toNat)
      (Testing.splitPc pc).2 = .ok raw ∧ Testing.parse raw = .ok (instructionAt prog pc.toNat, n) := by
  obtain ⟨code, hA, hp, hv⟩ := hD
  have hw := holds_pad (holds_of_page hp (hv (Testing.splitPc pc).1.toNat)) ((pc.toNat + 1 - prog.length) * 16)
  exact C09_program_testing b _ _ (extended_ok hE (by decide) _)
    (assembled_append hA (assembled_zeros (zero_bytes_testing b) _)) pc _ (at_extended prog pc.toNat) _ hw

/-! ## C83 -/

/-- C83, production: refinement. For every machine, whatever its instructions do, every family of programs whose
instructions exist, assembled in any build, padded and loaded into code pages, and every number of cycles from any state:
running on the words, with the crate fetching, decoding and looking up prices and masks, never panics and reaches the
state that the machine reaches on the instructions themselves. -/
theorem C83_refinement_production (M : Machine 16 State Contract) (mask : OpcodeVariant → BitVec 64) (hm : MasksOk mask)
    (b : Contract → Build) (progs : Contract → List (DecodedOpcode 16)) (words : Contract → List (Vector Byte 32))
    (page : Contract → Nat → U256) (hE : ∀ c, ∀ o ∈ progs c, Encodable o)
    (hD : ∀ c, Deployed (Production.encodeAsBytes (b c)) (progs c) (words c) (page c)) (n : Nat) (s : State) :
    cycles (cycleProduction M page) n s = .ok (runProgram M mask progs n s) := by
  refine cycles_eq (step := fun s => M.execute s (instructionAt (progs (M.contract s)) (M.pc s).toNat)
    (priceOf (instructionAt (progs (M.contract s)) (M.pc s).toNat).variant.opcode)
    (mask (instructionAt (progs (M.contract s)) (M.pc s).toNat).variant)) (fun s => ?_) _ (fun _ => rfl)
    (fun _ _ => rfl) n s
  obtain ⟨raw, k, h1, h2⟩ := fetch_production (hE (M.contract s)) (hD (M.contract s)) (M.pc s)
  obtain ⟨o, h3, hv, _⟩ := prod_parse raw
  obtain ⟨ho, hk⟩ := same_result h2 h3
  rw [hk] at h2
  rw [← ho] at hv
  exact cycle_eq h1 h2 (executeDecoded_eq M s hm (Nat.mod_lt _ (by decide)) hv)

/-- C83, testing. -/
theorem C83_refinement_testing (M : Machine 32 State Contract) (mask : OpcodeVariant → BitVec 64) (hm : MasksOk mask)
    (b : Contract → Build) (progs : Contract → List (DecodedOpcode 32)) (words : Contract → List (Vector Byte 32))
    (page : Contract → Nat → U256) (hE : ∀ c, ∀ o ∈ progs c, Encodable o)
    (hD : ∀ c, Deployed (Testing.encodeAsBytes (b c)) (progs c) (words c) (page c)) (n : Nat) (s : State) :
    cycles (cycleTesting M page) n s = .ok (runProgram M mask progs n s) := by
  refine cycles_eq (step := fun s => M.execute s (instructionAt (progs (M.contract s)) (M.pc s).toNat)
    (priceOf (instructionAt (progs (M.contract s)) (M.pc s).toNat).variant.opcode)
    (mask (instructionAt (progs (M.contract s)) (M.pc s).toNat).variant)) (fun s => ?_) _ (fun _ => rfl)
    (fun _ _ => rfl) n s
  obtain ⟨raw, k, h1, h2⟩ := fetch_testing (hE (M.contract s)) (hD (M.contract s)) (M.pc s)
  obtain ⟨o, h3, hv, _⟩ := test_parse raw
  obtain ⟨ho, hk⟩ := same_result h2 h3
  rw [hk] at h2
  rw [← ho] at hv
  exact cycle_eq h1 h2 (executeDecoded_eq M s hm (Nat.mod_lt _ (by decide)) hv)

private theorem page_unique {words : List (Vector Byte 32)} {k : Nat} {v v' : U256} (h : HoldsPageWord v words k)
    (h' : HoldsPageWord v' words k) : v = v' := by
  have e : u256Nat v = u256Nat v' := h.trans h'.symm
  unfold u256Nat at e
  obtain ⟨e0, e1, e2, e3⟩ := limbs_unique v.l0.isLt v.l1.isLt v.l2.isLt v'.l0.isLt v'.l1.isLt v'.l2.isLt e
  cases v; cases v'
  simp only [U256.mk.injEq]
  exact ⟨BitVec.eq_of_toNat_eq e0, BitVec.eq_of_toNat_eq e1, BitVec.eq_of_toNat_eq e2, BitVec.eq_of_toNat_eq e3⟩

/-- C83: a code hash determines behaviour. If the programs of two families have, contract by contract, the same hash,
and the digest does not collide on them, then no machine can tell the families apart, neither on words nor on
instructions, however long it runs. -/
theorem C83_hash_determines_production (M : Machine 16 State Contract) (mask : OpcodeVariant → BitVec 64)
    (hm : MasksOk mask) (sha256 : Digest) (b b' : Contract → Build) (progs progs' : Contract → List (DecodedOpcode 16))
    (words words' : Contract → List (Vector Byte 32)) (page page' : Contract → Nat → U256)
    (hash : Contract → Vector Byte 32)
    (hE : ∀ c, ∀ o ∈ progs c, Encodable o) (hE' : ∀ c, ∀ o ∈ progs' c, Encodable o)
    (hD : ∀ c, Deployed (Production.encodeAsBytes (b c)) (progs c) (words c) (page c))
    (hD' : ∀ c, Deployed (Production.encodeAsBytes (b' c)) (progs' c) (words' c) (page' c))
    (hh : ∀ c, bytecodeToCodeHash sha256 (words c) = .ok (hash c))
    (hh' : ∀ c, bytecodeToCodeHash sha256 (words' c) = .ok (hash c))
    (hfree : ∀ c, (∀ i (_ : i < 28), (sha256 ((words c).flatMap Vector.toList))[4 + i]
        = (sha256 ((words' c).flatMap Vector.toList))[4 + i]) →
      (words c).flatMap Vector.toList = (words' c).flatMap Vector.toList)
    (n : Nat) (s : State) :
    cycles (cycleProduction M page) n s = cycles (cycleProduction M page') n s ∧
    runProgram M mask progs n s = runProgram M mask progs' n s := by
  have hp : page = page' := by
    funext c k
    obtain ⟨_, _, _, h1⟩ := hD c
    obtain ⟨_, _, _, h2⟩ := hD' c
    refine page_unique (h1 k) ?_
    rw [C56_collision_free sha256 (words c) (words' c) (hash c) (hh c) (hh' c) (hfree c)]
    exact h2 k
  refine ⟨by rw [hp], ?_⟩
  have h1 := C83_refinement_production M mask hm b progs words page hE hD n s
  have h2 := C83_refinement_production M mask hm b' progs' words' page' hE' hD' n s
  rw [hp] at h1
  exact Except.ok.inj (h1.symm.trans h2)

/-- C83, testing. -/
theorem C83_hash_determines_testing (M : Machine 32 State Contract) (mask : OpcodeVariant → BitVec 64)
    (hm : MasksOk mask) (sha256 : Digest) (b b' : Contract → Build) (progs progs' : Contract → List (DecodedOpcode 32))
    (words words' : Contract → List (Vector Byte 32)) (page page' : Contract → Nat → U256)
    (hash : Contract → Vector Byte 32)
    (hE : ∀ c, ∀ o ∈ progs c, Encodable o) (hE' : ∀ c, ∀ o ∈ progs' c, Encodable o)
    (hD : ∀ c, Deployed (Testing.encodeAsBytes (b c)) (progs c) (words c) (page c))
    (hD' : ∀ c, Deployed (Testing.encodeAsBytes (b' c)) (progs' c) (words' c) (page' c))
    (hh : ∀ c, bytecodeToCodeHashForMode sha256 32 (words c) = .ok (hash c))
    (hh' : ∀ c, bytecodeToCodeHashForMode sha256 32 (words' c) = .ok (hash c))
    (hfree : ∀ c, (∀ i (_ : i < 28), (sha256 ((words c).flatMap Vector.toList))[4 + i]
        = (sha256 ((words' c).flatMap Vector.toList))[4 + i]) →
      (words c).flatMap Vector.toList = (words' c).flatMap Vector.toList)
    (n : Nat) (s : State) :
    cycles (cycleTesting M page) n s = cycles (cycleTesting M page') n s ∧
    runProgram M mask progs n s = runProgram M mask progs' n s := by
  have hp : page = page' := by
    funext c k
    obtain ⟨_, _, _, h1⟩ := hD c
    obtain ⟨_, _, _, h2⟩ := hD' c
    refine page_unique (h1 k) ?_
    rw [C57_collision_free sha256 (words c) (words' c) (hash c) (hh c) (hh' c) (hfree c)]
    exact h2 k
  refine ⟨by rw [hp], ?_⟩
  have h1 := C83_refinement_testing M mask hm b progs words page hE hD n s
  have h2 := C83_refinement_testing M mask hm b' progs' words' page' hE' hD' n s
  rw [hp] at h1
  exact Except.ok.inj (h1.symm.trans h2)

-- Masks with the described bits exist, and every program that can be addressed can be deployed.
example : ∃ mask, MasksOk mask := ⟨maskOf, fun v _ hi => mask_bit v hi⟩

private theorem deployment (b : Build) (prog : List (DecodedOpcode 16)) (hE : ∀ o ∈ prog, Encodable o)
    (hn : prog.length ≤ 2 ^ 16) (sha256 : Digest) : ∃ words page hash,
    Deployed (Production.encodeAsBytes b) prog words page ∧ bytecodeToCodeHash sha256 words = .ok hash := by
  obtain ⟨code, words, hash, hA, hp, hh, _⟩ := C80_deployable_production b sha256 prog hE hn
  have hv : ∀ k, ∃ v, HoldsPageWord v words k := fun k => by
    obtain ⟨v, hv⟩ := C09_word_exists (words.flatMap Vector.toList) k
    exact ⟨v, by unfold HoldsPageWord; rw [pageWord_eq]; exact hv⟩
  exact ⟨words, fun k => (hv k).choose, hash, ⟨code, hA, hp, fun k => (hv k).choose_spec⟩, hh⟩

-- A machine that follows `jump` to its immediate, spends the price of every instruction and stops at an instruction it
-- cannot pay, on the program `nop; jump 0`: 4 cycles cost 24 of its 25 ergs and lead back to position 0.
private def nopI : DecodedOpcode 16 := ⟨⟨.nop .mk, .full .useRegOnly, .full .useRegOnly, ⟨false, false⟩⟩, .always, 0, 0, 0, 0, 0, 0⟩
private def jumpI : DecodedOpcode 16 := ⟨⟨.jump .mk, .full (.useImm16Only), .regOnly, ⟨false, false⟩⟩, .always, 0, 0, 0, 0, 0, 0⟩
private def looper : Machine 16 (BitVec 16 × Nat) Unit where
  contract _ := ()
  pc s := s.1
  execute s o price _ :=
    if s.2 < price then s
    else (match o.variant.opcode with | .jump _ => o.imm0 | _ => s.1 + 1, s.2 - price)
example : ∃ words page, Deployed (Production.encodeAsBytes .debug) [nopI, jumpI] words page ∧
    cycles (cycleProduction looper fun _ => page) 4 (0, 25) = .ok (0, 1) := by
  have hE : ∀ o ∈ [nopI, jumpI], Encodable o := by decide
  obtain ⟨words, page, _, hD, _⟩ := deployment .debug [nopI, jumpI] hE (by decide) (fun _ => Vector.replicate 32 0)
  refine ⟨words, page, hD, ?_⟩
  rw [C83_refinement_production looper maskOf (fun v _ hi => mask_bit v hi) (fun _ => .debug) (fun _ => [nopI, jumpI])
    (fun _ => words) (fun _ => page) (fun _ => hE) (fun _ => hD)]
  rfl

/-- C83, testing: any machine on a program of two instructions. -/
example (M : Machine 32 State Unit) (n : Nat) (s : State) : ∃ words page,
    Deployed (Testing.encodeAsBytes .debug) [zeroInstruction 32, { zeroInstruction 32 with imm0 := 7 }] words page ∧
    cycles (cycleTesting M fun _ => page) n s =
      .ok (runProgram M maskOf (fun _ => [zeroInstruction 32, { zeroInstruction 32 with imm0 := 7 }]) n s) := by
  have hE : ∀ o ∈ [zeroInstruction 32, { zeroInstruction 32 with imm0 := 7 }], Encodable o := by decide
  obtain ⟨code, words, _, hA, hp, _⟩ := C80_deployable_testing .debug (fun _ => Vector.replicate 32 0)
    [zeroInstruction 32, { zeroInstruction 32 with imm0 := 7 }] hE (by decide)
  have hv : ∀ k, ∃ v, HoldsPageWord v words k := fun k => by
    obtain ⟨v, hv⟩ := C09_word_exists (words.flatMap Vector.toList) k
    exact ⟨v, by unfold HoldsPageWord; rw [pageWord_eq]; exact hv⟩
  have hD : Deployed (Testing.encodeAsBytes .debug) [zeroInstruction 32, { zeroInstruction 32 with imm0 := 7 }] words
      (fun k => (hv k).choose) := ⟨code, hA, hp, fun k => (hv k).choose_spec⟩
  exact ⟨words, _, hD, C83_refinement_testing M maskOf (fun v _ hi => mask_bit v hi) (fun _ => .debug) _ (fun _ => words) _
    (fun _ => hE) (fun _ => hD) n s⟩

/-- C83: whatever program has the hash of `nop; jump 0` runs like it, if the digest tells their code apart. -/
example (sha256 : Digest) : ∃ words page hash, Deployed (Production.encodeAsBytes .debug) [nopI, jumpI] words page ∧
    bytecodeToCodeHash sha256 words = .ok hash ∧
    ∀ prog' words' page', (∀ o ∈ prog', Encodable o) → Deployed (Production.encodeAsBytes .release) prog' words' page' →
      bytecodeToCodeHash sha256 words' = .ok hash →
      ((∀ i (_ : i < 28), (sha256 (words.flatMap Vector.toList))[4 + i] = (sha256 (words'.flatMap Vector.toList))[4 + i]) →
        words.flatMap Vector.toList = words'.flatMap Vector.toList) →
      cycles (cycleProduction looper fun _ => page') 4 (0, 25) = cycles (cycleProduction looper fun _ => page) 4 (0, 25) := by
  have hE : ∀ o ∈ [nopI, jumpI], Encodable o := by decide
  obtain ⟨words, page, hash, hD, hh⟩ := deployment .debug [nopI, jumpI] hE (by decide) sha256
  refine ⟨words, page, hash, hD, hh, fun prog' words' page' hE' hD' hh' hfree => ?_⟩
  exact (C83_hash_determines_production looper maskOf (fun v _ hi => mask_bit v hi) sha256 (fun _ => .debug)
    (fun _ => .release) (fun _ => [nopI, jumpI]) (fun _ => prog') (fun _ => words) (fun _ => words') (fun _ => page)
    (fun _ => page') (fun _ => hash) (fun _ => hE) (fun _ => hE') (fun _ => hD) (fun _ => hD') (fun _ => hh) (fun _ => hh')
    (fun _ => hfree) 4 (0, 25)).1.symm

/-! ## C84 -/

private theorem wf_entry {n : Nat} (h : n < 2048) : WellFormed (entry n) = true :=
  (mem_fullTable _).1 (List.mem_of_getElem? (fullTable_get h))

private theorem guarded_cases {w : Nat} (c : Checks) (o : DecodedOpcode w) (price : Nat) :
    (¬Allowed c o price → guarded c 48 o price (maskOf o.variant) = o.maskIntoPanic) ∧
    (Allowed c o price → c.holds o.condition = false → guarded c 48 o price (maskOf o.variant) = o.maskIntoNop) ∧
    (Allowed c o price → c.holds o.condition = true → guarded c 48 o price (maskOf o.variant) = o) := by
  have h48 : (maskOf o.variant).getLsbD (48 + KERNER_MODE_FLAG_IDX) = kernelOnly o.variant.opcode :=
    (mask_bit o.variant (i := 48) (by decide)).trans rfl
  have h49 : (maskOf o.variant).getLsbD (48 + CAN_BE_USED_IN_STATIC_CONTEXT_FLAG_IDX) = !changesState o.variant.opcode :=
    (mask_bit o.variant (i := 49) (by decide)).trans rfl
  have h50 : (maskOf o.variant).getLsbD (48 + EXPLICIT_PANIC_FLAG_IDX) = isInvalid o.variant.opcode :=
    (mask_bit o.variant (i := 50) (by decide)).trans rfl
  unfold guarded Allowed
  rw [h48, h49, h50]
  generalize kernelOnly o.variant.opcode = a
  generalize changesState o.variant.opcode = d
  generalize isInvalid o.variant.opcode = e
  by_cases hp : price ≤ c.ergs
  · have hlt : ¬ c.ergs < price := by omega
    cases a <;> cases d <;> cases e <;> cases c.kernel <;> cases c.isStatic <;> cases c.holds o.condition <;>
      simp [hp, hlt]
  · have hlt : c.ergs < price := by omega
    simp [hp, hlt]

private theorem guarded_safe {w : Nat} (c : Checks) (o : DecodedOpcode w) (price : Nat) (hE : Encodable o) :
    (c.isStatic = true → changesState (guarded c 48 o price (maskOf o.variant)).variant.opcode = false) ∧
    (c.kernel = false → kernelOnly (guarded c 48 o price (maskOf o.variant)).variant.opcode = false) ∧
    isInvalid (guarded c 48 o price (maskOf o.variant)).variant.opcode = false ∧
    Encodable (guarded c 48 o price (maskOf o.variant)) := by
  obtain ⟨h1, h2, h3⟩ := guarded_cases c o price
  have z : (0#8).toNat < 16 := by decide
  have hP : Encodable o.maskIntoPanic :=
    ⟨(by decide : WellFormed ⟨.ret .panic, .regOnly, .regOnly, ⟨false, false⟩⟩ = true), z, z, z, z⟩
  have hN : Encodable o.maskIntoNop :=
    ⟨(by decide : WellFormed ⟨.nop .mk, .full .useRegOnly, .full .useRegOnly, ⟨false, false⟩⟩ = true), z, z, z, z⟩
  by_cases ha : Allowed c o price
  · cases hc : c.holds o.condition with
    | false =>
      rw [h2 ha hc]
      exact ⟨fun _ => rfl, fun _ => rfl, rfl, hN⟩
    | true =>
      rw [h3 ha hc]
      refine ⟨ha.2.2.2, fun hk => ?_, ha.2.1, hE⟩
      cases hb : kernelOnly o.variant.opcode with
      | false => rfl
      | true => rw [ha.2.2.1 hb] at hk; cases hk
  · rw [h1 ha]
    exact ⟨fun _ => rfl, fun _ => rfl, rfl, hP⟩

private theorem base_eq {base : Nat} (h : totalDescriptionBitsRoundedForVersion DEFAULT_ISA_VERSION = .ok base) :
    base = 48 := by
  have : totalDescriptionBitsRoundedForVersion DEFAULT_ISA_VERSION = .ok 48 := by decide +kernel
  rw [this] at h
  exact (Except.ok.inj h).symm

private theorem parsed_encodable {w : Nat} {o : DecodedOpcode w} {n : Nat} (hn : n < 2048) (hv : o.variant = entry n)
    (hr : RegistersOk o) : Encodable o := ⟨by rw [hv]; exact wf_entry hn, hr⟩

/-- C84, production: a machine that reads price and property mask under the number of the word executes exactly the
allowed instructions whose condition holds, nop for those whose condition does not, and panic for all others. So,
whatever the word, what is executed never changes state in a static context, is never reserved for the kernel outside
of it, is never the invalid instruction, and can itself be encoded. -/
theorem C84_guarded_production (c : Checks) (w : BitVec 64) (base : Nat)
    (hb : totalDescriptionBitsRoundedForVersion DEFAULT_ISA_VERSION = .ok base) :
    ∃ prices masks o n price mask, OPCODES_PRICES = .ok prices ∧ OPCODES_PROPS_INTEGER_BITMASKS = .ok masks ∧
      Production.parse w = .ok (o, n) ∧ prices[n.intoUsize]? = some price ∧ masks[n.intoUsize]? = some mask ∧
      (Allowed c o price → c.holds o.condition = true → guarded c base o price mask = o) ∧
      (Allowed c o price → c.holds o.condition = false → guarded c base o price mask = o.maskIntoNop) ∧
      (¬Allowed c o price → guarded c base o price mask = o.maskIntoPanic) ∧
      (c.isStatic = true → changesState (guarded c base o price mask).variant.opcode = false) ∧
      (c.kernel = false → kernelOnly (guarded c base o price mask).variant.opcode = false) ∧
      isInvalid (guarded c base o price mask).variant.opcode = false ∧
      Encodable (guarded c base o price mask) := by
  rw [base_eq hb]
  obtain ⟨o, h, hv, _, r1, r2, r3, r4, _⟩ := prod_parse w
  have hn : w.toNat % 2 ^ 11 < 2048 := Nat.mod_lt _ (by decide)
  have hE : Encodable o := parsed_encodable hn hv
    ⟨by rw [r1]; exact Nat.mod_lt _ (by decide), by rw [r2]; exact Nat.mod_lt _ (by decide),
      by rw [r3]; exact Nat.mod_lt _ (by decide), by rw [r4]; exact Nat.mod_lt _ (by decide)⟩
  obtain ⟨g1, g2, g3⟩ := guarded_cases c o (priceOf o.variant.opcode)
  have hm := masks_get hn
  have hpr := prices_at hn
  rw [← hv] at hm hpr
  exact ⟨_, _, o, _, _, _, PriceLemmas.prices_eq, masks_eq, h, hpr, hm, g3, g2, g1, guarded_safe c o _ hE⟩

/-- C84: the word of a storage write, in a static context. -/
example : ∃ o n price mask, Production.parse 0x241b#64 = .ok (o, n) ∧
    changesState (guarded ⟨3501, false, true, fun _ => true⟩ 48 o price mask).variant.opcode = false := by
  obtain ⟨_, _, o, n, price, mask, _, _, h, _, _, _, _, _, hs, _⟩ :=
    C84_guarded_production ⟨3501, false, true, fun _ => true⟩ 0x241b#64 48 (by decide +kernel)
  exact ⟨o, n, price, mask, h, hs rfl⟩

/-- C84, testing. -/
theorem C84_guarded_testing (c : Checks) (w : BitVec 128) (base : Nat)
    (hb : totalDescriptionBitsRoundedForVersion DEFAULT_ISA_VERSION = .ok base) :
    ∃ prices masks o n price mask, OPCODES_PRICES = .ok prices ∧ OPCODES_PROPS_INTEGER_BITMASKS = .ok masks ∧
      Testing.parse w = .ok (o, n) ∧ prices[n.intoUsize]? = some price ∧ masks[n.intoUsize]? = some mask ∧
      (Allowed c o price → c.holds o.condition = true → guarded c base o price mask = o) ∧
      (Allowed c o price → c.holds o.condition = false → guarded c base o price mask = o.maskIntoNop) ∧
      (¬Allowed c o price → guarded c base o price mask = o.maskIntoPanic) ∧
      (c.isStatic = true → changesState (guarded c base o price mask).variant.opcode = false) ∧
      (c.kernel = false → kernelOnly (guarded c base o price mask).variant.opcode = false) ∧
      isInvalid (guarded c base o price mask).variant.opcode = false ∧
      Encodable (guarded c base o price mask) := by
  rw [base_eq hb]
  obtain ⟨o, h, hv, _, r1, r2, r3, r4, _⟩ := test_parse w
  have hn : w.toNat % 2 ^ 11 < 2048 := Nat.mod_lt _ (by decide)
  have hE : Encodable o := parsed_encodable hn hv
    ⟨by rw [r1]; exact Nat.mod_lt _ (by decide), by rw [r2]; exact Nat.mod_lt _ (by decide),
      by rw [r3]; exact Nat.mod_lt _ (by decide), by rw [r4]; exact Nat.mod_lt _ (by decide)⟩
  obtain ⟨g1, g2, g3⟩ := guarded_cases c o (priceOf o.variant.opcode)
  have hm := masks_get hn
  have hpr := prices_at hn
  rw [← hv] at hm hpr
  exact ⟨_, _, o, _, _, _, PriceLemmas.prices_eq, masks_eq, h, hpr, hm, g3, g2, g1, guarded_safe c o _ hE⟩

-- All three outcomes occur: a storage write (number 1051) with 3501 ergs is executed as it is outside of static calls,
-- is a panic in one, and is a nop if its condition (here `gt`, number 1) does not hold.

/-- C84: `base` is 48. -/
example : totalDescriptionBitsRoundedForVersion DEFAULT_ISA_VERSION = .ok 48 := by decide +kernel

example : ∃ o n, Production.parse 0x241b#64 = .ok (o, n) ∧ o.variant.opcode = .log .storageWrite ∧ o.condition = .gt ∧
    guarded ⟨3501, false, false, fun _ => true⟩ 48 o 3501 (maskOf o.variant) = o ∧
    guarded ⟨3501, false, true, fun _ => true⟩ 48 o 3501 (maskOf o.variant) = o.maskIntoPanic ∧
    guarded ⟨3500, false, false, fun _ => true⟩ 48 o 3501 (maskOf o.variant) = o.maskIntoPanic ∧
    guarded ⟨3501, false, false, fun c => c == .always⟩ 48 o 3501 (maskOf o.variant) = o.maskIntoNop := by
  obtain ⟨o, h, hv, hc, _⟩ := prod_parse 0x241b#64
  have hop : o.variant.opcode = .log .storageWrite := by rw [hv]; decide +kernel
  have hcond : o.condition = .gt := by
    have : o.condition.variantIndex = 1 := hc
    revert this
    cases o.condition <;> decide
  refine ⟨o, _, h, hop, hcond, ?_, ?_, ?_, ?_⟩
  · exact (guarded_cases _ o 3501).2.2 ⟨by decide, by rw [hop]; rfl, by rw [hop]; decide, nofun⟩ rfl
  · refine (guarded_cases _ o 3501).1 fun ha => ?_
    have := ha.2.2.2 rfl
    rw [hop] at this
    cases this
  · refine (guarded_cases _ o 3501).1 fun ha => ?_
    exact absurd ha.1 (by decide)
  · refine (guarded_cases _ o 3501).2.1 ⟨by decide, by rw [hop]; rfl, by rw [hop]; decide, nofun⟩ ?_
    rw [hcond]; rfl

private theorem cycle_production (M : Machine 16 State Contract) (page : Contract → Nat → U256) (s : State) :
    ∃ o, Encodable o ∧
      cycleProduction M page s = .ok (M.execute s o (priceOf o.variant.opcode) (maskOf o.variant)) := by
  obtain ⟨raw, h1, _⟩ := (C10_fetch (page (M.contract s) (Production.splitPc (M.pc s)).1.toNat)).1
    (Production.splitPc (M.pc s)).2 (C10_split_pc_production.1 (M.pc s)).2.1
  obtain ⟨o, h, hv, _, r1, r2, r3, r4, _⟩ := prod_parse raw
  have hn : raw.toNat % 2 ^ 11 < 2048 := Nat.mod_lt _ (by decide)
  have hE : Encodable o := parsed_encodable hn hv
    ⟨by rw [r1]; exact Nat.mod_lt _ (by decide), by rw [r2]; exact Nat.mod_lt _ (by decide),
      by rw [r3]; exact Nat.mod_lt _ (by decide), by rw [r4]; exact Nat.mod_lt _ (by decide)⟩
  exact ⟨o, hE, cycle_eq h1 h (executeDecoded_eq M s (fun v _ hi => mask_bit v hi) hn hv)⟩

private theorem cycle_testing (M : Machine 32 State Contract) (page : Contract → Nat → U256) (s : State) :
    ∃ o, Encodable o ∧
      cycleTesting M page s = .ok (M.execute s o (priceOf o.variant.opcode) (maskOf o.variant)) := by
  obtain ⟨raw, h1, _⟩ := (C10_fetch (page (M.contract s) (Testing.splitPc (M.pc s)).1.toNat)).2.2.1
    (Testing.splitPc (M.pc s)).2 (C10_split_pc_testing.1 (M.pc s)).2.1
  obtain ⟨o, h, hv, _, r1, r2, r3, r4, _⟩ := test_parse raw
  have hn : raw.toNat % 2 ^ 11 < 2048 := Nat.mod_lt _ (by decide)
  have hE : Encodable o := parsed_encodable hn hv
    ⟨by rw [r1]; exact Nat.mod_lt _ (by decide), by rw [r2]; exact Nat.mod_lt _ (by decide),
      by rw [r3]; exact Nat.mod_lt _ (by decide), by rw [r4]; exact Nat.mod_lt _ (by decide)⟩
  exact ⟨o, hE, cycle_eq h1 h (executeDecoded_eq M s (fun v _ hi => mask_bit v hi) hn hv)⟩

/-- C84, production: histories. Let a guarded machine run on code pages with any contents at all, for any number of
cycles. It never panics. If `world` is changed only by the instructions that change state, it is the same at the end of
every static history; if `privileged` is changed only by the instructions reserved for the kernel, it is the same at the
end of every history outside the kernel. -/
theorem C84_histories_production {World Privileged : Type} (contract : State → Contract) (pc : State → BitVec 16)
    (checks : State → Checks) (effect : State → DecodedOpcode 16 → Nat → State) (page : Contract → Nat → U256)
    (world : State → World) (privileged : State → Privileged)
    (hw : ∀ s g p, changesState g.variant.opcode = false → world (effect s g p) = world s)
    (hp : ∀ s g p, kernelOnly g.variant.opcode = false → privileged (effect s g p) = privileged s)
    (base : Nat) (hb : totalDescriptionBitsRoundedForVersion DEFAULT_ISA_VERSION = .ok base) (n : Nat) (s : State) :
    ∃ s', cycles (cycleProduction (guardedMachine contract pc checks effect base) page) n s = .ok s' ∧
      ((∀ k t, k < n → cycles (cycleProduction (guardedMachine contract pc checks effect base) page) k s = .ok t →
        (checks t).isStatic = true) → world s' = world s) ∧
      ((∀ k t, k < n → cycles (cycleProduction (guardedMachine contract pc checks effect base) page) k s = .ok t →
        (checks t).kernel = false) → privileged s' = privileged s) := by
  rw [base_eq hb]
  have key := cycle_production (guardedMachine contract pc checks effect 48) page
  obtain ⟨s', h1, h2⟩ := cycles_preserve (R := fun t => (checks t).isStatic = true) (world := world) (fun s => by
    obtain ⟨o, hE, h⟩ := key s
    exact ⟨_, h, fun hs => hw _ _ _ ((guarded_safe (checks s) o _ hE).1 hs)⟩) n s
  obtain ⟨s'', h3, h4⟩ := cycles_preserve (R := fun t => (checks t).kernel = false) (world := privileged) (fun s => by
    obtain ⟨o, hE, h⟩ := key s
    exact ⟨_, h, fun hs => hp _ _ _ ((guarded_safe (checks s) o _ hE).2.1 hs)⟩) n s
  cases Except.ok.inj (h1.symm.trans h3)
  exact ⟨s', h1, h2, h4⟩

/-- C84, testing. -/
theorem C84_histories_testing {World Privileged : Type} (contract : State → Contract) (pc : State → BitVec 32)
    (checks : State → Checks) (effect : State → DecodedOpcode 32 → Nat → State) (page : Contract → Nat → U256)
    (world : State → World) (privileged : State → Privileged)
    (hw : ∀ s g p, changesState g.variant.opcode = false → world (effect s g p) = world s)
    (hp : ∀ s g p, kernelOnly g.variant.opcode = false → privileged (effect s g p) = privileged s)
    (base : Nat) (hb : totalDescriptionBitsRoundedForVersion DEFAULT_ISA_VERSION = .ok base) (n : Nat) (s : State) :
    ∃ s', cycles (cycleTesting (guardedMachine contract pc checks effect base) page) n s = .ok s' ∧
      ((∀ k t, k < n → cycles (cycleTesting (guardedMachine contract pc checks effect base) page) k s = .ok t →
        (checks t).isStatic = true) → world s' = world s) ∧
      ((∀ k t, k < n → cycles (cycleTesting (guardedMachine contract pc checks effect base) page) k s = .ok t →
        (checks t).kernel = false) → privileged s' = privileged s) := by
  rw [base_eq hb]
  have key := cycle_testing (guardedMachine contract pc checks effect 48) page
  obtain ⟨s', h1, h2⟩ := cycles_preserve (R := fun t => (checks t).isStatic = true) (world := world) (fun s => by
    obtain ⟨o, hE, h⟩ := key s
    exact ⟨_, h, fun hs => hw _ _ _ ((guarded_safe (checks s) o _ hE).1 hs)⟩) n s
  obtain ⟨s'', h3, h4⟩ := cycles_preserve (R := fun t => (checks t).kernel = false) (world := privileged) (fun s => by
    obtain ⟨o, hE, h⟩ := key s
    exact ⟨_, h, fun hs => hp _ _ _ ((guarded_safe (checks s) o _ hE).2.1 hs)⟩) n s
  cases Except.ok.inj (h1.symm.trans h3)
  exact ⟨s', h1, h2, h4⟩

-- The position of the three bits, and a machine that counts executed storage writes: in static mode the count stays.
example : totalDescriptionBitsRoundedForVersion DEFAULT_ISA_VERSION = .ok 48 := by decide +kernel
example (page : Unit → Nat → U256) (n k : Nat) (p : BitVec 16) : ∃ s',
    cycles (cycleProduction (guardedMachine (fun _ => ()) (fun s : BitVec 16 × Nat => s.1)
      (fun _ => ⟨2 ^ 32, false, true, fun _ => true⟩)
      (fun s g _ => (s.1 + 1, if changesState g.variant.opcode then s.2 + 1 else s.2)) 48) page) n (p, k) = .ok s' ∧
    s'.2 = k := by
  obtain ⟨s', h1, h2, _⟩ := C84_histories_production (fun _ => ()) (fun s : BitVec 16 × Nat => s.1)
    (fun _ => ⟨2 ^ 32, false, true, fun _ => true⟩)
    (fun s g _ => (s.1 + 1, if changesState g.variant.opcode then s.2 + 1 else s.2)) page (fun s => s.2) (fun _ => ())
    (fun s g _ hg => by simp [hg]) (fun _ _ _ _ => rfl) 48 (by decide +kernel) n (p, k)
  exact ⟨s', h1, h2 fun _ _ _ _ => rfl⟩

end ZkEvm.Props
