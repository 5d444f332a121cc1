import Verif.Lemmas.Constants
import Verif.Props.Deploy
import Verif.Props.Stack
/-!
# Contracts with constants: C110

Compilers put constants after the instructions, and instructions read them with a source operand on the code page.
-/
namespace ZkEvm.Props
open Spec Words Program Deploy ConstantsLemmas Spec.Frames Spec.Stack

private theorem length_production (b : Build) : ∀ o bs, Production.encodeAsBytes b o = .ok bs → bs.length = 8 :=
  fun o bs h => by obtain ⟨_, _, hl, _⟩ := (C08_bytes_big_endian b).1 o bs h; exact hl

private theorem length_testing (b : Build) : ∀ o bs, Testing.encodeAsBytes b o = .ok bs → bs.length = 16 :=
  fun o bs h => by obtain ⟨_, _, hl, _⟩ := (C08_bytes_big_endian b).2 o bs h; exact hl

/-- C110, production: instructions and constants that together take fewer than 2^16 words can be deployed, whatever the
digest function. -/
theorem C110_deployable_production (b : Build) (sha256 : Digest) (prog : List (DecodedOpcode 16))
    (constants : List (Vector Byte 32)) (hE : ∀ o ∈ prog, Encodable o)
    (hn : wordsFor (8 * prog.length) + constants.length < 2 ^ 16) :
    ∃ code words hash, Assembled (Production.encodeAsBytes b) prog code ∧ Linked code constants words ∧
      bytecodeToCodeHash sha256 words = .ok hash ∧
      ∃ v, VersionedHash.tryCreateFromRaw hash = some v ∧ v.layoutRef.codeLengthInWords.toNat = words.length := by
  obtain ⟨code, hA, hl⟩ := (C09_assembles b).1 prog hE
  obtain ⟨words, hp, hw⟩ := link_exists code constants
  rw [hl] at hw
  obtain ⟨hash, hh⟩ := (C55_production_ok sha256 words).2 ⟨hp.1, by omega⟩
  obtain ⟨_, _, _, _, v, hv, hvl, _⟩ := C55_production_format sha256 words hash hh
  exact ⟨code, words, hash, hA, hp, hh, v, hv, hvl⟩

/-- C110, testing: fewer than 2^32 words. -/
theorem C110_deployable_testing (b : Build) (sha256 : Digest) (prog : List (DecodedOpcode 32))
    (constants : List (Vector Byte 32)) (hE : ∀ o ∈ prog, Encodable o)
    (hn : wordsFor (16 * prog.length) + constants.length < 2 ^ 32) :
    ∃ code words hash, Assembled (Testing.encodeAsBytes b) prog code ∧ Linked code constants words ∧
      bytecodeToCodeHashForMode sha256 32 words = .ok hash ∧ ∃ v, VersionedHash.tryCreateFromRaw hash = some v := by
  obtain ⟨code, hA, hl⟩ := (C09_assembles b).2 prog hE
  obtain ⟨words, hp, hw⟩ := link_exists code constants
  rw [hl] at hw
  obtain ⟨hash, hh⟩ := (C55_testing_ok sha256 words).2 ⟨hp.1, by omega⟩
  obtain ⟨_, _, _, v, hv⟩ := C57_testing_format sha256 words hash hh
  exact ⟨code, words, hash, hA, hp, hh, v, hv⟩

/-- C110, production: what runs is the program. A program counter that does not point into the constants fetches the
instruction of the program at that position, or, beyond its end, an instruction that panics. -/
theorem C110_runs_production (b : Build) (prog : List (DecodedOpcode 16)) (code : List Byte)
    (constants words : List (Vector Byte 32)) (hE : ∀ o ∈ prog, Encodable o)
    (hA : Assembled (Production.encodeAsBytes b) prog code) (hl : Linked code constants words) (pc : BitVec 16)
    (hpc : (Production.splitPc pc).1.toNat < wordsFor code.length ∨
      wordsFor code.length + constants.length ≤ (Production.splitPc pc).1.toNat)
    (v : U256) (hv : HoldsPageWord v words (Production.splitPc pc).1.toNat) :
    ∃ raw o n, Production.integerRepresentationFromU256 v (Production.splitPc pc).2 = .ok raw ∧
      Production.parse raw = .ok (o, n) ∧
      (prog[pc.toNat]? = some o ∨ prog.length ≤ pc.toNat ∧ o.variant.isExplicitPanic = true) := by
  have hw := holds_code hl hv hpc
  by_cases h : pc.toNat < prog.length
  · obtain ⟨raw, n, h1, h2⟩ := C09_program_production b prog code hE hA pc _ (List.getElem?_eq_getElem h) v hw
    exact ⟨raw, _, n, h1, h2, .inl (List.getElem?_eq_getElem h)⟩
  · obtain ⟨raw, o, n, h1, h2, h3⟩ := C09_beyond_end_production b prog code hA pc (by omega) v hw
    exact ⟨raw, o, n, h1, h2, .inr ⟨by omega, h3⟩⟩

/-- C110, testing. -/
theorem C110_runs_testing (b : Build) (prog : List (DecodedOpcode 32)) (code : List Byte)
    (constants words : List (Vector Byte 32)) (hE : ∀ o ∈ prog, Encodable o)
    (hA : Assembled (Testing.encodeAsBytes b) prog code) (hl : Linked code constants words) (pc : BitVec 32)
    (hpc : (Testing.splitPc pc).1.toNat < wordsFor code.length ∨
      wordsFor code.length + constants.length ≤ (Testing.splitPc pc).1.toNat)
    (v : U256) (hv : HoldsPageWord v words (Testing.splitPc pc).1.toNat) :
    ∃ raw o n, Testing.integerRepresentationFromU256 v (Testing.splitPc pc).2 = .ok raw ∧
      Testing.parse raw = .ok (o, n) ∧
      (prog[pc.toNat]? = some o ∨ prog.length ≤ pc.toNat ∧ o.variant.isExplicitPanic = true) := by
  have hw := holds_code hl hv hpc
  by_cases h : pc.toNat < prog.length
  · obtain ⟨raw, n, h1, h2⟩ := C09_program_testing b prog code hE hA pc _ (List.getElem?_eq_getElem h) v hw
    exact ⟨raw, _, n, h1, h2, .inl (List.getElem?_eq_getElem h)⟩
  · obtain ⟨raw, o, n, h1, h2, h3⟩ := C09_beyond_end_testing b prog code hA pc (by omega) v hw
    exact ⟨raw, o, n, h1, h2, .inr ⟨by omega, h3⟩⟩

/-- C110: every position of the program is outside the constants. -/
theorem C110_positions (b : Build) :
    (∀ (prog : List (DecodedOpcode 16)) (code : List Byte) (pc : BitVec 16),
      Assembled (Production.encodeAsBytes b) prog code → pc.toNat < prog.length →
      (Production.splitPc pc).1.toNat < wordsFor code.length) ∧
    (∀ (prog : List (DecodedOpcode 32)) (code : List Byte) (pc : BitVec 32),
      Assembled (Testing.encodeAsBytes b) prog code → pc.toNat < prog.length →
      (Testing.splitPc pc).1.toNat < wordsFor code.length) := by
  refine ⟨fun prog code pc hA h => ?_, fun prog code pc hA h => ?_⟩
  · have h1 := assembled_length 8 (length_production b) hA
    have h2 := C10_split_pc_production.1 pc
    unfold wordsFor; omega
  · have h1 := assembled_length 16 (length_testing b) hA
    have h2 := C10_split_pc_testing.1 pc
    unfold wordsFor; omega

/-- C110: constants can be read. Whatever word is executed, if its source operand is on the code page and its offset is the
position of a constant, then the property mask leads to the code page at that offset, the stack pointer stays, and the page
holds the constant there. In a contract that production accepts every constant has a 16-bit offset. -/
theorem C110_constants (m : Mode) (code : List Byte) (constants words : List (Vector Byte 32)) (hl : Linked code constants words)
    (i : Nat) (c : Vector Byte 32) (hc : constants[i]? = some c) :
    (∀ word o mask, Executed m word o mask → o.variant.src0OperandType = .full .useCodePage →
      ∀ base sp (offset : BitVec (pcBits m)), sourceBase = .ok base → offset.toNat = wordsFor code.length + i →
        sourcePlace mask base sp offset = some (.code offset, sp) ∧
        ∀ v, HoldsPageWord v words offset.toNat → u256Nat v = beNat c.toList) ∧
    (∀ sha256 hash, bytecodeToCodeHash sha256 words = .ok hash → wordsFor code.length + i < 2 ^ 16) := by
  refine ⟨fun word o mask he hs base sp offset hb ho => ⟨?_, fun v hv => ?_⟩, fun sha256 hash hh => ?_⟩
  · obtain ⟨base', hb', -, h⟩ := C109_places m word
    obtain rfl := Except.ok.inj (hb.symm.trans hb')
    rw [(h o mask he sp offset).1, hs]
    rfl
  · rw [ho] at hv
    exact holds_constant hl hc hv
  · have h1 := ((C55_production_ok sha256 words).1 ⟨hash, hh⟩).2
    have h2 := linked_length hl
    have h3 := (List.getElem?_eq_some_iff.1 hc).1
    omega

/-- C110, a finding: constants can be run. A constant whose bytes are instructions runs as these when the program counter
points into it; nothing in the format tells constants from code. -/
theorem C110_constants_run (b : Build) (code : List Byte) (constants words : List (Vector Byte 32))
    (hl : Linked code constants words) (i : Nat) (c : Vector Byte 32) (hc : constants[i]? = some c) :
    (∀ (hidden : List (DecodedOpcode 16)), (∀ o ∈ hidden, Encodable o) →
      Assembled (Production.encodeAsBytes b) hidden c.toList → ∀ (j : Nat) o, hidden[j]? = some o →
      ∀ pc : BitVec 16, pc.toNat = 4 * (wordsFor code.length + i) + j →
      ∀ v, HoldsPageWord v words (Production.splitPc pc).1.toNat →
      ∃ raw n, Production.integerRepresentationFromU256 v (Production.splitPc pc).2 = .ok raw ∧ Production.parse raw = .ok (o, n)) ∧
    (∀ (hidden : List (DecodedOpcode 32)), (∀ o ∈ hidden, Encodable o) →
      Assembled (Testing.encodeAsBytes b) hidden c.toList → ∀ (j : Nat) o, hidden[j]? = some o →
      ∀ pc : BitVec 32, pc.toNat = 2 * (wordsFor code.length + i) + j →
      ∀ v, HoldsPageWord v words (Testing.splitPc pc).1.toNat →
      ∃ raw n, Testing.integerRepresentationFromU256 v (Testing.splitPc pc).2 = .ok raw ∧ Testing.parse raw = .ok (o, n)) := by
  refine ⟨fun hidden hE hA j o ho pc hpc v hv => ?_, fun hidden hE hA j o ho pc hpc v hv => ?_⟩
  · have h1 := assembled_length 8 (length_production b) hA
    rw [Vector.length_toList] at h1
    have hj := (List.getElem?_eq_some_iff.1 ho).1
    have h2 := C10_split_pc_production.1 pc
    have h3 := C10_split_pc_production.1 (BitVec.ofNat 16 j)
    have hj' : (BitVec.ofNat 16 j).toNat = j := by rw [BitVec.toNat_ofNat]; exact Nat.mod_eq_of_lt (by omega)
    rw [show (Production.splitPc pc).1.toNat = wordsFor code.length + i by omega] at hv
    have hw : HoldsWord v c.toList (Production.splitPc (BitVec.ofNat 16 j)).1.toNat := by
      rw [show (Production.splitPc (BitVec.ofNat 16 j)).1.toNat = 0 by omega]
      unfold HoldsWord
      rw [wordBytes_self]
      exact holds_constant hl hc hv
    rw [show (Production.splitPc pc).2 = (Production.splitPc (BitVec.ofNat 16 j)).2 from BitVec.eq_of_toNat_eq (by omega)]
    exact C09_program_production b hidden c.toList hE hA (BitVec.ofNat 16 j) o (by rw [hj']; exact ho) v hw
  · have h1 := assembled_length 16 (length_testing b) hA
    rw [Vector.length_toList] at h1
    have hj := (List.getElem?_eq_some_iff.1 ho).1
    have h2 := C10_split_pc_testing.1 pc
    have h3 := C10_split_pc_testing.1 (BitVec.ofNat 32 j)
    have hj' : (BitVec.ofNat 32 j).toNat = j := by rw [BitVec.toNat_ofNat]; exact Nat.mod_eq_of_lt (by omega)
    rw [show (Testing.splitPc pc).1.toNat = wordsFor code.length + i by omega] at hv
    have hw : HoldsWord v c.toList (Testing.splitPc (BitVec.ofNat 32 j)).1.toNat := by
      rw [show (Testing.splitPc (BitVec.ofNat 32 j)).1.toNat = 0 by omega]
      unfold HoldsWord
      rw [wordBytes_self]
      exact holds_constant hl hc hv
    rw [show (Testing.splitPc pc).2 = (Testing.splitPc (BitVec.ofNat 32 j)).2 from BitVec.eq_of_toNat_eq (by omega)]
    exact C09_program_testing b hidden c.toList hE hA (BitVec.ofNat 32 j) o (by rw [hj']; exact ho) v hw

/-- C110, production: a hash and the number of instructions identify the program and its constants, but for zeros at the end,
if the digest does not collide on the two. -/
theorem C110_hash_identifies_production (b b' : Build) (sha256 : Digest) (prog prog' : List (DecodedOpcode 16))
    (code code' : List Byte) (constants constants' words words' : List (Vector Byte 32)) (hash : Vector Byte 32)
    (hE : ∀ o ∈ prog, Encodable o) (hE' : ∀ o ∈ prog', Encodable o)
    (hA : Assembled (Production.encodeAsBytes b) prog code)
    (hA' : Assembled (Production.encodeAsBytes b') prog' code')
    (hl : Linked code constants words) (hl' : Linked code' constants' words')
    (hh : bytecodeToCodeHash sha256 words = .ok hash) (hh' : bytecodeToCodeHash sha256 words' = .ok hash)
    (hfree : (∀ i (_ : i < 28), (sha256 (words.flatMap Vector.toList))[4 + i]
        = (sha256 (words'.flatMap Vector.toList))[4 + i]) →
      words.flatMap Vector.toList = words'.flatMap Vector.toList)
    (hlen : prog.length = prog'.length) :
    prog = prog' ∧ ∀ (i : Nat) c, constants[i]? = some c → constants'[i]? = some c ∨ constants'.length ≤ i ∧ c = zeroWord := by
  obtain rfl : words = words' := C56_collision_free sha256 words words' hash hh hh' hfree
  have h1 := assembled_length 8 (length_production b) hA
  have h1' := assembled_length 8 (length_production b') hA'
  exact ⟨same_program (length_production b) (length_production b')
    (fun o ho o' ho' bs h h' => (C08_injective_bytes b b').1 o o' bs (hE o ho) (hE' o' ho') h h') hA hA' hl hl' hlen,
    fun i c hc => same_constants hl hl' (by omega) hc⟩

/-- C110, testing. -/
theorem C110_hash_identifies_testing (b b' : Build) (sha256 : Digest) (prog prog' : List (DecodedOpcode 32))
    (code code' : List Byte) (constants constants' words words' : List (Vector Byte 32)) (hash : Vector Byte 32)
    (hE : ∀ o ∈ prog, Encodable o) (hE' : ∀ o ∈ prog', Encodable o)
    (hA : Assembled (Testing.encodeAsBytes b) prog code)
    (hA' : Assembled (Testing.encodeAsBytes b') prog' code')
    (hl : Linked code constants words) (hl' : Linked code' constants' words')
    (hh : bytecodeToCodeHashForMode sha256 32 words = .ok hash) (hh' : bytecodeToCodeHashForMode sha256 32 words' = .ok hash)
    (hfree : (∀ i (_ : i < 28), (sha256 (words.flatMap Vector.toList))[4 + i]
        = (sha256 (words'.flatMap Vector.toList))[4 + i]) →
      words.flatMap Vector.toList = words'.flatMap Vector.toList)
    (hlen : prog.length = prog'.length) :
    prog = prog' ∧ ∀ (i : Nat) c, constants[i]? = some c → constants'[i]? = some c ∨ constants'.length ≤ i ∧ c = zeroWord := by
  obtain rfl : words = words' := C57_collision_free sha256 words words' hash hh hh' hfree
  have h1 := assembled_length 16 (length_testing b) hA
  have h1' := assembled_length 16 (length_testing b') hA'
  exact ⟨same_program (length_testing b) (length_testing b')
    (fun o ho o' ho' bs h h' => (C08_injective_bytes b b').2 o o' bs (hE o ho) (hE' o' ho') h h') hA hA' hl hl' hlen,
    fun i c hc => same_constants hl hl' (by omega) hc⟩

/-- C110: the number of instructions is needed. Any four instructions, deployed without constants, have the words, and so the
hash, of a contract without instructions whose constant they are. -/
theorem C110_same_words (b : Build) (prog : List (DecodedOpcode 16)) (code : List Byte)
    (hA : Assembled (Production.encodeAsBytes b) prog code) (h4 : prog.length = 4) :
    ∃ c : Vector Byte 32, Linked code [] [c] ∧ Linked [] [c] [c] := by
  have h1 := assembled_length 8 (length_production b) hA
  rw [h4] at h1
  obtain ⟨text, hl, hf⟩ := chunk 1 code h1
  match text, hl, hf with
  | [c], _, hf =>
    exact ⟨c, ⟨rfl, [c], [], rfl, by rw [h1]; rfl, ⟨0, by rw [hf]; exact (List.append_nil _).symm⟩, .inl rfl⟩,
      ⟨rfl, [], [], rfl, rfl, ⟨0, rfl⟩, .inl rfl⟩⟩

/-! ## The hypotheses can be met -/

private def load16 : DecodedOpcode 16 := { DecodedOpcode.default 16 with
  variant := ⟨.add .add, .full .useCodePage, .full .useRegOnly, ⟨false, false⟩⟩, imm0 := 1, dst0RegIdx := 3 }
private def nop16' : DecodedOpcode 16 := { DecodedOpcode.default 16 with variant :=
  { OpcodeVariant.default with src0OperandType := .full .useRegOnly, dst0OperandType := .full .useRegOnly } }
private def prog16 : List (DecodedOpcode 16) := [load16, nop16', { nop16' with condition := .gt }]
private def nop32' : DecodedOpcode 32 := { DecodedOpcode.default 32 with variant :=
  { OpcodeVariant.default with src0OperandType := .full .useRegOnly, dst0OperandType := .full .useRegOnly } }
private def prog32 : List (DecodedOpcode 32) := [nop32', { nop32' with imm0 := 0x12345 }, { nop32' with condition := .gt }]

private theorem page_word (words : List (Vector Byte 32)) (k : Nat) : ∃ v, HoldsPageWord v words k := by
  obtain ⟨v, hv⟩ := C09_word_exists (words.flatMap Vector.toList) k
  exact ⟨v, by unfold HoldsPageWord; rw [pageWord_eq]; exact hv⟩

/-- Three instructions and a constant, whatever it is: they can be deployed; the first instruction is fetched and executed,
its source operand is word 1 of the code page, and this is the constant. -/
example (sha256 : Digest) (c : Vector Byte 32) (sp : BitVec 16) : ∃ code words hash v raw mask v',
    Assembled (Production.encodeAsBytes .debug) prog16 code ∧ Linked code [c] words ∧
    bytecodeToCodeHash sha256 words = .ok hash ∧ HoldsPageWord v words 0 ∧
    Production.integerRepresentationFromU256 v 0 = .ok raw ∧ Executed .production raw load16 mask ∧
    (∀ base, sourceBase = .ok base → sourcePlace mask base sp (0 + load16.imm0) = some (.code 1, sp)) ∧
    HoldsPageWord v' words 1 ∧ u256Nat v' = beNat c.toList := by
  obtain ⟨code, words, hash, hA, hl, hh, _⟩ :=
    C110_deployable_production .debug sha256 prog16 [c] (by decide) (show 1 + 1 < 65536 by decide)
  have hlen : wordsFor code.length = 1 := by rw [assembled_length 8 (length_production .debug) hA]; rfl
  obtain ⟨v, hv⟩ := page_word words 0
  obtain ⟨v', hv'⟩ := page_word words 1
  obtain ⟨raw, o, n, h1, h2, h3⟩ := C110_runs_production .debug prog16 code [c] words (by decide) hA hl 0
    (.inl (by rw [hlen]; decide)) v hv
  rcases h3 with h3 | h3
  · cases h3
    obtain ⟨o, mask, n', hd, he, -⟩ := StackLemmas.executed_exists .production raw
    obtain rfl : load16 = o := congrArg Prod.fst (Except.ok.inj (h2.symm.trans hd))
    have h := (C110_constants .production code [c] words hl 0 c rfl).1 raw load16 mask he rfl
    refine ⟨code, words, hash, v, raw, mask, v', hA, hl, hh, hv, h1, he, fun base hb => ?_, hv', ?_⟩
    · exact (h base sp 1#16 hb (by rw [hlen]; rfl)).1
    · exact (h 28 sp 1#16 StackLemmas.base_eq (by rw [hlen]; rfl)).2 v' hv'
  · exact absurd h3.1 (by decide)

/-- Testing: the program takes two words; its third instruction is fetched from the second, and beyond the constants there
are panics. -/
example (sha256 : Digest) (c : Vector Byte 32) : ∃ code words hash v v' raw n raw' o' n',
    Assembled (Testing.encodeAsBytes .debug) prog32 code ∧ Linked code [c, c] words ∧
    bytecodeToCodeHashForMode sha256 32 words = .ok hash ∧
    HoldsPageWord v words 1 ∧ Testing.integerRepresentationFromU256 v 0 = .ok raw ∧
    Testing.parse raw = .ok ({ nop32' with condition := .gt }, n) ∧
    HoldsPageWord v' words 4 ∧ Testing.integerRepresentationFromU256 v' 1 = .ok raw' ∧
    Testing.parse raw' = .ok (o', n') ∧ o'.variant.isExplicitPanic = true := by
  obtain ⟨code, words, hash, hA, hl, hh, _⟩ :=
    C110_deployable_testing .debug sha256 prog32 [c, c] (by decide) (show 2 + 2 < 4294967296 by decide)
  have hlen : wordsFor code.length = 2 := by rw [assembled_length 16 (length_testing .debug) hA]; rfl
  obtain ⟨v, hv⟩ := page_word words 1
  obtain ⟨v', hv'⟩ := page_word words 4
  obtain ⟨raw, o, n, h1, h2, h3⟩ := C110_runs_testing .debug prog32 code [c, c] words (by decide) hA hl 2
    (.inl (by rw [hlen]; decide)) v hv
  obtain ⟨raw', o', n', g1, g2, g3⟩ := C110_runs_testing .debug prog32 code [c, c] words (by decide) hA hl 9
    (.inr (by rw [hlen]; exact (by decide : 2 + 2 ≤ (Testing.splitPc 9).1.toNat))) v' hv'
  rcases h3 with h3 | h3
  · cases h3
    rcases g3 with g3 | g3
    · cases g3
    · exact ⟨code, words, hash, v, v', raw, n, raw', o', n', hA, hl, hh, hv, h1, h2, hv', g1, g2, g3.2⟩
  · exact absurd h3.1 (by decide)

/-- A constant that runs: four instructions, placed as a constant after the program, are fetched when the program counter is
4, and the contract has the hash of a program of eight instructions as well. -/
example (code : List Byte) (words : List (Vector Byte 32)) (c : Vector Byte 32) (v : U256)
    (hA : Assembled (Production.encodeAsBytes .debug) prog16 code) (hl : Linked code [c] words)
    (hc : Assembled (Production.encodeAsBytes .debug) [load16, nop16', nop16', nop16'] c.toList)
    (hv : HoldsPageWord v words 1) : ∃ raw n, Production.integerRepresentationFromU256 v 0 = .ok raw ∧
    Production.parse raw = .ok (load16, n) := by
  have hlen : wordsFor code.length = 1 := by rw [assembled_length 8 (length_production .debug) hA]; rfl
  exact (C110_constants_run .debug code [c] words hl 0 c rfl).1 _ (by decide) hc 0 _ rfl 4#16 (by rw [hlen]; rfl) v hv

/-- There is such a constant, and such a contract; with the four instructions as a program there is another one with the
same words. -/
example : ∃ code c, Assembled (Production.encodeAsBytes .debug) [load16, nop16', nop16', nop16'] code ∧
    c.toList = code ∧ Linked code [] [c] ∧ Linked [] [c] [c] := by
  obtain ⟨code, hA, _⟩ := (C09_assembles .debug).1 [load16, nop16', nop16', nop16'] (by decide)
  obtain ⟨c, h1, h2⟩ := C110_same_words .debug _ code hA rfl
  refine ⟨code, c, hA, ?_, h1, h2⟩
  have h := assembled_length 8 (length_production .debug) hA
  obtain ⟨_, text, tail, ht, hn, ⟨n, hf⟩, _⟩ := h1
  rw [h] at hn
  match text, hn with
  | [d], _ =>
    obtain ⟨rfl, -⟩ := List.cons.inj ht
    have hf : c.toList ++ [] = _ := hf
    rw [List.append_nil] at hf
    have := congrArg List.length hf
    rw [Vector.length_toList, List.length_append, h, List.length_replicate] at this
    obtain rfl : n = 0 := by
      have : 32 = 8 * 4 + n := this
      omega
    rw [hf]; exact List.append_nil _

/-- Whatever is deployed with the hash of this contract and has three instructions has the same first instruction, and the
same constant if this is not zero, as long as the digest tells the two apart. -/
example (sha256 : Digest) (c : Vector Byte 32) (hc : c ≠ zeroWord) : ∃ words hash, bytecodeToCodeHash sha256 words = .ok hash ∧
    ∀ prog' code' constants' words', (∀ o ∈ prog', Encodable o) → Assembled (Production.encodeAsBytes .release) prog' code' →
      Linked code' constants' words' → bytecodeToCodeHash sha256 words' = .ok hash →
      ((∀ i (_ : i < 28), (sha256 (words.flatMap Vector.toList))[4 + i] = (sha256 (words'.flatMap Vector.toList))[4 + i]) →
        words.flatMap Vector.toList = words'.flatMap Vector.toList) →
      prog'.length = 3 → prog'[0]? = some load16 ∧ constants'[0]? = some c := by
  obtain ⟨code, words, hash, hA, hl, hh, _⟩ :=
    C110_deployable_production .debug sha256 prog16 [c] (by decide) (show 1 + 1 < 65536 by decide)
  refine ⟨words, hash, hh, fun prog' code' constants' words' hE' hA' hl' hh' hfree h3 => ?_⟩
  obtain ⟨rfl, h⟩ := C110_hash_identifies_production .debug .release sha256 prog16 prog' code code' [c] constants' words words'
    hash (by decide) hE' hA hA' hl hl' hh hh' hfree h3.symm
  refine ⟨rfl, ?_⟩
  rcases h 0 c rfl with h | h
  · exact h
  · exact absurd h.2 hc

/-- The same in testing. -/
example (sha256 : Digest) (c : Vector Byte 32) (hc : c ≠ zeroWord) :
    ∃ words hash, bytecodeToCodeHashForMode sha256 32 words = .ok hash ∧
    ∀ prog' code' constants' words', (∀ o ∈ prog', Encodable o) → Assembled (Testing.encodeAsBytes .release) prog' code' →
      Linked code' constants' words' → bytecodeToCodeHashForMode sha256 32 words' = .ok hash →
      ((∀ i (_ : i < 28), (sha256 (words.flatMap Vector.toList))[4 + i] = (sha256 (words'.flatMap Vector.toList))[4 + i]) →
        words.flatMap Vector.toList = words'.flatMap Vector.toList) →
      prog'.length = 3 → prog'[1]? = some { nop32' with imm0 := 0x12345 } ∧ constants'[0]? = some c := by
  obtain ⟨code, words, hash, hA, hl, hh, _⟩ :=
    C110_deployable_testing .debug sha256 prog32 [c] (by decide) (show 2 + 1 < 4294967296 by decide)
  refine ⟨words, hash, hh, fun prog' code' constants' words' hE' hA' hl' hh' hfree h3 => ?_⟩
  obtain ⟨rfl, h⟩ := C110_hash_identifies_testing .debug .release sha256 prog32 prog' code code' [c] constants' words words'
    hash (by decide) hE' hA hA' hl hl' hh hh' hfree h3.symm
  refine ⟨rfl, ?_⟩
  rcases h 0 c rfl with h | h
  · exact h
  · exact absurd h.2 hc

end ZkEvm.Props
