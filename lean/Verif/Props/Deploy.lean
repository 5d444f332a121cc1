import Verif.Model.SystemParams
import Verif.Lemmas.Deploy
import Verif.Props.Program
import Verif.Props.Hash
/-!
# From instructions to a deployed, hashed and executed contract: C80
-/
namespace ZkEvm.Props
open Spec Numbering Tables Coding Words Program Deploy

private theorem length_production (b : Build) : ∀ o bs, Production.encodeAsBytes b o = .ok bs → bs.length = 8 :=
  fun o bs h => by obtain ⟨_, _, hl, _⟩ := (C08_bytes_big_endian b).1 o bs h; exact hl

private theorem length_testing (b : Build) : ∀ o bs, Testing.encodeAsBytes b o = .ok bs → bs.length = 16 :=
  fun o bs h => by obtain ⟨_, _, hl, _⟩ := (C08_bytes_big_endian b).2 o bs h; exact hl

/-- C80, production: every program whose instructions exist and can all be reached by the 16-bit program counter can
be assembled, padded to an odd number of words, and hashed, whatever the digest function; the hash is accepted as a
versioned hash, and records the number of words. -/
theorem C80_deployable_production (b : Build) (sha256 : Digest) (prog : List (DecodedOpcode 16))
    (hE : ∀ o ∈ prog, Encodable o) (hn : prog.length ≤ 2 ^ 16) :
    ∃ code words hash, Assembled (Production.encodeAsBytes b) prog code ∧ PaddedTo code words ∧
      bytecodeToCodeHash sha256 words = .ok hash ∧
      ∃ v, VersionedHash.tryCreateFromRaw hash = some v ∧ v.layoutRef.codeLengthInWords.toNat = words.length := by
  obtain ⟨code, hA, hl⟩ := (C09_assembles b).1 prog hE
  obtain ⟨words, hp, hw⟩ := pad_exists code
  obtain ⟨hash, hh⟩ := (C55_production_ok sha256 words).2 ⟨hp.1, by omega⟩
  obtain ⟨_, _, _, _, v, hv, hvl, _⟩ := C55_production_format sha256 words hash hh
  exact ⟨code, words, hash, hA, hp, hh, v, hv, hvl⟩

/-- C80, testing: with a 32-bit program counter; the recorded number of words is cut to 16 bits. -/
theorem C80_deployable_testing (b : Build) (sha256 : Digest) (prog : List (DecodedOpcode 32))
    (hE : ∀ o ∈ prog, Encodable o) (hn : prog.length ≤ 2 ^ 32) :
    ∃ code words hash, Assembled (Testing.encodeAsBytes b) prog code ∧ PaddedTo code words ∧
      bytecodeToCodeHashForMode sha256 32 words = .ok hash ∧
      ∃ v, VersionedHash.tryCreateFromRaw hash = some v ∧ v.layoutRef.codeLengthInWords.toNat = words.length % 2 ^ 16 := by
  obtain ⟨code, hA, hl⟩ := (C09_assembles b).2 prog hE
  obtain ⟨words, hp, hw⟩ := pad_exists code
  obtain ⟨hash, hh⟩ := (C55_testing_ok sha256 words).2 ⟨hp.1, by omega⟩
  obtain ⟨_, _, _, v, hv⟩ := C57_testing_format sha256 words hash hh
  obtain ⟨raw, hr, _, _, hlen, _⟩ := C53_layout v.data
  obtain rfl : hash = raw := Option.some.inj (((C53_raw hash).2 v hv).symm.trans hr)
  exact ⟨code, words, hash, hA, hp, hh, v, hv, hlen.symm.trans (C57_testing_length sha256 words hash hh).1⟩

/-- C80, production: what runs is the program. Whatever the 16-bit program counter, fetching from a code page filled
with the words and decoding gives the instruction of the program at that position, or, beyond its end, an instruction
that panics. -/
theorem C80_runs_production (b : Build) (prog : List (DecodedOpcode 16)) (code : List Byte)
    (words : List (Vector Byte 32)) (hE : ∀ o ∈ prog, Encodable o)
    (hA : Assembled (Production.encodeAsBytes b) prog code) (hp : PaddedTo code words)
    (pc : BitVec 16) (v : U256) (hv : HoldsPageWord v words (Production.splitPc pc).1.toNat) :
    ∃ raw o n, Production.integerRepresentationFromU256 v (Production.splitPc pc).2 = .ok raw ∧
      Production.parse raw = .ok (o, n) ∧
      (prog[pc.toNat]? = some o ∨ prog.length ≤ pc.toNat ∧ o.variant.isExplicitPanic = true) := by
  have hw := holds_of_page hp hv
  by_cases h : pc.toNat < prog.length
  · obtain ⟨raw, n, h1, h2⟩ := C09_program_production b prog code hE hA pc _ (List.getElem?_eq_getElem h) v hw
    exact ⟨raw, _, n, h1, h2, .inl (List.getElem?_eq_getElem h)⟩
  · obtain ⟨raw, o, n, h1, h2, h3⟩ := C09_beyond_end_production b prog code hA pc (by omega) v hw
    exact ⟨raw, o, n, h1, h2, .inr ⟨by omega, h3⟩⟩

/-- C80, testing. -/
theorem C80_runs_testing (b : Build) (prog : List (DecodedOpcode 32)) (code : List Byte)
    (words : List (Vector Byte 32)) (hE : ∀ o ∈ prog, Encodable o)
    (hA : Assembled (Testing.encodeAsBytes b) prog code) (hp : PaddedTo code words)
    (pc : BitVec 32) (v : U256) (hv : HoldsPageWord v words (Testing.splitPc pc).1.toNat) :
    ∃ raw o n, Testing.integerRepresentationFromU256 v (Testing.splitPc pc).2 = .ok raw ∧
      Testing.parse raw = .ok (o, n) ∧
      (prog[pc.toNat]? = some o ∨ prog.length ≤ pc.toNat ∧ o.variant.isExplicitPanic = true) := by
  have hw := holds_of_page hp hv
  by_cases h : pc.toNat < prog.length
  · obtain ⟨raw, n, h1, h2⟩ := C09_program_testing b prog code hE hA pc _ (List.getElem?_eq_getElem h) v hw
    exact ⟨raw, _, n, h1, h2, .inl (List.getElem?_eq_getElem h)⟩
  · obtain ⟨raw, o, n, h1, h2, h3⟩ := C09_beyond_end_testing b prog code hA pc (by omega) v hw
    exact ⟨raw, o, n, h1, h2, .inr ⟨by omega, h3⟩⟩

private theorem slices {code code' : List Byte} {words : List (Vector Byte 32)} (hp : PaddedTo code words)
    (hp' : PaddedTo code' words) (p m : Nat) : slice code p m = slice code' p m := by
  obtain ⟨_, n, _, hn⟩ := hp
  obtain ⟨_, n', _, hn'⟩ := hp'
  rw [← slice_pad code n, ← slice_pad code' n', ← hn, ← hn']

private theorem zero_production {b : Build} {o : DecodedOpcode 16} (h : Encodable o)
    (he : Production.encodeAsBytes b o = .ok (List.replicate 8 0)) : o = zeroInstruction 16 := by
  obtain ⟨w, hw, _, hb⟩ := (C08_bytes_big_endian b).1 o _ he
  rw [beNat_zeros] at hb
  obtain ⟨_, w', n, _, hw', hp, _⟩ := C02_roundtrip_production b o h
  rw [hw] at hw'; cases hw'
  rw [show w = 0#64 from BitVec.eq_of_toNat_eq hb.symm] at hp
  obtain ⟨t, o', _, hp', _, hv, hc, h1, h2, h3, h4, h5, h6⟩ := C01_decode_production 0#64
  rw [hp] at hp'
  have e : o = o' := congrArg Prod.fst (Except.ok.inj hp')
  subst e
  cases o
  simp only [zeroInstruction, DecodedOpcodeOf.mk.injEq]
  refine ⟨hv.trans (by decide +kernel), (Option.some.inj hc).symm, BitVec.eq_of_toNat_eq h1, BitVec.eq_of_toNat_eq h2,
    BitVec.eq_of_toNat_eq h3, BitVec.eq_of_toNat_eq h4, BitVec.eq_of_toNat_eq h5, BitVec.eq_of_toNat_eq h6⟩

private theorem zero_testing {b : Build} {o : DecodedOpcode 32} (h : Encodable o)
    (he : Testing.encodeAsBytes b o = .ok (List.replicate 16 0)) : o = zeroInstruction 32 := by
  obtain ⟨w, hw, _, hb⟩ := (C08_bytes_big_endian b).2 o _ he
  rw [beNat_zeros] at hb
  obtain ⟨_, w', n, _, hw', hp, _⟩ := C03_roundtrip_testing b o h
  rw [hw] at hw'; cases hw'
  rw [show w = 0#128 from BitVec.eq_of_toNat_eq hb.symm] at hp
  obtain ⟨t, o', _, hp', _, hv, hc, h1, h2, h3, h4, h5, h6⟩ := C01_decode_testing 0#128
  rw [hp] at hp'
  have e : o = o' := congrArg Prod.fst (Except.ok.inj hp')
  subst e
  cases o
  simp only [zeroInstruction, DecodedOpcodeOf.mk.injEq]
  refine ⟨hv.trans (by decide +kernel), (Option.some.inj hc).symm, BitVec.eq_of_toNat_eq h1, BitVec.eq_of_toNat_eq h2,
    BitVec.eq_of_toNat_eq h3, BitVec.eq_of_toNat_eq h4, BitVec.eq_of_toNat_eq h5, BitVec.eq_of_toNat_eq h6⟩

/-- C80: the formal exception handler of the initial frame lies outside every program of fewer than 2^16 instructions: an
error that unwinds the initial frame fetches an explicit panic. -/
theorem C80_exception_handler (b : Build) (prog : List (DecodedOpcode 16)) (code : List Byte)
    (words : List (Vector Byte 32)) (hE : ∀ o ∈ prog, Encodable o) (hn : prog.length < 2 ^ 16)
    (hA : Assembled (Production.encodeAsBytes b) prog code) (hp : PaddedTo code words) (v : U256)
    (hv : HoldsPageWord v words (Production.splitPc INITIAL_FRAME_FORMAL_EH_LOCATION).1.toNat) :
    ∃ raw o n, Production.integerRepresentationFromU256 v (Production.splitPc INITIAL_FRAME_FORMAL_EH_LOCATION).2 = .ok raw ∧
      Production.parse raw = .ok (o, n) ∧ o.variant.isExplicitPanic = true := by
  obtain ⟨raw, o, n, h1, h2, h3⟩ := C80_runs_production b prog code words hE hA hp INITIAL_FRAME_FORMAL_EH_LOCATION v hv
  refine ⟨raw, o, n, h1, h2, ?_⟩
  rcases h3 with h3 | h3
  · have := (List.getElem?_eq_some_iff.1 h3).1
    rw [show INITIAL_FRAME_FORMAL_EH_LOCATION.toNat = 65535 from rfl] at this
    omega
  · exact h3.2

/-- C80: a hash identifies the program. If two programs, padded, have the same hash and the digest does not collide on
them, then they agree at every position where both have an instruction, and whatever one has more than the other is
the all-zero instruction, which cannot be told from padding. -/
theorem C80_hash_identifies_production (b b' : Build) (sha256 : Digest) (prog prog' : List (DecodedOpcode 16))
    (code code' : List Byte) (words words' : List (Vector Byte 32)) (hash : Vector Byte 32)
    (hE : ∀ o ∈ prog, Encodable o) (hE' : ∀ o ∈ prog', Encodable o)
    (hA : Assembled (Production.encodeAsBytes b) prog code)
    (hA' : Assembled (Production.encodeAsBytes b') prog' code')
    (hp : PaddedTo code words) (hp' : PaddedTo code' words')
    (hh : bytecodeToCodeHash sha256 words = .ok hash) (hh' : bytecodeToCodeHash sha256 words' = .ok hash)
    (hfree : (∀ i (_ : i < 28), (sha256 (words.flatMap Vector.toList))[4 + i]
        = (sha256 (words'.flatMap Vector.toList))[4 + i]) →
      words.flatMap Vector.toList = words'.flatMap Vector.toList)
    (i : Nat) (o : DecodedOpcode 16) (ho : prog[i]? = some o) :
    prog'[i]? = some o ∨ prog'.length ≤ i ∧ o = zeroInstruction 16 := by
  have e : words = words' := C56_collision_free sha256 words words' hash hh hh' hfree
  subst e
  have h1 := assembled_slice 8 (length_production b) hA i o ho
  rw [slices hp hp'] at h1
  have hEo := hE o (List.mem_of_getElem? ho)
  by_cases h : i < prog'.length
  · have h2 := assembled_slice 8 (length_production b') hA' i _ (List.getElem?_eq_getElem h)
    refine .inl ((List.getElem?_eq_getElem h).trans (congrArg some ?_))
    exact (C08_injective_bytes b' b).1 _ _ _ (hE' _ (List.getElem_mem h)) hEo h2 h1
  · refine .inr ⟨by omega, zero_production hEo (b := b) ?_⟩
    rw [h1, slice_nil_of_ge]
    rw [assembled_length 8 (length_production b') hA']
    omega

/-- C80, testing. -/
theorem C80_hash_identifies_testing (b b' : Build) (sha256 : Digest) (prog prog' : List (DecodedOpcode 32))
    (code code' : List Byte) (words words' : List (Vector Byte 32)) (hash : Vector Byte 32)
    (hE : ∀ o ∈ prog, Encodable o) (hE' : ∀ o ∈ prog', Encodable o)
    (hA : Assembled (Testing.encodeAsBytes b) prog code)
    (hA' : Assembled (Testing.encodeAsBytes b') prog' code')
    (hp : PaddedTo code words) (hp' : PaddedTo code' words')
    (hh : bytecodeToCodeHashForMode sha256 32 words = .ok hash) (hh' : bytecodeToCodeHashForMode sha256 32 words' = .ok hash)
    (hfree : (∀ i (_ : i < 28), (sha256 (words.flatMap Vector.toList))[4 + i]
        = (sha256 (words'.flatMap Vector.toList))[4 + i]) →
      words.flatMap Vector.toList = words'.flatMap Vector.toList)
    (i : Nat) (o : DecodedOpcode 32) (ho : prog[i]? = some o) :
    prog'[i]? = some o ∨ prog'.length ≤ i ∧ o = zeroInstruction 32 := by
  have e : words = words' := C57_collision_free sha256 words words' hash hh hh' hfree
  subst e
  have h1 := assembled_slice 16 (length_testing b) hA i o ho
  rw [slices hp hp'] at h1
  have hEo := hE o (List.mem_of_getElem? ho)
  by_cases h : i < prog'.length
  · have h2 := assembled_slice 16 (length_testing b') hA' i _ (List.getElem?_eq_getElem h)
    refine .inl ((List.getElem?_eq_getElem h).trans (congrArg some ?_))
    exact (C08_injective_bytes b' b).2 _ _ _ (hE' _ (List.getElem_mem h)) hEo h2 h1
  · refine .inr ⟨by omega, zero_testing hEo (b := b) ?_⟩
    rw [h1, slice_nil_of_ge]
    rw [assembled_length 16 (length_testing b') hA']
    omega

/-- C80: the exception for the all-zero instruction is needed: it exists, and a program that ends with it has the same
words as the program without it whenever there are eight bytes of padding. -/
theorem C80_trailing_zero (b : Build) (prog : List (DecodedOpcode 16)) (code : List Byte) (words : List (Vector Byte 32))
    (n : Nat) (hA : Assembled (Production.encodeAsBytes b) prog code) (h1 : words.length % 2 = 1) (hn : n < 64)
    (h8 : 8 ≤ n) (hw : words.flatMap Vector.toList = code ++ List.replicate n 0) :
    Encodable (zeroInstruction 16) ∧
    ∃ code', Assembled (Production.encodeAsBytes b) (prog ++ [zeroInstruction 16]) code' ∧
      PaddedTo code words ∧ PaddedTo code' words := by
  have hE : Encodable (zeroInstruction 16) := by decide
  have hz : Production.encodeAsBytes b (zeroInstruction 16) = .ok (List.replicate 8 0) := by
    obtain ⟨t, o, _, hp, _, hv, hc, g1, g2, g3, g4, g5, g6⟩ := C01_decode_production 0#64
    have e : o = zeroInstruction 16 := by
      cases o
      simp only [zeroInstruction, DecodedOpcodeOf.mk.injEq]
      refine ⟨hv.trans (by decide +kernel), (Option.some.inj hc).symm, BitVec.eq_of_toNat_eq g1, BitVec.eq_of_toNat_eq g2,
        BitVec.eq_of_toNat_eq g3, BitVec.eq_of_toNat_eq g4, BitVec.eq_of_toNat_eq g5, BitVec.eq_of_toNat_eq g6⟩
    obtain ⟨w', hw', _, _, _, hiff⟩ := C04_decode_encode_production b 0#64 o _ hp
    rw [hiff.2 (by decide), e] at hw'
    unfold Production.encodeAsBytes
    rw [hw']
    rfl
  refine ⟨hE, code ++ List.replicate 8 0, ?_, ⟨h1, n, hn, hw⟩, h1, n - 8, by omega, ?_⟩
  · clear hw
    induction hA with
    | nil => exact .cons (code := []) hz .nil
    | cons he _ ih => rw [List.append_assoc]; exact .cons he ih
  · rw [hw, List.append_assoc, List.replicate_append_replicate, show 8 + (n - 8) = n by omega]

-- a program of three instructions can be deployed, and the words of its code page exist
private def nop16' : DecodedOpcode 16 := { DecodedOpcode.default 16 with variant :=
  { OpcodeVariant.default with src0OperandType := .full .useRegOnly, dst0OperandType := .full .useRegOnly } }
example (sha256 : Digest) : ∃ code words hash, Assembled (Production.encodeAsBytes .debug)
    [nop16', { nop16' with imm0 := 5 }, { nop16' with condition := .gt }] code ∧ PaddedTo code words ∧
    bytecodeToCodeHash sha256 words = .ok hash := by
  obtain ⟨c, w, h, h1, h2, h3, _⟩ := C80_deployable_production .debug sha256
    [nop16', { nop16' with imm0 := 5 }, { nop16' with condition := .gt }] (by decide) (by decide)
  exact ⟨c, w, h, h1, h2, h3⟩
example (words : List (Vector Byte 32)) (k : Nat) : ∃ v, HoldsPageWord v words k := by
  obtain ⟨v, hv⟩ := C09_word_exists (words.flatMap Vector.toList) k
  exact ⟨v, by unfold HoldsPageWord; rw [pageWord_eq]; exact hv⟩
-- the empty program and the program of one all-zero instruction have the same words
example : ∃ words, PaddedTo [] words ∧ ∃ code', Assembled (Production.encodeAsBytes .debug) [zeroInstruction 16] code' ∧
    PaddedTo code' words := by
  obtain ⟨_, c, h1, h2, h3⟩ := C80_trailing_zero .debug [] [] [Vector.replicate 32 0] 32 .nil (by decide) (by decide)
    (by decide) (by decide +kernel)
  exact ⟨_, h2, c, h1, h3⟩

-- the same program in testing mode
private def nop32' : DecodedOpcode 32 := { DecodedOpcode.default 32 with variant :=
  { OpcodeVariant.default with src0OperandType := .full .useRegOnly, dst0OperandType := .full .useRegOnly } }
private def prog16 : List (DecodedOpcode 16) := [nop16', { nop16' with imm0 := 5 }, { nop16' with condition := .gt }]
private def prog32 : List (DecodedOpcode 32) := [nop32', { nop32' with imm0 := 0x12345 }, { nop32' with condition := .gt }]

private theorem page_word (words : List (Vector Byte 32)) (k : Nat) : ∃ v, HoldsPageWord v words k := by
  obtain ⟨v, hv⟩ := C09_word_exists (words.flatMap Vector.toList) k
  exact ⟨v, by unfold HoldsPageWord; rw [pageWord_eq]; exact hv⟩

/-- C80, testing: deployed, and its second instruction fetched from the code page. -/
example (sha256 : Digest) : ∃ code words hash v raw n, Assembled (Testing.encodeAsBytes .debug) prog32 code ∧
    PaddedTo code words ∧ bytecodeToCodeHashForMode sha256 32 words = .ok hash ∧ HoldsPageWord v words 0 ∧
    Testing.integerRepresentationFromU256 v 1 = .ok raw ∧
    Testing.parse raw = .ok ({ nop32' with imm0 := 0x12345 }, n) := by
  obtain ⟨code, words, hash, hA, hp, hh, _⟩ := C80_deployable_testing .debug sha256 prog32 (by decide) (by decide)
  obtain ⟨v, hv⟩ := page_word words 0
  obtain ⟨raw, o, n, h1, h2, h3⟩ := C80_runs_testing .debug prog32 code words (by decide) hA hp 1 v hv
  rcases h3 with h3 | h3
  · cases h3
    exact ⟨code, words, hash, v, raw, n, hA, hp, hh, hv, h1, h2⟩
  · exact absurd h3.1 (by decide)

/-- C80, production: the third instruction is fetched, the exception handler panics. -/
example (sha256 : Digest) : ∃ code words hash v v' raw n raw' o' n', Assembled (Production.encodeAsBytes .debug) prog16 code ∧
    PaddedTo code words ∧ bytecodeToCodeHash sha256 words = .ok hash ∧
    HoldsPageWord v words 0 ∧ Production.integerRepresentationFromU256 v 2 = .ok raw ∧
    Production.parse raw = .ok ({ nop16' with condition := .gt }, n) ∧
    HoldsPageWord v' words 16383 ∧ Production.integerRepresentationFromU256 v' 3 = .ok raw' ∧
    Production.parse raw' = .ok (o', n') ∧ o'.variant.isExplicitPanic = true := by
  obtain ⟨code, words, hash, hA, hp, hh, _⟩ := C80_deployable_production .debug sha256 prog16 (by decide) (by decide)
  obtain ⟨v, hv⟩ := page_word words 0
  obtain ⟨v', hv'⟩ := page_word words 16383
  obtain ⟨raw, o, n, h1, h2, h3⟩ := C80_runs_production .debug prog16 code words (by decide) hA hp 2 v hv
  obtain ⟨raw', o', n', g1, g2, g3⟩ := C80_exception_handler .debug prog16 code words (by decide) (by decide) hA hp v' hv'
  rcases h3 with h3 | h3
  · cases h3
    exact ⟨code, words, hash, v, v', raw, n, raw', o', n', hA, hp, hh, hv, h1, h2, hv', g1, g2, g3⟩
  · exact absurd h3.1 (by decide)

/-- C80: the empty program and the all-zero instruction have the same hash, whatever the digest; the only difference the
theorem allows. -/
example (sha256 : Digest) (o : DecodedOpcode 16) (ho : [zeroInstruction 16][0]? = some o) : o = zeroInstruction 16 := by
  obtain ⟨_, c, h1, h2, h3⟩ := C80_trailing_zero .debug [] [] [Vector.replicate 32 0] 32 .nil (by decide) (by decide)
    (by decide) (by decide +kernel)
  obtain ⟨hash, hh⟩ := (C55_production_ok sha256 [Vector.replicate 32 0]).2 (by decide)
  rcases C80_hash_identifies_production .debug .debug sha256 [zeroInstruction 16] [] c [] _ _ hash (by decide) (by decide)
    h1 .nil h3 h2 hh hh (fun _ => rfl) 0 o ho with h | h
  · cases h
  · exact h.2

/-- C80, testing: any program with the same hash as this one has its second instruction, if the digest tells their bytes
apart. -/
example (sha256 : Digest) : ∃ words hash, bytecodeToCodeHashForMode sha256 32 words = .ok hash ∧
    ∀ (prog' : List (DecodedOpcode 32)) (code' : List Byte) (words' : List (Vector Byte 32)), (∀ o ∈ prog', Encodable o) →
      Assembled (Testing.encodeAsBytes .release) prog' code' → PaddedTo code' words' →
      bytecodeToCodeHashForMode sha256 32 words' = .ok hash →
      ((∀ i (_ : i < 28), (sha256 (words.flatMap Vector.toList))[4 + i] = (sha256 (words'.flatMap Vector.toList))[4 + i]) →
        words.flatMap Vector.toList = words'.flatMap Vector.toList) →
      prog'[1]? = some { nop32' with imm0 := 0x12345 } := by
  obtain ⟨code, words, hash, hA, hp, hh, _⟩ := C80_deployable_testing .debug sha256 prog32 (by decide) (by decide)
  refine ⟨words, hash, hh, fun prog' code' words' hE' hA' hp' hh' hfree => ?_⟩
  rcases C80_hash_identifies_testing .debug .release sha256 prog32 prog' code code' words words' hash (by decide) hE' hA hA'
    hp hp' hh hh' hfree 1 _ rfl with h | h
  · exact h
  · exact absurd h.2 (by decide)

end ZkEvm.Props
