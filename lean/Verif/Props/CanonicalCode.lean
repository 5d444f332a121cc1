import Verif.Lemmas.CanonicalCode
import Verif.Props.Disassembly
/-!
# Checking code for canonical instructions: C115

What is known of a code all of whose instructions `is_canonical_encoding` accepts.
-/
namespace ZkEvm.Props
open Spec Program Deploy MachineLemmas DisassemblyLemmas CanonicalCodeLemmas

private theorem check_production (raw : BitVec 64) : Production.isCanonicalEncoding raw = true ↔ bits raw 11 2 = 0 :=
  (C06_canonical_iff.1 raw).trans (low_bits raw)

/-- C115, production: assembled and padded programs pass the check. -/
theorem C115_assembled_production (b : Build) (prog : List (DecodedOpcode 16)) (code : List Byte) (words : List (Vector Byte 32))
    (hE : ∀ o ∈ prog, Encodable o) (hA : Assembled (Production.encodeAsBytes b) prog code) (hp : PaddedTo code words) :
    Passes 8 Production.isCanonicalEncoding words := by
  obtain ⟨prog', hd, _⟩ := C112_disassembly_production words
  have he := C112_roundtrip_production b prog prog' code words hE hA hp hd
  obtain ⟨_, z, _, hw⟩ := hp
  have hlen := hd.1
  have hl := assembled_length 8 (fun o bs h => by obtain ⟨_, _, hl, _⟩ := (C08_bytes_big_endian b).1 o bs h; exact hl) hA
  have hz : z = (prog'.length - prog.length) * 8 := by
    have h1 := congrArg List.length hw
    rw [List.length_append, List.length_replicate, flat_length] at h1
    omega
  have hA' := assembled_append hA (assembled_zeros (zero_bytes_production b) (prog'.length - prog.length))
  rw [← hz, ← hw, ← he] at hA'
  intro i raw hi hr
  exact (check_production raw).2 ((C112_reassembled_production b words prog' _ hd hA').2.1 rfl i raw (by omega) hr).1

private theorem check_testing (raw : BitVec 128) : Testing.isCanonicalEncoding raw = true ↔ bits raw 11 2 = 0 :=
  (C06_canonical_iff.2 raw).trans (low_bits raw)

/-- C115, testing: assembled and padded programs pass the check. -/
theorem C115_assembled_testing (b : Build) (prog : List (DecodedOpcode 32)) (code : List Byte) (words : List (Vector Byte 32))
    (hE : ∀ o ∈ prog, Encodable o) (hA : Assembled (Testing.encodeAsBytes b) prog code) (hp : PaddedTo code words) :
    Passes 16 Testing.isCanonicalEncoding words := by
  obtain ⟨prog', hd, _⟩ := C112_disassembly_testing words
  have he := C112_roundtrip_testing b prog prog' code words hE hA hp hd
  obtain ⟨_, z, _, hw⟩ := hp
  have hlen := hd.1
  have hl := assembled_length 16 (fun o bs h => by obtain ⟨_, _, hl, _⟩ := (C08_bytes_big_endian b).2 o bs h; exact hl) hA
  have hz : z = (prog'.length - prog.length) * 16 := by
    have h1 := congrArg List.length hw
    rw [List.length_append, List.length_replicate, flat_length] at h1
    omega
  have hA' := assembled_append hA (assembled_zeros (zero_bytes_testing b) (prog'.length - prog.length))
  rw [← hz, ← hw, ← he] at hA'
  intro i raw hi hr
  exact (check_testing raw).2 ((C112_reassembled_testing b words prog' _ hd hA').2.1 rfl i raw (by omega) hr).1

private theorem length_of {prog : List (DecodedOpcode 16)} {words : List (Vector Byte 32)}
    (hd : Disassembled 8 Production.parse words prog) (i : Nat) : i < prog.length ↔ 8 * (i + 1) ≤ 32 * words.length := by
  have := hd.1
  omega

/-- C115, production: among the codes that pass the check, a code is the only one that runs as it does exactly if all its
pieces have the number of an instruction other than number 0, the invalid one. -/
theorem C115_unique_production (words : List (Vector Byte 32)) (hw : Passes 8 Production.isCanonicalEncoding words) :
    (∀ words' prog, Passes 8 Production.isCanonicalEncoding words' → Disassembled 8 Production.parse words prog →
      Disassembled 8 Production.parse words' prog → words' = words) ↔
    ∀ (i : Nat) (raw : BitVec 64), 8 * (i + 1) ≤ 32 * words.length → raw.toNat = beNat (piece 8 words i) →
      0 < bits raw 0 11 ∧ bits raw 0 11 < 1093 := by
  constructor
  · intro h i raw hi hr
    refine Classical.byContradiction fun hn => ?_
    have hx := raw.isLt
    obtain ⟨y, hy⟩ : ∃ y, y = raw.toNat - raw.toNat % 2048 + (if raw.toNat % 2048 = 0 then 1093 else 0) := ⟨_, rfl⟩
    obtain ⟨words', hl, hyi, hj⟩ := replace_piece (N := 8) (k := 64) rfl words i hi (BitVec.ofNat 64 y)
    rw [BitVec.toNat_ofNat, Nat.mod_eq_of_lt (by split at hy <;> omega)] at hyi
    have hn' : raw.toNat % 2048 = 0 ∨ 1093 ≤ raw.toNat % 2048 := by
      unfold bits at hn
      omega
    obtain ⟨prog, hd, _⟩ := C112_disassembly_production words
    obtain ⟨prog', hd', _⟩ := C112_disassembly_production words'
    have he : prog = prog' := by
      refine (C112_same_production _ _ _ _ hd hd').2 ⟨hl.symm, fun j r r' _ hr1 hr2 => ?_⟩
      by_cases hji : j = i
      · subst hji
        obtain rfl : r = raw := BitVec.eq_of_toNat_eq (hr1.trans hr.symm)
        rw [hyi] at hr2
        unfold bits
        split at hy <;> refine ⟨by omega, ?_⟩ <;> split <;> split <;> omega
      · rw [hj j hji] at hr2
        obtain rfl : r = r' := BitVec.eq_of_toNat_eq (hr1.trans hr2.symm)
        exact ⟨rfl, rfl⟩
    subst he
    have hP : Passes 8 Production.isCanonicalEncoding words' := by
      intro j r hj' hr'
      by_cases hji : j = i
      · subst hji
        have := (check_production raw).1 (hw j raw hi hr)
        rw [check_production]
        rw [hyi] at hr'
        unfold bits at *
        split at hy <;> omega
      · rw [hj j hji] at hr'
        exact hw j r (by rw [← hl]; exact hj') hr'
    have := h words' prog hP hd hd'
    rw [this, ← hr] at hyi
    split at hy <;> omega
  · intro h words' prog hw' hd hd'
    obtain ⟨hl, hs⟩ := (C112_same_production _ _ _ _ hd hd').1 rfl
    refine (words_ext (N := 8) (n := prog.length) hd.1 hd'.1 fun i hi => ?_).symm
    obtain ⟨raw, _, hr, _⟩ := hd.2 i _ (List.getElem?_eq_getElem hi)
    obtain ⟨raw', _, hr', _⟩ := hd'.2 i _ (List.getElem?_eq_getElem hi)
    obtain ⟨h1, h2⟩ := hs i raw raw' hi hr hr'
    have c := (check_production raw).1 (hw i raw ((length_of hd i).1 hi) hr)
    have c' := (check_production raw').1 (hw' i raw' ((length_of hd' i).1 hi) hr')
    obtain ⟨h3, h4⟩ := h i raw ((length_of hd i).1 hi) hr
    rw [← hr, ← hr']
    have := raw.isLt
    have := raw'.isLt
    unfold bits at *
    split at h2 <;> split at h2 <;> omega

/-- C115, production: a code that passes the check, and has numbers of instructions only, is what its disassembly
assembles to. -/
theorem C115_reassembled_production (b : Build) (words : List (Vector Byte 32)) (prog : List (DecodedOpcode 16))
    (code : List Byte) (hw : Passes 8 Production.isCanonicalEncoding words)
    (hn : ∀ (i : Nat) (raw : BitVec 64), 8 * (i + 1) ≤ 32 * words.length → raw.toNat = beNat (piece 8 words i) →
      bits raw 0 11 < 1093)
    (hd : Disassembled 8 Production.parse words prog) (hA : Assembled (Production.encodeAsBytes b) prog code) :
    code = words.flatMap Vector.toList :=
  (C112_reassembled_production b words prog code hd hA).2.2 fun i raw hi hr =>
    ⟨(check_production raw).1 (hw i raw ((length_of hd i).1 hi) hr), hn i raw ((length_of hd i).1 hi) hr⟩

/-- C115, testing: the check does not look at bits 96 to 127, which decoding ignores. Every code that passes it and is not
empty has another one of the same length that passes it and has the same disassembly. -/
theorem C115_not_unique_testing (words : List (Vector Byte 32)) (hne : words ≠ [])
    (hw : Passes 16 Testing.isCanonicalEncoding words) :
    ∃ words', words' ≠ words ∧ words'.length = words.length ∧ Passes 16 Testing.isCanonicalEncoding words' ∧
      ∀ prog, Disassembled 16 Testing.parse words prog ↔ Disassembled 16 Testing.parse words' prog := by
  have hpos := List.length_pos_iff.2 hne
  have hi : 16 * (0 + 1) ≤ 32 * words.length := by omega
  have hlt := piece_lt 16 words 0
  generalize hx : beNat (piece 16 words 0) = x at hlt
  obtain ⟨y, hy⟩ : ∃ y, y = if x / 2 ^ 96 % 2 = 0 then x + 2 ^ 96 else x - 2 ^ 96 := ⟨_, rfl⟩
  obtain ⟨words', hl, hyi, hj⟩ := replace_piece (N := 16) (k := 128) rfl words 0 hi (BitVec.ofNat 128 y)
  rw [BitVec.toNat_ofNat, Nat.mod_eq_of_lt (by split at hy <;> omega)] at hyi
  obtain ⟨prog, hd, _, hu⟩ := C112_disassembly_testing words
  obtain ⟨prog', hd', _, hu'⟩ := C112_disassembly_testing words'
  have he : prog = prog' := by
    refine (C112_same_testing _ _ _ _ hd hd').2 ⟨hl.symm, fun j r r' _ hr1 hr2 => ?_⟩
    by_cases hji : j = 0
    · subst hji
      rw [hx] at hr1
      rw [hyi] at hr2
      have hb : bits r 0 11 = bits r' 0 11 := by unfold bits; split at hy <;> omega
      rw [hb]
      exact ⟨by unfold bits; split at hy <;> omega, rfl⟩
    · rw [hj j hji] at hr2
      obtain rfl : r = r' := BitVec.eq_of_toNat_eq (hr1.trans hr2.symm)
      exact ⟨rfl, rfl⟩
  subst he
  refine ⟨words', fun e => ?_, hl, fun j r hj' hr' => ?_, fun p => ⟨fun h => by rw [hu p h]; exact hd', fun h => by rw [hu' p h]; exact hd⟩⟩
  · rw [e, hx] at hyi
    split at hy <;> omega
  · by_cases hji : j = 0
    · subst hji
      have := (check_testing (BitVec.ofNat 128 x)).1 (hw 0 _ hi (by rw [hx, BitVec.toNat_ofNat, Nat.mod_eq_of_lt hlt]))
      rw [check_testing]
      rw [hyi] at hr'
      unfold bits at *
      rw [BitVec.toNat_ofNat] at this
      split at hy <;> omega
    · rw [hj j hji] at hr'
      exact hw j r (by rw [← hl]; exact hj') hr'

/-! Cases: a program of one instruction, padded; the code of zeros; a code of four instructions that is the only one. -/

example (b : Build) : ∃ code words, Assembled (Production.encodeAsBytes b) [{ zeroInstruction 16 with imm0 := 7 }] code ∧
    PaddedTo code words ∧ Passes 8 Production.isCanonicalEncoding words := by
  have hE : ∀ o ∈ [{ zeroInstruction 16 with imm0 := 7 }], Encodable o := by decide
  obtain ⟨code, words, _, hA, hp, _⟩ := C80_deployable_production b (fun _ => Vector.replicate 32 0) _ hE (by decide)
  exact ⟨code, words, hA, hp, C115_assembled_production b _ code words hE hA hp⟩
example (b : Build) : ∃ code words, Assembled (Testing.encodeAsBytes b) [{ zeroInstruction 32 with imm0 := 7 }] code ∧
    PaddedTo code words ∧ Passes 16 Testing.isCanonicalEncoding words := by
  have hE : ∀ o ∈ [{ zeroInstruction 32 with imm0 := 7 }], Encodable o := by decide
  obtain ⟨code, words, _, hA, hp, _⟩ := C80_deployable_testing b (fun _ => Vector.replicate 32 0) _ hE (by decide)
  exact ⟨code, words, hA, hp, C115_assembled_testing b _ code words hE hA hp⟩

private abbrev zeroCode : List (Vector Byte 32) := [Vector.replicate 32 0]
private abbrev oneCode : List (Vector Byte 32) :=
  [⟨#[0, 0, 0, 0, 0, 0, 0, 1, 0, 0, 0, 0, 0, 0, 0, 1, 0, 0, 0, 0, 0, 0, 0, 1, 0, 0, 0, 0, 0, 0, 0, 1], rfl⟩]

private theorem one_pieces (i : Nat) (hi : 8 * (i + 1) ≤ 32 * oneCode.length) : beNat (piece 8 oneCode i) = 1 :=
  (by decide +kernel : ∀ i : Fin 4, beNat (piece 8 oneCode i) = 1) ⟨i, by
    rw [show oneCode.length = 1 from rfl] at hi; omega⟩
private theorem zero_pieces (i : Nat) (hi : 8 * (i + 1) ≤ 32 * zeroCode.length) : beNat (piece 8 zeroCode i) = 0 :=
  (by decide +kernel : ∀ i : Fin 4, beNat (piece 8 zeroCode i) = 0) ⟨i, by
    rw [show zeroCode.length = 1 from rfl] at hi; omega⟩
private theorem zero_pieces_testing (i : Nat) (hi : 16 * (i + 1) ≤ 32 * zeroCode.length) : beNat (piece 16 zeroCode i) = 0 :=
  (by decide +kernel : ∀ i : Fin 2, beNat (piece 16 zeroCode i) = 0) ⟨i, by
    rw [show zeroCode.length = 1 from rfl] at hi; omega⟩
private theorem one_passes : Passes 8 Production.isCanonicalEncoding oneCode := fun i raw hi hr => by
  rw [one_pieces i hi] at hr
  obtain rfl : raw = 1#64 := BitVec.eq_of_toNat_eq hr
  decide
private theorem zero_passes : Passes 8 Production.isCanonicalEncoding zeroCode := fun i raw hi hr => by
  rw [zero_pieces i hi] at hr
  obtain rfl : raw = 0#64 := BitVec.eq_of_toNat_eq hr
  decide

example : ∀ words' prog, Passes 8 Production.isCanonicalEncoding words' → Disassembled 8 Production.parse oneCode prog →
    Disassembled 8 Production.parse words' prog → words' = oneCode :=
  (C115_unique_production oneCode one_passes).2 fun i raw hi hr => by
    rw [one_pieces i hi] at hr
    unfold bits
    omega
example : ∃ words' prog, Passes 8 Production.isCanonicalEncoding words' ∧ Disassembled 8 Production.parse zeroCode prog ∧
    Disassembled 8 Production.parse words' prog ∧ words' ≠ zeroCode := by
  refine Classical.byContradiction fun hn => ?_
  have := (C115_unique_production zeroCode zero_passes).1 (fun words' prog h1 h2 h3 => Classical.byContradiction fun he =>
    hn ⟨words', prog, h1, h2, h3, he⟩) 0 0#64 (by decide) (by decide +kernel)
  exact absurd this.1 (by decide)
example (prog : List (DecodedOpcode 16)) (code : List Byte) (hd : Disassembled 8 Production.parse oneCode prog)
    (hA : Assembled (Production.encodeAsBytes .release) prog code) : code = oneCode.flatMap Vector.toList :=
  C115_reassembled_production .release oneCode prog code one_passes (fun i raw hi hr => by
    rw [one_pieces i hi] at hr
    unfold bits
    omega) hd hA
example : ∃ words', words' ≠ zeroCode ∧ words'.length = 1 ∧ Passes 16 Testing.isCanonicalEncoding words' ∧
    ∀ prog, Disassembled 16 Testing.parse zeroCode prog ↔ Disassembled 16 Testing.parse words' prog :=
  C115_not_unique_testing zeroCode (by decide) fun i raw hi hr => by
    rw [zero_pieces_testing i hi] at hr
    obtain rfl : raw = 0#128 := BitVec.eq_of_toNat_eq hr
    decide

end ZkEvm.Props
