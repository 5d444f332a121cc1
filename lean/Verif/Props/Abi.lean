import Verif.Lemmas.Abi
import Verif.Spec.Formats
/-!
# ABI of calls, returns, pointers and meta parameters: C43–C52

`u256Nat v` is the number a 256-bit word stands for, `ubits v pos len` its bits `pos..pos+len-1`, `ubyte v i` its byte
`i`, byte 0 being least significant (`Verif/Spec/Words.lean`).
-/
namespace ZkEvm.Props
open Spec AbiLemmas

/-! ## C43 -/

/-- C43: the packed pointer is the number `offset + 2^32 page + 2^64 start + 2^96 length`, within 128 bits. -/
theorem C43_layout (p : FatPointer) :
    u256Nat p.toU256 = p.offset.toNat + 2 ^ 32 * p.memoryPage.toNat + 2 ^ 64 * p.start.toNat
      + 2 ^ 96 * p.length.toNat ∧
    u256Nat p.toU256 < 2 ^ FatPointer.FAT_POINTER_PACKED_WIDTH := by
  have h : u256Nat p.toU256 = p.offset.toNat + 2 ^ 32 * p.memoryPage.toNat + 2 ^ 64 * p.start.toNat
      + 2 ^ 96 * p.length.toNat := by
    unfold u256Nat FatPointer.toU256
    dsimp only [U256.zero]
    rw [pair_toNat, pair_toNat, show (0 : BitVec 64).toNat = 0 from rfl]
    omega
  refine ⟨h, ?_⟩
  rw [h]
  have h1 := p.offset.isLt
  have h2 := p.memoryPage.isLt
  have h3 := p.start.isLt
  have h4 := p.length.isLt
  show _ < 2 ^ 128
  omega

/-- C43: what is read from any 256-bit word. -/
theorem C43_read (v : U256) :
    (FatPointer.fromU256 v).offset.toNat = ubits v 0 32 ∧ (FatPointer.fromU256 v).memoryPage.toNat = ubits v 32 32 ∧
    (FatPointer.fromU256 v).start.toNat = ubits v 64 32 ∧ (FatPointer.fromU256 v).length.toNat = ubits v 96 32 := by
  refine ⟨?_, ?_, ?_, ?_⟩
  · show (v.l0.setWidth 32).toNat = _
    rw [low32, limb0, field_field _ 0 64 0 32 (by decide)]; rfl
  · show ((v.l0 >>> 32).setWidth 32).toNat = _
    rw [high32, limb0, field_field _ 0 64 32 32 (by decide)]; rfl
  · show (v.l1.setWidth 32).toNat = _
    rw [low32, limb1, field_field _ 64 64 0 32 (by decide)]; rfl
  · show ((v.l1 >>> 32).setWidth 32).toNat = _
    rw [high32, limb1, field_field _ 64 64 32 32 (by decide)]; rfl

/-- C43: unpacking a packed pointer returns it; packing what was unpacked clears the upper 128 bits. -/
theorem C43_roundtrip (p : FatPointer) (v : U256) :
    FatPointer.fromU256 p.toU256 = p ∧
    u256Nat (FatPointer.fromU256 v).toU256 = u256Nat v % 2 ^ 128 := by
  constructor
  · cases p
    simp only [FatPointer.fromU256, FatPointer.toU256, pair_low, pair_high]
  · rw [u256Nat]
    dsimp only [FatPointer.toU256, FatPointer.fromU256, U256.zero]
    rw [pair_eta, pair_eta, show (0 : BitVec 64).toNat = 0 from rfl]
    have h0 := v.l0.isLt
    have h1 := v.l1.isLt
    unfold u256Nat
    omega

example : FatPointer.fromU256 ⟨0x0000000200000001, 0x0000000400000003, 5, 6⟩ = ⟨1, 2, 3, 4⟩ := by decide

/-- C43: the empty pointer is the one packed as 0, and the one read from exactly the words whose lower 128 bits are 0. -/
theorem C43_empty (p : FatPointer) (v : U256) :
    (u256Nat p.toU256 = 0 ↔ p = FatPointer.empty) ∧
    (FatPointer.fromU256 v = FatPointer.empty ↔ u256Nat v % 2 ^ 128 = 0) := by
  have key : ∀ q : FatPointer, u256Nat q.toU256 = 0 ↔ q = FatPointer.empty := fun q => by
    refine ⟨fun h => ?_, fun h => by rw [h]; decide⟩
    rw [(C43_layout q).1] at h
    obtain ⟨o, g, s, l⟩ := q
    dsimp only at h
    have h0 : o = 0 := BitVec.eq_of_toNat_eq (by show _ = 0; omega)
    have h1 : g = 0 := BitVec.eq_of_toNat_eq (by show _ = 0; omega)
    have h2 : s = 0 := BitVec.eq_of_toNat_eq (by show _ = 0; omega)
    have h3 : l = 0 := BitVec.eq_of_toNat_eq (by show _ = 0; omega)
    subst h0 h1 h2 h3
    rfl
  refine ⟨key p, ?_⟩
  rw [← key, (C43_roundtrip p v).2]

example : (FatPointer.fromU256 ⟨0, 0, 0, 7⟩) = FatPointer.empty := by decide

/-! ## C44 -/

/-- C44: validation reports a non-zero offset iff a fresh pointer was expected and the offset is not zero, reports
an unaddressable range iff `start + length` does not fit 32 bits, and sets no other bit. -/
theorem C44_validate (p : FatPointer) (fresh : Bool) :
    ((p.validate fresh).contains FatPointerValidationException.OFFSET_IS_NOT_ZERO_WHEN_EXPECTED = true ↔
      fresh = true ∧ p.offset.toNat ≠ 0) ∧
    ((p.validate fresh).contains FatPointerValidationException.DEREF_BEYOND_HEAP_RANGE = true ↔
      2 ^ 32 ≤ p.start.toNat + p.length.toNat) ∧
    (p.validate fresh).bits.toNat < 4 ∧
    ((p.validate fresh).isEmpty = true ↔
      ¬(fresh = true ∧ p.offset.toNat ≠ 0) ∧ p.start.toNat + p.length.toNat < 2 ^ 32) := by
  have h1 : (fresh && p.offset != 0#32) = decide (fresh = true ∧ p.offset.toNat ≠ 0) := by
    have : (p.offset != 0#32) = decide (p.offset.toNat ≠ 0) := by
      rw [Bool.eq_iff_iff, bne_iff_ne, ne_eq, ← BitVec.toNat_inj, decide_eq_true_iff]
      rfl
    rw [this]
    cases fresh <;> simp
  have h2 : (FatPointer.overflowingAddU32 p.start p.length).2 = decide (2 ^ 32 ≤ p.start.toNat + p.length.toNat) := rfl
  have hv : p.validate fresh = ⟨if fresh = true ∧ p.offset.toNat ≠ 0 then
      (if 2 ^ 32 ≤ p.start.toNat + p.length.toNat then 3 else 1)
      else if 2 ^ 32 ≤ p.start.toNat + p.length.toNat then 2 else 0⟩ := by
    unfold FatPointer.validate
    simp only [h1, h2, decide_eq_true_eq]
    repeat' split
    all_goals first | rfl | contradiction
  rw [hv]
  by_cases hP : fresh = true ∧ p.offset.toNat ≠ 0 <;>
    by_cases hQ : 2 ^ 32 ≤ p.start.toNat + p.length.toNat
  · rw [if_pos hP, if_pos hQ]
    exact ⟨iff_of_true (by decide) hP, iff_of_true (by decide) hQ, by decide,
      iff_of_false (by decide) fun h => h.1 hP⟩
  · rw [if_pos hP, if_neg hQ]
    exact ⟨iff_of_true (by decide) hP, iff_of_false (by decide) hQ, by decide,
      iff_of_false (by decide) fun h => h.1 hP⟩
  · rw [if_neg hP, if_pos hQ]
    exact ⟨iff_of_false (by decide) hP, iff_of_true (by decide) hQ, by decide,
      iff_of_false (by decide) fun h => Nat.not_le.2 h.2 hQ⟩
  · rw [if_neg hP, if_neg hQ]
    exact ⟨iff_of_false (by decide) hP, iff_of_false (by decide) hQ, by decide,
      iff_of_true (by decide) ⟨hP, Nat.not_le.1 hQ⟩⟩

/-! ## C45 -/

/-- C45: a pointer that passes validation and is in bounds addresses a byte of its slice, without wrapping around
32 bits; a valid slice has its whole rest below `2^32`. -/
theorem C45_addresses (p : FatPointer) (fresh : Bool)
    (hv : (p.validate fresh).contains FatPointerValidationException.DEREF_BEYOND_HEAP_RANGE = false) :
    (p.validateInBounds = true →
      (p.start + p.offset).toNat = p.start.toNat + p.offset.toNat ∧
      p.start.toNat ≤ (p.start + p.offset).toNat ∧
      (p.start + p.offset).toNat < p.start.toNat + p.length.toNat ∧ p.start.toNat + p.length.toNat < 2 ^ 32) ∧
    (p.validateAsSlice = true →
      (p.start + p.offset).toNat = p.start.toNat + p.offset.toNat ∧
      (p.start + p.offset).toNat ≤ p.start.toNat + p.length.toNat ∧ p.start.toNat + p.length.toNat < 2 ^ 32 ∧
      (p.length - p.offset).toNat = p.length.toNat - p.offset.toNat) := by
  have hno : p.start.toNat + p.length.toNat < 2 ^ 32 := by
    apply Nat.lt_of_not_le
    intro h
    rw [(C44_validate p fresh).2.1.2 h] at hv
    cases hv
  have hl := p.length.isLt
  constructor
  · intro h
    have h : p.offset.toNat < p.length.toNat := of_decide_eq_true h
    rw [BitVec.toNat_add, Nat.mod_eq_of_lt (by omega)]
    omega
  · intro h
    have h : p.offset.toNat ≤ p.length.toNat := of_decide_eq_true h
    rw [BitVec.toNat_add, Nat.mod_eq_of_lt (by omega), BitVec.toNat_sub]
    refine ⟨rfl, by omega, hno, by omega⟩

/-- C45: a read at offset 15 of the last 16 bytes of the addressable range stays inside it. -/
example : ((⟨15, 7, 0xffffffef, 16⟩ : FatPointer).validate false).contains
      FatPointerValidationException.DEREF_BEYOND_HEAP_RANGE = false ∧
    ((0xffffffef : BitVec 32) + 15).toNat < 2 ^ 32 - 1 :=
  ⟨by decide, by
    have h := (C45_addresses ⟨15, 7, 0xffffffef, 16⟩ false (by decide)).1 (by decide)
    dsimp only at h
    omega⟩

/-- C45: the three checks: in bounds iff `offset < length`, slice iff `offset ≤ length`, trivial iff both are zero; in bounds
implies slice, trivial implies slice but not in bounds. -/
theorem C45_checks (p : FatPointer) :
    (p.validateInBounds = true ↔ p.offset.toNat < p.length.toNat) ∧
    (p.validateAsSlice = true ↔ p.offset.toNat ≤ p.length.toNat) ∧
    (p.isTrivial = true ↔ p.offset.toNat = 0 ∧ p.length.toNat = 0) ∧
    (p.validateInBounds = true → p.validateAsSlice = true) ∧
    (p.isTrivial = true → p.validateAsSlice = true ∧ p.validateInBounds = false) ∧
    FatPointer.empty.isTrivial = true := by
  have h1 : p.validateInBounds = true ↔ p.offset.toNat < p.length.toNat :=
    ⟨fun h => of_decide_eq_true h, fun h => decide_eq_true h⟩
  have h2 : p.validateAsSlice = true ↔ p.offset.toNat ≤ p.length.toNat :=
    ⟨fun h => of_decide_eq_true h, fun h => decide_eq_true h⟩
  have h3 : p.isTrivial = true ↔ p.offset.toNat = 0 ∧ p.length.toNat = 0 := by
    unfold FatPointer.isTrivial
    rw [Bool.and_eq_true, beq_iff_eq, beq_iff_eq, ← BitVec.toNat_inj, ← BitVec.toNat_inj]
    exact And.comm
  refine ⟨h1, h2, h3, fun h => h2.2 (Nat.le_of_lt (h1.1 h)), fun h => ?_, rfl⟩
  obtain ⟨ha, hb⟩ := h3.1 h
  refine ⟨h2.2 (by omega), ?_⟩
  cases hc : p.validateInBounds
  · rfl
  · have := h1.1 hc
    omega

/-- A slice ending at the last byte, with the offset on that byte. -/
example : ((⟨15, 7, 0xffffffef, 16⟩ : FatPointer).validate false).isEmpty = true ∧
    (⟨15, 7, 0xffffffef, 16⟩ : FatPointer).validateInBounds = true ∧
    ((⟨15, 7, 0xfffffff0, 16⟩ : FatPointer).validate true).bits = 3#64 := by decide

/-! ## C46 -/

/-- C46: packing and unpacking the inner precompile ABI are inverse to each other. -/
theorem C46_bijection (a : PrecompileCallInnerABI) (v : U256) :
    PrecompileCallInnerABI.fromU256 a.toU256 = a ∧ (PrecompileCallInnerABI.fromU256 v).toU256 = v := by
  constructor
  · cases a
    simp only [PrecompileCallInnerABI.fromU256, PrecompileCallInnerABI.toU256, pair_low, pair_high]
  · cases v
    simp only [PrecompileCallInnerABI.fromU256, PrecompileCallInnerABI.toU256, pair_eta]

/-- C46: the position of every field. -/
theorem C46_read (v : U256) :
    (PrecompileCallInnerABI.fromU256 v).inputMemoryOffset.toNat = ubits v 0 32 ∧
    (PrecompileCallInnerABI.fromU256 v).inputMemoryLength.toNat = ubits v 32 32 ∧
    (PrecompileCallInnerABI.fromU256 v).outputMemoryOffset.toNat = ubits v 64 32 ∧
    (PrecompileCallInnerABI.fromU256 v).outputMemoryLength.toNat = ubits v 96 32 ∧
    (PrecompileCallInnerABI.fromU256 v).memoryPageToRead.toNat = ubits v 128 32 ∧
    (PrecompileCallInnerABI.fromU256 v).memoryPageToWrite.toNat = ubits v 160 32 ∧
    (PrecompileCallInnerABI.fromU256 v).precompileInterpretedData.toNat = ubits v 192 64 := by
  obtain ⟨h1, h2, h3, h4⟩ := C43_read v
  refine ⟨h1, h2, h3, h4, ?_, ?_, limb3 v⟩
  · show (v.l2.setWidth 32).toNat = _
    rw [low32, limb2, field_field _ 128 64 0 32 (by decide)]; rfl
  · show ((v.l2 >>> 32).setWidth 32).toNat = _
    rw [high32, limb2, field_field _ 128 64 32 32 (by decide)]; rfl

example : (PrecompileCallInnerABI.fromU256 ⟨1, 2, 3 + 2 ^ 32, 4⟩).memoryPageToWrite = 1 := by decide

/-! ## C47 -/

/-- C47: the outer precompile ABI has the fields of the inner one except the pages. -/
theorem C47_agrees (v : U256) :
    (PrecompileCallABI.fromU256 v).inputMemoryOffset = (PrecompileCallInnerABI.fromU256 v).inputMemoryOffset ∧
    (PrecompileCallABI.fromU256 v).inputMemoryLength = (PrecompileCallInnerABI.fromU256 v).inputMemoryLength ∧
    (PrecompileCallABI.fromU256 v).outputMemoryOffset = (PrecompileCallInnerABI.fromU256 v).outputMemoryOffset ∧
    (PrecompileCallABI.fromU256 v).outputMemoryLength = (PrecompileCallInnerABI.fromU256 v).outputMemoryLength ∧
    (PrecompileCallABI.fromU256 v).perPrecompileInterpreted.toNat = ubits v 192 64 ∧
    (PrecompileCallABI.fromU256 v).perPrecompileInterpreted
      = (PrecompileCallInnerABI.fromU256 v).precompileInterpretedData :=
  ⟨rfl, rfl, rfl, rfl, limb3 v, rfl⟩

/-- C47: two words are the same outer precompile call iff they agree outside bits 128..191. -/
theorem C47_ignores (v v' : U256) :
    PrecompileCallABI.fromU256 v = PrecompileCallABI.fromU256 v' ↔
      ubits v 0 128 = ubits v' 0 128 ∧ ubits v 192 64 = ubits v' 192 64 := by
  have key : PrecompileCallABI.fromU256 v = PrecompileCallABI.fromU256 v' ↔
      v.l0 = v'.l0 ∧ v.l1 = v'.l1 ∧ v.l3 = v'.l3 := by
    constructor
    · intro h
      have h1 := congrArg PrecompileCallABI.inputMemoryOffset h
      have h2 := congrArg PrecompileCallABI.inputMemoryLength h
      have h3 := congrArg PrecompileCallABI.outputMemoryOffset h
      have h4 := congrArg PrecompileCallABI.outputMemoryLength h
      have h5 := congrArg PrecompileCallABI.perPrecompileInterpreted h
      dsimp only [PrecompileCallABI.fromU256] at h1 h2 h3 h4 h5
      refine ⟨?_, ?_, h5⟩
      · rw [← pair_eta v.l0, h1, h2, pair_eta]
      · rw [← pair_eta v.l1, h3, h4, pair_eta]
    · rintro ⟨h0, h1, h3⟩
      unfold PrecompileCallABI.fromU256
      rw [h0, h1, h3]
  have top : ∀ v : U256, ubits v 192 64 = v.l3.toNat := fun v => (limb3 v).symm
  rw [key, low128, low128, top, top, ← BitVec.toNat_inj, ← BitVec.toNat_inj, ← BitVec.toNat_inj]
  have h0 := v.l0.isLt
  have h0' := v'.l0.isLt
  omega

/-! ## C48 -/

/-- C48: where a far call's parameters are read from. -/
theorem C48_read (v : U256) :
    (FarCallABI.fromU256 v).memoryQuasiFatPointer = FatPointer.fromU256 v ∧
    (FarCallABI.fromU256 v).ergsPassed.toNat = ubits v (8 * 24) 32 ∧
    (FarCallABI.fromU256 v).forwardingMode = pageType (ubyte v FAR_CALL_FORWARDING_MODE_BYTE_IDX) ∧
    (FarCallABI.fromU256 v).shardId.toNat = ubyte v FAR_CALL_SHARD_ID_BYTE_IDX ∧
    ((FarCallABI.fromU256 v).constructorCall = true ↔ ubyte v FAR_CALL_CONSTRUCTOR_CALL_BYTE_IDX ≠ 0) ∧
    ((FarCallABI.fromU256 v).toSystem = true ↔ ubyte v FAR_CALL_SYSTEM_CALL_BYTE_IDX ≠ 0) ∧
    FAR_CALL_FORWARDING_MODE_BYTE_IDX = 28 ∧ FAR_CALL_SHARD_ID_BYTE_IDX = 29 ∧
    FAR_CALL_CONSTRUCTOR_CALL_BYTE_IDX = 30 ∧ FAR_CALL_SYSTEM_CALL_BYTE_IDX = 31 := by
  have hb : ∀ (b : Byte) (n : Nat), b.toNat = n → FarCallForwardPageType.fromU8 b = pageType n := by
    intro b n h
    subst h
    unfold FarCallForwardPageType.fromU8 pageType
    have e : ∀ c : Byte, (b = c) = (b.toNat = c.toNat) := fun c => propext BitVec.toNat_inj.symm
    simp only [e, show (0#8).toNat = 0 from rfl, show (1#8).toNat = 1 from rfl, show (2#8).toNat = 2 from rfl]
    repeat' split
    all_goals first | rfl | omega
  have hne : ∀ (b : Byte) (n : Nat), b.toNat = n → ((b != 0#8) = true ↔ n ≠ 0) := by
    intro b n h
    subst h
    rw [bne_iff_ne, ne_eq, ← BitVec.toNat_inj]
    rfl
  refine ⟨rfl, ?_, hb _ _ (top_byte v 0 (by decide)), top_byte v 8 (by decide), hne _ _ (top_byte v 16 (by decide)),
    hne _ _ (top_byte v 24 (by decide)), rfl, rfl, rfl, rfl⟩
  show (v.l3.setWidth 32).toNat = _
  rw [low32, limb3, field_field _ 192 64 0 32 (by decide)]
  rfl

/-- C48: bytes 16..23 of the word do not matter. -/
theorem C48_ignores (v v' : U256) (h1 : ubits v 0 128 = ubits v' 0 128) (h2 : ubits v 192 64 = ubits v' 192 64) :
    FarCallABI.fromU256 v = FarCallABI.fromU256 v' := by
  have h := (C47_ignores v v').2 ⟨h1, h2⟩
  have e1 := congrArg PrecompileCallABI.inputMemoryOffset h
  have e2 := congrArg PrecompileCallABI.inputMemoryLength h
  have e3 := congrArg PrecompileCallABI.outputMemoryOffset h
  have e4 := congrArg PrecompileCallABI.outputMemoryLength h
  have e5 := congrArg PrecompileCallABI.perPrecompileInterpreted h
  dsimp only [PrecompileCallABI.fromU256] at e1 e2 e3 e4 e5
  unfold FarCallABI.fromU256 FatPointer.fromU256
  rw [e1, e2, e3, e4, e5]

/-- C48: two words that differ in the ignored limb. -/
example : FarCallABI.fromU256 ⟨1, 2, 0xdead, 0x0001070200000064⟩ = FarCallABI.fromU256 ⟨1, 2, 0, 0x0001070200000064⟩ :=
  C48_ignores _ _ (by decide) (by decide)

/-- The discriminants of the page types read back as themselves. -/
theorem C48_modes (m : FarCallForwardPageType) : FarCallForwardPageType.fromU8 m.asU8 = m := by cases m <;> rfl

example : FarCallABI.fromU256 ⟨0, 0, 0xdead, 0x0001070200000064⟩ =
    { memoryQuasiFatPointer := ⟨0, 0, 0, 0⟩, ergsPassed := 100, shardId := 7, forwardingMode := .useAuxHeap,
      constructorCall := true, toSystem := false } := by decide

/-! ## C49 -/

/-- C49: the return ABI extracts the same pointer and forwarding mode as the far call ABI, and nothing else. -/
theorem C49_agrees (v : U256) :
    RetABI.fromU256 v = ⟨(FarCallABI.fromU256 v).memoryQuasiFatPointer, retOfFarCall (FarCallABI.fromU256 v).forwardingMode⟩ ∧
    RET_FORWARDING_MODE_BYTE_IDX = FAR_CALL_FORWARDING_MODE_BYTE_IDX := by
  refine ⟨?_, rfl⟩
  have : ∀ b : Byte, RetForwardPageType.fromU8 b = retOfFarCall (FarCallForwardPageType.fromU8 b) := by
    intro b
    unfold RetForwardPageType.fromU8 FarCallForwardPageType.fromU8
    repeat' split
    all_goals rfl
  exact congrArg (RetABI.mk _) (this _)

/-- C49: only the low 128 bits and byte 28 matter. -/
theorem C49_ignores (v v' : U256) (h1 : ubits v 0 128 = ubits v' 0 128) (h2 : ubyte v 28 = ubyte v' 28) :
    RetABI.fromU256 v = RetABI.fromU256 v' := by
  rw [(C49_agrees v).1, (C49_agrees v').1, (C48_read v).2.2.1, (C48_read v').2.2.1]
  rw [show FAR_CALL_FORWARDING_MODE_BYTE_IDX = 28 from rfl, h2]
  rw [low128, low128] at h1
  have a0 := v.l0.isLt
  have a0' := v'.l0.isLt
  have e0 : v.l0 = v'.l0 := BitVec.eq_of_toNat_eq (by omega)
  have e1 : v.l1 = v'.l1 := BitVec.eq_of_toNat_eq (by omega)
  have : FatPointer.fromU256 v = FatPointer.fromU256 v' := by unfold FatPointer.fromU256; rw [e0, e1]
  show RetABI.mk (FatPointer.fromU256 v) _ = RetABI.mk (FatPointer.fromU256 v') _
  rw [this]

/-- C49: two words that differ everywhere outside the pointer and the forwarding byte. -/
example : RetABI.fromU256 ⟨1, 2, 3, 0xffffff01ffffffff⟩ = RetABI.fromU256 ⟨1, 2, 4, 0x0000000100000000⟩ :=
  C49_ignores _ _ (by decide) (by decide)

theorem C49_modes (m : RetForwardPageType) : RetForwardPageType.fromU8 m.asU8 = m := by cases m <;> rfl

example : (RetABI.fromU256 ⟨0, 0, 0, 0x0000000100000000⟩).pageForwardingMode = .forwardFatPointer := by decide

/-! ## C50 -/

/-- C50: the near call ABI is the word modulo `2^32`. -/
theorem C50_near_call (v : U256) : (NearCallABI.fromU256 v).ergsPassed.toNat = u256Nat v % 2 ^ 32 := by
  show (v.l0.setWidth 32).toNat = _
  rw [low32, limb0, field_field _ 0 64 0 32 (by decide), Nat.pow_zero, Nat.div_one]

example : (NearCallABI.fromU256 ⟨0x500000007, 1, 1, 1⟩).ergsPassed = 7 := by decide

/-! ## C51 -/

/-- C51: the positions of the meta parameters in the packed word. -/
theorem C51_layout (m : VmMetaParameters) :
    u256Nat m.toU256 = m.ergsPerPubdataByte.toNat + 2 ^ 64 * m.heapSize.toNat + 2 ^ 96 * m.auxHeapSize.toNat
      + 2 ^ 224 * m.thisShardId.toNat + 2 ^ 232 * m.callerShardId.toNat + 2 ^ 240 * m.codeShardId.toNat := by
  have h1 := m.ergsPerPubdataByte.isLt
  have h4 := m.thisShardId.isLt
  have h5 := m.callerShardId.isLt
  have h6 := m.codeShardId.isLt
  unfold u256Nat VmMetaParameters.toU256
  dsimp only [U256.zero]
  rw [pair_toNat, BitVec.toNat_setWidth, Nat.mod_eq_of_lt (by omega), show (0 : BitVec 64).toNat = 0 from rfl]
  have e1 : (m.thisShardId.setWidth 64 : BitVec 64).toNat = m.thisShardId.toNat := by
    rw [BitVec.toNat_setWidth, Nat.mod_eq_of_lt (by omega)]
  have e2 : (m.thisShardId.setWidth 64 ||| (m.callerShardId.setWidth 64 <<< 8) : BitVec 64).toNat
      = m.thisShardId.toNat + m.callerShardId.toNat * 2 ^ 8 := by
    rw [Coding.or_shift_toNat (W := 64) _ m.callerShardId 8 (by rw [e1]; omega) (by omega), e1]
  have e3 : (m.thisShardId.setWidth 64 ||| (m.callerShardId.setWidth 64 <<< 8)
      ||| (m.codeShardId.setWidth 64 <<< 16) : BitVec 64).toNat
      = m.thisShardId.toNat + m.callerShardId.toNat * 2 ^ 8 + m.codeShardId.toNat * 2 ^ 16 := by
    rw [Coding.or_shift_toNat (W := 64) _ m.codeShardId 16 (by rw [e2]; omega) (by omega), e2]
  rw [BitVec.toNat_shiftLeft, e3, Nat.shiftLeft_eq, Nat.mod_eq_of_lt (by omega)]
  omega

/-- C51: distinct meta parameters have distinct words. -/
theorem C51_injective (m m' : VmMetaParameters) (h : m.toU256 = m'.toU256) : m = m' := by
  have h := congrArg u256Nat h
  rw [C51_layout, C51_layout] at h
  obtain ⟨e1, h⟩ := peel (k := 2 ^ 64) (b := m.heapSize.toNat + 2 ^ 32 * (m.auxHeapSize.toNat + 2 ^ 128 *
      (m.thisShardId.toNat + 2 ^ 8 * (m.callerShardId.toNat + 2 ^ 8 * m.codeShardId.toNat))))
    (b' := m'.heapSize.toNat + 2 ^ 32 * (m'.auxHeapSize.toNat + 2 ^ 128 *
      (m'.thisShardId.toNat + 2 ^ 8 * (m'.callerShardId.toNat + 2 ^ 8 * m'.codeShardId.toNat))))
    (a := m.ergsPerPubdataByte.toNat) (a' := m'.ergsPerPubdataByte.toNat) (by omega)
    (Nat.lt_trans (BitVec.isLt _) (by decide)) (Nat.lt_trans (BitVec.isLt _) (by decide))
  obtain ⟨e2, h⟩ := peel h (BitVec.isLt _) (BitVec.isLt _)
  obtain ⟨e3, h⟩ := peel h (Nat.lt_trans (BitVec.isLt _) (by decide)) (Nat.lt_trans (BitVec.isLt _) (by decide))
  obtain ⟨e4, h⟩ := peel h (BitVec.isLt _) (BitVec.isLt _)
  obtain ⟨e5, e6⟩ := peel h (BitVec.isLt _) (BitVec.isLt _)
  cases m; cases m'
  rw [VmMetaParameters.mk.injEq]
  exact ⟨BitVec.eq_of_toNat_eq e1, BitVec.eq_of_toNat_eq e2, BitVec.eq_of_toNat_eq e3, BitVec.eq_of_toNat_eq e4,
    BitVec.eq_of_toNat_eq e5, BitVec.eq_of_toNat_eq e6⟩

example : (VmMetaParameters.toU256 ⟨1, 2, 3, 4, 5, 6⟩) = ⟨1, 2 + 3 * 2 ^ 32, 0, 0x0006050400000000⟩ := by decide

/-! ## C52 -/

/-- C52: any 256-bit offset up to `MAX_OFFSET_TO_DEREF` can be incremented by the 32 bytes of a word within 32 bits;
one more is the largest offset of a word within the first `2^32` bytes. -/
theorem C52_deref (x : U256) :
    (u256Nat x ≤ u256Nat MAX_OFFSET_TO_DEREF ↔ u256Nat x + 32 < 2 ^ 32) ∧
    (u256Nat x ≤ u256Nat MAX_OFFSET_TO_DEREF + 1 ↔ u256Nat x + 32 ≤ 2 ^ 32) ∧
    u256Nat MAX_OFFSET_TO_DEREF = MAX_OFFSET_TO_DEREF_LOW_U32.toNat := by
  have h : u256Nat MAX_OFFSET_TO_DEREF = 4294967263 := by decide
  have h' : MAX_OFFSET_TO_DEREF_LOW_U32.toNat = 4294967263 := by decide
  omega

/-- C52: the offsets below `MAX_OFFSET_FOR_ADD_SUB` are those that fit 32 bits. -/
theorem C52_add_sub (x : U256) :
    u256Nat x < u256Nat MAX_OFFSET_FOR_ADD_SUB ↔ ∃ y : BitVec 32, u256Nat x = y.toNat := by
  have h : u256Nat MAX_OFFSET_FOR_ADD_SUB = 2 ^ 32 := by decide
  rw [h]
  constructor
  · intro hx
    exact ⟨BitVec.ofNat 32 (u256Nat x), by rw [BitVec.toNat_ofNat, Nat.mod_eq_of_lt hx]⟩
  · rintro ⟨y, hy⟩
    rw [hy]
    exact y.isLt

example : u256Nat ⟨4294967263, 0, 0, 0⟩ ≤ u256Nat MAX_OFFSET_TO_DEREF ∧
    ¬ u256Nat ⟨0, 1, 0, 0⟩ ≤ u256Nat MAX_OFFSET_TO_DEREF := by decide

end ZkEvm.Props
