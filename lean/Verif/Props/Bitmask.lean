import Verif.Lemmas.Bitmask
import Verif.Lemmas.Words
import Verif.Lemmas.Meaning
/-!
# The integer bitmasks: C26–C29

`Spec.bitSpec v i` (`Verif/Spec/Facts.lean`) says which bits of the mask of `v` are set; `Spec.OneHot w lo hi k`
says that bit `lo + k` is the only one set among the positions `lo ≤ i < hi` of `w`.
-/
namespace ZkEvm.Props
open Spec Tables Bitmask

/-! ## C26 -/

/-- C26: for every variant (of the table or not) and versions 0 and 1 the bitmask exists, and each of its 64
bits is as specified. -/
theorem C26_layout (v : OpcodeVariant) (version : ISAVersion) (h : version.num ≤ 1) :
    ∃ w, opcodeAsIntegerBitmask v version = .ok w ∧ ∀ i, i < 64 → w.getLsbD i = bitSpec v i :=
  ⟨maskOf v, bitmask_eq v h, fun _ hi => mask_bit v hi⟩

/-- C26: an addition that sets flags has bit 26 set, in both versions. -/
example : ∀ version : ISAVersion, version.num ≤ 1 → ∃ w,
    opcodeAsIntegerBitmask ⟨.add .add, .full .useRegOnly, .full .useRegOnly, ⟨true, false⟩⟩ version = .ok w ∧
    w.getLsbD 26 = true ∧ w.getLsbD 27 = false := by
  intro version h
  obtain ⟨w, hw, hb⟩ := C26_layout ⟨.add .add, .full .useRegOnly, .full .useRegOnly, ⟨true, false⟩⟩ version h
  exact ⟨w, hw, by rw [hb 26 (by decide)]; decide, by rw [hb 27 (by decide)]; decide⟩

/-- C26: in later versions there is no bitmask: the computation panics. -/
theorem C26_unsupported (v : OpcodeVariant) (version : ISAVersion) (h : 2 ≤ version.num) :
    ∃ e, opcodeAsIntegerBitmask v version = .error e := by
  refine ⟨.unimplemented, ?_⟩
  have : maxNumVariantsForVersion version = .error .unimplemented := by
    rcases version with ⟨_ | _ | n⟩
    · simp at h
    · simp at h
    · rfl
  unfold opcodeAsIntegerBitmask
  rw [this]
  rfl

-- `Sub` from the code page, to a stack offset, with both flags: bits 3, 16, 26, 27, 33, 36, 49
example : opcodeAsIntegerBitmask ⟨.sub .sub, .full .useCodePage, .full .useStackWithOffset, ⟨true, true⟩⟩ ⟨1⟩
    = .ok (BitVec.ofNat 64 (2 ^ 3 + 2 ^ 16 + 2 ^ 26 + 2 ^ 27 + 2 ^ 33 + 2 ^ 36 + 2 ^ 49)) := by decide +kernel

/-! ## C27 -/

/-- C27: two variants have the same bitmask iff they agree in opcode, flags and operand mode numbers. -/
theorem C27_same_mask_iff (a b : OpcodeVariant) (version version' : ISAVersion) (h : version.num ≤ 1)
    (h' : version'.num ≤ 1) :
    opcodeAsIntegerBitmask a version = opcodeAsIntegerBitmask b version' ↔ SameProps a b := by
  rw [bitmask_eq a h, bitmask_eq b h', Except.ok.injEq]
  exact mask_eq_iff a b

/-- C27: the two spellings of a heap read from a register have the same mask, in different versions. -/
example : opcodeAsIntegerBitmask ⟨.uma .heapRead, .regOnly, .regOnly, ⟨true, false⟩⟩ ⟨0⟩ =
    opcodeAsIntegerBitmask ⟨.uma .heapRead, .regOrImm .useRegOnly, .regOnly, ⟨true, false⟩⟩ ⟨1⟩ :=
  (C27_same_mask_iff _ _ ⟨0⟩ ⟨1⟩ (by decide) (by decide)).2 (by decide)

/-- C27: on the variants of the table, the bitmask is injective. -/
theorem C27_table_injective (t : List OpcodeVariant) (ht : OPCODES_TABLE = .ok t) (a b : OpcodeVariant)
    (ha : a ∈ t) (hb : b ∈ t) (version : ISAVersion) (h : version.num ≤ 1)
    (hm : opcodeAsIntegerBitmask a version = opcodeAsIntegerBitmask b version) : a = b := by
  rw [OPCODES_TABLE_eq] at ht
  cases ht
  rw [mem_fullTable] at ha hb
  exact wf_eq_of_same ha hb ((C27_same_mask_iff a b version version h h).1 hm)

/-- C27: two entries of the table that differ in a flag only have different masks. -/
example : opcodeAsIntegerBitmask ⟨.add .add, .full .useRegOnly, .full .useRegOnly, ⟨true, false⟩⟩ ⟨1⟩ ≠
    opcodeAsIntegerBitmask ⟨.add .add, .full .useRegOnly, .full .useRegOnly, ⟨false, false⟩⟩ ⟨1⟩ := fun h =>
  absurd (C27_table_injective Tables.fullTable Tables.OPCODES_TABLE_eq _ _ ((Tables.mem_fullTable _).2 (by decide))
    ((Tables.mem_fullTable _).2 (by decide)) ⟨1⟩ (by decide) h) (by decide)

/-- C27: variants with the same meaning (two spellings of a register source) have the same bitmask. -/
theorem C27_semantic (a b : OpcodeVariant) (hab : semanticallyEqual a b = true) (version : ISAVersion)
    (h : version.num ≤ 1) : opcodeAsIntegerBitmask a version = opcodeAsIntegerBitmask b version := by
  rw [C27_same_mask_iff a b version version h h]
  obtain ⟨h1, h3, h2, h4⟩ := (semanticallyEqual_iff_sameMeaning a b).1 hab
  have hm : ∀ o : Operand, modeNumber (sourceMeaning o) = modeNumber o := by
    intro o
    rcases o with _ | f | f
    · rfl
    · cases f <;> rfl
    · rfl
  exact ⟨h1, h2, by rw [← hm, h4, hm], by rw [h3]⟩

-- two different table variants, one of them with a different mode of the same opcode
example : opcodeAsIntegerBitmask ⟨.uma .heapRead, .regOrImm .useRegOnly, .regOnly, ⟨false, false⟩⟩ ⟨1⟩ ≠
    opcodeAsIntegerBitmask ⟨.uma .heapRead, .regOrImm .useImm16Only, .regOnly, ⟨false, false⟩⟩ ⟨1⟩ := by
  decide +kernel
-- two spellings outside the table collide, as the theorem says
example : SameProps ⟨.nop .mk, .regOnly, .regOnly, ⟨false, false⟩⟩
    ⟨.nop .mk, .full .useRegOnly, .full .useRegOnly, ⟨false, false⟩⟩ := by decide +kernel

/-! ## C28 -/

/-- C28: the table of bitmasks initialises, has 2048 entries, and entry `n` shows, each in its own one-hot group,
the family, the sub-variant and the operand modes of instruction `n`, and its flags; equal masks mean equal
instructions. -/
theorem C28_mask_table :
    ∃ t masks, OPCODES_TABLE = .ok t ∧ OPCODES_PROPS_INTEGER_BITMASKS = .ok masks ∧ masks.length = 2048 ∧
      (∀ n, n < 2048 → ∃ v m, t[n]? = some v ∧ masks[n]? = some m ∧
        opcodeAsIntegerBitmask v ⟨1⟩ = .ok m ∧
        OneHot m 0 16 (familyNumber v.opcode) ∧ OneHot m 16 26 (subNumber v.opcode) ∧
        OneHot m 28 34 (modeNumber v.src0OperandType) ∧ OneHot m 34 38 (modeNumber v.dst0OperandType) ∧
        m.getLsbD 26 = v.flags.f0 ∧ m.getLsbD 27 = v.flags.f1) ∧
      (∀ m n : Nat, m < 2048 → n < 2048 → (masks[m]? = masks[n]? ↔ t[m]? = t[n]?)) := by
  refine ⟨fullTable, fullTable.map maskOf, OPCODES_TABLE_eq, masks_eq, ?_, ?_, ?_⟩
  · rw [List.length_map, length_fullTable]
  · intro n hn
    obtain ⟨h1, h2, h3, h4⟩ := mask_onehot (entry n)
    have hwf : WellFormed (entry n) = true :=
      (mem_fullTable _).1 (List.mem_of_getElem? (fullTable_get hn))
    refine ⟨entry n, maskOf (entry n), fullTable_get hn, ?_, bitmask_eq _ (by decide), h1, h2, h3, ?_,
      mask_flags _⟩
    · rw [List.getElem?_map, fullTable_get hn]; rfl
    · have := wf_dst_lt hwf
      exact ⟨by omega, fun i a b => h4.2 i a (by omega)⟩
  · intro m n hm hn
    rw [List.getElem?_map, List.getElem?_map, fullTable_get hm, fullTable_get hn]
    simp only [Option.map_some, Option.some.injEq]
    rw [mask_eq_iff]
    refine ⟨fun h => wf_eq_of_same ((mem_fullTable _).1 (List.mem_of_getElem? (fullTable_get hm)))
      ((mem_fullTable _).1 (List.mem_of_getElem? (fullTable_get hn))) h, fun h => ?_⟩
    rw [h]
    exact ⟨rfl, rfl, rfl, rfl⟩

/-- C28: the family and sub-variant numbers together determine the opcode, and a one-hot group shows one number
only, so the instruction can be read off its mask. -/
theorem C28_readable (w : BitVec 64) (a b : Opcode)
    (ha : OneHot w 0 16 (familyNumber a) ∧ OneHot w 16 26 (subNumber a))
    (hb : OneHot w 0 16 (familyNumber b) ∧ OneHot w 16 26 (subNumber b)) : a = b :=
  opcode_of_numbers a b (onehot_unique ha.1 hb.1) (onehot_unique ha.2 hb.2)

example : OneHot 0x0002000410010008#64 0 16 3 :=
  ⟨by decide, by
    intro i _ h
    have hall : ((List.range 16).all fun i =>
      decide ((0x0002000410010008#64).getLsbD i = true ↔ i = 0 + 3)) = true := by decide
    exact of_decide_eq_true (List.all_eq_true.1 hall i (List.mem_range.2 h))⟩

/-! ## C29 -/

/-- C29: the nop and panic constants initialise; they are in the table, and the bitspread constants are their
bitmasks. -/
theorem C29_constants :
    ∃ t nop pan w w', OPCODES_TABLE = .ok t ∧ NOP_OPCODE_VARIANT = .ok nop ∧ PANIC_OPCODE_VARIANT = .ok pan ∧
      nop ∈ t ∧ pan ∈ t ∧ nop.opcode = .nop .mk ∧ pan.opcode = .ret .panic ∧
      NOP_BITSPREAD_U64 = .ok w ∧ opcodeAsIntegerBitmask nop ⟨1⟩ = .ok w ∧
      PANIC_BITSPREAD_U64 = .ok w' ∧ opcodeAsIntegerBitmask pan ⟨1⟩ = .ok w' := by
  refine ⟨fullTable, ⟨.nop .mk, .full .useRegOnly, .full .useRegOnly, Flags.none⟩,
    ⟨.ret .panic, .regOnly, .regOnly, Flags.none⟩, _, _, OPCODES_TABLE_eq, nop_variant, panic_variant,
    (mem_fullTable _).2 (by decide), (mem_fullTable _).2 (by decide), rfl, rfl, ?_,
    bitmask_eq _ (by decide), ?_, bitmask_eq _ (by decide)⟩
  · exact spread_eq nop_variant (by decide)
  · exact spread_eq panic_variant (by decide)

/-- C29: masking any instruction gives a variant whose bitmask is the bitspread constant. -/
theorem C29_masking {w : Nat} (o : DecodedOpcode w) :
    opcodeAsIntegerBitmask o.maskIntoNop.variant ⟨1⟩ = NOP_BITSPREAD_U64 ∧
    opcodeAsIntegerBitmask o.maskIntoPanic.variant ⟨1⟩ = PANIC_BITSPREAD_U64 := by
  constructor
  · exact (bitmask_eq _ (by decide)).trans (spread_eq nop_variant (by decide)).symm
  · exact (bitmask_eq _ (by decide)).trans (spread_eq panic_variant (by decide)).symm

/-- C29: the two constants in numbers: `Nop` is bits 1, 16, 28, 34, 49; `Ret.Panic` is bits 14, 18, 28, 34, 49. -/
theorem C29_values : NOP_BITSPREAD_U64 = .ok 0x0002000410010002#64 ∧
    PANIC_BITSPREAD_U64 = .ok 0x0002000410044000#64 := by
  constructor
  · exact (spread_eq nop_variant (by decide)).trans (by decide)
  · exact (spread_eq panic_variant (by decide)).trans (by decide)

end ZkEvm.Props
