import Verif.Lemmas.Listing
import Verif.Props.Disassembly
import Verif.Props.Display
/-!
# Listings: C113

Programs printed instruction by instruction, one after the other.
-/
namespace ZkEvm.Props
open Spec Deploy DisassemblyLemmas ListingLemmas

private theorem display_lines (w : Nat) (hw : w = 16 ∨ w = 32) (o : DecodedOpcode w) : (lines o.display).length = 8 := by
  obtain ⟨op, src, dst, cond, r0, r1, r2, r3, i0, i1, h, _⟩ := C66_fields w hw o
  rw [h]
  rfl

/-- C113: a listing has eight lines for each instruction, which are those printed for it, and ends after them. -/
theorem C113_lines (w : Nat) (hw : w = 16 ∨ w = 32) (prog : List (DecodedOpcode w)) :
    (lines (listing prog)).length = 8 * prog.length + 1 ∧ (lines (listing prog))[8 * prog.length]? = some [] ∧
    ∀ (i : Nat) o, prog[i]? = some o → ((lines (listing prog)).drop (8 * i)).take 8 = lines o.display := by
  induction prog with
  | nil =>
    refine ⟨rfl, rfl, fun i o h => ?_⟩
    rw [List.getElem?_nil] at h
    cases h
  | cons o prog ih =>
    obtain ⟨h1, h2, h3⟩ := ih
    have h8 := display_lines w hw o
    rw [listing_cons, lines_append]
    refine ⟨by rw [List.length_append, h8, h1, List.length_cons]; omega, ?_, fun i o' ho => ?_⟩
    · rw [List.getElem?_append_right (by rw [h8, List.length_cons]; omega), h8, List.length_cons, ← h2]
      congr 1
    · cases i with
      | zero =>
        obtain rfl := Option.some.inj ho
        exact List.take_left' h8
      | succ i =>
        rw [Nat.mul_succ, Nat.add_comm, ← List.drop_drop, List.drop_left' h8]
        exact h3 i o' ho

/-- C113: a listing begins with another one exactly if the program begins with the other program. -/
theorem C113_prefix (w : Nat) (hw : w = 16 ∨ w = 32) (prog prog' : List (DecodedOpcode w)) :
    listing prog <+: listing prog' ↔ prog <+: prog' := by
  constructor
  · rintro ⟨t, h⟩
    induction prog generalizing prog' with
    | nil => exact List.nil_prefix
    | cons o prog ih =>
      cases prog' with
      | nil =>
        rw [listing_cons] at h
        have := congrArg List.length h
        rw [List.length_append, List.length_append, List.length_cons, show listing ([] : List (DecodedOpcode w)) = [] from rfl,
          List.length_nil] at this
        omega
      | cons o' prog' =>
        rw [listing_cons, listing_cons, List.append_assoc, List.cons_append] at h
        have hl := congrArg lines h
        rw [lines_append, lines_append] at hl
        obtain ⟨h1, _⟩ := List.append_inj hl ((display_lines w hw o).trans (display_lines w hw o').symm)
        obtain rfl := C66_instruction w hw o o' (lines_inj h1)
        obtain ⟨c, hc⟩ := ih prog' (List.cons.inj (List.append_cancel_left h)).2
        exact ⟨c, by rw [List.cons_append, hc]⟩
  · rintro ⟨c, rfl⟩
    exact ⟨listing c, by unfold listing; rw [List.flatMap_append]⟩

/-- C113: a listing determines the program. -/
theorem C113_unambiguous (w : Nat) (hw : w = 16 ∨ w = 32) (prog prog' : List (DecodedOpcode w))
    (h : listing prog = listing prog') : prog = prog' := by
  have h1 := (C113_prefix w hw prog prog').1 (h ▸ List.prefix_rfl)
  have h2 := (C113_prefix w hw prog' prog).1 (h ▸ List.prefix_rfl)
  exact h1.eq_of_length (Nat.le_antisymm h1.length_le h2.length_le)

/-- A production instruction with the immediates of a testing one -/
private def widen (o : DecodedOpcode 16) : DecodedOpcode 32 :=
  { variant := o.variant, condition := o.condition, src0RegIdx := o.src0RegIdx, src1RegIdx := o.src1RegIdx,
    dst0RegIdx := o.dst0RegIdx, dst1RegIdx := o.dst1RegIdx, imm0 := o.imm0.setWidth 32, imm1 := o.imm1.setWidth 32 }

private theorem widen_toNat (x : BitVec 16) : (x.setWidth 32).toNat = x.toNat := by
  rw [BitVec.toNat_setWidth]
  exact Nat.mod_eq_of_lt (Nat.lt_of_lt_of_le x.isLt (by decide))

private theorem display_widen (o : DecodedOpcode 16) : (widen o).display = o.display := by
  unfold DecodedOpcode.display widen
  dsimp only
  rw [widen_toNat, widen_toNat]

private theorem widen_eq (o : DecodedOpcode 16) (o' : DecodedOpcode 32) : widen o = o' ↔ SameContents o o' := by
  rcases o with ⟨a1, a2, a3, a4, a5, a6, a7, a8⟩
  rcases o' with ⟨b1, b2, b3, b4, b5, b6, b7, b8⟩
  unfold widen SameContents
  simp only [DecodedOpcodeOf.mk.injEq]
  rw [← widen_toNat a7, ← widen_toNat a8, BitVec.toNat_inj, BitVec.toNat_inj]

/-- C113: a listing does not say for which encoding the program is: those of a production and of a testing program are the
same exactly if the instructions have the same contents. -/
theorem C113_modes (prog : List (DecodedOpcode 16)) (prog' : List (DecodedOpcode 32)) :
    listing prog = listing prog' ↔ prog.length = prog'.length ∧
      ∀ (i : Nat) o o', prog[i]? = some o → prog'[i]? = some o' → SameContents o o' := by
  have hl : listing prog = listing (prog.map widen) := by
    unfold listing
    rw [List.flatMap_map]
    simp only [display_widen]
  rw [hl]
  constructor
  · intro h
    obtain rfl := C113_unambiguous 32 (.inr rfl) _ _ h
    refine ⟨by rw [List.length_map], fun i o o' ho ho' => ?_⟩
    rw [List.getElem?_map, ho] at ho'
    exact (widen_eq o o').1 (Option.some.inj ho')
  · rintro ⟨h1, h2⟩
    congr 1
    apply List.ext_getElem (by rw [List.length_map, h1])
    intro i hi hi'
    rw [List.getElem_map]
    rw [List.length_map] at hi
    exact (widen_eq _ _).2 (h2 i _ _ (List.getElem?_eq_getElem hi) (List.getElem?_eq_getElem hi'))

/-- C113, production: the listings of what two codes decode to are the same exactly if the codes have the same length and agree,
piece by piece, in bits 13 to 63 and in the number of the instruction, numbers of no instruction being as good as number 0. -/
theorem C113_codes_production (words words' : List (Vector Byte 32)) (prog prog' : List (DecodedOpcode 16))
    (hd : Disassembled 8 Production.parse words prog) (hd' : Disassembled 8 Production.parse words' prog') :
    listing prog = listing prog' ↔ words.length = words'.length ∧
      ∀ (i : Nat) (raw raw' : BitVec 64), i < prog.length → raw.toNat = beNat (piece 8 words i) →
        raw'.toNat = beNat (piece 8 words' i) → bits raw 13 51 = bits raw' 13 51 ∧
        (if bits raw 0 11 < 1093 then bits raw 0 11 else 0) = (if bits raw' 0 11 < 1093 then bits raw' 0 11 else 0) := by
  rw [← C112_same_production words words' prog prog' hd hd']
  exact ⟨fun h => C113_unambiguous 16 (.inl rfl) prog prog' h, fun h => by rw [h]⟩

/-- C113, production: among the codes with zeros in all unused bits and with numbers of instructions only, the listing determines
the code. -/
theorem C113_canonical_production (words words' : List (Vector Byte 32)) (prog prog' : List (DecodedOpcode 16))
    (hd : Disassembled 8 Production.parse words prog) (hd' : Disassembled 8 Production.parse words' prog')
    (hc : ∀ (i : Nat) (raw : BitVec 64), i < prog.length → raw.toNat = beNat (piece 8 words i) →
      bits raw 11 2 = 0 ∧ bits raw 0 11 < 1093)
    (hc' : ∀ (i : Nat) (raw : BitVec 64), i < prog'.length → raw.toNat = beNat (piece 8 words' i) →
      bits raw 11 2 = 0 ∧ bits raw 0 11 < 1093)
    (h : listing prog = listing prog') : words = words' := by
  obtain rfl := C113_unambiguous 16 (.inl rfl) prog prog' h
  obtain ⟨prog1, h1, hE, hu⟩ := C112_disassembly_production words
  rw [← hu prog hd] at hE
  obtain ⟨code, hA, _⟩ := (C09_assembles .debug).1 prog hE
  refine flat_inj _ _ (Eq.trans ?_ ((C112_reassembled_production .debug words' prog code hd' hA).2.2 hc'))
  exact ((C112_reassembled_production .debug words prog code hd hA).2.2 hc).symm

/-- C113, testing: the listings of what two codes decode to are the same exactly if the codes have the same length and agree,
piece by piece, in bits 13 to 95 and in the number of the instruction, numbers of no instruction being as good as number 0. -/
theorem C113_codes_testing (words words' : List (Vector Byte 32)) (prog prog' : List (DecodedOpcode 32))
    (hd : Disassembled 16 Testing.parse words prog) (hd' : Disassembled 16 Testing.parse words' prog') :
    listing prog = listing prog' ↔ words.length = words'.length ∧
      ∀ (i : Nat) (raw raw' : BitVec 128), i < prog.length → raw.toNat = beNat (piece 16 words i) →
        raw'.toNat = beNat (piece 16 words' i) → bits raw 13 83 = bits raw' 13 83 ∧
        (if bits raw 0 11 < 1093 then bits raw 0 11 else 0) = (if bits raw' 0 11 < 1093 then bits raw' 0 11 else 0) := by
  rw [← C112_same_testing words words' prog prog' hd hd']
  exact ⟨fun h => C113_unambiguous 32 (.inr rfl) prog prog' h, fun h => by rw [h]⟩

/-- C113, testing: among the codes with zeros in all unused bits and with numbers of instructions only, the listing determines
the code. -/
theorem C113_canonical_testing (words words' : List (Vector Byte 32)) (prog prog' : List (DecodedOpcode 32))
    (hd : Disassembled 16 Testing.parse words prog) (hd' : Disassembled 16 Testing.parse words' prog')
    (hc : ∀ (i : Nat) (raw : BitVec 128), i < prog.length → raw.toNat = beNat (piece 16 words i) →
      bits raw 11 2 = 0 ∧ bits raw 96 32 = 0 ∧ bits raw 0 11 < 1093)
    (hc' : ∀ (i : Nat) (raw : BitVec 128), i < prog'.length → raw.toNat = beNat (piece 16 words' i) →
      bits raw 11 2 = 0 ∧ bits raw 96 32 = 0 ∧ bits raw 0 11 < 1093)
    (h : listing prog = listing prog') : words = words' := by
  obtain rfl := C113_unambiguous 32 (.inr rfl) prog prog' h
  obtain ⟨prog1, h1, hE, hu⟩ := C112_disassembly_testing words
  rw [← hu prog hd] at hE
  obtain ⟨code, hA, _⟩ := (C09_assembles .debug).2 prog hE
  refine flat_inj _ _ (Eq.trans ?_ ((C112_reassembled_testing .debug words' prog code hd' hA).2.2 hc'))
  exact ((C112_reassembled_testing .debug words prog code hd hA).2.2 hc).symm

/-! Cases: programs of two instructions. -/

private def nopWith (w : Nat) (r : Byte) (x : BitVec w) : DecodedOpcode w :=
  ⟨⟨.nop .mk, .full .useRegOnly, .full .useRegOnly, ⟨false, false⟩⟩, .always, r, 0, 0, 0, x, 0⟩

example : (lines (listing [nopWith 16 1 2, nopWith 16 3 4])).length = 17 ∧
    ((lines (listing [nopWith 16 1 2, nopWith 16 3 4])).drop 8).take 8 = lines (nopWith 16 3 4).display :=
  have h := C113_lines 16 (.inl rfl) [nopWith 16 1 2, nopWith 16 3 4]
  ⟨h.1, h.2.2 1 _ rfl⟩
example : listing [nopWith 32 1 2] <+: listing [nopWith 32 1 2, nopWith 32 3 4] :=
  (C113_prefix 32 (.inr rfl) _ _).2 ⟨[nopWith 32 3 4], rfl⟩
example : ¬listing [nopWith 32 3 4] <+: listing [nopWith 32 1 2, nopWith 32 3 4] := fun h => by
  obtain ⟨_, h⟩ := (C113_prefix 32 (.inr rfl) _ _).1 h
  exact absurd (congrArg DecodedOpcodeOf.src0RegIdx (List.cons.inj h).1) (show (3 : Byte) ≠ 1 by decide)
example : listing [nopWith 16 1 2, nopWith 16 3 4] ≠ listing [nopWith 16 3 4, nopWith 16 1 2] := fun h =>
  absurd (congrArg DecodedOpcodeOf.src0RegIdx (List.cons.inj (C113_unambiguous 16 (.inl rfl) _ _ h)).1)
    (show (1 : Byte) ≠ 3 by decide)
example : listing [nopWith 16 1 2] = listing [nopWith 32 1 2] := by
  refine (C113_modes _ _).2 ⟨rfl, fun i o o' h h' => ?_⟩
  cases i with
  | zero =>
    obtain rfl := Option.some.inj h
    obtain rfl := Option.some.inj h'
    exact ⟨rfl, rfl, rfl, rfl, rfl, rfl, rfl, rfl⟩
  | succ i => rw [List.getElem?_cons_succ, List.getElem?_nil] at h; cases h

/-- C113, production: the code of zeros; another code prints the same listing. -/
example : ∃ prog, Disassembled 8 Production.parse [Vector.replicate 32 0] prog ∧
    (∀ (i : Nat) (raw : BitVec 64), i < prog.length → raw.toNat = beNat (piece 8 [Vector.replicate 32 0] i) →
      bits raw 11 2 = 0 ∧ bits raw 0 11 < 1093) := by
  obtain ⟨prog, hd, _⟩ := C112_disassembly_production [Vector.replicate 32 0]
  refine ⟨prog, hd, fun i raw hi hr => ?_⟩
  have hl : prog.length = 4 := by
    have := hd.1
    rw [show [Vector.replicate 32 (0 : Byte)].length = 1 from rfl] at this
    omega
  rw [(by decide +kernel : ∀ i : Fin 4, beNat (piece 8 [Vector.replicate 32 0] i) = 0) ⟨i, hl ▸ hi⟩] at hr
  unfold bits
  omega
example : ∃ words prog prog', words ≠ [Vector.replicate 32 0] ∧ Disassembled 8 Production.parse [Vector.replicate 32 0] prog ∧
    Disassembled 8 Production.parse words prog' ∧ listing prog = listing prog' := by
  obtain ⟨words, hne, _, h⟩ := C112_not_unique_production [Vector.replicate 32 0] (by decide)
  obtain ⟨prog, hd, _⟩ := C112_disassembly_production [Vector.replicate 32 0]
  exact ⟨words, prog, prog, hne, hd, (h prog).1 hd, rfl⟩

/-- C113, testing: the code of zeros; another code prints the same listing. -/
example : ∃ prog, Disassembled 16 Testing.parse [Vector.replicate 32 0] prog ∧
    (∀ (i : Nat) (raw : BitVec 128), i < prog.length → raw.toNat = beNat (piece 16 [Vector.replicate 32 0] i) →
      bits raw 11 2 = 0 ∧ bits raw 96 32 = 0 ∧ bits raw 0 11 < 1093) := by
  obtain ⟨prog, hd, _⟩ := C112_disassembly_testing [Vector.replicate 32 0]
  refine ⟨prog, hd, fun i raw hi hr => ?_⟩
  have hl : prog.length = 2 := by
    have := hd.1
    rw [show [Vector.replicate 32 (0 : Byte)].length = 1 from rfl] at this
    omega
  rw [(by decide +kernel : ∀ i : Fin 2, beNat (piece 16 [Vector.replicate 32 0] i) = 0) ⟨i, hl ▸ hi⟩] at hr
  unfold bits
  omega
example : ∃ words prog prog', words ≠ [Vector.replicate 32 0] ∧ Disassembled 16 Testing.parse [Vector.replicate 32 0] prog ∧
    Disassembled 16 Testing.parse words prog' ∧ listing prog = listing prog' := by
  obtain ⟨words, hne, _, h⟩ := C112_not_unique_testing [Vector.replicate 32 0] (by decide)
  obtain ⟨prog, hd, _⟩ := C112_disassembly_testing [Vector.replicate 32 0]
  exact ⟨words, prog, prog, hne, hd, (h prog).1 hd, rfl⟩

end ZkEvm.Props
