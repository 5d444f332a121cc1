import Verif.Lemmas.Debug
import Verif.Props.Table
/-! Properties C66 and C67: printed instructions and the printed decoding format. -/
namespace ZkEvm.Props
open ZkEvm.Spec ZkEvm.Display

/-! ## C66 -/

/-- C66: the text printed for a variant determines the variant, whether or not it is part of the instruction set. -/
theorem C66_variant (a b : OpcodeVariant) (h : a.display = b.display) : a = b :=
  (variant_then (r := []) (r' := []) (by rw [h])).1

/-- C66: two far calls that differ in one flag print differently. -/
example : (⟨.farCall .normal, .regOnly, .regOnly, ⟨true, false⟩⟩ : OpcodeVariant).display ≠
    (⟨.farCall .normal, .regOnly, .regOnly, ⟨false, true⟩⟩ : OpcodeVariant).display := fun h =>
  absurd (C66_variant _ _ h) (by decide)

/-- C66: the text printed for an instruction determines the instruction, in both modes (16-bit and 32-bit
immediates), for all register indices. -/
theorem C66_instruction (w : Nat) (hw : w = 16 ∨ w = 32) (a b : DecodedOpcode w) (h : a.display = b.display) :
    a = b := by
  have imm : ∀ x : BitVec w, x.toNat < 16 ^ 32 := fun x =>
    Nat.lt_of_lt_of_le x.isLt (by rcases hw with rfl | rfl <;> decide)
  have reg : ∀ x : Byte, x.toNat < 10 ^ 39 := fun x => Nat.lt_of_lt_of_le x.isLt (by decide)
  unfold DecodedOpcode.display at h
  have h0 := variant_then h
  have h1 := split_line (condition_plain _) (condition_plain _) h0.2
  have h2 := h1.2
  simp only [List.append_assoc] at h2
  have r0 := split_sep (fmtDec_plain _).2 (fmtDec_plain _).2 (cancel h2)
  have r1 := split_sep (fmtDec_plain _).2 (fmtDec_plain _).2 (cancel (p := " src1 = r".toList) r0.2)
  have r2 := split_sep (fmtDec_plain _).2 (fmtDec_plain _).2 (cancel (p := " dst0 = r".toList) r1.2)
  have r3 := split_sep (fmtDec_plain _).1 (fmtDec_plain _).1 (cancel (p := " dst1 = r".toList) r2.2)
  have i0 := split_sep (fmtHex08_plain _) (fmtHex08_plain _) (cancel (p := "IMM0 constant: ".toList) r3.2)
  have i1 := cancel (p := "IMM1 constant: ".toList) i0.2
  have e0 := h0.1
  have e1 := condition_inj h1.1
  have e2 := BitVec.eq_of_toNat_eq (fmtDec_inj (reg _) (reg _) r0.1)
  have e3 := BitVec.eq_of_toNat_eq (fmtDec_inj (reg _) (reg _) r1.1)
  have e4 := BitVec.eq_of_toNat_eq (fmtDec_inj (reg _) (reg _) r2.1)
  have e5 := BitVec.eq_of_toNat_eq (fmtDec_inj (reg _) (reg _) r3.1)
  have e6 := BitVec.eq_of_toNat_eq (fmtHex08_inj (imm _) (imm _) i0.1)
  have e7 := BitVec.eq_of_toNat_eq (fmtHex08_inj (imm _) (imm _) i1)
  rcases a with ⟨a0, a1, a2, a3, a4, a5, a6, a7⟩
  rcases b with ⟨b0, b1, b2, b3, b4, b5, b6, b7⟩
  dsimp only at e0 e1 e2 e3 e4 e5 e6 e7
  subst e0 e1 e2 e3 e4 e5 e6 e7
  rfl

/-- C66: two instructions that differ in an immediate only print differently. -/
example (v : OpcodeVariant) : DecodedOpcode.display (w := 16) ⟨v, .always, 1, 2, 3, 4, 5, 6⟩ ≠
    DecodedOpcode.display (w := 16) ⟨v, .always, 1, 2, 3, 4, 5, 0x506⟩ := fun h =>
  absurd (congrArg DecodedOpcodeOf.imm1 (C66_instruction 16 (.inl rfl) _ _ h)) (show (6 : BitVec 16) ≠ 0x506 by decide)

private theorem immediate (w : Nat) (hw : w = 16 ∨ w = 32) (x : BitVec w) :
    (fmtHex08 x.toNat).take 2 = ['0', 'x'] ∧ readNumber 16 ((fmtHex08 x.toNat).drop 2) = x.toNat ∧
    (w = 16 → (fmtHex08 x.toNat).length = 8) ∧
    8 ≤ (fmtHex08 x.toNat).length ∧ (fmtHex08 x.toNat).length ≤ 10 := by
  have hx : x.toNat < 16 ^ 8 := Nat.lt_of_lt_of_le x.isLt (by rcases hw with rfl | rfl <;> decide)
  have hlen : (fmtHex08 x.toNat).length = 2 + (8 - (2 + (fmtHexDigits x.toNat).length)) +
      (fmtHexDigits x.toNat).length := by
    unfold fmtHex08
    rw [List.length_append, List.length_append, List.length_replicate]
    rfl
  have hd : ∀ k, x.toNat < 16 ^ k → 0 < k → k ≤ 32 → (fmtHexDigits x.toNat).length ≤ k := by
    intro k hk h0 h32
    unfold fmtHexDigits
    rw [List.length_map, List.length_reverse]
    exact digitsRev_length (by decide) 32 k _ hk h0 h32
  refine ⟨rfl, fmtHex08_drop _ (Nat.lt_of_lt_of_le hx (by decide)), ?_, ?_, ?_⟩
  · intro h16
    subst h16
    have := hd 4 (Nat.lt_of_lt_of_le x.isLt (by decide)) (by decide) (by decide)
    omega
  · omega
  · have := hd 8 hx (by decide) (by decide)
    omega

private theorem lines_line {a b : List Char} (h : '\n' ∉ a) : lines (a ++ '\n' :: b) = a :: lines b := by
  induction a with
  | nil => show lines ('\n' :: b) = _; rw [lines, if_pos rfl]
  | cons c a ih =>
    have hc : c ≠ '\n' := fun e => h (e ▸ List.mem_cons_self)
    show lines (c :: (a ++ '\n' :: b)) = _
    rw [lines, if_neg hc, ih (fun e => h (List.mem_cons_of_mem _ e))]

private theorem lines_last {a : List Char} (h : '\n' ∉ a) : lines a = [a] := by
  induction a with
  | nil => rfl
  | cons c a ih =>
    have hc : c ≠ '\n' := fun e => h (e ▸ List.mem_cons_self)
    rw [lines, if_neg hc, ih (fun e => h (List.mem_cons_of_mem _ e))]

private theorem digit_chars : ∀ d, d < 10 → (digitChar d).isDigit = true := by decide

private theorem fmtDec_digits (n : Nat) : (fmtDec n).all Char.isDigit = true := by
  rw [List.all_eq_true]
  intro c hc
  unfold fmtDec at hc
  rw [List.mem_map] at hc
  obtain ⟨d, hd, rfl⟩ := hc
  exact digit_chars d (digitsRev_lt (by decide) _ _ d (List.mem_reverse.1 hd))

/-- C66: the printed text of an instruction, line by line: the opcode, the operand types and the condition by the names
the crate declares (`Verif/Spec/Debug.lean`), the flags as `true` or `false`, every register index after its own label in decimal, every
immediate after its own label in hexadecimal (six digits in production mode, six to eight in testing mode). -/
theorem C66_fields (w : Nat) (hw : w = 16 ∨ w = 32) (o : DecodedOpcode w) :
    ∃ op src dst cond r0 r1 r2 r3 i0 i1 : List Char,
      lines o.display =
        [ "Opcode and variant: ".toList ++ op,
          "Src0 operand type: ".toList ++ src,
          "Dst0 operand type: ".toList ++ dst,
          "Non-exclusive flags: ".toList ++ (if o.variant.flags.f0 then "true" else "false").toList ++ "|".toList ++
            (if o.variant.flags.f1 then "true" else "false").toList,
          "Condition: ".toList ++ cond,
          "Register selections: src0 = r".toList ++ r0 ++ ", src1 = r".toList ++ r1 ++ ", dst0 = r".toList ++ r2 ++
            ", dst1 = r".toList ++ r3,
          "IMM0 constant: 0x".toList ++ i0,
          "IMM1 constant: 0x".toList ++ i1 ] ∧
      readDebug op = some (opcodePrinted o.variant.opcode) ∧
      readDebug src = some (operandPrinted o.variant.src0OperandType) ∧
      readDebug dst = some (operandPrinted o.variant.dst0OperandType) ∧
      readDebug cond = some (wordOf (conditionName o.condition)) ∧
      (∀ r ∈ [r0, r1, r2, r3], r.all Char.isDigit = true) ∧
      readNumber 10 r0 = o.src0RegIdx.toNat ∧ readNumber 10 r1 = o.src1RegIdx.toNat ∧
      readNumber 10 r2 = o.dst0RegIdx.toNat ∧ readNumber 10 r3 = o.dst1RegIdx.toNat ∧
      readNumber 16 i0 = o.imm0.toNat ∧ readNumber 16 i1 = o.imm1.toNat ∧
      (∀ i ∈ [i0, i1], (w = 16 → i.length = 6) ∧ 6 ≤ i.length ∧ i.length ≤ 8) := by
  have reg : ∀ x : Byte, x.toNat < 10 ^ 39 := fun x => Nat.lt_of_lt_of_le x.isLt (by decide)
  have hx : ∀ x : BitVec w, fmtHex08 x.toNat = ['0', 'x'] ++ (fmtHex08 x.toNat).drop 2 := fun x => rfl
  have hbool : ∀ b : Bool, (if b then "true" else "false").toList = fmtBool b := fun b => by cases b <;> rfl
  rw [hbool, hbool]
  refine ⟨o.variant.opcode.debug, o.variant.src0OperandType.debug, o.variant.dst0OperandType.debug, o.condition.debug,
    fmtDec o.src0RegIdx.toNat, fmtDec o.src1RegIdx.toNat, fmtDec o.dst0RegIdx.toNat, fmtDec o.dst1RegIdx.toNat,
    (fmtHex08 o.imm0.toNat).drop 2, (fmtHex08 o.imm1.toNat).drop 2, ?_,
    DebugLemmas.readDebug_of (DebugLemmas.reads_opcode _), DebugLemmas.readDebug_of (DebugLemmas.reads_operand _),
    DebugLemmas.readDebug_of (DebugLemmas.reads_operand _), DebugLemmas.readDebug_of (DebugLemmas.reads_condition _),
    ?_, readNumber_fmtDec (reg _),
    readNumber_fmtDec (reg _), readNumber_fmtDec (reg _), readNumber_fmtDec (reg _), (immediate w hw _).2.1,
    (immediate w hw _).2.1, ?_⟩
  · have hp : ∀ {p : List Char} {a : List Char}, '\n' ∉ p → '\n' ∉ a → '\n' ∉ p ++ a := by
      intro p a h1 h2 h
      rcases List.mem_append.1 h with h | h
      · exact h1 h
      · exact h2 h
    have l0 := hp (p := "Opcode and variant: ".toList) (by decide) (opcode_plain o.variant.opcode)
    have l1 := hp (p := "Src0 operand type: ".toList) (by decide) (operand_plain o.variant.src0OperandType)
    have l2 := hp (p := "Dst0 operand type: ".toList) (by decide) (operand_plain o.variant.dst0OperandType)
    have l3 := hp (hp (hp (p := "Non-exclusive flags: ".toList) (by decide) (bool_plain o.variant.flags.f0).1)
      (show '\n' ∉ "|".toList by decide)) (bool_plain o.variant.flags.f1).1
    have l4 := hp (p := "Condition: ".toList) (by decide) (condition_plain o.condition)
    have l5 := hp (hp (hp (hp (hp (hp (hp (p := "Register selections: src0 = r".toList) (by decide)
      (fmtDec_plain o.src0RegIdx.toNat).1) (show '\n' ∉ ", src1 = r".toList by decide))
      (fmtDec_plain o.src1RegIdx.toNat).1) (show '\n' ∉ ", dst0 = r".toList by decide))
      (fmtDec_plain o.dst0RegIdx.toNat).1) (show '\n' ∉ ", dst1 = r".toList by decide))
      (fmtDec_plain o.dst1RegIdx.toNat).1
    have l6 := hp (p := "IMM0 constant: ".toList) (by decide) (fmtHex08_plain o.imm0.toNat)
    have l7 := hp (p := "IMM1 constant: ".toList) (by decide) (fmtHex08_plain o.imm1.toNat)
    have e6 : "IMM0 constant: 0x".toList ++ (fmtHex08 o.imm0.toNat).drop 2
        = "IMM0 constant: ".toList ++ fmtHex08 o.imm0.toNat := rfl
    have e7 : "IMM1 constant: 0x".toList ++ (fmtHex08 o.imm1.toNat).drop 2
        = "IMM1 constant: ".toList ++ fmtHex08 o.imm1.toNat := rfl
    rw [e6, e7, ← lines_last l7, ← lines_line l6, ← lines_line l5, ← lines_line l4, ← lines_line l3, ← lines_line l2,
      ← lines_line l1, ← lines_line l0]
    refine congrArg lines ?_
    unfold DecodedOpcode.display OpcodeVariant.display
    have hs : "|".toList = ['|'] := rfl
    simp only [List.append_assoc, List.cons_append, List.nil_append, hs]
  · intro r hr
    simp only [List.mem_cons, List.not_mem_nil, or_false] at hr
    rcases hr with rfl | rfl | rfl | rfl <;> exact fmtDec_digits _
  · intro i hi
    simp only [List.mem_cons, List.not_mem_nil, or_false] at hi
    have key : ∀ x : BitVec w, (w = 16 → ((fmtHex08 x.toNat).drop 2).length = 6) ∧
        6 ≤ ((fmtHex08 x.toNat).drop 2).length ∧ ((fmtHex08 x.toNat).drop 2).length ≤ 8 := by
      intro x
      obtain ⟨_, _, h3, h4, h5⟩ := immediate w hw x
      rw [List.length_drop]
      exact ⟨fun h => by rw [h3 h], by omega, by omega⟩
    rcases hi with rfl | rfl <;> exact key _

/-- A concrete instruction and its text. -/
example : (String.ofList (DecodedOpcode.display (w := 16)
      ⟨⟨.sub .sub, .full .useStackWithOffset, .full .useRegOnly, ⟨true, false⟩⟩, .gtOrLt, 1, 2, 3, 15, 0x1f, 0xbeef⟩)) =
    "Opcode and variant: Sub(Sub)\nSrc0 operand type: Full(UseStackWithOffset)\nDst0 operand type: Full(UseRegOnly)\nNon-exclusive flags: true|false\nCondition: GtOrLt\nRegister selections: src0 = r1, src1 = r2, dst0 = r3, dst1 = r15\nIMM0 constant: 0x00001f\nIMM1 constant: 0x00beef" := by
  decide +kernel

/-! ## C67 -/

/-- C67: the printed decoding format names the widths of the opcode, variant, flag, input and output groups of the
bitmask and their total for every supported version, and printing panics for every other version. -/
theorem C67_format (v : ISAVersion) :
    (v.num ≤ 1 → computeDecodingFormatText v = .ok
      "38 bits in total.\n16 bit flags for opcode|10 bit flags for variant|2 bit flags for flags|6 bits flags for input type|4 bit flags for output type".toList) ∧
    (2 ≤ v.num → Panics (computeDecodingFormatText v)) := by
  constructor
  · intro h
    rcases v with ⟨_ | _ | n⟩
    · decide +kernel
    · decide +kernel
    · simp at h
  · intro h
    obtain ⟨e, he⟩ := (C24_unsupported_versions v h).2.2.2.2.1
    exact ⟨e, by unfold computeDecodingFormatText; rw [he]; rfl⟩

end ZkEvm.Props
