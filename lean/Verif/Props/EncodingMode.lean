import Verif.Lemmas.EncodingMode
import Verif.Lemmas.Hash
import Verif.Props.Machine
import Verif.Spec.Formats
/-!
# Encoding modes as an interface: C85
-/
namespace ZkEvm.Props
open Spec Bitmask Tables Program Deploy MachineLemmas EncodingModeLemmas HashLemmas Words

/-! ## C85 -/

/-- C85: every list of representable instructions can be assembled, into `N` bytes per instruction. -/
theorem C85_assembles {N : Nat} (E : VmEncodingMode N) (valid : E.Decoded → Prop)
    (hL : Lawful E valid) (b : Build) (prog : List E.Decoded) (hv : ∀ o ∈ prog, valid o) :
    ∃ code, Assembled (E.encodeAsBytes b) prog code ∧ code.length = N * prog.length := by
  have : ∃ code, Assembled (E.encodeAsBytes b) prog code := by
    induction prog with
    | nil => exact ⟨[], .nil⟩
    | cons o prog ih =>
      obtain ⟨code, hc⟩ := ih fun o ho => hv o (List.mem_cons_of_mem _ ho)
      obtain ⟨i, _, hi, _⟩ := hL.roundtrip b o (hv o List.mem_cons_self)
      exact ⟨E.integerAsBytes i ++ code, .cons (hL.bytes b o i hi) hc⟩
  obtain ⟨code, hc⟩ := this
  exact ⟨code, hc, assembled_length N (fun o l h => E.encodeAsBytes_length b o l h) hc⟩

/-- C85: in every encoding mode that meets the contract, an assembled program is fetched and decoded as written. -/
theorem C85_program {N : Nat} (E : VmEncodingMode N) (valid : E.Decoded → Prop)
    (hL : Lawful E valid) (b : Build) (prog : List E.Decoded) (code : List Byte) (hv : ∀ o ∈ prog, valid o)
    (hA : Assembled (E.encodeAsBytes b) prog code) (pc : E.pcOrImm.carrier) (o : E.Decoded)
    (ho : prog[value pc]? = some o) (v : U256) (hw : HoldsWord v code (value (E.splitPc pc).1)) :
    ∃ raw n, E.integerRepresentationFromU256 v (E.splitPc pc).2 = .ok raw ∧ E.parse raw = .ok (o, n) :=
  fetch_decode hL hA (hv o (List.mem_of_getElem? ho)) ho hw

/-- C85: adding one again and again, starting from zero, visits all program counters in order and then starts again; so
straight-line execution decodes the instructions of the program one after the other. -/
theorem C85_straight_line {N : Nat} (E : VmEncodingMode N) (valid : E.Decoded → Prop) (hL : Lawful E valid) (b : Build)
    (prog : List E.Decoded) (code : List Byte) (hv : ∀ o ∈ prog, valid o) (hA : Assembled (E.encodeAsBytes b) prog code)
    (page : Nat → U256) (hp : ∀ k, HoldsWord (page k) code k) (n : Nat) :
    value (counterAfter E.pcOrImm n) = n % (value E.pcOrImm.max + 1) ∧
    ∀ o, prog[n % (value E.pcOrImm.max + 1)]? = some o →
      ∃ raw k, E.integerRepresentationFromU256 (page (value (E.splitPc (counterAfter E.pcOrImm n)).1))
          (E.splitPc (counterAfter E.pcOrImm n)).2 = .ok raw ∧ E.parse raw = .ok (o, k) := by
  have key : value (counterAfter E.pcOrImm n) = n % (value E.pcOrImm.max + 1) := by
    induction n with
    | zero => rw [Nat.zero_mod]; exact hL.counter.zero
    | succ n ih =>
      show value (E.pcOrImm.wrappingAdd _ _) = _
      rw [hL.counter.add, ih, hL.counter.clip, ← Nat.add_mod]
      rfl
  exact ⟨key, fun o ho => C85_program E valid hL b prog code hv hA _ o (by rw [key]; exact ho) _ (hp _)⟩

/-- C85: encodings of different representable instructions differ, and so do the bytecodes of different programs. -/
theorem C85_injective {N : Nat} (E : VmEncodingMode N) (valid : E.Decoded → Prop)
    (hL : Lawful E valid) (b b' : Build) :
    (∀ o o' l, valid o → valid o' → E.encodeAsBytes b o = .ok l → E.encodeAsBytes b' o' = .ok l → o = o') ∧
    (∀ p p' code, (∀ o ∈ p, valid o) → (∀ o ∈ p', valid o) → Assembled (E.encodeAsBytes b) p code →
      Assembled (E.encodeAsBytes b') p' code → p = p') := by
  have key : ∀ o o' l, valid o → valid o' → E.encodeAsBytes b o = .ok l → E.encodeAsBytes b' o' = .ok l → o = o' := by
    intro o o' l ho ho' h h'
    obtain ⟨i, n, hi, hp, _⟩ := hL.roundtrip b o ho
    obtain ⟨i', n', hi', hp', _⟩ := hL.roundtrip b' o' ho'
    have e : i = i' := hL.distinct i i' (Except.ok.inj (((hL.bytes b o i hi).symm.trans h).trans
      (((hL.bytes b' o' i' hi').symm.trans h').symm)))
    rw [e] at hp
    exact (same_result hp hp').1
  refine ⟨key, ?_⟩
  intro p p' code hv hv' h h'
  have hl : p.length = p'.length := by
    have h1 := assembled_length N (fun o l h => E.encodeAsBytes_length b o l h) h
    have h2 := assembled_length N (fun o l h => E.encodeAsBytes_length b' o l h) h'
    exact Nat.eq_of_mul_eq_mul_left hL.size.1 (h1.symm.trans h2)
  apply List.ext_getElem hl
  intro i h1 h2
  have e1 := assembled_slice N (fun o l h => E.encodeAsBytes_length b o l h) h i p[i] (List.getElem?_eq_getElem h1)
  have e2 := assembled_slice N (fun o l h => E.encodeAsBytes_length b' o l h) h' i p'[i] (List.getElem?_eq_getElem h2)
  exact key _ _ _ (hv _ (List.getElem_mem h1)) (hv' _ (List.getElem_mem h2)) e1 e2

/-- C85: refinement. In every mode that meets the contract and writes some instruction `z` as zero bytes, every machine
reaches on the words, after any number of cycles, the state that it reaches on the instructions, `z` standing after the
end of each program; nothing panics. -/
theorem C85_refinement {N : Nat} (E : VmEncodingMode N) (valid : E.Decoded → Prop)
    (hL : Lawful E valid) (z : E.Decoded) (hz : valid z)
    (hz0 : ∀ b, E.encodeAsBytes b z = .ok (List.replicate N 0)) {State Contract : Type}
    (M : ModeMachine E State Contract) (b : Contract → Build) (progs : Contract → List E.Decoded)
    (code : Contract → List Byte) (words : Contract → List (Vector Byte 32)) (page : Contract → Nat → U256)
    (hv : ∀ c, ∀ o ∈ progs c, valid o) (hA : ∀ c, Assembled (E.encodeAsBytes (b c)) (progs c) (code c))
    (hp : ∀ c, PaddedTo (code c) (words c)) (hpage : ∀ c k, HoldsPageWord (page c k) (words c) k) (n : Nat) (s : State) :
    cycles (modeCycle M page) n s = .ok (runMode M z progs n s) := by
  refine cycles_eq (step := fun s => M.execute s ((progs (M.contract s))[value (M.pc s)]?.getD z)) (fun s => ?_) _
    (fun _ => rfl) (fun _ _ => rfl) n s
  have hw := holds_pad (holds_of_page (hp (M.contract s)) (hpage (M.contract s) (value (E.splitPc (M.pc s)).1)))
    ((value (M.pc s) + 1 - (progs (M.contract s)).length) * N)
  have hat : (progs (M.contract s) ++
      List.replicate (value (M.pc s) + 1 - (progs (M.contract s)).length) z)[value (M.pc s)]? =
      some ((progs (M.contract s))[value (M.pc s)]?.getD z) := by
    by_cases h : value (M.pc s) < (progs (M.contract s)).length
    · rw [List.getElem?_append_left h, List.getElem?_eq_getElem h]; rfl
    · rw [List.getElem?_append_right (by omega), List.getElem?_replicate, if_pos (by omega),
        List.getElem?_eq_none (by omega)]
      rfl
  have hvalid : valid ((progs (M.contract s))[value (M.pc s)]?.getD z) := by
    cases h : (progs (M.contract s))[value (M.pc s)]? with
    | none => exact hz
    | some o => exact hv _ o (List.mem_of_getElem? h)
  obtain ⟨raw, k, h1, h2⟩ := fetch_decode hL (assembled_append (hA (M.contract s))
    (assembled_zeros (hz0 (b (M.contract s))) _)) hvalid hat hw
  exact bind_eq h1 (bind_eq h2 rfl)

/-- C85: in every mode, contract or not, hashing accepts exactly the odd numbers of words up to the mode's largest
program counter, and the accepted hash has the version byte 1, the marker 0, the number of words modulo 65536, and the
last 28 bytes of the digest. -/
theorem C85_hash {N : Nat} (E : VmEncodingMode N) (sha256 : Digest) (words : List (Vector Byte 32)) :
    ((∃ b, E.bytecodeToCodeHash sha256 words = .ok b) ↔
      words.length % 2 = 1 ∧ words.length ≤ (E.pcOrImm.asU64 E.pcOrImm.max).toNat) ∧
    ∀ b, E.bytecodeToCodeHash sha256 words = .ok b →
      b[0] = 1 ∧ b[1] = 0 ∧ HoldsLength b[2] b[3] (words.length % 65536) ∧
      ∀ i (hi : i < 28), b[4 + i] = (sha256 (words.flatMap Vector.toList))[4 + i] := by
  unfold VmEncodingMode.bytecodeToCodeHash
  rw [hash_upTo_eq]
  by_cases h : words.length % 2 = 1 ∧ words.length ≤ (E.pcOrImm.asU64 E.pcOrImm.max).toNat
  · rw [if_pos h]
    refine ⟨iff_of_true ⟨_, rfl⟩ h, fun b hb => ?_⟩
    obtain ⟨h0, h1, h2, h3⟩ := layout_bytes 1 0 (BitVec.ofNat 16 words.length)
      (Vector.ofFn fun (i : Fin 28) => (sha256 (words.flatMap Vector.toList))[4 + i.val])
    rw [← Except.ok.inj hb]
    exact ⟨h0, h1, h2.trans (BitVec.toNat_ofNat ..), fun i hi => (h3 i hi).trans (Vector.getElem_ofFn _)⟩
  · rw [if_neg h]
    exact ⟨iff_of_false (fun ⟨_, hb⟩ => nomatch hb) h, fun _ hb => nomatch hb⟩

private theorem value_ofWidth {w : Nat} (hw : w ≤ 64) (x : (pcOrImmOfWidth w).carrier) :
    value x = @BitVec.toNat w x := ((C58_pc_or_imm w hw).2.1 x).1

private theorem value16 (x : EncodingModeProduction.pcOrImm.carrier) : value x = @BitVec.toNat 16 x :=
  value_ofWidth (w := 16) (by decide) x
private theorem value32 (x : EncodingModeTesting.pcOrImm.carrier) : value x = @BitVec.toNat 32 x :=
  value_ofWidth (w := 32) (by decide) x

private theorem masked_ok {w : Nat} (o : DecodedOpcode w) : Encodable o.maskIntoNop ∧ Encodable o.maskIntoPanic :=
  have h : (0 : Byte).toNat < 16 := by decide
  have nop : WellFormed ⟨.nop .mk, .full .useRegOnly, .full .useRegOnly, ⟨false, false⟩⟩ = true := by decide
  have panic : WellFormed ⟨.ret .panic, .regOnly, .regOnly, ⟨false, false⟩⟩ = true := by decide
  ⟨⟨nop, h, h, h, h⟩, ⟨panic, h, h, h, h⟩⟩

/-- Unsigned machine integers of up to 64 bits meet the contract of program counters. -/
private theorem counter_ofWidth {w : Nat} (hw : w ≤ 64) : LawfulCounter (pcOrImmOfWidth w) := by
  obtain ⟨h1, h2, _, _, h5, h6⟩ := C58_pc_or_imm w hw
  have hp : 0 < 2 ^ w := Nat.pow_pos (by decide)
  have hm : @value (pcOrImmOfWidth w) (pcOrImmOfWidth w).max + 1 = 2 ^ w :=
    (congrArg (· + 1) ((value_ofWidth hw _).trans h6)).trans (by omega)
  refine ⟨fun x y h => ?_, ?_, fun x => ?_, fun v => ?_, fun x y => ?_, fun x y => ?_⟩
  · exact BitVec.eq_of_toNat_eq ((value_ofWidth hw x).symm.trans (h.trans (value_ofWidth hw y)))
  · exact (value_ofWidth hw _).trans BitVec.toNat_zero
  · have := (h2 x).2.2
    rw [value_ofWidth hw, value_ofWidth hw]
    exact this
  · rw [hm, value_ofWidth hw]; exact h1 v
  · rw [hm, value_ofWidth hw, value_ofWidth hw, value_ofWidth hw]; exact (h5 x y).1
  · rw [hm, value_ofWidth hw, value_ofWidth hw, value_ofWidth hw]; exact (h5 x y).2.1

/-- C85: the two modes of the crate meet the contract, with the instructions that exist as representable instructions,
write the all-zero instruction as zero bytes, and hash like the functions for code of 16-bit and 32-bit program
counters. -/
theorem C85_builtin :
    Lawful EncodingModeProduction Encodable ∧ Lawful EncodingModeTesting Encodable ∧
    (∀ b, EncodingModeProduction.encodeAsBytes b (zeroInstruction 16) = .ok (List.replicate 8 0)) ∧
    (∀ b, EncodingModeTesting.encodeAsBytes b (zeroInstruction 32) = .ok (List.replicate 16 0)) ∧
    (∀ sha256 words, EncodingModeProduction.bytecodeToCodeHash sha256 words = bytecodeToCodeHash sha256 words) ∧
    (∀ sha256 words, EncodingModeTesting.bytecodeToCodeHash sha256 words = bytecodeToCodeHashForMode sha256 32 words) := by
  refine ⟨⟨counter_ofWidth (by decide), by decide, ?_, ?_, fun i j h => toBeBytes_inj 8 i j h, masked_ok, ?_, ?_, ?_, ?_⟩,
    ⟨counter_ofWidth (by decide), by decide, ?_, ?_, fun i j h => toBeBytes_inj 16 i j h, masked_ok, ?_, ?_, ?_, ?_⟩,
    zero_bytes_production, zero_bytes_testing, fun _ _ => rfl, fun _ _ => rfl⟩
  · intro b o h
    obtain ⟨_, w, n, _, hw, hp, _⟩ := C02_roundtrip_production b o h
    exact ⟨w, _, hw, hp, (C06_encoded_canonical b).1 o w hw⟩
  · intro b o i h
    show Production.encodeAsBytes b o = _
    unfold Production.encodeAsBytes
    rw [show Production.encodeAsInteger b o = .ok i from h]
    rfl
  · intro b
    obtain ⟨_, w, e, hw, he, _, _, _, h⟩ := C11_mask_encoding_production b (DecodedOpcode.default 16)
    exact he.trans ((congrArg Except.ok (h rfl rfl)).symm.trans hw.symm)
  · intro b
    obtain ⟨⟨w, e, hw, he, _, _, _, h⟩, _⟩ := C11_mask_encoding_production b (DecodedOpcode.default 16)
    exact he.trans ((congrArg Except.ok (h rfl rfl)).symm.trans hw.symm)
  · intro pc
    have := (C10_split_pc_production.1 pc)
    rw [value16, value16, value16]
    exact ⟨this.1, this.2.1⟩
  · intro v i hi
    rw [value16] at hi ⊢
    obtain ⟨x, hx, hn⟩ := (C10_fetch v).1 i hi
    refine ⟨x, hx, ?_⟩
    show beNat (toBeBytes 8 x) = _
    have hi' : BitVec.toNat i < 4 := hi
    rw [beNat_toBeBytes, show (256 : Nat) = 2 ^ 8 from rfl, ← Nat.pow_mul, ← Nat.pow_mul, Nat.mod_eq_of_lt (by exact x.isLt),
      hn, show 8 * (32 - 8 * (BitVec.toNat i + 1)) = 64 * (3 - BitVec.toNat i) by omega]
  · intro b o h
    obtain ⟨_, w, n, _, hw, hp, _⟩ := C03_roundtrip_testing b o h
    exact ⟨w, _, hw, hp, (C06_encoded_canonical b).2 o w hw⟩
  · intro b o i h
    show Testing.encodeAsBytes b o = _
    unfold Testing.encodeAsBytes
    rw [show Testing.encodeAsInteger b o = .ok i from h]
    rfl
  · intro b
    obtain ⟨_, w, e, hw, he, _, _, _, h⟩ := C11_mask_encoding_testing b (DecodedOpcode.default 32)
    exact he.trans ((congrArg Except.ok (h rfl rfl)).symm.trans hw.symm)
  · intro b
    obtain ⟨⟨w, e, hw, he, _, _, _, h⟩, _⟩ := C11_mask_encoding_testing b (DecodedOpcode.default 32)
    exact he.trans ((congrArg Except.ok (h rfl rfl)).symm.trans hw.symm)
  · intro pc
    have := (C10_split_pc_testing.1 pc)
    rw [value32, value32, value32]
    exact ⟨this.1, this.2.1⟩
  · intro v i hi
    rw [value32] at hi ⊢
    obtain ⟨x, hx, hn⟩ := (C10_fetch v).2.2.1 i hi
    refine ⟨x, hx, ?_⟩
    show beNat (toBeBytes 16 x) = _
    have hi' : BitVec.toNat i < 2 := hi
    rw [beNat_toBeBytes, show (256 : Nat) = 2 ^ 8 from rfl, ← Nat.pow_mul, ← Nat.pow_mul, Nat.mod_eq_of_lt (by exact x.isLt),
      hn, show 8 * (32 - 16 * (BitVec.toNat i + 1)) = 128 * (1 - BitVec.toNat i) by omega]

/-- C85: masking and the default instruction in every mode: masking keeps only the immediates, the default instruction is
the no-operation with zero immediates. -/
theorem C85_masks {N : Nat} (E : VmEncodingMode N) (o : E.Decoded) :
    o.maskIntoPanic = ⟨⟨.ret .panic, .regOnly, .regOnly, ⟨false, false⟩⟩, .always, 0, 0, 0, 0, o.imm0, o.imm1⟩ ∧
    o.maskIntoNop = ⟨⟨.nop .mk, .full .useRegOnly, .full .useRegOnly, ⟨false, false⟩⟩, .always, 0, 0, 0, 0,
      o.imm0, o.imm1⟩ ∧
    E.defaultOpcode = ⟨OpcodeVariant.default, .always, 0, 0, 0, 0, E.pcOrImm.zero, E.pcOrImm.zero⟩ :=
  ⟨rfl, rfl, rfl⟩

-- A third mode, which is not in the crate: production words combined with a key by exclusive or. It meets the contract.
private def withKey (key : BitVec 64) (r : Res (BitVec 64)) : Res (BitVec 64) := r.map fun w => w ^^^ key
private theorem withKey_ok {key w : BitVec 64} {r : Res (BitVec 64)} (h : r = .ok w) : withKey key r = .ok (w ^^^ key) := by
  rw [h]; rfl
private theorem withKey_congr {key : BitVec 64} {r r' : Res (BitVec 64)} (h : r = r') : withKey key r = withKey key r' := by
  rw [h]
private theorem map_ok {r : Res (BitVec 64)} {w : BitVec 64} (h : r = .ok w) : r.map (toBeBytes 8) = .ok (toBeBytes 8 w) := by
  rw [h]; rfl
private theorem map_length {r : Res (BitVec 64)} {l : List Byte} (h : r.map (toBeBytes 8) = .ok l) : l.length = 8 := by
  cases r with
  | error _ => exact nomatch h
  | ok x => rw [← Except.ok.inj h]; exact toBeBytes_length_model 8 x
private theorem key_twice {α : Type} {f : BitVec 64 → α} {w key : BitVec 64} {a : α} (h : f w = a) :
    f ((w ^^^ key) ^^^ key) = a := by rw [BitVec.xor_assoc, BitVec.xor_self, BitVec.xor_zero]; exact h

private def keyed (key : BitVec 64) : VmEncodingMode 8 where
  pcOrImm := pcOrImmOfWidth 16
  IntegerRepresentation := BitVec 64
  integerAsBytes := toBeBytes 8
  integerAsBytes_length := toBeBytes_length_model 8
  nopEncoding b := withKey key (Production.nopEncoding b)
  exceptionRevertEncoding b := withKey key (Production.exceptionRevertEncoding b)
  parse w := Production.parse (w ^^^ key)
  encodeAsInteger b o := withKey key (Production.encodeAsInteger b o)
  encodeAsBytes b o := (withKey key (Production.encodeAsInteger b o)).map (toBeBytes 8)
  encodeAsBytes_length _ _ _ h := map_length h
  splitPc := Production.splitPc
  integerRepresentationFromU256 := Production.integerRepresentationFromU256
  isCanonicalEncoding w := Production.isCanonicalEncoding (w ^^^ key)

private theorem keyed_lawful (key : BitVec 64) : Lawful (keyed key) Encodable := by
  have hP := C85_builtin.1
  refine ⟨hP.counter, hP.size, fun b o h => ?_, fun b o i h => ?_, hP.distinct, hP.masked,
    fun b => ?_, fun b => ?_, hP.split, hP.fetch⟩
  · obtain ⟨_, w, n, _, hw, hp, _⟩ := C02_roundtrip_production b o h
    refine ⟨w ^^^ key, .fromUsize n, ?_, ?_, ?_⟩
    · dsimp only [keyed]
      exact withKey_ok hw
    · dsimp only [keyed]
      exact key_twice (f := Production.parse) hp
    · dsimp only [keyed]
      exact key_twice (f := Production.isCanonicalEncoding) ((C06_encoded_canonical b).1 o w hw)
  · dsimp only [keyed] at h ⊢
    exact map_ok h
  · have h := hP.nop b
    dsimp only [VmEncodingMode.defaultOpcode, keyed, EncodingModeProduction] at h ⊢
    exact withKey_congr h
  · have h := hP.panic b
    dsimp only [VmEncodingMode.defaultOpcode, keyed, EncodingModeProduction] at h ⊢
    exact withKey_congr h

-- A machine of the testing mode: the state is the program counter and the sum of the first immediates.
example : ModeMachine EncodingModeTesting (BitVec 32 × Nat) Unit where
  contract _ := ()
  pc s := s.1
  execute s o := (s.1 + 1, s.2 + BitVec.toNat o.imm0)

private def seven16 : DecodedOpcode 16 := { zeroInstruction 16 with imm0 := 7 }
private def two16 : List (DecodedOpcode 16) := [zeroInstruction 16, seven16]
private def two32 : List (DecodedOpcode 32) := [zeroInstruction 32, { zeroInstruction 32 with imm0 := 7 }]
private theorem two16_ok : ∀ o ∈ two16, Encodable o := by decide

/-- C85: a program of the third mode can be assembled, and its second instruction is fetched and decoded; another program
with the same code is the same. -/
example (key : BitVec 64) : ∃ code v raw n, Assembled ((keyed key).encodeAsBytes .debug)
      two16 code ∧ HoldsWord v code 0 ∧
    (keyed key).integerRepresentationFromU256 v (1 : BitVec 16) = .ok raw ∧
    (keyed key).parse raw = .ok (seven16, n) ∧
    (∀ p, (∀ o ∈ p, Encodable o) → Assembled ((keyed key).encodeAsBytes .release) p code →
      p = two16) := by
  obtain ⟨code, hA, _⟩ := C85_assembles (keyed key) Encodable (keyed_lawful key) .debug
    two16 two16_ok
  obtain ⟨v, hw⟩ := C09_word_exists code 0
  obtain ⟨raw, n, h1, h2⟩ := C85_program (keyed key) Encodable (keyed_lawful key) .debug two16 code two16_ok hA (1 : BitVec 16)
    seven16 rfl v hw
  exact ⟨code, v, raw, n, hA, hw, h1, h2, fun p hp hA' =>
    (C85_injective (keyed key) Encodable (keyed_lawful key) .release .debug).2 p two16 code hp two16_ok hA' hA⟩

/-- C85: in testing mode, two instructions executed one after the other, then the zero word. -/
example (M : ModeMachine EncodingModeTesting (BitVec 32 × Nat) Unit) (n : Nat) (s : BitVec 32 × Nat) :
    ∃ words page, (∀ k, HoldsPageWord (page k) words k) ∧
      cycles (modeCycle M fun _ => page) n s =
        .ok (runMode M (zeroInstruction 32) (fun _ => two32) n s) := by
  have hE : ∀ o ∈ two32, Encodable o := by decide
  obtain ⟨code, words, _, hA, hp, _⟩ := C80_deployable_testing .debug (fun _ => Vector.replicate 32 0)
    two32 hE (by decide)
  have hv : ∀ k, ∃ v, HoldsPageWord v words k := fun k => by
    obtain ⟨v, hv⟩ := C09_word_exists (words.flatMap Vector.toList) k
    exact ⟨v, by unfold HoldsPageWord; rw [Deploy.pageWord_eq]; exact hv⟩
  refine ⟨words, fun k => (hv k).choose, fun k => (hv k).choose_spec, ?_⟩
  exact C85_refinement EncodingModeTesting Encodable C85_builtin.2.1 (zeroInstruction 32) (by decide)
    C85_builtin.2.2.2.1 M (fun _ => .debug) (fun _ => two32)
    (fun _ => code) (fun _ => words) (fun _ k => (hv k).choose) (fun _ => hE) (fun _ => hA) (fun _ => hp)
    (fun _ k => (hv k).choose_spec) n s

/-- C85: straight-line execution of the same program in production mode wraps around after 65536 instructions. -/
example (code : List Byte) (page : Nat → U256)
    (hA : Assembled (EncodingModeProduction.encodeAsBytes .debug) two16 code)
    (hp : ∀ k, HoldsWord (page k) code k) : value (counterAfter EncodingModeProduction.pcOrImm 65537) = 1 :=
  (C85_straight_line EncodingModeProduction Encodable C85_builtin.1 .debug two16 code two16_ok hA page hp 65537).1

end ZkEvm.Props
