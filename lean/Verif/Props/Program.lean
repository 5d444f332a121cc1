import Verif.Props.Coding
import Verif.Lemmas.Program
/-!
# Programs, program counters, masking, small codecs: C09–C11, C36, C58, C59
-/
namespace ZkEvm.Props
open Spec Numbering Tables Coding Words Pack Program

/-! ## C10 -/

/-- C10, production: the program counter is 4 times the word index plus a sub-word index below 4, the word
index is below 16384, and every such pair comes from exactly one program counter. -/
theorem C10_split_pc_production :
    (∀ pc, pc.toNat = 4 * (Production.splitPc pc).1.toNat + (Production.splitPc pc).2.toNat ∧
      (Production.splitPc pc).2.toNat < 4 ∧ (Production.splitPc pc).1.toNat < 16384) ∧
    (∀ word sub : BitVec 16, word.toNat < 16384 → sub.toNat < 4 →
      ∃ pc, Production.splitPc pc = (word, sub) ∧ ∀ pc', Production.splitPc pc' = (word, sub) → pc' = pc) := by
  have h1 : ∀ pc : BitVec 16, (Production.splitPc pc).1.toNat = pc.toNat / 4 := by
    intro pc
    simp [Production.splitPc, BitVec.toNat_ushiftRight, Nat.shiftRight_eq_div_pow]
  have h2 : ∀ pc : BitVec 16, (Production.splitPc pc).2.toNat = pc.toNat % 4 := by
    intro pc
    exact mask_low pc 0b11#16 2 rfl
  constructor
  · intro pc
    rw [h1, h2]
    have := pc.isLt
    omega
  · intro word sub hw hs
    have hpc : (BitVec.ofNat 16 (4 * word.toNat + sub.toNat)).toNat = 4 * word.toNat + sub.toNat := by
      rw [BitVec.toNat_ofNat]; omega
    refine ⟨BitVec.ofNat 16 (4 * word.toNat + sub.toNat), ?_, ?_⟩
    · apply Prod.ext
      · apply BitVec.eq_of_toNat_eq; rw [h1, hpc]; dsimp only; omega
      · apply BitVec.eq_of_toNat_eq; rw [h2, hpc]; dsimp only; omega
    · intro pc' h
      have e1 := h1 pc'
      have e2 := h2 pc'
      rw [h] at e1 e2
      apply BitVec.eq_of_toNat_eq
      rw [hpc]
      dsimp only at e1 e2
      omega

/-- C10, testing: 2 sub-words per word. -/
theorem C10_split_pc_testing :
    (∀ pc, pc.toNat = 2 * (Testing.splitPc pc).1.toNat + (Testing.splitPc pc).2.toNat ∧
      (Testing.splitPc pc).2.toNat < 2 ∧ (Testing.splitPc pc).1.toNat < 2 ^ 31) ∧
    (∀ word sub : BitVec 32, word.toNat < 2 ^ 31 → sub.toNat < 2 →
      ∃ pc, Testing.splitPc pc = (word, sub) ∧ ∀ pc', Testing.splitPc pc' = (word, sub) → pc' = pc) := by
  have h1 : ∀ pc : BitVec 32, (Testing.splitPc pc).1.toNat = pc.toNat / 2 := by
    intro pc
    simp [Testing.splitPc, BitVec.toNat_ushiftRight, Nat.shiftRight_eq_div_pow]
  have h2 : ∀ pc : BitVec 32, (Testing.splitPc pc).2.toNat = pc.toNat % 2 := by
    intro pc
    exact mask_low pc 0b1#32 1 rfl
  constructor
  · intro pc
    rw [h1, h2]
    have := pc.isLt
    omega
  · intro word sub hw hs
    have hpc : (BitVec.ofNat 32 (2 * word.toNat + sub.toNat)).toNat = 2 * word.toNat + sub.toNat := by
      rw [BitVec.toNat_ofNat]; omega
    refine ⟨BitVec.ofNat 32 (2 * word.toNat + sub.toNat), ?_, ?_⟩
    · apply Prod.ext
      · apply BitVec.eq_of_toNat_eq; rw [h1, hpc]; dsimp only; omega
      · apply BitVec.eq_of_toNat_eq; rw [h2, hpc]; dsimp only; omega
    · intro pc' h
      have e1 := h1 pc'
      have e2 := h2 pc'
      rw [h] at e1 e2
      apply BitVec.eq_of_toNat_eq
      rw [hpc]
      dsimp only at e1 e2
      omega

private theorem u256_limb (v : U256) :
    u256Nat v / 2 ^ 192 % 2 ^ 64 = v.l3.toNat ∧ u256Nat v / 2 ^ 128 % 2 ^ 64 = v.l2.toNat ∧
    u256Nat v / 2 ^ 64 % 2 ^ 64 = v.l1.toNat ∧ u256Nat v % 2 ^ 64 = v.l0.toNat := by
  have hf : Fits [(64, v.l0.toNat), (64, v.l1.toNat), (64, v.l2.toNat), (64, v.l3.toNat)] :=
    ⟨v.l0.isLt, v.l1.isLt, v.l2.isLt, v.l3.isLt, trivial⟩
  have he : u256Nat v = pack [(64, v.l0.toNat), (64, v.l1.toNat), (64, v.l2.toNat), (64, v.l3.toNat)] := by
    simp only [u256Nat, pack]; omega
  rw [he]
  refine ⟨pack_field [_, _, _] 64 v.l3.toNat [] hf, pack_field [_, _] 64 v.l2.toNat [_] hf,
    pack_field [_] 64 v.l1.toNat [_, _] hf, ?_⟩
  have := pack_field [] 64 v.l0.toNat [(64, v.l1.toNat), (64, v.l2.toNat), (64, v.l3.toNat)] hf
  rwa [show width [] = 0 from rfl, Nat.pow_zero, Nat.div_one] at this

/-- C10: sub-word `s` of a 256-bit value is its `s`-th 64-bit (production) or 128-bit (testing) group from the
most significant end; indices beyond the last sub-word panic. -/
theorem C10_fetch (v : U256) :
    (∀ s : BitVec 16, s.toNat < 4 → ∃ x, Production.integerRepresentationFromU256 v s = .ok x ∧
      x.toNat = u256Nat v / 2 ^ (64 * (3 - s.toNat)) % 2 ^ 64) ∧
    (∀ s : BitVec 16, 4 ≤ s.toNat → Panics (Production.integerRepresentationFromU256 v s)) ∧
    (∀ s : BitVec 32, s.toNat < 2 → ∃ x, Testing.integerRepresentationFromU256 v s = .ok x ∧
      x.toNat = u256Nat v / 2 ^ (128 * (1 - s.toNat)) % 2 ^ 128) ∧
    (∀ s : BitVec 32, 2 ≤ s.toNat → Panics (Testing.integerRepresentationFromU256 v s)) := by
  obtain ⟨l3, l2, l1, l0⟩ := u256_limb v
  have add128 : ∀ a b : BitVec 64, ∃ x, Testing.addU128 (a.setWidth 128) (b.setWidth 128 <<< 64) = .ok x ∧
      x.toNat = a.toNat + b.toNat * 2 ^ 64 := by
    intro a b
    have ha := a.isLt
    have hb := b.isLt
    have e1 : (a.setWidth 128).toNat = a.toNat := by
      rw [BitVec.toNat_setWidth]; omega
    have e2 : (b.setWidth 128 <<< 64).toNat = b.toNat * 2 ^ 64 := by
      rw [BitVec.toNat_shiftLeft, BitVec.toNat_setWidth, Nat.shiftLeft_eq]; omega
    unfold Testing.addU128
    rw [e1, e2, if_pos (by omega)]
    refine ⟨_, rfl, ?_⟩
    rw [BitVec.toNat_add, e1, e2]
    omega
  refine ⟨?_, ?_, ?_, ?_⟩
  · intro s hs
    unfold Production.integerRepresentationFromU256
    by_cases h0 : s = 0#16
    · subst h0; exact ⟨_, rfl, l3.symm⟩
    by_cases h1 : s = 1#16
    · subst h1; exact ⟨_, rfl, l2.symm⟩
    by_cases h2 : s = 2#16
    · subst h2; exact ⟨_, rfl, l1.symm⟩
    by_cases h3 : s = 3#16
    · subst h3; exact ⟨_, rfl, by rw [← l0]; simp⟩
    exfalso
    rw [← BitVec.toNat_inj] at h0 h1 h2 h3
    simp at h0 h1 h2 h3
    omega
  · intro s hs
    refine ⟨.unreachable, ?_⟩
    unfold Production.integerRepresentationFromU256
    rw [if_neg (by rintro rfl; simp at hs), if_neg (by rintro rfl; simp at hs),
      if_neg (by rintro rfl; simp at hs), if_neg (by rintro rfl; simp at hs)]
  · intro s hs
    unfold Testing.integerRepresentationFromU256
    by_cases h0 : s = 0#32
    · subst h0
      rw [if_pos rfl]
      obtain ⟨x, hx, hn⟩ := add128 v.l2 v.l3
      refine ⟨x, hx, ?_⟩
      rw [hn, ← l2, ← l3, show 128 * (1 - (0#32).toNat) = 128 from rfl]
      omega
    by_cases h1 : s = 1#32
    · subst h1
      rw [if_neg h0, if_pos rfl]
      obtain ⟨x, hx, hn⟩ := add128 v.l0 v.l1
      refine ⟨x, hx, ?_⟩
      rw [hn, ← l0, ← l1, show 128 * (1 - (1#32).toNat) = 0 from rfl]
      omega
    exfalso
    rw [← BitVec.toNat_inj] at h0 h1
    simp at h0 h1
    omega
  · intro s hs
    refine ⟨.unreachable, ?_⟩
    unfold Testing.integerRepresentationFromU256
    rw [if_neg (by rintro rfl; simp at hs), if_neg (by rintro rfl; simp at hs)]

-- fetching at the split of any PC therefore never panics
example (pc : BitVec 16) (v : U256) :
    ∃ x, Production.integerRepresentationFromU256 v (Production.splitPc pc).2 = .ok x := by
  obtain ⟨x, h, _⟩ := (C10_fetch v).1 _ (C10_split_pc_production.1 pc).2.1
  exact ⟨x, h⟩
example : Production.splitPc 0xffff#16 = (16383#16, 3#16) := by decide
example : Testing.splitPc 0xffffffff#32 = (0x7fffffff#32, 1#32) := by decide

/-! ## C09 -/

/-- Fetching at a program counter gives the eight (sixteen) bytes of code at that position. -/
theorem fetched_production {v : U256} {code : List Byte} (pc : BitVec 16)
    (hv : HoldsWord v code (Production.splitPc pc).1.toNat) :
    ∃ x, Production.integerRepresentationFromU256 v (Production.splitPc pc).2 = .ok x ∧
      x.toNat = beNat (slice code (8 * pc.toNat) 8) := by
  obtain ⟨l3, l2, l1, l0⟩ := holds_limbs hv
  obtain ⟨hpc, hs, _⟩ := C10_split_pc_production.1 pc
  obtain ⟨x, hx, hxn⟩ := (C10_fetch v).1 _ hs
  obtain ⟨u3, u2, u1, u0⟩ := u256_limb v
  refine ⟨x, hx, ?_⟩
  rw [hxn, hpc]
  have hcases : (Production.splitPc pc).2.toNat = 0 ∨ (Production.splitPc pc).2.toNat = 1 ∨
      (Production.splitPc pc).2.toNat = 2 ∨ (Production.splitPc pc).2.toNat = 3 := by omega
  rcases hcases with h | h | h | h <;> rw [h]
  · rw [Nat.add_zero, ← l3]; exact u3
  · rw [← l2]; exact u2
  · rw [← l1]; exact u1
  · rw [← l0]; simpa using u0

theorem fetched_testing {v : U256} {code : List Byte} (pc : BitVec 32)
    (hv : HoldsWord v code (Testing.splitPc pc).1.toNat) :
    ∃ x, Testing.integerRepresentationFromU256 v (Testing.splitPc pc).2 = .ok x ∧
      x.toNat = beNat (slice code (16 * pc.toNat) 16) := by
  obtain ⟨l3, l2, l1, l0⟩ := holds_limbs hv
  obtain ⟨hpc, hs, _⟩ := C10_split_pc_testing.1 pc
  obtain ⟨x, hx, hxn⟩ := (C10_fetch v).2.2.1 _ hs
  obtain ⟨u3, u2, u1, u0⟩ := u256_limb v
  refine ⟨x, hx, ?_⟩
  rw [hxn, hpc, show (16 : Nat) = 8 + 8 from rfl, slice_add, beNat_append, slice_length]
  have hcases : (Testing.splitPc pc).2.toNat = 0 ∨ (Testing.splitPc pc).2.toNat = 1 := by omega
  rcases hcases with h | h <;> rw [h]
  · rw [show (8 + 8) * (2 * (Testing.splitPc pc).1.toNat + 0) = 8 * (4 * (Testing.splitPc pc).1.toNat) by omega,
      show 8 * (4 * (Testing.splitPc pc).1.toNat) + 8 = 8 * (4 * (Testing.splitPc pc).1.toNat + 1) by omega,
      ← l3, ← l2, ← u3, ← u2]
    omega
  · rw [show (8 + 8) * (2 * (Testing.splitPc pc).1.toNat + 1) = 8 * (4 * (Testing.splitPc pc).1.toNat + 2) by omega,
      show 8 * (4 * (Testing.splitPc pc).1.toNat + 2) + 8 = 8 * (4 * (Testing.splitPc pc).1.toNat + 3) by omega,
      ← l1, ← l0, ← u1, ← u0]
    omega

/-- C09, production: a program assembled by concatenating byte serialisations is executed instruction by
instruction: at every program counter inside the program, fetching and decoding gives the instruction at that
position. `HoldsWord v code k` says that `v` is the `k`-th 32-byte big-endian word of the code. -/
theorem C09_program_production (b : Build) (prog : List (DecodedOpcode 16)) (code : List Byte)
    (hE : ∀ o ∈ prog, Encodable o) (hA : Assembled (Production.encodeAsBytes b) prog code)
    (pc : BitVec 16) (o : DecodedOpcode 16) (ho : prog[pc.toNat]? = some o)
    (v : U256) (hv : HoldsWord v code (Production.splitPc pc).1.toNat) :
    ∃ raw n, Production.integerRepresentationFromU256 v (Production.splitPc pc).2 = .ok raw ∧
      Production.parse raw = .ok (o, n) := by
  have hlen : ∀ o bs, Production.encodeAsBytes b o = .ok bs → bs.length = 8 := by
    intro o bs h
    obtain ⟨_, _, hl, _⟩ := (C08_bytes_big_endian b).1 o bs h
    exact hl
  have henc := assembled_slice 8 hlen hA _ _ ho
  obtain ⟨w, hw, _, hbe⟩ := (C08_bytes_big_endian b).1 o _ henc
  obtain ⟨_, w', n, _, hw', hp, _⟩ := C02_roundtrip_production b o (hE o (List.mem_of_getElem? ho))
  rw [hw] at hw'; cases hw'
  obtain ⟨x, hx, hxn⟩ := fetched_production pc hv
  refine ⟨x, .fromUsize n, hx, ?_⟩
  rw [show x = w from BitVec.eq_of_toNat_eq (hxn.trans hbe)]
  exact hp

/-- C09, testing. -/
theorem C09_program_testing (b : Build) (prog : List (DecodedOpcode 32)) (code : List Byte)
    (hE : ∀ o ∈ prog, Encodable o) (hA : Assembled (Testing.encodeAsBytes b) prog code)
    (pc : BitVec 32) (o : DecodedOpcode 32) (ho : prog[pc.toNat]? = some o)
    (v : U256) (hv : HoldsWord v code (Testing.splitPc pc).1.toNat) :
    ∃ raw n, Testing.integerRepresentationFromU256 v (Testing.splitPc pc).2 = .ok raw ∧
      Testing.parse raw = .ok (o, n) := by
  have hlen : ∀ o bs, Testing.encodeAsBytes b o = .ok bs → bs.length = 16 := by
    intro o bs h
    obtain ⟨_, _, hl, _⟩ := (C08_bytes_big_endian b).2 o bs h
    exact hl
  have henc := assembled_slice 16 hlen hA _ _ ho
  obtain ⟨w, hw, _, hbe⟩ := (C08_bytes_big_endian b).2 o _ henc
  obtain ⟨_, w', n, _, hw', hp, _⟩ := C03_roundtrip_testing b o (hE o (List.mem_of_getElem? ho))
  rw [hw] at hw'; cases hw'
  obtain ⟨x, hx, hxn⟩ := fetched_testing pc hv
  refine ⟨x, .fromUsize n, hx, ?_⟩
  rw [show x = w from BitVec.eq_of_toNat_eq (hxn.trans hbe)]
  exact hp

/-- C09: every list of existing instructions can be assembled, into 8 (16) bytes per instruction. -/
theorem C09_assembles (b : Build) :
    (∀ prog : List (DecodedOpcode 16), (∀ o ∈ prog, Encodable o) →
      ∃ code, Assembled (Production.encodeAsBytes b) prog code ∧ code.length = 8 * prog.length) ∧
    (∀ prog : List (DecodedOpcode 32), (∀ o ∈ prog, Encodable o) →
      ∃ code, Assembled (Testing.encodeAsBytes b) prog code ∧ code.length = 16 * prog.length) := by
  constructor
  · intro prog h
    have : ∃ code, Assembled (Production.encodeAsBytes b) prog code := by
      induction prog with
      | nil => exact ⟨[], .nil⟩
      | cons o prog ih =>
        obtain ⟨code, hc⟩ := ih fun o ho => h o (List.mem_cons_of_mem _ ho)
        obtain ⟨_, w, _, _, hw, _⟩ := C02_roundtrip_production b o (h o List.mem_cons_self)
        exact ⟨toBeBytes 8 w ++ code, .cons (by unfold Production.encodeAsBytes; rw [hw]; rfl) hc⟩
    obtain ⟨code, hc⟩ := this
    refine ⟨code, hc, assembled_length 8 ?_ hc⟩
    intro o bs h
    obtain ⟨_, _, hl, _⟩ := (C08_bytes_big_endian b).1 o bs h
    exact hl
  · intro prog h
    have : ∃ code, Assembled (Testing.encodeAsBytes b) prog code := by
      induction prog with
      | nil => exact ⟨[], .nil⟩
      | cons o prog ih =>
        obtain ⟨code, hc⟩ := ih fun o ho => h o (List.mem_cons_of_mem _ ho)
        obtain ⟨_, w, _, _, hw, _⟩ := C03_roundtrip_testing b o (h o List.mem_cons_self)
        exact ⟨toBeBytes 16 w ++ code, .cons (by unfold Testing.encodeAsBytes; rw [hw]; rfl) hc⟩
    obtain ⟨code, hc⟩ := this
    refine ⟨code, hc, assembled_length 16 ?_ hc⟩
    intro o bs h
    obtain ⟨_, _, hl, _⟩ := (C08_bytes_big_endian b).2 o bs h
    exact hl

/-- C09: a program counter at or beyond the end of the program (in the zero padding) decodes to an explicit
panic, whatever the program. Production mode. -/
theorem C09_beyond_end_production (b : Build) (prog : List (DecodedOpcode 16)) (code : List Byte)
    (hA : Assembled (Production.encodeAsBytes b) prog code) (pc : BitVec 16) (hpc : prog.length ≤ pc.toNat)
    (v : U256) (hv : HoldsWord v code (Production.splitPc pc).1.toNat) :
    ∃ raw o n, Production.integerRepresentationFromU256 v (Production.splitPc pc).2 = .ok raw ∧
      Production.parse raw = .ok (o, n) ∧ o.variant.isExplicitPanic = true := by
  have hlen : code.length = 8 * prog.length := by
    refine assembled_length 8 ?_ hA
    intro o bs h
    obtain ⟨_, _, hl, _⟩ := (C08_bytes_big_endian b).1 o bs h
    exact hl
  obtain ⟨x, hx, hxn⟩ := fetched_production pc hv
  rw [slice_nil_of_ge code _ _ (by omega), beNat_zeros] at hxn
  obtain ⟨⟨o, n, hp, hpanic⟩, _⟩ := C12_zero_word
  exact ⟨x, o, n, hx, by rw [show x = 0#64 from BitVec.eq_of_toNat_eq hxn]; exact hp, hpanic⟩

/-- C09: the same in testing mode. -/
theorem C09_beyond_end_testing (b : Build) (prog : List (DecodedOpcode 32)) (code : List Byte)
    (hA : Assembled (Testing.encodeAsBytes b) prog code) (pc : BitVec 32) (hpc : prog.length ≤ pc.toNat)
    (v : U256) (hv : HoldsWord v code (Testing.splitPc pc).1.toNat) :
    ∃ raw o n, Testing.integerRepresentationFromU256 v (Testing.splitPc pc).2 = .ok raw ∧
      Testing.parse raw = .ok (o, n) ∧ o.variant.isExplicitPanic = true := by
  have hlen : code.length = 16 * prog.length := by
    refine assembled_length 16 ?_ hA
    intro o bs h
    obtain ⟨_, _, hl, _⟩ := (C08_bytes_big_endian b).2 o bs h
    exact hl
  obtain ⟨x, hx, hxn⟩ := fetched_testing pc hv
  rw [slice_nil_of_ge code _ _ (by omega), beNat_zeros] at hxn
  obtain ⟨_, o, n, hp, hpanic⟩ := C12_zero_word
  exact ⟨x, o, n, hx, by rw [show x = 0#128 from BitVec.eq_of_toNat_eq hxn]; exact hp, hpanic⟩

-- a three-instruction program, and the value of its first word
private def nop16 : DecodedOpcode 16 := { DecodedOpcode.default 16 with variant :=
  { OpcodeVariant.default with src0OperandType := .full .useRegOnly, dst0OperandType := .full .useRegOnly } }
example : ∃ code, Assembled (Production.encodeAsBytes .debug)
    [nop16, { nop16 with imm0 := 5 }, { nop16 with condition := .gt }] code ∧ code.length = 24 :=
  (C09_assembles .debug).1 [nop16, { nop16 with imm0 := 5 }, { nop16 with condition := .gt }] (by decide)
/-- Every 32-byte word of code is held by some `U256`, so the hypothesis `HoldsWord` can be met. -/
theorem C09_word_exists (code : List Byte) (k : Nat) : ∃ v, HoldsWord v code k := by
  have hlt := beNat_lt (wordBytes code k)
  have hl : (wordBytes code k).length = 32 := by simp [wordBytes]
  rw [hl] at hlt
  refine ⟨⟨BitVec.ofNat 64 (beNat (wordBytes code k)), BitVec.ofNat 64 (beNat (wordBytes code k) / 2 ^ 64),
    BitVec.ofNat 64 (beNat (wordBytes code k) / 2 ^ 128), BitVec.ofNat 64 (beNat (wordBytes code k) / 2 ^ 192)⟩, ?_⟩
  unfold HoldsWord u256Nat
  simp only [BitVec.toNat_ofNat]
  generalize beNat (wordBytes code k) = n at *
  omega

/-- C09, production: the second instruction of the program above is fetched from its first word and decoded. -/
example : ∃ code v raw n, Assembled (Production.encodeAsBytes .debug)
      [nop16, { nop16 with imm0 := 5 }, { nop16 with condition := .gt }] code ∧ HoldsWord v code 0 ∧
    Production.integerRepresentationFromU256 v 1 = .ok raw ∧ Production.parse raw = .ok ({ nop16 with imm0 := 5 }, n) := by
  obtain ⟨code, hA, _⟩ := (C09_assembles .debug).1 [nop16, { nop16 with imm0 := 5 }, { nop16 with condition := .gt }]
    (by decide)
  obtain ⟨v, hv⟩ := C09_word_exists code 0
  obtain ⟨raw, n, h1, h2⟩ := C09_program_production .debug _ code (by decide) hA 1 _ rfl v hv
  exact ⟨code, v, raw, n, hA, hv, h1, h2⟩

/-- C09, production: after its last instruction the program panics. -/
example : ∃ code v raw o n, Assembled (Production.encodeAsBytes .debug)
      [nop16, { nop16 with imm0 := 5 }, { nop16 with condition := .gt }] code ∧ HoldsWord v code 0 ∧
    Production.integerRepresentationFromU256 v 3 = .ok raw ∧ Production.parse raw = .ok (o, n) ∧
    o.variant.isExplicitPanic = true := by
  obtain ⟨code, hA, _⟩ := (C09_assembles .debug).1 [nop16, { nop16 with imm0 := 5 }, { nop16 with condition := .gt }]
    (by decide)
  obtain ⟨v, hv⟩ := C09_word_exists code 0
  obtain ⟨raw, o, n, h1, h2, h3⟩ := C09_beyond_end_production .debug _ code hA 3 (by decide) v hv
  exact ⟨code, v, raw, o, n, hA, hv, h1, h2, h3⟩

private def nop32 : DecodedOpcode 32 := { DecodedOpcode.default 32 with variant :=
  { OpcodeVariant.default with src0OperandType := .full .useRegOnly, dst0OperandType := .full .useRegOnly } }
/-- C09, testing: the third instruction is in the second word, the fourth does not exist. -/
example : ∃ code v raw raw' n o' n', Assembled (Testing.encodeAsBytes .release)
      [nop32, { nop32 with imm0 := 0x12345 }, { nop32 with condition := .gt }] code ∧ HoldsWord v code 1 ∧
    Testing.integerRepresentationFromU256 v 0 = .ok raw ∧ Testing.parse raw = .ok ({ nop32 with condition := .gt }, n) ∧
    Testing.integerRepresentationFromU256 v 1 = .ok raw' ∧ Testing.parse raw' = .ok (o', n') ∧
    o'.variant.isExplicitPanic = true := by
  obtain ⟨code, hA, _⟩ := (C09_assembles .release).2 [nop32, { nop32 with imm0 := 0x12345 }, { nop32 with condition := .gt }]
    (by decide)
  obtain ⟨v, hv⟩ := C09_word_exists code 1
  obtain ⟨raw, n, h1, h2⟩ := C09_program_testing .release _ code (by decide) hA 2 _ rfl v hv
  obtain ⟨raw', o', n', h3, h4, h5⟩ := C09_beyond_end_testing .release _ code hA 3 (by decide) v hv
  exact ⟨code, v, raw, raw', n, o', n', hA, hv, h1, h2, h3, h4, h5⟩

/-! ## C11 -/

private theorem nop_variant : NOP_OPCODE_VARIANT =
    .ok ⟨.nop .mk, .full .useRegOnly, .full .useRegOnly, Flags.none⟩ := by
  obtain ⟨m, h1, h2⟩ := LookupMap.canonical_get
  unfold NOP_OPCODE_VARIANT
  rw [h1]
  simp only [bind, Except.bind, h2]
  rfl

private theorem panic_variant : PANIC_OPCODE_VARIANT = .ok ⟨.ret .panic, .regOnly, .regOnly, Flags.none⟩ := by
  obtain ⟨m, h1, h2⟩ := LookupMap.canonical_get
  unfold PANIC_OPCODE_VARIANT
  rw [h1]
  simp only [bind, Except.bind, h2]
  rfl

private theorem bind_eq {α β : Type} {r : Res α} {a : α} {f : α → Res β} {x : Res β} (h : r = .ok a)
    (hf : f a = x) : (r >>= f) = x := by subst h; exact hf

private theorem r0_lt : (0 : Byte).toNat < 16 := by decide

/-- C11: masking gives condition `Always`, zero registers, the `Ret.Panic` (`Nop`) variant, and keeps the
immediates, whatever the instruction was; it is idempotent. -/
theorem C11_mask_fields {w : Nat} (o : DecodedOpcode w) :
    o.maskIntoPanic = ⟨⟨.ret .panic, .regOnly, .regOnly, ⟨false, false⟩⟩, .always, 0, 0, 0, 0, o.imm0, o.imm1⟩ ∧
    o.maskIntoNop = ⟨⟨.nop .mk, .full .useRegOnly, .full .useRegOnly, ⟨false, false⟩⟩, .always, 0, 0, 0, 0,
      o.imm0, o.imm1⟩ ∧
    o.maskIntoPanic.maskIntoPanic = o.maskIntoPanic ∧ o.maskIntoNop.maskIntoNop = o.maskIntoNop :=
  ⟨rfl, rfl, rfl, rfl⟩

/-- C11: a masked instruction is always encodable; the encoding is the dedicated constant encoding when the
immediates are zero, and in general differs from it only in the immediate fields, which hold the old
immediates. Production mode. -/
theorem C11_mask_encoding_production (b : Build) (o : DecodedOpcode 16) :
    (∃ w e, Production.encodeAsInteger b o.maskIntoPanic = .ok w ∧ Production.exceptionRevertEncoding b = .ok e ∧
      AgreeOutside w e 32 64 ∧ bits w 32 16 = o.imm0.toNat ∧ bits w 48 16 = o.imm1.toNat ∧
      (o.imm0 = 0 → o.imm1 = 0 → w = e)) ∧
    (∃ w e, Production.encodeAsInteger b o.maskIntoNop = .ok w ∧ Production.nopEncoding b = .ok e ∧
      AgreeOutside w e 32 64 ∧ bits w 32 16 = o.imm0.toNat ∧ bits w 48 16 = o.imm1.toNat ∧
      (o.imm0 = 0 → o.imm1 = 0 → w = e)) := by
  have key : ∀ (v : OpcodeVariant), WellFormed v = true → ∃ w e,
      Production.encodeAsInteger b ⟨v, .always, 0, 0, 0, 0, o.imm0, o.imm1⟩ = .ok w ∧
      Production.encodeAsInteger b ⟨v, .always, 0, 0, 0, 0, fromU64Clipped 16 0, fromU64Clipped 16 0⟩ = .ok e ∧
      AgreeOutside w e 32 64 ∧ bits w 32 16 = o.imm0.toNat ∧ bits w 48 16 = o.imm1.toNat ∧
      (o.imm0 = 0 → o.imm1 = 0 → w = e) := by
    intro v hv
    obtain ⟨w, hw⟩ := prod_encode_exists b ⟨v, .always, 0, 0, 0, 0, o.imm0, o.imm1⟩ hv
      (.inr ⟨r0_lt, r0_lt, r0_lt, r0_lt⟩)
    obtain ⟨e, he⟩ := prod_encode_exists b ⟨v, .always, 0, 0, 0, 0, fromU64Clipped 16 0, fromU64Clipped 16 0⟩ hv
      (.inr ⟨r0_lt, r0_lt, r0_lt, r0_lt⟩)
    obtain ⟨sb, db, hs, hd, _, hf, hnat⟩ := prod_encode_word hw
    obtain ⟨sb', db', hs', hd', _, hf', hnat'⟩ := prod_encode_word he
    dsimp only at hs hd hs' hd' hf hf' hnat hnat'
    rw [hs] at hs'; cases hs'
    rw [hd] at hd'; cases hd'
    obtain ⟨_, _, _, _, _, f6, f7⟩ := prod_word_fields hf hnat
    refine ⟨w, e, hw, he, ?_, f6, f7, ?_⟩
    · intro i hi
      rcases hi with hi | hi
      · refine getLsbD_of_bits w e 0 32 i (by omega) (by omega) ?_
        rw [bits, bits, Nat.pow_zero, Nat.div_one, Nat.div_one, hnat, hnat']
        exact (pack_mod (a := (_ :: _ :: _ :: _ :: _ :: []))
          ⟨hf.1, hf.2.1, hf.2.2.1, hf.2.2.2.1, hf.2.2.2.2.1, trivial⟩).trans
          (pack_mod (a := (_ :: _ :: _ :: _ :: _ :: []))
          ⟨hf.1, hf.2.1, hf.2.2.1, hf.2.2.2.1, hf.2.2.2.2.1, trivial⟩).symm
      · rw [BitVec.getLsbD_of_ge w i hi, BitVec.getLsbD_of_ge e i hi]
    · intro h0 h1
      rw [h0, h1] at hw
      exact Except.ok.inj (hw.symm.trans he)
  constructor
  · obtain ⟨w, e, hw, he, h⟩ := key ⟨.ret .panic, .regOnly, .regOnly, Flags.none⟩ (by decide)
    refine ⟨w, e, hw, ?_, h⟩
    unfold Production.exceptionRevertEncoding
    exact bind_eq panic_variant he
  · obtain ⟨w, e, hw, he, h⟩ := key ⟨.nop .mk, .full .useRegOnly, .full .useRegOnly, Flags.none⟩ (by decide)
    refine ⟨w, e, hw, ?_, h⟩
    unfold Production.nopEncoding
    exact bind_eq nop_variant he

/-- C11, testing mode. -/
theorem C11_mask_encoding_testing (b : Build) (o : DecodedOpcode 32) :
    (∃ w e, Testing.encodeAsInteger b o.maskIntoPanic = .ok w ∧ Testing.exceptionRevertEncoding b = .ok e ∧
      AgreeOutside w e 32 96 ∧ bits w 32 32 = o.imm0.toNat ∧ bits w 64 32 = o.imm1.toNat ∧
      (o.imm0 = 0 → o.imm1 = 0 → w = e)) ∧
    (∃ w e, Testing.encodeAsInteger b o.maskIntoNop = .ok w ∧ Testing.nopEncoding b = .ok e ∧
      AgreeOutside w e 32 96 ∧ bits w 32 32 = o.imm0.toNat ∧ bits w 64 32 = o.imm1.toNat ∧
      (o.imm0 = 0 → o.imm1 = 0 → w = e)) := by
  have key : ∀ (v : OpcodeVariant), WellFormed v = true → ∃ w e,
      Testing.encodeAsInteger b ⟨v, .always, 0, 0, 0, 0, o.imm0, o.imm1⟩ = .ok w ∧
      Testing.encodeAsInteger b ⟨v, .always, 0, 0, 0, 0, fromU64Clipped 32 0, fromU64Clipped 32 0⟩ = .ok e ∧
      AgreeOutside w e 32 96 ∧ bits w 32 32 = o.imm0.toNat ∧ bits w 64 32 = o.imm1.toNat ∧
      (o.imm0 = 0 → o.imm1 = 0 → w = e) := by
    intro v hv
    obtain ⟨w, hw⟩ := test_encode_exists b ⟨v, .always, 0, 0, 0, 0, o.imm0, o.imm1⟩ hv
      (.inr ⟨r0_lt, r0_lt, r0_lt, r0_lt⟩)
    obtain ⟨e, he⟩ := test_encode_exists b ⟨v, .always, 0, 0, 0, 0, fromU64Clipped 32 0, fromU64Clipped 32 0⟩ hv
      (.inr ⟨r0_lt, r0_lt, r0_lt, r0_lt⟩)
    obtain ⟨sb, db, hs, hd, _, hf, hnat⟩ := test_encode_word hw
    obtain ⟨sb', db', hs', hd', _, hf', hnat'⟩ := test_encode_word he
    dsimp only at hs hd hs' hd' hf hf' hnat hnat'
    rw [hs] at hs'; cases hs'
    rw [hd] at hd'; cases hd'
    obtain ⟨_, _, _, _, _, f6, f7⟩ := test_word_fields hf hnat
    have h96 : ∀ {n c s d i j : Nat}, Fits (testFields n c s d i j) → pack (testFields n c s d i j) / 2 ^ 96 = 0 := by
      intro n c s d i j h
      exact Nat.div_eq_of_lt (pack_lt h)
    refine ⟨w, e, hw, he, ?_, f6, f7, ?_⟩
    · intro i hi
      rcases hi with hi | hi
      · refine getLsbD_of_bits w e 0 32 i (by omega) (by omega) ?_
        rw [bits, bits, Nat.pow_zero, Nat.div_one, Nat.div_one, hnat, hnat']
        exact (pack_mod (a := (_ :: _ :: _ :: _ :: _ :: []))
          ⟨hf.1, hf.2.1, hf.2.2.1, hf.2.2.2.1, hf.2.2.2.2.1, trivial⟩).trans
          (pack_mod (a := (_ :: _ :: _ :: _ :: _ :: []))
          ⟨hf.1, hf.2.1, hf.2.2.1, hf.2.2.2.1, hf.2.2.2.2.1, trivial⟩).symm
      · by_cases hw' : i < 128
        · refine getLsbD_of_bits w e 96 32 i hi (by omega) ?_
          rw [bits, bits, hnat, hnat', h96 hf, h96 hf']
        · rw [BitVec.getLsbD_of_ge w i (by omega), BitVec.getLsbD_of_ge e i (by omega)]
    · intro h0 h1
      rw [h0, h1] at hw
      exact Except.ok.inj (hw.symm.trans he)
  constructor
  · obtain ⟨w, e, hw, he, h⟩ := key ⟨.ret .panic, .regOnly, .regOnly, Flags.none⟩ (by decide)
    refine ⟨w, e, hw, ?_, h⟩
    unfold Testing.exceptionRevertEncoding
    exact bind_eq panic_variant he
  · obtain ⟨w, e, hw, he, h⟩ := key ⟨.nop .mk, .full .useRegOnly, .full .useRegOnly, Flags.none⟩ (by decide)
    refine ⟨w, e, hw, ?_, h⟩
    unfold Testing.nopEncoding
    exact bind_eq nop_variant he

-- an instruction that cannot itself be encoded can be masked
example : WellFormed (DecodedOpcode.default 16).variant = false := by decide

/-! ## C36 -/

/-- C36: `materialize_variant` and `variant_index` are inverse to each other, `ALL_CONDITIONS` is in index order,
and indices from 8 on panic. -/
theorem C36_condition :
    (∀ c : Condition, c.variantIndex < 8 ∧ Condition.materializeVariant c.variantIndex = .ok c ∧
      ALL_CONDITIONS[c.variantIndex]? = some c) ∧
    (∀ i, i < 8 → ∃ c, Condition.materializeVariant i = .ok c ∧ c.variantIndex = i) ∧
    (∀ i, 8 ≤ i → Panics (Condition.materializeVariant i)) ∧ ALL_CONDITIONS.length = 8 := by
  refine ⟨fun c => ?_, fun i hi => materialize_ok hi, fun i hi => ⟨.assertFailed, ?_⟩, rfl⟩
  · cases c <;> exact ⟨by decide, rfl, rfl⟩
  · unfold Condition.materializeVariant Condition.NUM_VARIANTS
    rw [decide_eq_false (by omega)]
    rfl

/-- C36: the numbering, spelled out as in the instruction-set documentation. -/
theorem C36_condition_numbers :
    ALL_CONDITIONS = [.always, .gt, .lt, .eq, .ge, .le, .ne, .gtOrLt] ∧
    ALL_CONDITIONS.map Condition.variantIndex = [0, 1, 2, 3, 4, 5, 6, 7] := ⟨rfl, rfl⟩

/-! ## C58 -/

/-- C58: immediates and program counters of width `w ≤ 64` (16 in production, 32 in testing). -/
theorem C58_pc_or_imm (w : Nat) (hw : w ≤ 64) :
    (∀ v : BitVec 64, (fromU64Clipped w v).toNat = v.toNat % 2 ^ w) ∧
    (∀ x : BitVec w, (asU64 x).toNat = x.toNat ∧ fromU64Clipped w (asU64 x) = x ∧
      x.toNat ≤ (pcOrImmMax w).toNat) ∧
    (∀ v : BitVec 64, v.toNat ≤ (pcOrImmMax w).toNat ↔ asU64 (fromU64Clipped w v) = v) ∧
    (∀ x y : BitVec w, asU64 x = asU64 y → x = y) ∧
    (∀ x y : BitVec w, (wrappingAdd x y).toNat = (x.toNat + y.toNat) % 2 ^ w ∧
      (wrappingSub x y).toNat = (x.toNat + 2 ^ w - y.toNat) % 2 ^ w ∧
      wrappingSub (wrappingAdd x y) y = x ∧ wrappingAdd (wrappingSub x y) y = x) ∧
    (pcOrImmMax w).toNat = 2 ^ w - 1 := by
  have hle : 2 ^ w ≤ 2 ^ 64 := Nat.pow_le_pow_right (by decide) hw
  have hpos := Nat.two_pow_pos w
  have hmax : (pcOrImmMax w).toNat = 2 ^ w - 1 := by simp [pcOrImmMax]
  have has : ∀ x : BitVec w, (asU64 x).toNat = x.toNat := by
    intro x
    have := x.isLt
    rw [asU64, BitVec.toNat_setWidth, Nat.mod_eq_of_lt (by omega)]
  have hfrom : ∀ v : BitVec 64, (fromU64Clipped w v).toNat = v.toNat % 2 ^ w := fun v => BitVec.toNat_setWidth ..
  refine ⟨hfrom, fun x => ⟨has x, ?_, ?_⟩, fun v => ?_, fun x y h => ?_, fun x y => ⟨?_, ?_, ?_, ?_⟩, hmax⟩
  · apply BitVec.eq_of_toNat_eq
    rw [hfrom, has, Nat.mod_eq_of_lt x.isLt]
  · have := x.isLt
    omega
  · rw [hmax, ← BitVec.toNat_inj, has, hfrom]
    constructor
    · intro h; exact Nat.mod_eq_of_lt (by omega)
    · intro h; have := Nat.mod_lt v.toNat hpos; omega
  · apply BitVec.eq_of_toNat_eq
    rw [← has x, ← has y, h]
  · exact BitVec.toNat_add ..
  · have := y.isLt
    rw [wrappingSub, BitVec.toNat_sub]
    congr 1
    omega
  · exact BitVec.add_sub_cancel ..
  · exact BitVec.sub_add_cancel ..

example : (16 : Nat) ≤ 64 ∧ fromU64Clipped 16 0x12345#64 = 0x2345#16 ∧ asU64 0xffff#16 = 0xffff#64 := by decide

/-! ## C59 -/

/-- C59: splitting a byte into nibbles and merging nibbles; merging wide values panics in a debug build, and in a
release build keeps the low nibbles and adds the excess of the first to the second. -/
theorem C59_nibbles :
    (∀ b x, mergeU4 b (splitAsU4 x).1 (splitAsU4 x).2 = .ok x ∧ (splitAsU4 x).1.toNat = x.toNat % 16 ∧
      (splitAsU4 x).2.toNat = x.toNat / 16) ∧
    (∀ b l h, l.toNat < 16 → h.toNat < 16 →
      ∃ x, mergeU4 b l h = .ok x ∧ x.toNat = l.toNat + 16 * h.toNat ∧ splitAsU4 x = (l, h)) ∧
    (∀ l h, Panics (mergeU4 .debug l h) ↔ 16 ≤ l.toNat ∨ 16 ≤ h.toNat) ∧
    (∀ l h, ∃ x, mergeU4 .release l h = .ok x ∧ (splitAsU4 x).1.toNat = l.toNat % 16 ∧
      (splitAsU4 x).2.toNat = (h.toNat % 16 ||| l.toNat / 16)) := by
  have hmerge : ∀ b (l h : Byte), l.toNat < 16 → h.toNat < 16 →
      ∃ x, mergeU4 b l h = .ok x ∧ x.toNat = l.toNat + 16 * h.toNat := by
    intro b l h hl hh
    refine ⟨_, merge_ok b l h hl hh, ?_⟩
    rw [merge_toNat l h hl hh]
    omega
  refine ⟨fun b x => ⟨?_, low_nibble x, high_nibble x⟩, fun b l h hl hh => ?_, fun l h => ?_, fun l h => ?_⟩
  · have hx := x.isLt
    obtain ⟨y, hy, hn⟩ := hmerge b (splitAsU4 x).1 (splitAsU4 x).2 (by rw [low_nibble]; omega)
      (by rw [high_nibble]; omega)
    rw [hy]
    congr 1
    apply BitVec.eq_of_toNat_eq
    rw [hn, low_nibble, high_nibble]
    omega
  · obtain ⟨x, hx, hn⟩ := hmerge b l h hl hh
    refine ⟨x, hx, hn, Prod.ext ?_ ?_⟩
    · apply BitVec.eq_of_toNat_eq; rw [low_nibble, hn]; dsimp only; omega
    · apply BitVec.eq_of_toNat_eq; rw [high_nibble, hn]; dsimp only; omega
  · by_cases hp : l.toNat < 16 ∧ h.toNat < 16
    · rw [merge_ok _ _ _ hp.1 hp.2]
      exact ⟨fun hh => absurd hh (not_panics_ok _), fun hh => by omega⟩
    · rw [merge_debug_panic _ _ hp]
      exact ⟨fun _ => by omega, fun _ => panics_error _⟩
  · exact ⟨_, rfl, (low_nibble _).trans (merged_wide rfl).1, (high_nibble _).trans (merged_wide rfl).2⟩

example : mergeU4 .release 0x13 0x24 = .ok 0x53 := rfl
example : mergeU4 .debug 0xa 0x5 = .ok 0x5a ∧ splitAsU4 0x5a = (0xa, 0x5) := ⟨rfl, by decide⟩

end ZkEvm.Props
