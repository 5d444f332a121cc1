import Verif.Lemmas.Disassembly
import Verif.Props.Machine
/-!
# Every code is a program: C112

What holds for any words whatsoever, not only for assembled ones. `Verif/Spec/Disassembly.lean` says what it is to
disassemble a code.
-/
namespace ZkEvm.Props
open Spec Tables Bitmask Coding Words Program Deploy MachineLemmas DisassemblyLemmas

variable {State Contract : Type}

private theorem encodable_of {w n : Nat} {o : DecodedOpcode w} (hv : o.variant = entry n) (h1 : o.src0RegIdx.toNat < 16)
    (h2 : o.src1RegIdx.toNat < 16) (h3 : o.dst0RegIdx.toNat < 16) (h4 : o.dst1RegIdx.toNat < 16) : Encodable o :=
  ⟨by rw [hv]; exact wf_entry_any n, h1, h2, h3, h4⟩

private theorem holds_flat {v : U256} {words : List (Vector Byte 32)} {k : Nat} (h : HoldsPageWord v words k) :
    HoldsWord v (words.flatMap Vector.toList) k := by
  unfold HoldsPageWord at h
  rw [pageWord_eq] at h
  exact h

private theorem decoded_production (raw : BitVec 64) : ∃ o n, Production.parse raw = .ok (o, n) ∧ Encodable o := by
  obtain ⟨_, o, _, hp, _, hv, _, h1, h2, h3, h4, _⟩ := C01_decode_production raw
  refine ⟨o, _, hp, encodable_of hv ?_ ?_ ?_ ?_⟩
  · rw [h1]; exact Nat.mod_lt _ (by decide)
  · rw [h2]; exact Nat.mod_lt _ (by decide)
  · rw [h3]; exact Nat.mod_lt _ (by decide)
  · rw [h4]; exact Nat.mod_lt _ (by decide)

private theorem length_production (b : Build) : ∀ o bs, Production.encodeAsBytes b o = .ok bs → bs.length = 8 :=
  fun o bs h => by obtain ⟨_, _, hl, _⟩ := (C08_bytes_big_endian b).1 o bs h; exact hl

/-- C112, production: every code can be disassembled, in exactly one way, and into instructions that exist. -/
theorem C112_disassembly_production (words : List (Vector Byte 32)) :
    ∃ prog, Disassembled 8 Production.parse words prog ∧ (∀ o ∈ prog, Encodable o) ∧
      ∀ prog', Disassembled 8 Production.parse words prog' → prog' = prog := by
  obtain ⟨prog, h⟩ := disassembly_exists (N := 8) (k := 64) rfl 4 rfl
    (fun raw => by obtain ⟨o, n, h, _⟩ := decoded_production raw; exact ⟨o, n, h⟩) words
  refine ⟨prog, h, fun o ho => ?_, fun prog' h' => disassembly_unique (by decide) h' h⟩
  obtain ⟨i, hi⟩ := List.getElem?_of_mem ho
  obtain ⟨raw, n, _, hp⟩ := h.2 i o hi
  obtain ⟨o', n', hp', hE⟩ := decoded_production raw
  rw [(same_result hp hp').1]
  exact hE

private theorem fetched_disassembled_production {words : List (Vector Byte 32)} {prog : List (DecodedOpcode 16)}
    (hd : Disassembled 8 Production.parse words prog) (pc : BitVec 16) {v : U256}
    (hv : HoldsPageWord v words (Production.splitPc pc).1.toNat) :
    ∃ raw n, Production.integerRepresentationFromU256 v (Production.splitPc pc).2 = .ok raw ∧
      Production.parse raw = .ok (instructionAt prog pc.toNat, n) := by
  obtain ⟨x, hx, hn⟩ := fetched_production pc (holds_flat hv)
  by_cases h : pc.toNat < prog.length
  · obtain ⟨raw, n, hr, hp⟩ := hd.2 pc.toNat _ (List.getElem?_eq_getElem h)
    rw [piece_slice hd.1 h, ← hn] at hr
    obtain rfl := BitVec.eq_of_toNat_eq hr
    refine ⟨raw, n, hx, ?_⟩
    unfold instructionAt
    rw [List.getElem?_eq_getElem h]
    exact hp
  · rw [slice_nil_of_ge _ _ _ (by rw [flat_length, ← hd.1]; omega), beNat_zeros] at hn
    obtain rfl : x = 0#64 := BitVec.eq_of_toNat_eq hn
    obtain ⟨w', n', hw', hp⟩ : ∃ w' n', Production.encodeAsInteger .debug (zeroInstruction 16) = .ok w' ∧
        Production.parse w' = .ok (zeroInstruction 16, n') := by
      obtain ⟨_, w', n, _, h1, h2, _⟩ := C02_roundtrip_production .debug (zeroInstruction 16) (by decide)
      exact ⟨w', _, h1, h2⟩
    obtain ⟨w'', h1, _, h2⟩ := (C08_bytes_big_endian .debug).1 _ _ (zero_bytes_production .debug)
    rw [hw'] at h1
    obtain rfl := Except.ok.inj h1
    rw [beNat_zeros] at h2
    rw [show w' = 0#64 from BitVec.eq_of_toNat_eq h2.symm] at hp
    refine ⟨_, n', hx, ?_⟩
    unfold instructionAt
    rw [List.getElem?_eq_none (by omega)]
    exact hp

/-- C112, production: whatever words are in the code pages, every machine goes through the states that it goes through on
the disassembled programs, and the crate never panics. -/
theorem C112_runs_production (M : Machine 16 State Contract) (mask : OpcodeVariant → BitVec 64) (hm : MasksOk mask)
    (words : Contract → List (Vector Byte 32)) (page : Contract → Nat → U256)
    (hpage : ∀ c k, HoldsPageWord (page c k) (words c) k) (progs : Contract → List (DecodedOpcode 16))
    (hd : ∀ c, Disassembled 8 Production.parse (words c) (progs c)) (n : Nat) (s : State) :
    cycles (cycleProduction M page) n s = .ok (runProgram M mask progs n s) := by
  refine cycles_eq (step := fun s => M.execute s (instructionAt (progs (M.contract s)) (M.pc s).toNat)
    (priceOf (instructionAt (progs (M.contract s)) (M.pc s).toNat).variant.opcode)
    (mask (instructionAt (progs (M.contract s)) (M.pc s).toNat).variant)) (fun s => ?_) _ (fun _ => rfl)
    (fun _ _ => rfl) n s
  obtain ⟨raw, k, h1, h2⟩ := fetched_disassembled_production (hd (M.contract s)) (M.pc s) (hpage _ _)
  obtain ⟨o, h3, hv, _⟩ := prod_parse raw
  obtain ⟨ho, hk⟩ := same_result h2 h3
  rw [hk] at h2
  rw [← ho] at hv
  exact cycle_eq h1 h2 (executeDecoded_eq M s hm (Nat.mod_lt _ (by decide)) hv)

/-- C112, production: no machine tells codes with the same disassembly apart. -/
theorem C112_indistinguishable_production (M : Machine 16 State Contract) (words words' : Contract → List (Vector Byte 32))
    (page page' : Contract → Nat → U256) (hpage : ∀ c k, HoldsPageWord (page c k) (words c) k)
    (hpage' : ∀ c k, HoldsPageWord (page' c k) (words' c) k)
    (hd : ∀ c, ∃ prog, Disassembled 8 Production.parse (words c) prog ∧ Disassembled 8 Production.parse (words' c) prog)
    (n : Nat) (s : State) : cycles (cycleProduction M page) n s = cycles (cycleProduction M page') n s := by
  have hm : MasksOk maskOf := fun v _ hi => mask_bit v hi
  rw [C112_runs_production M maskOf hm words page hpage (fun c => (hd c).choose) (fun c => (hd c).choose_spec.1) n s,
    C112_runs_production M maskOf hm words' page' hpage' (fun c => (hd c).choose) (fun c => (hd c).choose_spec.2) n s]

/-- C112, production: no machine tells two codes apart exactly if they decode to the same instructions at the first 2 ^ 16
positions, which are all that a machine can run; after the end of a code there is the all-zero instruction. -/
theorem C112_full_abstraction_production (words words' : Contract → List (Vector Byte 32)) (page page' : Contract → Nat → U256)
    (hpage : ∀ c k, HoldsPageWord (page c k) (words c) k) (hpage' : ∀ c k, HoldsPageWord (page' c k) (words' c) k)
    (progs progs' : Contract → List (DecodedOpcode 16)) (hd : ∀ c, Disassembled 8 Production.parse (words c) (progs c))
    (hd' : ∀ c, Disassembled 8 Production.parse (words' c) (progs' c)) :
    (∀ (State : Type) (M : Machine 16 State Contract) (n : Nat) (s : State),
      cycles (cycleProduction M page) n s = cycles (cycleProduction M page') n s) ↔
    ∀ c i, i < 2 ^ 16 → instructionAt (progs c) i = instructionAt (progs' c) i := by
  have hm : MasksOk maskOf := fun v _ hi => mask_bit v hi
  constructor
  · intro h c i hi
    have := h (Option (DecodedOpcode 16)) ⟨fun _ => c, fun _ => BitVec.ofNat 16 i, fun _ o _ _ => some o⟩ 1 none
    rw [C112_runs_production _ maskOf hm words page hpage progs hd, C112_runs_production _ maskOf hm words' page' hpage' progs' hd'] at this
    have := Option.some.inj (Except.ok.inj this)
    dsimp only at this
    rw [BitVec.toNat_ofNat, Nat.mod_eq_of_lt hi] at this
    exact this
  · intro h State M n s
    rw [C112_runs_production M maskOf hm words page hpage progs hd, C112_runs_production M maskOf hm words' page' hpage' progs' hd']
    congr 1
    induction n generalizing s with
    | zero => rfl
    | succ n ih =>
      unfold runProgram
      rw [h _ _ (M.pc s).isLt]
      exact ih _

/-- C112, production: what a code has after its first 2 ^ 14 words is never run. -/
theorem C112_first_words_production (M : Machine 16 State Contract) (words words' : Contract → List (Vector Byte 32))
    (page page' : Contract → Nat → U256) (hpage : ∀ c k, HoldsPageWord (page c k) (words c) k)
    (hpage' : ∀ c k, HoldsPageWord (page' c k) (words' c) k)
    (h : ∀ c, (words c).take (2 ^ 14) = (words' c).take (2 ^ 14)) (n : Nat) (s : State) :
    cycles (cycleProduction M page) n s = cycles (cycleProduction M page') n s := by
  have hd := fun c => (C112_disassembly_production (words c)).choose_spec.1
  have hd' := fun c => (C112_disassembly_production (words' c)).choose_spec.1
  refine (C112_full_abstraction_production words words' page page' hpage hpage' _ _ hd hd').2 (fun c i hi => ?_) State M n s
  have hpc : (BitVec.ofNat 16 i).toNat = i := by rw [BitVec.toNat_ofNat, Nat.mod_eq_of_lt hi]
  have hk : (Production.splitPc (BitVec.ofNat 16 i)).1.toNat < 2 ^ 14 := by
    unfold Production.splitPc
    rw [BitVec.toNat_ushiftRight, hpc, Nat.shiftRight_eq_div_pow]
    omega
  have hp := hpage c (Production.splitPc (BitVec.ofNat 16 i)).1.toNat
  have hp' : HoldsPageWord (page c (Production.splitPc (BitVec.ofNat 16 i)).1.toNat) (words' c) (Production.splitPc (BitVec.ofNat 16 i)).1.toNat := by
    unfold HoldsPageWord pageWord at hp ⊢
    have := congrArg (fun l => l[(Production.splitPc (BitVec.ofNat 16 i)).1.toNat]?) (h c)
    rw [List.getElem?_take_of_lt hk, List.getElem?_take_of_lt hk] at this
    rw [← this]
    exact hp
  obtain ⟨raw, m, h1, h2⟩ := fetched_disassembled_production (hd c) _ hp
  obtain ⟨raw', m', h1', h2'⟩ := fetched_disassembled_production (hd' c) _ hp'
  rw [h1] at h1'
  obtain rfl := Except.ok.inj h1'
  rw [hpc] at h2 h2'
  exact (same_result h2 h2').1

/-- C112, production: assembling what has been disassembled gives a code of the same length; it is the same code exactly if
every piece of it has zeros in the unused bits and the number of an instruction. -/
theorem C112_reassembled_production (b : Build) (words : List (Vector Byte 32)) (prog : List (DecodedOpcode 16)) (code : List Byte)
    (hd : Disassembled 8 Production.parse words prog) (hA : Assembled (Production.encodeAsBytes b) prog code) :
    code.length = 32 * words.length ∧
    (code = words.flatMap Vector.toList ↔ ∀ (i : Nat) (raw : BitVec 64), i < prog.length →
      raw.toNat = beNat (piece 8 words i) → bits raw 11 2 = 0 ∧ bits raw 0 11 < 1093) := by
  have hl := assembled_length 8 (length_production b) hA
  refine ⟨hl.trans hd.1, fun he i raw hi hr => ?_, fun h => ?_⟩
  · obtain ⟨raw', n, hr', hp⟩ := hd.2 i _ (List.getElem?_eq_getElem hi)
    obtain rfl : raw = raw' := BitVec.eq_of_toNat_eq (hr.trans hr'.symm)
    obtain ⟨w', hw', _, _, _, hiff⟩ := C04_decode_encode_production b raw _ n hp
    refine hiff.1 ?_
    obtain ⟨w'', h1, _, h2⟩ := (C08_bytes_big_endian b).1 _ _ (assembled_slice 8 (length_production b) hA i _ (List.getElem?_eq_getElem hi))
    rw [hw'] at h1
    obtain rfl := Except.ok.inj h1
    rw [he, ← piece_slice hd.1 hi, ← hr] at h2
    exact BitVec.eq_of_toNat_eq h2.symm
  · refine slices_ext hl (by rw [flat_length, ← hd.1]) fun i hi => ?_
    obtain ⟨raw, n, hr, hp⟩ := hd.2 i _ (List.getElem?_eq_getElem hi)
    obtain ⟨w', hw', _, _, _, hiff⟩ := C04_decode_encode_production b raw _ n hp
    obtain ⟨w'', h1, _, h2⟩ := (C08_bytes_big_endian b).1 _ _ (assembled_slice 8 (length_production b) hA i _ (List.getElem?_eq_getElem hi))
    rw [hw'] at h1
    obtain rfl := Except.ok.inj h1
    rw [hiff.2 (h i raw hi hr), hr, piece_slice hd.1 hi] at h2
    exact EncodingModeLemmas.beNat_inj (by rw [slice_length, slice_length]) h2

/-- C112, production: disassembling an assembled and padded program gives the program, followed by the all-zero instruction. -/
theorem C112_roundtrip_production (b : Build) (prog prog' : List (DecodedOpcode 16)) (code : List Byte) (words : List (Vector Byte 32))
    (hE : ∀ o ∈ prog, Encodable o) (hA : Assembled (Production.encodeAsBytes b) prog code) (hp : PaddedTo code words)
    (hd : Disassembled 8 Production.parse words prog') :
    prog' = prog ++ List.replicate (prog'.length - prog.length) (zeroInstruction 16) := by
  have hl := assembled_length 8 (length_production b) hA
  have hf := flat_length words
  obtain ⟨_, z, hz, hw⟩ := hp
  have hlen : prog.length ≤ prog'.length := by
    have := congrArg List.length hw
    rw [List.length_append, List.length_replicate] at this
    have := hd.1
    omega
  have hz' : z = (prog'.length - prog.length) * 8 := by
    have := congrArg List.length hw
    rw [List.length_append, List.length_replicate] at this
    have := hd.1
    omega
  have hA' := assembled_append hA (assembled_zeros (zero_bytes_production b) (prog'.length - prog.length))
  rw [← hz', ← hw] at hA'
  refine disassembly_unique (by decide) hd ⟨?_, fun i o ho => ?_⟩
  · rw [List.length_append, List.length_replicate]
    have := hd.1
    omega
  · have hi := (List.getElem?_eq_some_iff.1 ho).1
    rw [List.length_append, List.length_replicate] at hi
    have hEo : Encodable o := by
      rcases List.mem_append.1 (List.mem_of_getElem? ho) with h | h
      · exact hE o h
      · rw [(List.mem_replicate.1 h).2]; decide
    obtain ⟨w', h1, _, h2⟩ := (C08_bytes_big_endian b).1 _ _ (assembled_slice 8 (length_production b) hA' i o ho)
    obtain ⟨_, w'', n, _, h3, h4, _⟩ := C02_roundtrip_production b o hEo
    rw [h1] at h3
    obtain rfl := Except.ok.inj h3
    exact ⟨w', _, by rw [← h2, piece_slice (n := prog'.length) hd.1 (by omega)], h4⟩

private theorem same_production {raw raw' : BitVec 64} {o o' : DecodedOpcode 16} {n n' : VariantMonotonicNumber}
    (h : Production.parse raw = .ok (o, n)) (h' : Production.parse raw' = .ok (o', n')) :
    o = o' ↔ bits raw 13 51 = bits raw' 13 51 ∧
      (if bits raw 0 11 < 1093 then bits raw 0 11 else 0) = (if bits raw' 0 11 < 1093 then bits raw' 0 11 else 0) := by
  obtain ⟨e, he, e1, e2, e3, _⟩ := C04_decode_encode_production .debug raw o n h
  obtain ⟨e', he', e1', e2', e3', _⟩ := C04_decode_encode_production .debug raw' o' n' h'
  rw [← e3, ← e3', ← e1, ← e1']
  constructor
  · rintro rfl
    rw [he] at he'
    obtain rfl := Except.ok.inj he'
    exact ⟨rfl, rfl⟩
  · rintro ⟨h1, h2⟩
    obtain rfl : e = e' := by
      apply BitVec.eq_of_toNat_eq
      have l := e.isLt
      have l' := e'.isLt
      unfold bits at *
      clear e1 e1' e3 e3'
      omega
    obtain ⟨o1, n1, p1, E1⟩ := decoded_production raw
    obtain ⟨o2, n2, p2, E2⟩ := decoded_production raw'
    rw [← (same_result h p1).1] at E1
    rw [← (same_result h' p2).1] at E2
    obtain ⟨_, w1, _, _, a1, b1, _⟩ := C02_roundtrip_production .debug o E1
    obtain ⟨_, w2, _, _, a2, b2, _⟩ := C02_roundtrip_production .debug o' E2
    rw [he] at a1
    rw [he'] at a2
    obtain rfl := Except.ok.inj a1
    obtain rfl := Except.ok.inj a2
    exact (same_result b1 b2).1

/-- C112, production: two codes have the same disassembly exactly if they have the same length and piece by piece agree in
bits 13 to 63 and in the number of the instruction, numbers of no instruction being as good as number 0. -/
theorem C112_same_production (words words' : List (Vector Byte 32)) (prog prog' : List (DecodedOpcode 16))
    (hd : Disassembled 8 Production.parse words prog) (hd' : Disassembled 8 Production.parse words' prog') :
    prog = prog' ↔ words.length = words'.length ∧
      ∀ (i : Nat) (raw raw' : BitVec 64), i < prog.length → raw.toNat = beNat (piece 8 words i) →
        raw'.toNat = beNat (piece 8 words' i) → bits raw 13 51 = bits raw' 13 51 ∧
        (if bits raw 0 11 < 1093 then bits raw 0 11 else 0) = (if bits raw' 0 11 < 1093 then bits raw' 0 11 else 0) := by
  have hl := hd.1
  have hl' := hd'.1
  constructor
  · rintro rfl
    refine ⟨by omega, fun i raw raw' hi hr hr' => ?_⟩
    obtain ⟨x, n, hx, hp⟩ := hd.2 i _ (List.getElem?_eq_getElem hi)
    obtain ⟨x', n', hx', hp'⟩ := hd'.2 i _ (List.getElem?_eq_getElem hi)
    obtain rfl : raw = x := BitVec.eq_of_toNat_eq (hr.trans hx.symm)
    obtain rfl : raw' = x' := BitVec.eq_of_toNat_eq (hr'.trans hx'.symm)
    exact (same_production hp hp').1 rfl
  · rintro ⟨hw, h⟩
    apply List.ext_getElem (by omega)
    intro i h1 h2
    obtain ⟨x, n, hx, hp⟩ := hd.2 i _ (List.getElem?_eq_getElem h1)
    obtain ⟨x', n', hx', hp'⟩ := hd'.2 i _ (List.getElem?_eq_getElem h2)
    exact (same_production hp hp').2 (h i x x' h1 hx hx')

/-- C112, production: no code is the only one that runs as it does. Every code that is not empty has another one of the same
length with the same disassembly. -/
theorem C112_not_unique_production (words : List (Vector Byte 32)) (hw : words ≠ []) :
    ∃ words', words' ≠ words ∧ words'.length = words.length ∧
      ∀ prog, Disassembled 8 Production.parse words prog ↔ Disassembled 8 Production.parse words' prog := by
  obtain ⟨w0, rest, rfl⟩ := List.exists_cons_of_ne_nil hw
  have hlt := piece_lt 8 (w0 :: rest) 0
  generalize hx : beNat (piece 8 (w0 :: rest) 0) = x at hlt
  obtain ⟨w1, h0, hi⟩ := replace_first (N := 8) (k := 64) (by decide) rfl w0 rest
    (BitVec.ofNat 64 (if x / 2048 % 2 = 0 then x + 2048 else x - 2048))
  rw [BitVec.toNat_ofNat] at h0
  have hne : w1 :: rest ≠ w0 :: rest := by
    intro e
    rw [e, hx] at h0
    split at h0 <;> omega
  obtain ⟨prog, hd, _, hu⟩ := C112_disassembly_production (w0 :: rest)
  obtain ⟨prog', hd', _, hu'⟩ := C112_disassembly_production (w1 :: rest)
  have he : prog = prog' := by
    refine (C112_same_production _ _ _ _ hd hd').2 ⟨rfl, fun i raw raw' _ hr hr' => ?_⟩
    rcases Nat.eq_zero_or_pos i with rfl | h
    · rw [hx] at hr
      rw [h0] at hr'
      have hb : bits raw 0 11 = bits raw' 0 11 := by unfold bits; split at hr' <;> omega
      rw [hb]
      exact ⟨by unfold bits; split at hr' <;> omega, rfl⟩
    · rw [hi i h] at hr'
      obtain rfl : raw = raw' := BitVec.eq_of_toNat_eq (hr.trans hr'.symm)
      exact ⟨rfl, rfl⟩
  subst he
  exact ⟨_, hne, rfl, fun p => ⟨fun h => by rw [hu p h]; exact hd', fun h => by rw [hu' p h]; exact hd⟩⟩

private theorem decoded_testing (raw : BitVec 128) : ∃ o n, Testing.parse raw = .ok (o, n) ∧ Encodable o := by
  obtain ⟨_, o, _, hp, _, hv, _, h1, h2, h3, h4, _⟩ := C01_decode_testing raw
  refine ⟨o, _, hp, encodable_of hv ?_ ?_ ?_ ?_⟩
  · rw [h1]; exact Nat.mod_lt _ (by decide)
  · rw [h2]; exact Nat.mod_lt _ (by decide)
  · rw [h3]; exact Nat.mod_lt _ (by decide)
  · rw [h4]; exact Nat.mod_lt _ (by decide)

private theorem length_testing (b : Build) : ∀ o bs, Testing.encodeAsBytes b o = .ok bs → bs.length = 16 :=
  fun o bs h => by obtain ⟨_, _, hl, _⟩ := (C08_bytes_big_endian b).2 o bs h; exact hl

/-- C112, testing: every code can be disassembled, in exactly one way, and into instructions that exist. -/
theorem C112_disassembly_testing (words : List (Vector Byte 32)) :
    ∃ prog, Disassembled 16 Testing.parse words prog ∧ (∀ o ∈ prog, Encodable o) ∧
      ∀ prog', Disassembled 16 Testing.parse words prog' → prog' = prog := by
  obtain ⟨prog, h⟩ := disassembly_exists (N := 16) (k := 128) rfl 2 rfl
    (fun raw => by obtain ⟨o, n, h, _⟩ := decoded_testing raw; exact ⟨o, n, h⟩) words
  refine ⟨prog, h, fun o ho => ?_, fun prog' h' => disassembly_unique (by decide) h' h⟩
  obtain ⟨i, hi⟩ := List.getElem?_of_mem ho
  obtain ⟨raw, n, _, hp⟩ := h.2 i o hi
  obtain ⟨o', n', hp', hE⟩ := decoded_testing raw
  rw [(same_result hp hp').1]
  exact hE

private theorem fetched_disassembled_testing {words : List (Vector Byte 32)} {prog : List (DecodedOpcode 32)}
    (hd : Disassembled 16 Testing.parse words prog) (pc : BitVec 32) {v : U256}
    (hv : HoldsPageWord v words (Testing.splitPc pc).1.toNat) :
    ∃ raw n, Testing.integerRepresentationFromU256 v (Testing.splitPc pc).2 = .ok raw ∧
      Testing.parse raw = .ok (instructionAt prog pc.toNat, n) := by
  obtain ⟨x, hx, hn⟩ := fetched_testing pc (holds_flat hv)
  by_cases h : pc.toNat < prog.length
  · obtain ⟨raw, n, hr, hp⟩ := hd.2 pc.toNat _ (List.getElem?_eq_getElem h)
    rw [piece_slice hd.1 h, ← hn] at hr
    obtain rfl := BitVec.eq_of_toNat_eq hr
    refine ⟨raw, n, hx, ?_⟩
    unfold instructionAt
    rw [List.getElem?_eq_getElem h]
    exact hp
  · rw [slice_nil_of_ge _ _ _ (by rw [flat_length, ← hd.1]; omega), beNat_zeros] at hn
    obtain rfl : x = 0#128 := BitVec.eq_of_toNat_eq hn
    obtain ⟨w', n', hw', hp⟩ : ∃ w' n', Testing.encodeAsInteger .debug (zeroInstruction 32) = .ok w' ∧
        Testing.parse w' = .ok (zeroInstruction 32, n') := by
      obtain ⟨_, w', n, _, h1, h2, _⟩ := C03_roundtrip_testing .debug (zeroInstruction 32) (by decide)
      exact ⟨w', _, h1, h2⟩
    obtain ⟨w'', h1, _, h2⟩ := (C08_bytes_big_endian .debug).2 _ _ (zero_bytes_testing .debug)
    rw [hw'] at h1
    obtain rfl := Except.ok.inj h1
    rw [beNat_zeros] at h2
    rw [show w' = 0#128 from BitVec.eq_of_toNat_eq h2.symm] at hp
    refine ⟨_, n', hx, ?_⟩
    unfold instructionAt
    rw [List.getElem?_eq_none (by omega)]
    exact hp

/-- C112, testing: whatever words are in the code pages, every machine goes through the states that it goes through on
the disassembled programs, and the crate never panics. -/
theorem C112_runs_testing (M : Machine 32 State Contract) (mask : OpcodeVariant → BitVec 64) (hm : MasksOk mask)
    (words : Contract → List (Vector Byte 32)) (page : Contract → Nat → U256)
    (hpage : ∀ c k, HoldsPageWord (page c k) (words c) k) (progs : Contract → List (DecodedOpcode 32))
    (hd : ∀ c, Disassembled 16 Testing.parse (words c) (progs c)) (n : Nat) (s : State) :
    cycles (cycleTesting M page) n s = .ok (runProgram M mask progs n s) := by
  refine cycles_eq (step := fun s => M.execute s (instructionAt (progs (M.contract s)) (M.pc s).toNat)
    (priceOf (instructionAt (progs (M.contract s)) (M.pc s).toNat).variant.opcode)
    (mask (instructionAt (progs (M.contract s)) (M.pc s).toNat).variant)) (fun s => ?_) _ (fun _ => rfl)
    (fun _ _ => rfl) n s
  obtain ⟨raw, k, h1, h2⟩ := fetched_disassembled_testing (hd (M.contract s)) (M.pc s) (hpage _ _)
  obtain ⟨o, h3, hv, _⟩ := test_parse raw
  obtain ⟨ho, hk⟩ := same_result h2 h3
  rw [hk] at h2
  rw [← ho] at hv
  exact cycle_eq h1 h2 (executeDecoded_eq M s hm (Nat.mod_lt _ (by decide)) hv)

/-- C112, testing: no machine tells codes with the same disassembly apart. -/
theorem C112_indistinguishable_testing (M : Machine 32 State Contract) (words words' : Contract → List (Vector Byte 32))
    (page page' : Contract → Nat → U256) (hpage : ∀ c k, HoldsPageWord (page c k) (words c) k)
    (hpage' : ∀ c k, HoldsPageWord (page' c k) (words' c) k)
    (hd : ∀ c, ∃ prog, Disassembled 16 Testing.parse (words c) prog ∧ Disassembled 16 Testing.parse (words' c) prog)
    (n : Nat) (s : State) : cycles (cycleTesting M page) n s = cycles (cycleTesting M page') n s := by
  have hm : MasksOk maskOf := fun v _ hi => mask_bit v hi
  rw [C112_runs_testing M maskOf hm words page hpage (fun c => (hd c).choose) (fun c => (hd c).choose_spec.1) n s,
    C112_runs_testing M maskOf hm words' page' hpage' (fun c => (hd c).choose) (fun c => (hd c).choose_spec.2) n s]

/-- C112, testing: no machine tells two codes apart exactly if they decode to the same instructions at the first 2 ^ 32
positions, which are all that a machine can run; after the end of a code there is the all-zero instruction. -/
theorem C112_full_abstraction_testing (words words' : Contract → List (Vector Byte 32)) (page page' : Contract → Nat → U256)
    (hpage : ∀ c k, HoldsPageWord (page c k) (words c) k) (hpage' : ∀ c k, HoldsPageWord (page' c k) (words' c) k)
    (progs progs' : Contract → List (DecodedOpcode 32)) (hd : ∀ c, Disassembled 16 Testing.parse (words c) (progs c))
    (hd' : ∀ c, Disassembled 16 Testing.parse (words' c) (progs' c)) :
    (∀ (State : Type) (M : Machine 32 State Contract) (n : Nat) (s : State),
      cycles (cycleTesting M page) n s = cycles (cycleTesting M page') n s) ↔
    ∀ c i, i < 2 ^ 32 → instructionAt (progs c) i = instructionAt (progs' c) i := by
  have hm : MasksOk maskOf := fun v _ hi => mask_bit v hi
  constructor
  · intro h c i hi
    have := h (Option (DecodedOpcode 32)) ⟨fun _ => c, fun _ => BitVec.ofNat 32 i, fun _ o _ _ => some o⟩ 1 none
    rw [C112_runs_testing _ maskOf hm words page hpage progs hd, C112_runs_testing _ maskOf hm words' page' hpage' progs' hd'] at this
    have := Option.some.inj (Except.ok.inj this)
    dsimp only at this
    rw [BitVec.toNat_ofNat, Nat.mod_eq_of_lt hi] at this
    exact this
  · intro h State M n s
    rw [C112_runs_testing M maskOf hm words page hpage progs hd, C112_runs_testing M maskOf hm words' page' hpage' progs' hd']
    congr 1
    induction n generalizing s with
    | zero => rfl
    | succ n ih =>
      unfold runProgram
      rw [h _ _ (M.pc s).isLt]
      exact ih _

/-- C112, testing: what a code has after its first 2 ^ 31 words is never run. -/
theorem C112_first_words_testing (M : Machine 32 State Contract) (words words' : Contract → List (Vector Byte 32))
    (page page' : Contract → Nat → U256) (hpage : ∀ c k, HoldsPageWord (page c k) (words c) k)
    (hpage' : ∀ c k, HoldsPageWord (page' c k) (words' c) k)
    (h : ∀ c, (words c).take (2 ^ 31) = (words' c).take (2 ^ 31)) (n : Nat) (s : State) :
    cycles (cycleTesting M page) n s = cycles (cycleTesting M page') n s := by
  have hd := fun c => (C112_disassembly_testing (words c)).choose_spec.1
  have hd' := fun c => (C112_disassembly_testing (words' c)).choose_spec.1
  refine (C112_full_abstraction_testing words words' page page' hpage hpage' _ _ hd hd').2 (fun c i hi => ?_) State M n s
  have hpc : (BitVec.ofNat 32 i).toNat = i := by rw [BitVec.toNat_ofNat, Nat.mod_eq_of_lt hi]
  have hk : (Testing.splitPc (BitVec.ofNat 32 i)).1.toNat < 2 ^ 31 := by
    unfold Testing.splitPc
    rw [BitVec.toNat_ushiftRight, hpc, Nat.shiftRight_eq_div_pow]
    omega
  have hp := hpage c (Testing.splitPc (BitVec.ofNat 32 i)).1.toNat
  have hp' : HoldsPageWord (page c (Testing.splitPc (BitVec.ofNat 32 i)).1.toNat) (words' c) (Testing.splitPc (BitVec.ofNat 32 i)).1.toNat := by
    unfold HoldsPageWord pageWord at hp ⊢
    have := congrArg (fun l => l[(Testing.splitPc (BitVec.ofNat 32 i)).1.toNat]?) (h c)
    rw [List.getElem?_take_of_lt hk, List.getElem?_take_of_lt hk] at this
    rw [← this]
    exact hp
  obtain ⟨raw, m, h1, h2⟩ := fetched_disassembled_testing (hd c) _ hp
  obtain ⟨raw', m', h1', h2'⟩ := fetched_disassembled_testing (hd' c) _ hp'
  rw [h1] at h1'
  obtain rfl := Except.ok.inj h1'
  rw [hpc] at h2 h2'
  exact (same_result h2 h2').1

/-- C112, testing: assembling what has been disassembled gives a code of the same length; it is the same code exactly if
every piece of it has zeros in the unused bits and the number of an instruction. -/
theorem C112_reassembled_testing (b : Build) (words : List (Vector Byte 32)) (prog : List (DecodedOpcode 32)) (code : List Byte)
    (hd : Disassembled 16 Testing.parse words prog) (hA : Assembled (Testing.encodeAsBytes b) prog code) :
    code.length = 32 * words.length ∧
    (code = words.flatMap Vector.toList ↔ ∀ (i : Nat) (raw : BitVec 128), i < prog.length →
      raw.toNat = beNat (piece 16 words i) → bits raw 11 2 = 0 ∧ bits raw 96 32 = 0 ∧ bits raw 0 11 < 1093) := by
  have hl := assembled_length 16 (length_testing b) hA
  refine ⟨hl.trans hd.1, fun he i raw hi hr => ?_, fun h => ?_⟩
  · obtain ⟨raw', n, hr', hp⟩ := hd.2 i _ (List.getElem?_eq_getElem hi)
    obtain rfl : raw = raw' := BitVec.eq_of_toNat_eq (hr.trans hr'.symm)
    obtain ⟨w', hw', _, _, _, _, hiff⟩ := C05_decode_encode_testing b raw _ n hp
    refine hiff.1 ?_
    obtain ⟨w'', h1, _, h2⟩ := (C08_bytes_big_endian b).2 _ _ (assembled_slice 16 (length_testing b) hA i _ (List.getElem?_eq_getElem hi))
    rw [hw'] at h1
    obtain rfl := Except.ok.inj h1
    rw [he, ← piece_slice hd.1 hi, ← hr] at h2
    exact BitVec.eq_of_toNat_eq h2.symm
  · refine slices_ext hl (by rw [flat_length, ← hd.1]) fun i hi => ?_
    obtain ⟨raw, n, hr, hp⟩ := hd.2 i _ (List.getElem?_eq_getElem hi)
    obtain ⟨w', hw', _, _, _, _, hiff⟩ := C05_decode_encode_testing b raw _ n hp
    obtain ⟨w'', h1, _, h2⟩ := (C08_bytes_big_endian b).2 _ _ (assembled_slice 16 (length_testing b) hA i _ (List.getElem?_eq_getElem hi))
    rw [hw'] at h1
    obtain rfl := Except.ok.inj h1
    rw [hiff.2 (h i raw hi hr), hr, piece_slice hd.1 hi] at h2
    exact EncodingModeLemmas.beNat_inj (by rw [slice_length, slice_length]) h2

/-- C112, testing: disassembling an assembled and padded program gives the program, followed by the all-zero instruction. -/
theorem C112_roundtrip_testing (b : Build) (prog prog' : List (DecodedOpcode 32)) (code : List Byte) (words : List (Vector Byte 32))
    (hE : ∀ o ∈ prog, Encodable o) (hA : Assembled (Testing.encodeAsBytes b) prog code) (hp : PaddedTo code words)
    (hd : Disassembled 16 Testing.parse words prog') :
    prog' = prog ++ List.replicate (prog'.length - prog.length) (zeroInstruction 32) := by
  have hl := assembled_length 16 (length_testing b) hA
  have hf := flat_length words
  obtain ⟨_, z, hz, hw⟩ := hp
  have hlen : prog.length ≤ prog'.length := by
    have := congrArg List.length hw
    rw [List.length_append, List.length_replicate] at this
    have := hd.1
    omega
  have hz' : z = (prog'.length - prog.length) * 16 := by
    have := congrArg List.length hw
    rw [List.length_append, List.length_replicate] at this
    have := hd.1
    omega
  have hA' := assembled_append hA (assembled_zeros (zero_bytes_testing b) (prog'.length - prog.length))
  rw [← hz', ← hw] at hA'
  refine disassembly_unique (by decide) hd ⟨?_, fun i o ho => ?_⟩
  · rw [List.length_append, List.length_replicate]
    have := hd.1
    omega
  · have hi := (List.getElem?_eq_some_iff.1 ho).1
    rw [List.length_append, List.length_replicate] at hi
    have hEo : Encodable o := by
      rcases List.mem_append.1 (List.mem_of_getElem? ho) with h | h
      · exact hE o h
      · rw [(List.mem_replicate.1 h).2]; decide
    obtain ⟨w', h1, _, h2⟩ := (C08_bytes_big_endian b).2 _ _ (assembled_slice 16 (length_testing b) hA' i o ho)
    obtain ⟨_, w'', n, _, h3, h4, _⟩ := C03_roundtrip_testing b o hEo
    rw [h1] at h3
    obtain rfl := Except.ok.inj h3
    exact ⟨w', _, by rw [← h2, piece_slice (n := prog'.length) hd.1 (by omega)], h4⟩

private theorem same_testing {raw raw' : BitVec 128} {o o' : DecodedOpcode 32} {n n' : VariantMonotonicNumber}
    (h : Testing.parse raw = .ok (o, n)) (h' : Testing.parse raw' = .ok (o', n')) :
    o = o' ↔ bits raw 13 83 = bits raw' 13 83 ∧
      (if bits raw 0 11 < 1093 then bits raw 0 11 else 0) = (if bits raw' 0 11 < 1093 then bits raw' 0 11 else 0) := by
  obtain ⟨e, he, e1, e2, e3, e4, _⟩ := C05_decode_encode_testing .debug raw o n h
  obtain ⟨e', he', e1', e2', e3', e4', _⟩ := C05_decode_encode_testing .debug raw' o' n' h'
  rw [← e3, ← e3', ← e1, ← e1']
  constructor
  · rintro rfl
    rw [he] at he'
    obtain rfl := Except.ok.inj he'
    exact ⟨rfl, rfl⟩
  · rintro ⟨h1, h2⟩
    obtain rfl : e = e' := by
      apply BitVec.eq_of_toNat_eq
      have l := e.isLt
      have l' := e'.isLt
      unfold bits at *
      clear e1 e1' e3 e3'
      omega
    obtain ⟨o1, n1, p1, E1⟩ := decoded_testing raw
    obtain ⟨o2, n2, p2, E2⟩ := decoded_testing raw'
    rw [← (same_result h p1).1] at E1
    rw [← (same_result h' p2).1] at E2
    obtain ⟨_, w1, _, _, a1, b1, _⟩ := C03_roundtrip_testing .debug o E1
    obtain ⟨_, w2, _, _, a2, b2, _⟩ := C03_roundtrip_testing .debug o' E2
    rw [he] at a1
    rw [he'] at a2
    obtain rfl := Except.ok.inj a1
    obtain rfl := Except.ok.inj a2
    exact (same_result b1 b2).1

/-- C112, testing: two codes have the same disassembly exactly if they have the same length and piece by piece agree in
bits 13 to 95 and in the number of the instruction, numbers of no instruction being as good as number 0. -/
theorem C112_same_testing (words words' : List (Vector Byte 32)) (prog prog' : List (DecodedOpcode 32))
    (hd : Disassembled 16 Testing.parse words prog) (hd' : Disassembled 16 Testing.parse words' prog') :
    prog = prog' ↔ words.length = words'.length ∧
      ∀ (i : Nat) (raw raw' : BitVec 128), i < prog.length → raw.toNat = beNat (piece 16 words i) →
        raw'.toNat = beNat (piece 16 words' i) → bits raw 13 83 = bits raw' 13 83 ∧
        (if bits raw 0 11 < 1093 then bits raw 0 11 else 0) = (if bits raw' 0 11 < 1093 then bits raw' 0 11 else 0) := by
  have hl := hd.1
  have hl' := hd'.1
  constructor
  · rintro rfl
    refine ⟨by omega, fun i raw raw' hi hr hr' => ?_⟩
    obtain ⟨x, n, hx, hp⟩ := hd.2 i _ (List.getElem?_eq_getElem hi)
    obtain ⟨x', n', hx', hp'⟩ := hd'.2 i _ (List.getElem?_eq_getElem hi)
    obtain rfl : raw = x := BitVec.eq_of_toNat_eq (hr.trans hx.symm)
    obtain rfl : raw' = x' := BitVec.eq_of_toNat_eq (hr'.trans hx'.symm)
    exact (same_testing hp hp').1 rfl
  · rintro ⟨hw, h⟩
    apply List.ext_getElem (by omega)
    intro i h1 h2
    obtain ⟨x, n, hx, hp⟩ := hd.2 i _ (List.getElem?_eq_getElem h1)
    obtain ⟨x', n', hx', hp'⟩ := hd'.2 i _ (List.getElem?_eq_getElem h2)
    exact (same_testing hp hp').2 (h i x x' h1 hx hx')

/-- C112, testing: no code is the only one that runs as it does. Every code that is not empty has another one of the same
length with the same disassembly. -/
theorem C112_not_unique_testing (words : List (Vector Byte 32)) (hw : words ≠ []) :
    ∃ words', words' ≠ words ∧ words'.length = words.length ∧
      ∀ prog, Disassembled 16 Testing.parse words prog ↔ Disassembled 16 Testing.parse words' prog := by
  obtain ⟨w0, rest, rfl⟩ := List.exists_cons_of_ne_nil hw
  have hlt := piece_lt 16 (w0 :: rest) 0
  generalize hx : beNat (piece 16 (w0 :: rest) 0) = x at hlt
  obtain ⟨w1, h0, hi⟩ := replace_first (N := 16) (k := 128) (by decide) rfl w0 rest
    (BitVec.ofNat 128 (if x / 2048 % 2 = 0 then x + 2048 else x - 2048))
  rw [BitVec.toNat_ofNat] at h0
  have hne : w1 :: rest ≠ w0 :: rest := by
    intro e
    rw [e, hx] at h0
    split at h0 <;> omega
  obtain ⟨prog, hd, _, hu⟩ := C112_disassembly_testing (w0 :: rest)
  obtain ⟨prog', hd', _, hu'⟩ := C112_disassembly_testing (w1 :: rest)
  have he : prog = prog' := by
    refine (C112_same_testing _ _ _ _ hd hd').2 ⟨rfl, fun i raw raw' _ hr hr' => ?_⟩
    rcases Nat.eq_zero_or_pos i with rfl | h
    · rw [hx] at hr
      rw [h0] at hr'
      have hb : bits raw 0 11 = bits raw' 0 11 := by unfold bits; split at hr' <;> omega
      rw [hb]
      exact ⟨by unfold bits; split at hr' <;> omega, rfl⟩
    · rw [hi i h] at hr'
      obtain rfl : raw = raw' := BitVec.eq_of_toNat_eq (hr.trans hr'.symm)
      exact ⟨rfl, rfl⟩
  subst he
  exact ⟨_, hne, rfl, fun p => ⟨fun h => by rw [hu p h]; exact hd', fun h => by rw [hu' p h]; exact hd⟩⟩

/-! Cases: a code of ones, which assembles from nothing; a code of zeros; an assembled program. -/

private abbrev ones : List (Vector Byte 32) := [Vector.replicate 32 0xff]
private abbrev zeros : List (Vector Byte 32) := [Vector.replicate 32 0]


/-- The code of ones: instructions that do not exist, with all their registers and immediates. -/
example : ∃ prog, Disassembled 8 Production.parse ones prog ∧ prog.length = 4 ∧
    ∀ o ∈ prog, o.variant = entry 0 ∧ o.condition = .gtOrLt ∧ o.src0RegIdx = 15 ∧ o.imm1.toNat = 2 ^ 16 - 1 := by
  obtain ⟨prog, hd, _⟩ := C112_disassembly_production ones
  have hl : prog.length = 4 := by have := hd.1; rw [show ones.length = 1 from rfl] at this; omega
  refine ⟨prog, hd, hl, fun o ho => ?_⟩
  obtain ⟨i, hi⟩ := List.getElem?_of_mem ho
  have hlt := (List.getElem?_eq_some_iff.1 hi).1
  obtain ⟨raw, n, hr, hp⟩ := hd.2 i o hi
  rw [(by decide +kernel : ∀ i : Fin 4, beNat (piece 8 ones i) = 2 ^ 64 - 1) ⟨i, hl ▸ hlt⟩] at hr
  obtain rfl : raw = BitVec.allOnes 64 := BitVec.eq_of_toNat_eq hr
  obtain ⟨o', h, hv, hc, h1, _, _, _, _, h6⟩ := prod_parse (BitVec.allOnes 64)
  rw [(same_result hp h).1]
  refine ⟨by rw [hv]; decide +kernel, ?_, BitVec.eq_of_toNat_eq h1, h6⟩
  have : o'.condition.variantIndex = 7 := hc
  revert this
  cases o'.condition <;> decide

/-- Any machine on any code. -/
example (M : Machine 16 State Unit) (words : List (Vector Byte 32)) (n : Nat) (s : State) : ∃ page prog,
    (∀ k, HoldsPageWord (page k) words k) ∧ Disassembled 8 Production.parse words prog ∧
    cycles (cycleProduction M fun _ => page) n s = .ok (runProgram M maskOf (fun _ => prog) n s) := by
  have hv : ∀ k, ∃ v, HoldsPageWord v words k := fun k => by
    obtain ⟨v, hv⟩ := C09_word_exists (words.flatMap Vector.toList) k
    exact ⟨v, by unfold HoldsPageWord; rw [pageWord_eq]; exact hv⟩
  obtain ⟨prog, hd, _⟩ := C112_disassembly_production words
  exact ⟨fun k => (hv k).choose, prog, fun k => (hv k).choose_spec, hd,
    C112_runs_production M maskOf (fun v _ hi => mask_bit v hi) (fun _ => words) _ (fun _ k => (hv k).choose_spec) (fun _ => prog)
      (fun _ => hd) n s⟩

private theorem assembles_production (prog : List (DecodedOpcode 16)) (hE : ∀ o ∈ prog, Encodable o) :
    ∃ code, Assembled (Production.encodeAsBytes .debug) prog code := by
  obtain ⟨code, h, _⟩ := (C09_assembles .debug).1 prog hE
  exact ⟨code, h⟩

/-- The code of zeros is what its disassembly assembles to, the code of ones is not. -/
example : ∃ prog code, Disassembled 8 Production.parse zeros prog ∧ Assembled (Production.encodeAsBytes .debug) prog code ∧
    code = zeros.flatMap Vector.toList := by
  obtain ⟨prog, hd, hE, _⟩ := C112_disassembly_production zeros
  obtain ⟨code, hA⟩ := assembles_production prog hE
  refine ⟨prog, code, hd, hA, (C112_reassembled_production .debug zeros prog code hd hA).2.2 fun i raw hi hr => ?_⟩
  have hl : prog.length = 4 := by have := hd.1; rw [show zeros.length = 1 from rfl] at this; omega
  rw [(by decide +kernel : ∀ i : Fin 4, beNat (piece 8 zeros i) = 0) ⟨i, hl ▸ hi⟩] at hr
  unfold bits
  omega
example : ∃ prog code, Disassembled 8 Production.parse ones prog ∧ Assembled (Production.encodeAsBytes .debug) prog code ∧
    code.length = 32 ∧ code ≠ ones.flatMap Vector.toList := by
  obtain ⟨prog, hd, hE, _⟩ := C112_disassembly_production ones
  obtain ⟨code, hA⟩ := assembles_production prog hE
  obtain ⟨hlen, hiff⟩ := C112_reassembled_production .debug ones prog code hd hA
  refine ⟨prog, code, hd, hA, hlen, fun he => ?_⟩
  have hl : prog.length = 4 := by have := hd.1; rw [show ones.length = 1 from rfl] at this; omega
  have := (hiff.1 he 0 (BitVec.allOnes 64) (by omega) (by decide +kernel)).1
  revert this
  decide

/-- One instruction, assembled, padded and disassembled. -/
example : ∃ code words prog', Assembled (Production.encodeAsBytes .debug) [{ zeroInstruction 16 with imm0 := 7 }] code ∧
    PaddedTo code words ∧ Disassembled 8 Production.parse words prog' ∧
    prog' = { zeroInstruction 16 with imm0 := 7 } :: List.replicate (prog'.length - 1) (zeroInstruction 16) := by
  have hE : ∀ o ∈ [{ zeroInstruction 16 with imm0 := 7 }], Encodable o := by decide
  obtain ⟨code, words, _, hA, hp, _⟩ := C80_deployable_production .debug (fun _ => Vector.replicate 32 0) _ hE (by decide)
  obtain ⟨prog', hd, _⟩ := C112_disassembly_production words
  exact ⟨code, words, prog', hA, hp, hd, C112_roundtrip_production .debug _ prog' code words hE hA hp hd⟩

/-- The codes of ones and of zeros do not have the same disassembly; another code has that of the zeros. -/
example : ∃ prog prog', Disassembled 8 Production.parse ones prog ∧ Disassembled 8 Production.parse zeros prog' ∧ prog ≠ prog' := by
  obtain ⟨prog, hd, _⟩ := C112_disassembly_production ones
  obtain ⟨prog', hd', _⟩ := C112_disassembly_production zeros
  refine ⟨prog, prog', hd, hd', fun he => ?_⟩
  have hl : prog.length = 4 := by have := hd.1; rw [show ones.length = 1 from rfl] at this; omega
  have := (((C112_same_production _ _ _ _ hd hd').1 he).2 0 (BitVec.allOnes 64) 0 (by omega) (by decide +kernel) (by decide +kernel)).1
  revert this
  decide
example : ∃ words' prog, words' ≠ zeros ∧ Disassembled 8 Production.parse zeros prog ∧ Disassembled 8 Production.parse words' prog := by
  obtain ⟨words', hne, _, h⟩ := C112_not_unique_production zeros (by decide)
  obtain ⟨prog, hd, _⟩ := C112_disassembly_production zeros
  exact ⟨words', prog, hne, hd, (h prog).1 hd⟩

/-- No machine tells the code of zeros from no code; some machine tells the code of ones from both. -/
example (page page' : Unit → Nat → U256) (hpage : ∀ c k, HoldsPageWord (page c k) zeros k)
    (hpage' : ∀ c k, HoldsPageWord (page' c k) [] k) (M : Machine 16 State Unit) (n : Nat) (s : State) :
    cycles (cycleProduction M page) n s = cycles (cycleProduction M page') n s := by
  obtain ⟨prog, hd, _⟩ := C112_disassembly_production zeros
  refine (C112_full_abstraction_production (fun _ => zeros) (fun _ => []) page page' hpage hpage' (fun _ => prog) (fun _ => [])
    (fun _ => hd) (fun _ => ⟨rfl, fun i o h => by rw [List.getElem?_nil] at h; cases h⟩)).2 (fun _ i _ => ?_) State M n s
  have hz := C112_roundtrip_production .debug [] prog [] zeros (fun o h => by cases h) .nil ⟨by decide, 32, by decide, by decide⟩ hd
  rw [hz]
  unfold instructionAt
  rw [List.nil_append, List.getElem?_nil, List.getElem?_replicate]
  split <;> rfl
example (page page' : Unit → Nat → U256) (hpage : ∀ c k, HoldsPageWord (page c k) ones k)
    (hpage' : ∀ c k, HoldsPageWord (page' c k) zeros k) : ∃ (State : Type) (M : Machine 16 State Unit) (n : Nat) (s : State),
    cycles (cycleProduction M page) n s ≠ cycles (cycleProduction M page') n s := by
  obtain ⟨prog, hd, _⟩ := C112_disassembly_production ones
  obtain ⟨prog', hd', _⟩ := C112_disassembly_production zeros
  refine Classical.byContradiction fun hn => ?_
  have h := (C112_full_abstraction_production (fun _ => ones) (fun _ => zeros) page page' hpage hpage' (fun _ => prog)
    (fun _ => prog') (fun _ => hd) (fun _ => hd')).1 (fun State M n s => Classical.byContradiction fun he =>
      hn ⟨State, M, n, s, he⟩)
  have hl : prog.length = 4 := by have := hd.1; rw [show ones.length = 1 from rfl] at this; omega
  have hl' : prog'.length = 4 := by have := hd'.1; rw [show zeros.length = 1 from rfl] at this; omega
  have he : prog = prog' := by
    apply List.ext_getElem (hl.trans hl'.symm)
    intro i h1 h2
    have := h () i (by omega)
    unfold instructionAt at this
    rw [List.getElem?_eq_getElem h1, List.getElem?_eq_getElem h2] at this
    exact this
  have := (((C112_same_production _ _ _ _ hd hd').1 he).2 0 (BitVec.allOnes 64) 0 (by omega) (by decide +kernel) (by decide +kernel)).1
  revert this
  decide

/-- Words after the first 2 ^ 14. -/
example (M : Machine 16 State Unit) (page page' : Unit → Nat → U256) (x y : Vector Byte 32)
    (hpage : ∀ c k, HoldsPageWord (page c k) (List.replicate (2 ^ 14) x) k)
    (hpage' : ∀ c k, HoldsPageWord (page' c k) (List.replicate (2 ^ 14) x ++ [y]) k) (n : Nat) (s : State) :
    cycles (cycleProduction M page) n s = cycles (cycleProduction M page') n s :=
  C112_first_words_production M (fun _ => List.replicate (2 ^ 14) x) (fun _ => List.replicate (2 ^ 14) x ++ [y]) page page' hpage hpage'
    (fun _ => by rw [List.take_left' List.length_replicate, List.take_of_length_le (Nat.le_of_eq List.length_replicate)]) n s

/-- Any machine on the code of zeros and on another one. -/
example (M : Machine 16 State Unit) (n : Nat) (s : State) : ∃ words' page page', words' ≠ zeros ∧
    (∀ k, HoldsPageWord (page k) zeros k) ∧ (∀ k, HoldsPageWord (page' k) words' k) ∧
    cycles (cycleProduction M fun _ => page) n s = cycles (cycleProduction M fun _ => page') n s := by
  have hv : ∀ words k, ∃ v, HoldsPageWord v words k := fun words k => by
    obtain ⟨v, hv⟩ := C09_word_exists (words.flatMap Vector.toList) k
    exact ⟨v, by unfold HoldsPageWord; rw [pageWord_eq]; exact hv⟩
  obtain ⟨words', hne, _, h⟩ := C112_not_unique_production zeros (by decide)
  obtain ⟨prog, hd, _⟩ := C112_disassembly_production zeros
  exact ⟨words', fun k => (hv zeros k).choose, fun k => (hv words' k).choose, hne, fun k => (hv zeros k).choose_spec,
    fun k => (hv words' k).choose_spec, C112_indistinguishable_production M (fun _ => zeros) (fun _ => words') _ _
      (fun _ k => (hv zeros k).choose_spec) (fun _ k => (hv words' k).choose_spec) (fun _ => ⟨prog, hd, (h prog).1 hd⟩) n s⟩

/-- The code of ones: instructions that do not exist, with all their registers and immediates. -/
example : ∃ prog, Disassembled 16 Testing.parse ones prog ∧ prog.length = 2 ∧
    ∀ o ∈ prog, o.variant = entry 0 ∧ o.condition = .gtOrLt ∧ o.src0RegIdx = 15 ∧ o.imm1.toNat = 2 ^ 32 - 1 := by
  obtain ⟨prog, hd, _⟩ := C112_disassembly_testing ones
  have hl : prog.length = 2 := by have := hd.1; rw [show ones.length = 1 from rfl] at this; omega
  refine ⟨prog, hd, hl, fun o ho => ?_⟩
  obtain ⟨i, hi⟩ := List.getElem?_of_mem ho
  have hlt := (List.getElem?_eq_some_iff.1 hi).1
  obtain ⟨raw, n, hr, hp⟩ := hd.2 i o hi
  rw [(by decide +kernel : ∀ i : Fin 2, beNat (piece 16 ones i) = 2 ^ 128 - 1) ⟨i, hl ▸ hlt⟩] at hr
  obtain rfl : raw = BitVec.allOnes 128 := BitVec.eq_of_toNat_eq hr
  obtain ⟨o', h, hv, hc, h1, _, _, _, _, h6⟩ := test_parse (BitVec.allOnes 128)
  rw [(same_result hp h).1]
  refine ⟨by rw [hv]; decide +kernel, ?_, BitVec.eq_of_toNat_eq h1, h6⟩
  have : o'.condition.variantIndex = 7 := hc
  revert this
  cases o'.condition <;> decide

/-- Any machine on any code. -/
example (M : Machine 32 State Unit) (words : List (Vector Byte 32)) (n : Nat) (s : State) : ∃ page prog,
    (∀ k, HoldsPageWord (page k) words k) ∧ Disassembled 16 Testing.parse words prog ∧
    cycles (cycleTesting M fun _ => page) n s = .ok (runProgram M maskOf (fun _ => prog) n s) := by
  have hv : ∀ k, ∃ v, HoldsPageWord v words k := fun k => by
    obtain ⟨v, hv⟩ := C09_word_exists (words.flatMap Vector.toList) k
    exact ⟨v, by unfold HoldsPageWord; rw [pageWord_eq]; exact hv⟩
  obtain ⟨prog, hd, _⟩ := C112_disassembly_testing words
  exact ⟨fun k => (hv k).choose, prog, fun k => (hv k).choose_spec, hd,
    C112_runs_testing M maskOf (fun v _ hi => mask_bit v hi) (fun _ => words) _ (fun _ k => (hv k).choose_spec) (fun _ => prog)
      (fun _ => hd) n s⟩

private theorem assembles_testing (prog : List (DecodedOpcode 32)) (hE : ∀ o ∈ prog, Encodable o) :
    ∃ code, Assembled (Testing.encodeAsBytes .debug) prog code := by
  obtain ⟨code, h, _⟩ := (C09_assembles .debug).2 prog hE
  exact ⟨code, h⟩

/-- The code of zeros is what its disassembly assembles to, the code of ones is not. -/
example : ∃ prog code, Disassembled 16 Testing.parse zeros prog ∧ Assembled (Testing.encodeAsBytes .debug) prog code ∧
    code = zeros.flatMap Vector.toList := by
  obtain ⟨prog, hd, hE, _⟩ := C112_disassembly_testing zeros
  obtain ⟨code, hA⟩ := assembles_testing prog hE
  refine ⟨prog, code, hd, hA, (C112_reassembled_testing .debug zeros prog code hd hA).2.2 fun i raw hi hr => ?_⟩
  have hl : prog.length = 2 := by have := hd.1; rw [show zeros.length = 1 from rfl] at this; omega
  rw [(by decide +kernel : ∀ i : Fin 2, beNat (piece 16 zeros i) = 0) ⟨i, hl ▸ hi⟩] at hr
  unfold bits
  omega
example : ∃ prog code, Disassembled 16 Testing.parse ones prog ∧ Assembled (Testing.encodeAsBytes .debug) prog code ∧
    code.length = 32 ∧ code ≠ ones.flatMap Vector.toList := by
  obtain ⟨prog, hd, hE, _⟩ := C112_disassembly_testing ones
  obtain ⟨code, hA⟩ := assembles_testing prog hE
  obtain ⟨hlen, hiff⟩ := C112_reassembled_testing .debug ones prog code hd hA
  refine ⟨prog, code, hd, hA, hlen, fun he => ?_⟩
  have hl : prog.length = 2 := by have := hd.1; rw [show ones.length = 1 from rfl] at this; omega
  have := (hiff.1 he 0 (BitVec.allOnes 128) (by omega) (by decide +kernel)).1
  revert this
  decide

/-- One instruction, assembled, padded and disassembled. -/
example : ∃ code words prog', Assembled (Testing.encodeAsBytes .debug) [{ zeroInstruction 32 with imm0 := 7 }] code ∧
    PaddedTo code words ∧ Disassembled 16 Testing.parse words prog' ∧
    prog' = { zeroInstruction 32 with imm0 := 7 } :: List.replicate (prog'.length - 1) (zeroInstruction 32) := by
  have hE : ∀ o ∈ [{ zeroInstruction 32 with imm0 := 7 }], Encodable o := by decide
  obtain ⟨code, words, _, hA, hp, _⟩ := C80_deployable_testing .debug (fun _ => Vector.replicate 32 0) _ hE (by decide)
  obtain ⟨prog', hd, _⟩ := C112_disassembly_testing words
  exact ⟨code, words, prog', hA, hp, hd, C112_roundtrip_testing .debug _ prog' code words hE hA hp hd⟩

/-- The codes of ones and of zeros do not have the same disassembly; another code has that of the zeros. -/
example : ∃ prog prog', Disassembled 16 Testing.parse ones prog ∧ Disassembled 16 Testing.parse zeros prog' ∧ prog ≠ prog' := by
  obtain ⟨prog, hd, _⟩ := C112_disassembly_testing ones
  obtain ⟨prog', hd', _⟩ := C112_disassembly_testing zeros
  refine ⟨prog, prog', hd, hd', fun he => ?_⟩
  have hl : prog.length = 2 := by have := hd.1; rw [show ones.length = 1 from rfl] at this; omega
  have := (((C112_same_testing _ _ _ _ hd hd').1 he).2 0 (BitVec.allOnes 128) 0 (by omega) (by decide +kernel) (by decide +kernel)).1
  revert this
  decide
example : ∃ words' prog, words' ≠ zeros ∧ Disassembled 16 Testing.parse zeros prog ∧ Disassembled 16 Testing.parse words' prog := by
  obtain ⟨words', hne, _, h⟩ := C112_not_unique_testing zeros (by decide)
  obtain ⟨prog, hd, _⟩ := C112_disassembly_testing zeros
  exact ⟨words', prog, hne, hd, (h prog).1 hd⟩

/-- No machine tells the code of zeros from no code; some machine tells the code of ones from both. -/
example (page page' : Unit → Nat → U256) (hpage : ∀ c k, HoldsPageWord (page c k) zeros k)
    (hpage' : ∀ c k, HoldsPageWord (page' c k) [] k) (M : Machine 32 State Unit) (n : Nat) (s : State) :
    cycles (cycleTesting M page) n s = cycles (cycleTesting M page') n s := by
  obtain ⟨prog, hd, _⟩ := C112_disassembly_testing zeros
  refine (C112_full_abstraction_testing (fun _ => zeros) (fun _ => []) page page' hpage hpage' (fun _ => prog) (fun _ => [])
    (fun _ => hd) (fun _ => ⟨rfl, fun i o h => by rw [List.getElem?_nil] at h; cases h⟩)).2 (fun _ i _ => ?_) State M n s
  have hz := C112_roundtrip_testing .debug [] prog [] zeros (fun o h => by cases h) .nil ⟨by decide, 32, by decide, by decide⟩ hd
  rw [hz]
  unfold instructionAt
  rw [List.nil_append, List.getElem?_nil, List.getElem?_replicate]
  split <;> rfl
example (page page' : Unit → Nat → U256) (hpage : ∀ c k, HoldsPageWord (page c k) ones k)
    (hpage' : ∀ c k, HoldsPageWord (page' c k) zeros k) : ∃ (State : Type) (M : Machine 32 State Unit) (n : Nat) (s : State),
    cycles (cycleTesting M page) n s ≠ cycles (cycleTesting M page') n s := by
  obtain ⟨prog, hd, _⟩ := C112_disassembly_testing ones
  obtain ⟨prog', hd', _⟩ := C112_disassembly_testing zeros
  refine Classical.byContradiction fun hn => ?_
  have h := (C112_full_abstraction_testing (fun _ => ones) (fun _ => zeros) page page' hpage hpage' (fun _ => prog)
    (fun _ => prog') (fun _ => hd) (fun _ => hd')).1 (fun State M n s => Classical.byContradiction fun he =>
      hn ⟨State, M, n, s, he⟩)
  have hl : prog.length = 2 := by have := hd.1; rw [show ones.length = 1 from rfl] at this; omega
  have hl' : prog'.length = 2 := by have := hd'.1; rw [show zeros.length = 1 from rfl] at this; omega
  have he : prog = prog' := by
    apply List.ext_getElem (hl.trans hl'.symm)
    intro i h1 h2
    have := h () i (by omega)
    unfold instructionAt at this
    rw [List.getElem?_eq_getElem h1, List.getElem?_eq_getElem h2] at this
    exact this
  have := (((C112_same_testing _ _ _ _ hd hd').1 he).2 0 (BitVec.allOnes 128) 0 (by omega) (by decide +kernel) (by decide +kernel)).1
  revert this
  decide

/-- Words after the first 2 ^ 31. -/
example (M : Machine 32 State Unit) (page page' : Unit → Nat → U256) (x y : Vector Byte 32)
    (hpage : ∀ c k, HoldsPageWord (page c k) (List.replicate (2 ^ 31) x) k)
    (hpage' : ∀ c k, HoldsPageWord (page' c k) (List.replicate (2 ^ 31) x ++ [y]) k) (n : Nat) (s : State) :
    cycles (cycleTesting M page) n s = cycles (cycleTesting M page') n s :=
  C112_first_words_testing M (fun _ => List.replicate (2 ^ 31) x) (fun _ => List.replicate (2 ^ 31) x ++ [y]) page page' hpage hpage'
    (fun _ => by rw [List.take_left' List.length_replicate, List.take_of_length_le (Nat.le_of_eq List.length_replicate)]) n s

/-- Any machine on the code of zeros and on another one. -/
example (M : Machine 32 State Unit) (n : Nat) (s : State) : ∃ words' page page', words' ≠ zeros ∧
    (∀ k, HoldsPageWord (page k) zeros k) ∧ (∀ k, HoldsPageWord (page' k) words' k) ∧
    cycles (cycleTesting M fun _ => page) n s = cycles (cycleTesting M fun _ => page') n s := by
  have hv : ∀ words k, ∃ v, HoldsPageWord v words k := fun words k => by
    obtain ⟨v, hv⟩ := C09_word_exists (words.flatMap Vector.toList) k
    exact ⟨v, by unfold HoldsPageWord; rw [pageWord_eq]; exact hv⟩
  obtain ⟨words', hne, _, h⟩ := C112_not_unique_testing zeros (by decide)
  obtain ⟨prog, hd, _⟩ := C112_disassembly_testing zeros
  exact ⟨words', fun k => (hv zeros k).choose, fun k => (hv words' k).choose, hne, fun k => (hv zeros k).choose_spec,
    fun k => (hv words' k).choose_spec, C112_indistinguishable_testing M (fun _ => zeros) (fun _ => words') _ _
      (fun _ k => (hv zeros k).choose_spec) (fun _ k => (hv words' k).choose_spec) (fun _ => ⟨prog, hd, (h prog).1 hd⟩) n s⟩

end ZkEvm.Props
