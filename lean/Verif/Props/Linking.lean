import Verif.Lemmas.Linking
import Verif.Props.Machine
/-! C125: parts of assembled instructions can be filled in later. -/
namespace ZkEvm.Props
open Spec Words Program Linking Deploy

variable {State Contract : Type}

/-- C125, production: overwriting a part of any word, whether canonical or not, changes what it decodes to in that part and
in nothing else. -/
theorem C125_words_production (f : Fill 16) (hf : f.Ok) (old new : List Byte) (hl : old.length = 8)
    (ho : Overwritten old new f.placeProduction.1 f.placeProduction.2 f.number) (w w' : BitVec 64)
    (hw : beNat old = w.toNat) (hw' : beNat new = w'.toNat) (o : DecodedOpcode 16) (n : VariantMonotonicNumber)
    (h : Production.parse w = .ok (o, n)) :
    Production.parse w' = .ok (f.into o, n) ∧ bits w' 0 16 = bits w 0 16 := by
  obtain ⟨t, a, ht, ha, _, a1, a2, a3, a4, a5, a6, a7, a8⟩ := C01_decode_production w
  obtain ⟨t', a', ht', ha', _, b1, b2, b3, b4, b5, b6, b7, b8⟩ := C01_decode_production w'
  rw [ha] at h
  injection h with h
  injection h with h h'
  subst h h'
  suffices key : bits w' 0 16 = bits w 0 16 ∧ bits w' 0 11 = bits w 0 11 ∧ bits w' 13 3 = bits w 13 3 ∧
      a'.src0RegIdx.toNat = (f.into a).src0RegIdx.toNat ∧
      a'.src1RegIdx.toNat = (f.into a).src1RegIdx.toNat ∧ a'.dst0RegIdx.toNat = (f.into a).dst0RegIdx.toNat ∧
      a'.dst1RegIdx.toNat = (f.into a).dst1RegIdx.toNat ∧ a'.imm0.toNat = (f.into a).imm0.toNat ∧
      a'.imm1.toNat = (f.into a).imm1.toNat by
    obtain ⟨k1, v, c, k2, k3, k4, k5, k6, k7⟩ := key
    rw [v] at b1 ha'
    rw [c, a2] at b2
    injection b2 with b2
    have e : a' = f.into a := by
      refine ext_fields ?_ ?_ k2 k3 k4 k5 k6 k7
      · rw [b1, ← a1]; cases f <;> rfl
      · rw [← b2]; cases f <;> rfl
    exact ⟨by rw [ha', e], k1⟩
  clear a1 a2 b1 b2 ha ha' ht ht'
  cases f with
  | imm0 x =>
    obtain ⟨same, put⟩ := overwritten_bits ho 4 (by rw [hl]; rfl) w w' hw hw'
    simp only [Fill.placeProduction, Fill.number, Nat.reduceMul, Nat.reduceAdd] at same put
    exact ⟨same _ _ (by decide), same _ _ (by decide), same _ _ (by decide),
      b3.trans ((same _ _ (by decide)).trans a3.symm),
      b4.trans ((same _ _ (by decide)).trans a4.symm),
      b5.trans ((same _ _ (by decide)).trans a5.symm),
      b6.trans ((same _ _ (by decide)).trans a6.symm),
      b7.trans put,
      b8.trans ((same _ _ (by decide)).trans a8.symm)⟩
  | imm1 x =>
    obtain ⟨same, put⟩ := overwritten_bits ho 6 (by rw [hl]; rfl) w w' hw hw'
    simp only [Fill.placeProduction, Fill.number, Nat.reduceMul, Nat.reduceAdd] at same put
    exact ⟨same _ _ (by decide), same _ _ (by decide), same _ _ (by decide),
      b3.trans ((same _ _ (by decide)).trans a3.symm),
      b4.trans ((same _ _ (by decide)).trans a4.symm),
      b5.trans ((same _ _ (by decide)).trans a5.symm),
      b6.trans ((same _ _ (by decide)).trans a6.symm),
      b7.trans ((same _ _ (by decide)).trans a7.symm),
      b8.trans put⟩
  | src r0 r1 =>
    obtain ⟨same, put⟩ := overwritten_bits ho 2 (by rw [hl]; rfl) w w' hw hw'
    simp only [Fill.placeProduction, Fill.number, Nat.reduceMul, Nat.reduceAdd] at same put
    obtain ⟨n0, n1⟩ := nibbles w' 16 r0 r1 hf.1 put
    exact ⟨same _ _ (by decide), same _ _ (by decide), same _ _ (by decide),
      b3.trans n0,
      b4.trans n1,
      b5.trans ((same _ _ (by decide)).trans a5.symm),
      b6.trans ((same _ _ (by decide)).trans a6.symm),
      b7.trans ((same _ _ (by decide)).trans a7.symm),
      b8.trans ((same _ _ (by decide)).trans a8.symm)⟩
  | dst r0 r1 =>
    obtain ⟨same, put⟩ := overwritten_bits ho 3 (by rw [hl]; rfl) w w' hw hw'
    simp only [Fill.placeProduction, Fill.number, Nat.reduceMul, Nat.reduceAdd] at same put
    obtain ⟨n0, n1⟩ := nibbles w' 24 r0 r1 hf.1 put
    exact ⟨same _ _ (by decide), same _ _ (by decide), same _ _ (by decide),
      b3.trans ((same _ _ (by decide)).trans a3.symm),
      b4.trans ((same _ _ (by decide)).trans a4.symm),
      b5.trans n0,
      b6.trans n1,
      b7.trans ((same _ _ (by decide)).trans a7.symm),
      b8.trans ((same _ _ (by decide)).trans a8.symm)⟩

/-- C125, testing: overwriting a part of any word, whether canonical or not, changes what it decodes to in that part and
in nothing else. -/
theorem C125_words_testing (f : Fill 32) (hf : f.Ok) (old new : List Byte) (hl : old.length = 16)
    (ho : Overwritten old new f.placeTesting.1 f.placeTesting.2 f.number) (w w' : BitVec 128)
    (hw : beNat old = w.toNat) (hw' : beNat new = w'.toNat) (o : DecodedOpcode 32) (n : VariantMonotonicNumber)
    (h : Testing.parse w = .ok (o, n)) :
    Testing.parse w' = .ok (f.into o, n) ∧ bits w' 0 16 = bits w 0 16 ∧ bits w' 96 32 = bits w 96 32 := by
  obtain ⟨t, a, ht, ha, _, a1, a2, a3, a4, a5, a6, a7, a8⟩ := C01_decode_testing w
  obtain ⟨t', a', ht', ha', _, b1, b2, b3, b4, b5, b6, b7, b8⟩ := C01_decode_testing w'
  rw [ha] at h
  injection h with h
  injection h with h h'
  subst h h'
  suffices key : bits w' 0 16 = bits w 0 16 ∧ bits w' 96 32 = bits w 96 32 ∧ bits w' 0 11 = bits w 0 11 ∧ bits w' 13 3 = bits w 13 3 ∧
      a'.src0RegIdx.toNat = (f.into a).src0RegIdx.toNat ∧
      a'.src1RegIdx.toNat = (f.into a).src1RegIdx.toNat ∧ a'.dst0RegIdx.toNat = (f.into a).dst0RegIdx.toNat ∧
      a'.dst1RegIdx.toNat = (f.into a).dst1RegIdx.toNat ∧ a'.imm0.toNat = (f.into a).imm0.toNat ∧
      a'.imm1.toNat = (f.into a).imm1.toNat by
    obtain ⟨k1, k9, v, c, k2, k3, k4, k5, k6, k7⟩ := key
    rw [v] at b1 ha'
    rw [c, a2] at b2
    injection b2 with b2
    have e : a' = f.into a := by
      refine ext_fields ?_ ?_ k2 k3 k4 k5 k6 k7
      · rw [b1, ← a1]; cases f <;> rfl
      · rw [← b2]; cases f <;> rfl
    exact ⟨by rw [ha', e], k1, k9⟩
  clear a1 a2 b1 b2 ha ha' ht ht'
  cases f with
  | imm0 x =>
    obtain ⟨same, put⟩ := overwritten_bits ho 4 (by rw [hl]; rfl) w w' hw hw'
    simp only [Fill.placeTesting, Fill.number, Nat.reduceMul, Nat.reduceAdd] at same put
    exact ⟨same _ _ (by decide), same _ _ (by decide), same _ _ (by decide), same _ _ (by decide),
      b3.trans ((same _ _ (by decide)).trans a3.symm),
      b4.trans ((same _ _ (by decide)).trans a4.symm),
      b5.trans ((same _ _ (by decide)).trans a5.symm),
      b6.trans ((same _ _ (by decide)).trans a6.symm),
      b7.trans put,
      b8.trans ((same _ _ (by decide)).trans a8.symm)⟩
  | imm1 x =>
    obtain ⟨same, put⟩ := overwritten_bits ho 8 (by rw [hl]; rfl) w w' hw hw'
    simp only [Fill.placeTesting, Fill.number, Nat.reduceMul, Nat.reduceAdd] at same put
    exact ⟨same _ _ (by decide), same _ _ (by decide), same _ _ (by decide), same _ _ (by decide),
      b3.trans ((same _ _ (by decide)).trans a3.symm),
      b4.trans ((same _ _ (by decide)).trans a4.symm),
      b5.trans ((same _ _ (by decide)).trans a5.symm),
      b6.trans ((same _ _ (by decide)).trans a6.symm),
      b7.trans ((same _ _ (by decide)).trans a7.symm),
      b8.trans put⟩
  | src r0 r1 =>
    obtain ⟨same, put⟩ := overwritten_bits ho 2 (by rw [hl]; rfl) w w' hw hw'
    simp only [Fill.placeTesting, Fill.number, Nat.reduceMul, Nat.reduceAdd] at same put
    obtain ⟨n0, n1⟩ := nibbles w' 16 r0 r1 hf.1 put
    exact ⟨same _ _ (by decide), same _ _ (by decide), same _ _ (by decide), same _ _ (by decide),
      b3.trans n0,
      b4.trans n1,
      b5.trans ((same _ _ (by decide)).trans a5.symm),
      b6.trans ((same _ _ (by decide)).trans a6.symm),
      b7.trans ((same _ _ (by decide)).trans a7.symm),
      b8.trans ((same _ _ (by decide)).trans a8.symm)⟩
  | dst r0 r1 =>
    obtain ⟨same, put⟩ := overwritten_bits ho 3 (by rw [hl]; rfl) w w' hw hw'
    simp only [Fill.placeTesting, Fill.number, Nat.reduceMul, Nat.reduceAdd] at same put
    obtain ⟨n0, n1⟩ := nibbles w' 24 r0 r1 hf.1 put
    exact ⟨same _ _ (by decide), same _ _ (by decide), same _ _ (by decide), same _ _ (by decide),
      b3.trans ((same _ _ (by decide)).trans a3.symm),
      b4.trans ((same _ _ (by decide)).trans a4.symm),
      b5.trans n0,
      b6.trans n1,
      b7.trans ((same _ _ (by decide)).trans a7.symm),
      b8.trans ((same _ _ (by decide)).trans a8.symm)⟩

private theorem assembled_unique {α : Type} {enc : α → Res (List Byte)} {prog : List α} {c c' : List Byte}
    (h : Assembled enc prog c) (h' : Assembled enc prog c') : c = c' := by
  induction h generalizing c' with
  | nil => cases h'; rfl
  | cons ho _ ih =>
    cases h' with
    | cons ho' h' =>
      rw [ho] at ho'
      injection ho' with e
      rw [e, ih h']

private theorem one_production (b : Build) (f : Fill 16) (o : DecodedOpcode 16) (bs bs' : List Byte) (hf : f.Ok) (ho : Encodable o)
    (h : Production.encodeAsBytes b o = .ok bs) (hw : Overwritten bs bs' f.placeProduction.1 f.placeProduction.2 f.number) :
    Production.encodeAsBytes b (f.into o) = .ok bs' := by
  obtain ⟨w, hi, hl, hn⟩ := (C08_bytes_big_endian b).1 o bs h
  obtain ⟨t, w2, n, _, h2, h3, _⟩ := C02_roundtrip_production b o ho
  rw [hi] at h2
  have h2 := Except.ok.inj h2
  subst h2
  have hl' : bs'.length = 8 := by
    obtain ⟨p, m, m', q, rfl, rfl, _, e, e', _⟩ := hw
    simp only [List.length_append] at hl ⊢
    omega
  have hlt : beNat bs' < 2 ^ 64 := Nat.lt_of_lt_of_eq (hl' ▸ beNat_lt bs') (by decide)
  have hn' : beNat bs' = (BitVec.ofNat 64 (beNat bs')).toNat := by rw [BitVec.toNat_ofNat, Nat.mod_eq_of_lt hlt]
  obtain ⟨hp, hb⟩ := C125_words_production f hf bs bs' hl hw w _ hn hn' o _ h3
  obtain ⟨x, hx, _, _, _, hxw⟩ := C04_decode_encode_production b w o _ h3
  rw [hi] at hx
  have hx := Except.ok.inj hx
  obtain ⟨e1, e2⟩ := hxw.1 hx.symm
  obtain ⟨y, hy, _, _, _, hyw⟩ := C04_decode_encode_production b _ _ _ hp
  have hyy := hyw.2 ⟨by unfold bits at *; omega, by unfold bits at *; omega⟩
  subst hyy
  obtain ⟨bs2, h4⟩ : ∃ bs2, Production.encodeAsBytes b (f.into o) = .ok bs2 := by
    unfold Production.encodeAsBytes
    rw [hy]
    exact ⟨_, rfl⟩
  obtain ⟨w3, h5, h6, h7⟩ := (C08_bytes_big_endian b).1 _ bs2 h4
  rw [hy] at h5
  have h5 := Except.ok.inj h5
  rw [h4, EncodingModeLemmas.beNat_inj (h6.trans hl'.symm) (by rw [h7, ← h5, ← hn'])]

/-- C125, production: a linker can overwrite any parts of instructions of assembled code, any number of times, and what it gets is
the code assembled from the program with these parts filled in. -/
theorem C125_link_production (b : Build) (l : List (Nat × Fill 16)) (prog : List (DecodedOpcode 16)) (code : List Byte)
    (hE : ∀ o ∈ prog, Encodable o) (hA : Assembled (Production.encodeAsBytes b) prog code)
    (hl : ∀ x ∈ l, x.1 < prog.length ∧ x.2.Ok) :
    (∃ code', LinkedCode 8 Fill.placeProduction l code code') ∧
    ∀ code', LinkedCode 8 Fill.placeProduction l code code' →
      Assembled (Production.encodeAsBytes b) (linked l prog) code' ∧ ∀ o ∈ linked l prog, Encodable o :=
  link_any 8 Fill.placeProduction (Production.encodeAsBytes b)
    (fun o bs h => let ⟨_, _, h, _⟩ := (C08_bytes_big_endian b).1 o bs h; h)
    (fun f => by cases f <;> simp only [Fill.placeProduction] <;> decide)
    (fun f hf => by
      cases f with
      | imm0 x => exact x.isLt
      | imm1 x => exact x.isLt
      | src r0 r1 => obtain ⟨h0, h1⟩ := hf; show r1.toNat * 16 + r0.toNat < 256 ^ 1; omega
      | dst r0 r1 => obtain ⟨h0, h1⟩ := hf; show r1.toNat * 16 + r0.toNat < 256 ^ 1; omega)
    (one_production b) l prog code hE hA hl

/-- C125, production: the order in which different parts are filled in does not matter. -/
theorem C125_order_production (b : Build) (l l' : List (Nat × Fill 16)) (hp : l.Perm l')
    (hd : l.Pairwise fun x y => ¬ (x.1 = y.1 ∧ x.2.SamePart y.2)) (prog : List (DecodedOpcode 16)) (code c c' : List Byte)
    (hE : ∀ o ∈ prog, Encodable o) (hA : Assembled (Production.encodeAsBytes b) prog code)
    (hl : ∀ x ∈ l, x.1 < prog.length ∧ x.2.Ok) (h : LinkedCode 8 Fill.placeProduction l code c)
    (h' : LinkedCode 8 Fill.placeProduction l' code c') : c = c' := by
  have e := ((C125_link_production b l prog code hE hA hl).2 c h).1
  have e' := ((C125_link_production b l' prog code hE hA fun x hx => hl x (hp.mem_iff.2 hx)).2 c' h').1
  rw [← linked_perm hp hd prog] at e'
  exact assembled_unique e e'

private theorem one_testing (b : Build) (f : Fill 32) (o : DecodedOpcode 32) (bs bs' : List Byte) (hf : f.Ok) (ho : Encodable o)
    (h : Testing.encodeAsBytes b o = .ok bs) (hw : Overwritten bs bs' f.placeTesting.1 f.placeTesting.2 f.number) :
    Testing.encodeAsBytes b (f.into o) = .ok bs' := by
  obtain ⟨w, hi, hl, hn⟩ := (C08_bytes_big_endian b).2 o bs h
  obtain ⟨t, w2, n, _, h2, h3, _⟩ := C03_roundtrip_testing b o ho
  rw [hi] at h2
  have h2 := Except.ok.inj h2
  subst h2
  have hl' : bs'.length = 16 := by
    obtain ⟨p, m, m', q, rfl, rfl, _, e, e', _⟩ := hw
    simp only [List.length_append] at hl ⊢
    omega
  have hlt : beNat bs' < 2 ^ 128 := Nat.lt_of_lt_of_eq (hl' ▸ beNat_lt bs') (by decide)
  have hn' : beNat bs' = (BitVec.ofNat 128 (beNat bs')).toNat := by rw [BitVec.toNat_ofNat, Nat.mod_eq_of_lt hlt]
  obtain ⟨hp, hb, hz⟩ := C125_words_testing f hf bs bs' hl hw w _ hn hn' o _ h3
  obtain ⟨x, hx, _, _, _, _, hxw⟩ := C05_decode_encode_testing b w o _ h3
  rw [hi] at hx
  have hx := Except.ok.inj hx
  obtain ⟨e1, e2, e3⟩ := hxw.1 hx.symm
  obtain ⟨y, hy, _, _, _, _, hyw⟩ := C05_decode_encode_testing b _ _ _ hp
  have hyy := hyw.2 ⟨by unfold bits at *; omega, by rw [hz]; exact e2, by unfold bits at *; omega⟩
  subst hyy
  obtain ⟨bs2, h4⟩ : ∃ bs2, Testing.encodeAsBytes b (f.into o) = .ok bs2 := by
    unfold Testing.encodeAsBytes
    rw [hy]
    exact ⟨_, rfl⟩
  obtain ⟨w3, h5, h6, h7⟩ := (C08_bytes_big_endian b).2 _ bs2 h4
  rw [hy] at h5
  have h5 := Except.ok.inj h5
  rw [h4, EncodingModeLemmas.beNat_inj (h6.trans hl'.symm) (by rw [h7, ← h5, ← hn'])]

/-- C125, testing: a linker can overwrite any parts of instructions of assembled code, any number of times, and what it gets is
the code assembled from the program with these parts filled in. -/
theorem C125_link_testing (b : Build) (l : List (Nat × Fill 32)) (prog : List (DecodedOpcode 32)) (code : List Byte)
    (hE : ∀ o ∈ prog, Encodable o) (hA : Assembled (Testing.encodeAsBytes b) prog code)
    (hl : ∀ x ∈ l, x.1 < prog.length ∧ x.2.Ok) :
    (∃ code', LinkedCode 16 Fill.placeTesting l code code') ∧
    ∀ code', LinkedCode 16 Fill.placeTesting l code code' →
      Assembled (Testing.encodeAsBytes b) (linked l prog) code' ∧ ∀ o ∈ linked l prog, Encodable o :=
  link_any 16 Fill.placeTesting (Testing.encodeAsBytes b)
    (fun o bs h => let ⟨_, _, h, _⟩ := (C08_bytes_big_endian b).2 o bs h; h)
    (fun f => by cases f <;> simp only [Fill.placeTesting] <;> decide)
    (fun f hf => by
      cases f with
      | imm0 x => exact x.isLt
      | imm1 x => exact x.isLt
      | src r0 r1 => obtain ⟨h0, h1⟩ := hf; show r1.toNat * 16 + r0.toNat < 256 ^ 1; omega
      | dst r0 r1 => obtain ⟨h0, h1⟩ := hf; show r1.toNat * 16 + r0.toNat < 256 ^ 1; omega)
    (one_testing b) l prog code hE hA hl

/-- C125, testing: the order in which different parts are filled in does not matter. -/
theorem C125_order_testing (b : Build) (l l' : List (Nat × Fill 32)) (hp : l.Perm l')
    (hd : l.Pairwise fun x y => ¬ (x.1 = y.1 ∧ x.2.SamePart y.2)) (prog : List (DecodedOpcode 32)) (code c c' : List Byte)
    (hE : ∀ o ∈ prog, Encodable o) (hA : Assembled (Testing.encodeAsBytes b) prog code)
    (hl : ∀ x ∈ l, x.1 < prog.length ∧ x.2.Ok) (h : LinkedCode 16 Fill.placeTesting l code c)
    (h' : LinkedCode 16 Fill.placeTesting l' code c') : c = c' := by
  have e := ((C125_link_testing b l prog code hE hA hl).2 c h).1
  have e' := ((C125_link_testing b l' prog code hE hA fun x hx => hl x (hp.mem_iff.2 hx)).2 c' h').1
  rw [← linked_perm hp hd prog] at e'
  exact assembled_unique e e'

/-- C125, production: linked code, deployed, runs like the program with the parts filled in, on any machine and for any number of
contracts. -/
theorem C125_runs_production (M : Machine 16 State Contract) (mask : OpcodeVariant → BitVec 64) (hm : MasksOk mask)
    (b : Contract → Build) (progs : Contract → List (DecodedOpcode 16)) (l : Contract → List (Nat × Fill 16))
    (code code' : Contract → List Byte) (words : Contract → List (Vector Byte 32)) (page : Contract → Nat → U256)
    (hE : ∀ c, ∀ o ∈ progs c, Encodable o) (hA : ∀ c, Assembled (Production.encodeAsBytes (b c)) (progs c) (code c))
    (hl : ∀ c, ∀ x ∈ l c, x.1 < (progs c).length ∧ x.2.Ok)
    (hL : ∀ c, LinkedCode 8 Fill.placeProduction (l c) (code c) (code' c)) (hw : ∀ c, PaddedTo (code' c) (words c))
    (hp : ∀ c k, HoldsPageWord (page c k) (words c) k) (n : Nat) (s : State) :
    cycles (cycleProduction M page) n s = .ok (runProgram M mask (fun c => linked (l c) (progs c)) n s) := by
  have h := fun c => (C125_link_production (b c) (l c) (progs c) (code c) (hE c) (hA c) (hl c)).2 (code' c) (hL c)
  exact C83_refinement_production M mask hm b _ words page (fun c => (h c).2) (fun c => ⟨code' c, (h c).1, hw c, hp c⟩) n s

/-- C125, testing: linked code, deployed, runs like the program with the parts filled in, on any machine and for any number of
contracts. -/
theorem C125_runs_testing (M : Machine 32 State Contract) (mask : OpcodeVariant → BitVec 64) (hm : MasksOk mask)
    (b : Contract → Build) (progs : Contract → List (DecodedOpcode 32)) (l : Contract → List (Nat × Fill 32))
    (code code' : Contract → List Byte) (words : Contract → List (Vector Byte 32)) (page : Contract → Nat → U256)
    (hE : ∀ c, ∀ o ∈ progs c, Encodable o) (hA : ∀ c, Assembled (Testing.encodeAsBytes (b c)) (progs c) (code c))
    (hl : ∀ c, ∀ x ∈ l c, x.1 < (progs c).length ∧ x.2.Ok)
    (hL : ∀ c, LinkedCode 16 Fill.placeTesting (l c) (code c) (code' c)) (hw : ∀ c, PaddedTo (code' c) (words c))
    (hp : ∀ c k, HoldsPageWord (page c k) (words c) k) (n : Nat) (s : State) :
    cycles (cycleTesting M page) n s = .ok (runProgram M mask (fun c => linked (l c) (progs c)) n s) := by
  have h := fun c => (C125_link_testing (b c) (l c) (progs c) (code c) (hE c) (hA c) (hl c)).2 (code' c) (hL c)
  exact C83_refinement_testing M mask hm b _ words page (fun c => (h c).2) (fun c => ⟨code' c, (h c).1, hw c, hp c⟩) n s

/-! Concrete cases that meet the hypotheses -/

private def twoOf (w : Nat) : List (DecodedOpcode w) :=
  [ { variant := ⟨.sub .sub, .full .useCodePage, .full .useStackWithOffset, ⟨true, true⟩⟩
      condition := .lt, src0RegIdx := 3, src1RegIdx := 14, dst0RegIdx := 7, dst1RegIdx := 0, imm0 := 0, imm1 := 9 },
    { variant := ⟨.jump .mk, .full .useImm16Only, .regOnly, ⟨false, false⟩⟩
      condition := .always, src0RegIdx := 0, src1RegIdx := 0, dst0RegIdx := 0, dst1RegIdx := 0, imm0 := 0, imm1 := 0 } ]

private def entriesOf (w : Nat) : List (Nat × Fill w) := [(1, .imm0 0xcafe), (0, .src 5 6), (0, .imm0 2), (0, .dst 1 0)]

private theorem entries_apart (w : Nat) : (entriesOf w).Pairwise fun x y => ¬ (x.1 = y.1 ∧ x.2.SamePart y.2) := by
  simp [entriesOf, Fill.SamePart]

private theorem entries_ok (w : Nat) : ∀ x ∈ entriesOf w, x.1 < (twoOf w).length ∧ x.2.Ok := by
  simp [entriesOf, twoOf, Fill.Ok]

private theorem two_production : ∀ o ∈ twoOf 16, Encodable o := by decide +kernel

example (b : Build) : ∃ code c c', Assembled (Production.encodeAsBytes b) (twoOf 16) code ∧
    LinkedCode 8 Fill.placeProduction (entriesOf 16) code c ∧ LinkedCode 8 Fill.placeProduction (entriesOf 16).reverse code c' ∧
    c = c' ∧ Assembled (Production.encodeAsBytes b) (linked (entriesOf 16) (twoOf 16)) c ∧
    (linked (entriesOf 16) (twoOf 16)).map (fun o => (o.imm0, o.src0RegIdx)) = [(2, 5), (0xcafe, 0)] := by
  obtain ⟨code, hA, _⟩ := (C09_assembles b).1 _ two_production
  have hp : (entriesOf 16).Perm (entriesOf 16).reverse := (List.reverse_perm _).symm
  obtain ⟨⟨c, hc⟩, h⟩ := C125_link_production b _ _ code two_production hA (entries_ok 16)
  obtain ⟨⟨c', hc'⟩, _⟩ := C125_link_production b (entriesOf 16).reverse _ code two_production hA
    fun x hx => entries_ok 16 x (hp.mem_iff.2 hx)
  exact ⟨code, c, c', hA, hc, hc', C125_order_production b _ _ hp (entries_apart 16) _ code c c' two_production hA (entries_ok 16) hc hc',
    (h c hc).1, by decide +kernel⟩

private theorem two_testing : ∀ o ∈ twoOf 32, Encodable o := by decide +kernel

example (b : Build) : ∃ code c c', Assembled (Testing.encodeAsBytes b) (twoOf 32) code ∧
    LinkedCode 16 Fill.placeTesting (entriesOf 32) code c ∧ LinkedCode 16 Fill.placeTesting (entriesOf 32).reverse code c' ∧
    c = c' ∧ Assembled (Testing.encodeAsBytes b) (linked (entriesOf 32) (twoOf 32)) c ∧
    (linked (entriesOf 32) (twoOf 32)).map (fun o => (o.imm0, o.src0RegIdx)) = [(2, 5), (0xcafe, 0)] := by
  obtain ⟨code, hA, _⟩ := (C09_assembles b).2 _ two_testing
  have hp : (entriesOf 32).Perm (entriesOf 32).reverse := (List.reverse_perm _).symm
  obtain ⟨⟨c, hc⟩, h⟩ := C125_link_testing b _ _ code two_testing hA (entries_ok 32)
  obtain ⟨⟨c', hc'⟩, _⟩ := C125_link_testing b (entriesOf 32).reverse _ code two_testing hA
    fun x hx => entries_ok 32 x (hp.mem_iff.2 hx)
  exact ⟨code, c, c', hA, hc, hc', C125_order_testing b _ _ hp (entries_apart 32) _ code c c' two_testing hA (entries_ok 32) hc hc',
    (h c hc).1, by decide +kernel⟩

/-- A word that is not canonical: bits 11 and 12 are set and stay set. -/
example : ∃ o n, Production.parse 0x12340000eeff1801#64 = .ok (o, n) ∧
    Production.parse 0x1234cafeeeff1801#64 = .ok ({ o with imm0 := 0xcafe }, n) := by
  obtain ⟨_, o, _, h, _⟩ := C01_decode_production 0x12340000eeff1801#64
  exact ⟨o, _, h, (C125_words_production (.imm0 0xcafe) trivial [0x12, 0x34, 0, 0, 0xee, 0xff, 0x18, 0x01]
    [0x12, 0x34, 0xca, 0xfe, 0xee, 0xff, 0x18, 0x01] rfl
    ⟨[0x12, 0x34], [0, 0], [0xca, 0xfe], [0xee, 0xff, 0x18, 0x01], rfl, rfl, rfl, rfl, rfl, by decide⟩ _ _ (by decide) (by decide)
    o _ h).1⟩

example : ∃ o n, Testing.parse 0x77778888_11112222_33334444_e5f61801#128 = .ok (o, n) ∧
    Testing.parse 0x77778888_11112222_33334444_a9f61801#128 = .ok ({ o with dst0RegIdx := 9, dst1RegIdx := 10 }, n) := by
  obtain ⟨_, o, _, h, _⟩ := C01_decode_testing 0x77778888_11112222_33334444_e5f61801#128
  exact ⟨o, _, h, (C125_words_testing (.dst 9 10) ⟨by decide, by decide⟩
    [0x77, 0x77, 0x88, 0x88, 0x11, 0x11, 0x22, 0x22, 0x33, 0x33, 0x44, 0x44, 0xe5, 0xf6, 0x18, 0x01]
    [0x77, 0x77, 0x88, 0x88, 0x11, 0x11, 0x22, 0x22, 0x33, 0x33, 0x44, 0x44, 0xa9, 0xf6, 0x18, 0x01] rfl
    ⟨[0x77, 0x77, 0x88, 0x88, 0x11, 0x11, 0x22, 0x22, 0x33, 0x33, 0x44, 0x44], [0xe5], [0xa9], [0xf6, 0x18, 0x01],
      rfl, rfl, rfl, rfl, rfl, by decide⟩ _ _ (by decide) (by decide) o _ h).1⟩

example (M : Machine 16 State Unit) (n : Nat) (s : State) : ∃ code code' words page,
    Assembled (Production.encodeAsBytes .debug) (twoOf 16) code ∧ LinkedCode 8 Fill.placeProduction (entriesOf 16) code code' ∧
    PaddedTo code' words ∧ cycles (cycleProduction M fun _ => page) n s =
      .ok (runProgram M Bitmask.maskOf (fun _ => linked (entriesOf 16) (twoOf 16)) n s) := by
  obtain ⟨code, hA, _⟩ := (C09_assembles .debug).1 _ two_production
  obtain ⟨⟨code', hL⟩, _⟩ := C125_link_production .debug _ _ code two_production hA (entries_ok 16)
  obtain ⟨words, hw, _⟩ := pad_exists code'
  have hv : ∀ k, ∃ v, HoldsPageWord v words k := fun k => by
    obtain ⟨v, hv⟩ := C09_word_exists (words.flatMap Vector.toList) k
    exact ⟨v, by unfold HoldsPageWord; rw [pageWord_eq]; exact hv⟩
  exact ⟨code, code', words, fun k => (hv k).choose, hA, hL, hw,
    C125_runs_production M Bitmask.maskOf (fun v _ hi => Bitmask.mask_bit v hi) (fun _ => .debug) _ _ (fun _ => code) (fun _ => code')
      (fun _ => words) _ (fun _ => two_production) (fun _ => hA) (fun _ => entries_ok 16) (fun _ => hL) (fun _ => hw)
      (fun _ k => (hv k).choose_spec) n s⟩

example (M : Machine 32 State Unit) (n : Nat) (s : State) : ∃ code code' words page,
    Assembled (Testing.encodeAsBytes .debug) (twoOf 32) code ∧ LinkedCode 16 Fill.placeTesting (entriesOf 32) code code' ∧
    PaddedTo code' words ∧ cycles (cycleTesting M fun _ => page) n s =
      .ok (runProgram M Bitmask.maskOf (fun _ => linked (entriesOf 32) (twoOf 32)) n s) := by
  obtain ⟨code, hA, _⟩ := (C09_assembles .debug).2 _ two_testing
  obtain ⟨⟨code', hL⟩, _⟩ := C125_link_testing .debug _ _ code two_testing hA (entries_ok 32)
  obtain ⟨words, hw, _⟩ := pad_exists code'
  have hv : ∀ k, ∃ v, HoldsPageWord v words k := fun k => by
    obtain ⟨v, hv⟩ := C09_word_exists (words.flatMap Vector.toList) k
    exact ⟨v, by unfold HoldsPageWord; rw [pageWord_eq]; exact hv⟩
  exact ⟨code, code', words, fun k => (hv k).choose, hA, hL, hw,
    C125_runs_testing M Bitmask.maskOf (fun v _ hi => Bitmask.mask_bit v hi) (fun _ => .debug) _ _ (fun _ => code) (fun _ => code')
      (fun _ => words) _ (fun _ => two_testing) (fun _ => hA) (fun _ => entries_ok 32) (fun _ => hL) (fun _ => hw)
      (fun _ k => (hv k).choose_spec) n s⟩

end ZkEvm.Props
