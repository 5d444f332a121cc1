import Verif.Spec.Retarget
import Verif.Props.Disassembly
/-! C120: programs mean the same in both encodings. -/
namespace ZkEvm.Props
open Spec

variable {State State' Contract : Type}

private theorem toNat_wide (x : BitVec 16) : (fromU64Clipped 32 (asU64 x)).toNat = x.toNat := by
  unfold fromU64Clipped asU64
  rw [BitVec.toNat_setWidth, BitVec.toNat_setWidth]
  omega

/-- C120: carrying instructions over keeps existing instructions existing, loses nothing, and reaches exactly the
instructions whose immediates are below 2^16. -/
theorem C120_instructions :
    (∀ o : DecodedOpcode 16, Encodable (widen o) ↔ Encodable o) ∧
    (∀ o o' : DecodedOpcode 16, widen o = widen o' → o = o') ∧
    (∀ o : DecodedOpcode 32, (∃ o' : DecodedOpcode 16, widen o' = o) ↔ o.imm0.toNat < 2 ^ 16 ∧ o.imm1.toNat < 2 ^ 16) ∧
    ∀ o : DecodedOpcode 16, (widen o).imm0.toNat = o.imm0.toNat ∧ (widen o).imm1.toNat = o.imm1.toNat := by
  refine ⟨fun o => Iff.rfl, fun o o' h => ?_, fun o => ⟨?_, fun ⟨h0, h1⟩ => ?_⟩, fun o => ⟨toNat_wide _, toNat_wide _⟩⟩
  · have h0 := congrArg (fun o => o.imm0.toNat) h
    have h1 := congrArg (fun o => o.imm1.toNat) h
    have hv := congrArg (fun o => o.variant) h
    have hc := congrArg (fun o => o.condition) h
    have r0 := congrArg (fun o => o.src0RegIdx) h
    have r1 := congrArg (fun o => o.src1RegIdx) h
    have r2 := congrArg (fun o => o.dst0RegIdx) h
    have r3 := congrArg (fun o => o.dst1RegIdx) h
    dsimp only [widen] at h0 h1 hv hc r0 r1 r2 r3
    rw [toNat_wide, toNat_wide] at h0 h1
    cases o; cases o'
    dsimp only at *
    subst hv hc r0 r1 r2 r3
    rw [BitVec.eq_of_toNat_eq h0, BitVec.eq_of_toNat_eq h1]
  · rintro ⟨o', rfl⟩
    dsimp only [widen]
    rw [toNat_wide, toNat_wide]
    exact ⟨o'.imm0.isLt, o'.imm1.isLt⟩
  · refine ⟨⟨o.variant, o.condition, o.src0RegIdx, o.src1RegIdx, o.dst0RegIdx, o.dst1RegIdx,
      BitVec.ofNat 16 o.imm0.toNat, BitVec.ofNat 16 o.imm1.toNat⟩, ?_⟩
    unfold widen
    cases o
    dsimp only at *
    congr 1
    · refine BitVec.eq_of_toNat_eq ?_
      rw [toNat_wide, BitVec.toNat_ofNat, Nat.mod_eq_of_lt h0]
    · refine BitVec.eq_of_toNat_eq ?_
      rw [toNat_wide, BitVec.toNat_ofNat, Nat.mod_eq_of_lt h1]

private theorem instructionAt_map (prog : List (DecodedOpcode 16)) (pc : BitVec 16) :
    instructionAt (prog.map widen) (fromU64Clipped 32 (asU64 pc)).toNat = widen (instructionAt prog pc.toNat) := by
  unfold instructionAt
  rw [toNat_wide, List.getElem?_map]
  cases prog[pc.toNat]? <;> rfl

private theorem runs_related {M : Machine 16 State Contract} {M' : Machine 32 State' Contract} {R : State → State' → Prop}
    (h : SameEffect M M' R) (mask : OpcodeVariant → BitVec 64) (progs : Contract → List (DecodedOpcode 16)) (n : Nat) :
    ∀ s s', R s s' → R (runProgram M mask progs n s) (runProgram M' mask (fun c => (progs c).map widen) n s') := by
  induction n with
  | zero => exact fun s s' hR => hR
  | succ n ih =>
    intro s s' hR
    unfold runProgram
    dsimp only
    rw [h.contract s s' hR, h.pc s s' hR, instructionAt_map]
    exact ih _ _ (h.execute s s' _ _ _ hR)

/-- C120: two machines that do the same, one running programs assembled for production and the other the same programs
assembled for testing, in any builds, never panic and stay in related states. -/
theorem C120_runs (M : Machine 16 State Contract) (M' : Machine 32 State' Contract) (R : State → State' → Prop)
    (hR : SameEffect M M' R) (b b' : Contract → Build) (progs : Contract → List (DecodedOpcode 16))
    (hE : ∀ c, ∀ o ∈ progs c, Encodable o) (words words' : Contract → List (Vector Byte 32))
    (page page' : Contract → Nat → U256) (hD : ∀ c, Deployed (Production.encodeAsBytes (b c)) (progs c) (words c) (page c))
    (hD' : ∀ c, Deployed (Testing.encodeAsBytes (b' c)) ((progs c).map widen) (words' c) (page' c))
    (n : Nat) (s : State) (s' : State') (hs : R s s') :
    ∃ t t', cycles (cycleProduction M page) n s = .ok t ∧ cycles (cycleTesting M' page') n s' = .ok t' ∧ R t t' := by
  have hm : MasksOk Bitmask.maskOf := fun v _ hi => Bitmask.mask_bit v hi
  refine ⟨_, _, C83_refinement_production M _ hm b progs words page hE hD n s,
    C83_refinement_testing M' _ hm b' _ words' page' (fun c o ho => ?_) hD' n s', runs_related hR _ progs n s s' hs⟩
  obtain ⟨o', ho', rfl⟩ := List.mem_map.1 ho
  exact hE c o' ho'

/-- C120: every production code, whether or not it was ever assembled, has a testing code on which machines that do the
same run in the same way: its disassembly, assembled for testing. It takes twice the bytes, up to padding. -/
theorem C120_codes (b : Build) (words : List (Vector Byte 32)) :
    ∃ prog code' words', Disassembled 8 Production.parse words prog ∧
      Assembled (Testing.encodeAsBytes b) (prog.map widen) code' ∧ PaddedTo code' words' ∧
      code'.length = 64 * words.length ∧
      ∀ (State State' : Type) (M : Machine 16 State Unit) (M' : Machine 32 State' Unit) (R : State → State' → Prop),
        SameEffect M M' R → ∀ page page' : Nat → U256, (∀ k, HoldsPageWord (page k) words k) →
        (∀ k, HoldsPageWord (page' k) words' k) → ∀ n s s', R s s' →
        ∃ t t', cycles (cycleProduction M fun _ => page) n s = .ok t ∧
          cycles (cycleTesting M' fun _ => page') n s' = .ok t' ∧ R t t' := by
  obtain ⟨prog, hd, hE, _⟩ := C112_disassembly_production words
  have hE' : ∀ o ∈ prog.map widen, Encodable o := fun o ho => by
    obtain ⟨o', ho', rfl⟩ := List.mem_map.1 ho
    exact hE o' ho'
  obtain ⟨code', hA, hl⟩ := (C09_assembles b).2 (prog.map widen) hE'
  obtain ⟨words', hp, _⟩ := Deploy.pad_exists code'
  refine ⟨prog, code', words', hd, hA, hp, ?_, fun State State' M M' R hR page page' hpage hpage' n s s' hs => ?_⟩
  · rw [hl, List.length_map]
    have := hd.1
    omega
  · have hm : MasksOk Bitmask.maskOf := fun v _ hi => Bitmask.mask_bit v hi
    exact ⟨_, _, C112_runs_production M _ hm (fun _ => words) _ (fun _ k => hpage k) (fun _ => prog) (fun _ => hd) n s,
      C83_refinement_testing M' _ hm (fun _ => b) (fun _ => prog.map widen) (fun _ => words') _ (fun _ => hE')
        (fun _ => ⟨code', hA, hp, hpage'⟩) n s', runs_related hR _ (fun _ => prog) n s s' hs⟩

/-- C120: machines that go from one position to the next with the crate's addition do not stay related at the last
production position: there the production machine is at 0 again and the testing machine goes on. -/
theorem C120_last_position :
    (∀ pc : BitVec 16, wrappingAdd (fromU64Clipped 32 (asU64 pc)) 1 = fromU64Clipped 32 (asU64 (wrappingAdd pc 1)) ↔
      pc ≠ pcOrImmMax 16) ∧
    wrappingAdd (pcOrImmMax 16) 1 = 0 ∧ (wrappingAdd (fromU64Clipped 32 (asU64 (pcOrImmMax 16))) 1).toNat = 2 ^ 16 := by
  refine ⟨fun pc => ?_, by decide, by decide⟩
  have hmax : (pcOrImmMax 16).toNat = 65535 := by decide
  have key : (wrappingAdd (fromU64Clipped 32 (asU64 pc)) 1).toNat = pc.toNat + 1 := by
    unfold wrappingAdd
    rw [BitVec.toNat_add, toNat_wide]
    have := pc.isLt
    show (pc.toNat + 1) % 2 ^ 32 = _
    omega
  have key' : (fromU64Clipped 32 (asU64 (wrappingAdd pc 1))).toNat = (pc.toNat + 1) % 65536 := by
    rw [toNat_wide]
    unfold wrappingAdd
    rw [BitVec.toNat_add]
    rfl
  have := pc.isLt
  constructor
  · intro h he
    have h := congrArg BitVec.toNat h
    rw [key, key', he, hmax] at h
    omega
  · intro hne
    refine BitVec.eq_of_toNat_eq ?_
    rw [key, key']
    have : pc.toNat ≠ 65535 := fun h => hne (BitVec.eq_of_toNat_eq (h.trans hmax.symm))
    omega

/-- C120: machines that do the same: both add the immediates of what they execute, and go to the first of them. -/
example : SameEffect (State := BitVec 16 × Nat) (State' := BitVec 32 × Nat) (Contract := Unit)
    ⟨fun _ => (), fun s => s.1, fun s o price _ => (o.imm0, s.2 + o.imm1.toNat + price)⟩
    ⟨fun _ => (), fun s => s.1, fun s o price _ => (o.imm0, s.2 + o.imm1.toNat + price)⟩
    (fun s s' => s'.1 = fromU64Clipped 32 (asU64 s.1) ∧ s'.2 = s.2) where
  contract _ _ _ := rfl
  pc _ _ h := h.1
  execute s s' o price mask h := ⟨rfl, by
    show s'.2 + (fromU64Clipped 32 (asU64 o.imm1)).toNat + price = s.2 + o.imm1.toNat + price
    rw [h.2, toNat_wide]⟩

example : ∃ (o : DecodedOpcode 16) (words words' : List (Vector Byte 32)) (page page' : Nat → U256), Encodable o ∧
    o.imm0.toNat = 513 ∧ Deployed (Production.encodeAsBytes .debug) [o, o, o] words page ∧
    Deployed (Testing.encodeAsBytes .release) ([o, o, o].map widen) words' page' := by
  obtain ⟨o, hE, hi⟩ : ∃ o : DecodedOpcode 16, Encodable o ∧ o.imm0.toNat = 513 :=
    ⟨⟨⟨.add .add, .full .useImm16Only, .full .useRegOnly, ⟨true, false⟩⟩, .eq, 0, 2, 3, 0, 513, 7⟩, by decide, by decide⟩
  have hv : ∀ words k, ∃ v, HoldsPageWord v words k := fun words k => by
    obtain ⟨v, hv⟩ := C09_word_exists (words.flatMap Vector.toList) k
    exact ⟨v, by unfold HoldsPageWord; rw [Deploy.pageWord_eq]; exact hv⟩
  obtain ⟨code, hA, _⟩ := (C09_assembles .debug).1 [o, o, o] (fun o' ho => by
    simp only [List.mem_cons, List.not_mem_nil, or_false, or_self] at ho; rw [ho]; exact hE)
  obtain ⟨code', hA', _⟩ := (C09_assembles .release).2 ([o, o, o].map widen) (fun o' ho => by
    simp only [List.map_cons, List.map_nil, List.mem_cons, List.not_mem_nil, or_false, or_self] at ho; rw [ho]; exact hE)
  obtain ⟨words, hp, _⟩ := Deploy.pad_exists code
  obtain ⟨words', hp', _⟩ := Deploy.pad_exists code'
  exact ⟨o, words, words', fun k => (hv words k).choose, fun k => (hv words' k).choose, hE, hi,
    ⟨code, hA, hp, fun k => (hv words k).choose_spec⟩, ⟨code', hA', hp', fun k => (hv words' k).choose_spec⟩⟩

end ZkEvm.Props
