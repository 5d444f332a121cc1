import Verif.Props.Sha256
import Verif.Props.Machine
import Verif.Props.EncodingMode
/-! C95: what a code hash pins down, with SHA-256 as it is. -/
namespace ZkEvm.Props
open Spec Sha256

/-! ## C95 -/

variable {State Contract : Type}

private theorem same_words {limit : BitVec 64} (hl : limit.toNat < 2 ^ 56) {words words' : Contract → List (Vector Byte 32)}
    {hash : Contract → Vector Byte 32} (hh : ∀ c, bytecodeToCodeHashLoop limit (words c) = .ok (hash c))
    (hh' : ∀ c, bytecodeToCodeHashLoop limit (words' c) = .ok (hash c))
    (hc : ¬ ∃ c, RoundCollision ((words c).flatMap Vector.toList) ((words' c).flatMap Vector.toList)) (c : Contract) :
    words c = words' c := by
  refine Classical.byContradiction fun hne => hc ⟨c, ?_⟩
  obtain ⟨p, hp⟩ := padded_exists ((words c).flatMap Vector.toList)
  obtain ⟨p', hp'⟩ := padded_exists ((words' c).flatMap Vector.toList)
  obtain ⟨i, j, h⟩ := C93_code_collision limit limit hl hl (words c) (words' c) (hash c) (hh c) (hh' c) hne p p' hp hp'
  exact ⟨p, p', i, j, hp, hp', h⟩

-- The empty program and the program of one all-zero instruction have the same code, one zero word, hence the same hash.
private theorem zero_page (k : Nat) : HoldsPageWord ⟨0, 0, 0, 0⟩ [Vector.replicate 32 0] k := by
  rcases k with _ | k
  · unfold HoldsPageWord
    decide +kernel
  · unfold HoldsPageWord pageWord
    rw [List.getElem?_eq_none (by simp)]
    decide +kernel

private theorem zero_programs : ∃ (hash : Vector Byte 32) (words : List (Vector Byte 32)) (page : Nat → U256),
    Deployed (Production.encodeAsBytes .debug) [] words page ∧
    Deployed (Production.encodeAsBytes .release) [zeroInstruction 16] words page ∧
    (∀ o ∈ [zeroInstruction 16], Encodable o) ∧
    bytecodeToCodeHashLoop (asU64 (pcOrImmMax 16)) words = .ok hash := by
  obtain ⟨sha256, hs⟩ := C93_code_hash.2
  obtain ⟨hash, hh⟩ := (C85_hash EncodingModeProduction sha256 [Vector.replicate 32 0]).1.2 ⟨by decide, by decide⟩
  rw [C85_builtin.2.2.2.2.1] at hh
  refine ⟨hash, [Vector.replicate 32 0], fun _ => ⟨0, 0, 0, 0⟩, ?_, ?_, by decide,
    (C93_code_hash.1 sha256 hs _ _ (by decide)).trans hh⟩
  · exact ⟨[], .nil, ⟨by decide, 32, by decide, by decide +kernel⟩, zero_page⟩
  · exact ⟨_, .cons (zero_bytes_production .release) .nil, ⟨by decide, 24, by decide, by decide +kernel⟩, zero_page⟩

private theorem zero_programs_testing : ∃ (hash : Vector Byte 32) (words : List (Vector Byte 32)) (page : Nat → U256),
    Deployed (Testing.encodeAsBytes .debug) [] words page ∧
    Deployed (Testing.encodeAsBytes .release) [zeroInstruction 32] words page ∧
    (∀ o ∈ [zeroInstruction 32], Encodable o) ∧
    bytecodeToCodeHashLoop (asU64 (pcOrImmMax 32)) words = .ok hash := by
  obtain ⟨sha256, hs⟩ := C93_code_hash.2
  obtain ⟨hash, hh⟩ := (C85_hash EncodingModeTesting sha256 [Vector.replicate 32 0]).1.2 ⟨by decide, by decide⟩
  rw [C85_builtin.2.2.2.2.2] at hh
  refine ⟨hash, [Vector.replicate 32 0], fun _ => ⟨0, 0, 0, 0⟩, ?_, ?_, by decide,
    (C93_code_hash.1 sha256 hs _ _ (by decide)).trans hh⟩
  · exact ⟨[], .nil, ⟨by decide, 32, by decide, by decide +kernel⟩, zero_page⟩
  · exact ⟨_, .cons (zero_bytes_testing .release) .nil, ⟨by decide, 16, by decide, by decide +kernel⟩, zero_page⟩

/-- C95, production mode: two families of programs with the same code hashes, computed with SHA-256, are run alike by every
machine, unless hashing the code of some contract exhibits a collision of SHA-256's compression function. -/
theorem C95_production (mask : OpcodeVariant → BitVec 64) (hm : MasksOk mask) (b b' : Contract → Build)
    (progs progs' : Contract → List (DecodedOpcode 16)) (words words' : Contract → List (Vector Byte 32))
    (page page' : Contract → Nat → U256) (hash : Contract → Vector Byte 32)
    (hE : ∀ c, ∀ o ∈ progs c, Encodable o) (hE' : ∀ c, ∀ o ∈ progs' c, Encodable o)
    (hD : ∀ c, Deployed (Production.encodeAsBytes (b c)) (progs c) (words c) (page c))
    (hD' : ∀ c, Deployed (Production.encodeAsBytes (b' c)) (progs' c) (words' c) (page' c))
    (hh : ∀ c, bytecodeToCodeHashLoop (asU64 (pcOrImmMax 16)) (words c) = .ok (hash c))
    (hh' : ∀ c, bytecodeToCodeHashLoop (asU64 (pcOrImmMax 16)) (words' c) = .ok (hash c)) :
    (∃ c, RoundCollision ((words c).flatMap Vector.toList) ((words' c).flatMap Vector.toList)) ∨
    ∀ (M : Machine 16 State Contract) (n : Nat) (s : State),
      cycles (cycleProduction M page) n s = cycles (cycleProduction M page') n s ∧
      runProgram M mask progs n s = runProgram M mask progs' n s := by
  refine Classical.or_iff_not_imp_left.2 fun hc M n s => ?_
  have he := same_words (by decide) hh hh' hc
  obtain ⟨sha256, hs⟩ := C93_code_hash.2
  refine C83_hash_determines_production M mask hm sha256 b b' progs progs' words words' page page' hash hE hE' hD hD'
    (fun c => ?_) (fun c => ?_) (fun c _ => by rw [he c]) n s
  · exact (C93_code_hash.1 sha256 hs _ (words c) (by decide)).symm.trans (hh c)
  · exact (C93_code_hash.1 sha256 hs _ (words' c) (by decide)).symm.trans (hh' c)

/-- C95: those two programs run alike on every machine, unless the zero word exhibits a collision with itself. -/
example (M : Machine 16 State Unit) : ∃ (words : List (Vector Byte 32)) (page : Nat → U256),
    Deployed (Production.encodeAsBytes .debug) [] words page ∧
    (RoundCollision (words.flatMap Vector.toList) (words.flatMap Vector.toList) ∨
      ∀ n s, runProgram M Bitmask.maskOf (fun _ => []) n s =
        runProgram M Bitmask.maskOf (fun _ => [zeroInstruction 16]) n s) := by
  obtain ⟨hash, words, page, hD, hD', hE', hh⟩ := zero_programs
  refine ⟨words, page, hD, ?_⟩
  rcases C95_production (State := State) (Contract := Unit) Bitmask.maskOf (fun v _ hi => Bitmask.mask_bit v hi)
    (fun _ => .debug) (fun _ => .release) (fun _ => []) (fun _ => [zeroInstruction 16]) (fun _ => words) (fun _ => words)
    (fun _ => page) (fun _ => page) (fun _ => hash) (fun _ _ h => nomatch h) (fun _ => hE') (fun _ => hD) (fun _ => hD')
    (fun _ => hh) (fun _ => hh) with ⟨_, h⟩ | h
  · exact .inl h
  · exact .inr fun n s => (h M n s).2

/-- C95, testing mode: two families of programs with the same code hashes, computed with SHA-256, are run alike by every
machine, unless hashing the code of some contract exhibits a collision of SHA-256's compression function. -/
theorem C95_testing (mask : OpcodeVariant → BitVec 64) (hm : MasksOk mask) (b b' : Contract → Build)
    (progs progs' : Contract → List (DecodedOpcode 32)) (words words' : Contract → List (Vector Byte 32))
    (page page' : Contract → Nat → U256) (hash : Contract → Vector Byte 32)
    (hE : ∀ c, ∀ o ∈ progs c, Encodable o) (hE' : ∀ c, ∀ o ∈ progs' c, Encodable o)
    (hD : ∀ c, Deployed (Testing.encodeAsBytes (b c)) (progs c) (words c) (page c))
    (hD' : ∀ c, Deployed (Testing.encodeAsBytes (b' c)) (progs' c) (words' c) (page' c))
    (hh : ∀ c, bytecodeToCodeHashLoop (asU64 (pcOrImmMax 32)) (words c) = .ok (hash c))
    (hh' : ∀ c, bytecodeToCodeHashLoop (asU64 (pcOrImmMax 32)) (words' c) = .ok (hash c)) :
    (∃ c, RoundCollision ((words c).flatMap Vector.toList) ((words' c).flatMap Vector.toList)) ∨
    ∀ (M : Machine 32 State Contract) (n : Nat) (s : State),
      cycles (cycleTesting M page) n s = cycles (cycleTesting M page') n s ∧
      runProgram M mask progs n s = runProgram M mask progs' n s := by
  refine Classical.or_iff_not_imp_left.2 fun hc M n s => ?_
  have he := same_words (by decide) hh hh' hc
  obtain ⟨sha256, hs⟩ := C93_code_hash.2
  refine C83_hash_determines_testing M mask hm sha256 b b' progs progs' words words' page page' hash hE hE' hD hD'
    (fun c => ?_) (fun c => ?_) (fun c _ => by rw [he c]) n s
  · exact (C93_code_hash.1 sha256 hs _ (words c) (by decide)).symm.trans (hh c)
  · exact (C93_code_hash.1 sha256 hs _ (words' c) (by decide)).symm.trans (hh' c)

/-- C95, testing: those two programs run alike on every machine, unless the zero word exhibits a collision with itself. -/
example (M : Machine 32 State Unit) : ∃ (words : List (Vector Byte 32)) (page : Nat → U256),
    Deployed (Testing.encodeAsBytes .debug) [] words page ∧
    (RoundCollision (words.flatMap Vector.toList) (words.flatMap Vector.toList) ∨
      ∀ n s, runProgram M Bitmask.maskOf (fun _ => []) n s =
        runProgram M Bitmask.maskOf (fun _ => [zeroInstruction 32]) n s) := by
  obtain ⟨hash, words, page, hD, hD', hE', hh⟩ := zero_programs_testing
  refine ⟨words, page, hD, ?_⟩
  rcases C95_testing (State := State) (Contract := Unit) Bitmask.maskOf (fun v _ hi => Bitmask.mask_bit v hi)
    (fun _ => .debug) (fun _ => .release) (fun _ => []) (fun _ => [zeroInstruction 32]) (fun _ => words) (fun _ => words)
    (fun _ => page) (fun _ => page) (fun _ => hash) (fun _ _ h => nomatch h) (fun _ => hE') (fun _ => hD) (fun _ => hD')
    (fun _ => hh) (fun _ => hh) with ⟨_, h⟩ | h
  · exact .inl h
  · exact .inr fun n s => (h M n s).2

end ZkEvm.Props
