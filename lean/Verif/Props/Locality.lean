import Verif.Lemmas.Locality
import Verif.Props.Machine
/-!
# Runs read only the instructions they visit, and code can be moved: C117
-/
namespace ZkEvm.Props
open Spec Program Deploy MachineLemmas LocalityLemmas

variable {State Contract Contract' : Type}

private theorem cycle_reads_production (M : Machine 16 State Contract) (page : Contract → Nat → U256)
    (words : Contract → List (Vector Byte 32)) (hpage : ∀ c k, HoldsPageWord (page c k) (words c) k) (s : State) :
    ∃ raw : BitVec 64, raw.toNat = beNat (piece 8 (words (M.contract s)) (M.pc s).toNat) ∧
      cycleProduction M page s = (Production.parse raw >>= fun d => executeDecoded M s d) := by
  obtain ⟨raw, hr, hn⟩ := fetched_production (M.pc s) (holds_flat (hpage (M.contract s) (Production.splitPc (M.pc s)).1.toNat))
  rw [piece_padded (c := 4) rfl] at hn
  exact ⟨raw, hn, cycle_bind hr⟩

/-- C117, production: a run depends only on the 8 bytes at the positions it visits. If another machine that executes the same
finds the same 8 bytes wherever the first one looks, though in other code, of another contract, at another position, it goes
through the same states. -/
theorem C117_local_production (M : Machine 16 State Contract) (M' : Machine 16 State Contract') (he : M'.execute = M.execute)
    (words : Contract → List (Vector Byte 32)) (words' : Contract' → List (Vector Byte 32)) (page : Contract → Nat → U256)
    (page' : Contract' → Nat → U256) (hpage : ∀ c k, HoldsPageWord (page c k) (words c) k)
    (hpage' : ∀ c k, HoldsPageWord (page' c k) (words' c) k) (n : Nat) (s : State)
    (h : ∀ k t, k < n → cycles (cycleProduction M page) k s = .ok t →
      beNat (piece 8 (words' (M'.contract t)) (M'.pc t).toNat) = beNat (piece 8 (words (M.contract t)) (M.pc t).toNat)) :
    cycles (cycleProduction M' page') n s = cycles (cycleProduction M page) n s := by
  refine cycles_congr n s fun k t hk ht => ?_
  obtain ⟨raw, hr, hc⟩ := cycle_reads_production M page words hpage t
  obtain ⟨raw', hr', hc'⟩ := cycle_reads_production M' page' words' hpage' t
  obtain rfl : raw' = raw := BitVec.eq_of_toNat_eq (hr'.trans ((h k t hk ht).trans hr.symm))
  rw [hc, hc']
  exact congrArg _ (funext fun d => executeDecoded_congr he t d)

/-- C117, production: code that is not visited can be replaced. Codes that agree outside some positions run the same on every
machine that does not come to these. -/
theorem C117_patched_production (M : Machine 16 State Contract) (words words' : Contract → List (Vector Byte 32))
    (page page' : Contract → Nat → U256) (hpage : ∀ c k, HoldsPageWord (page c k) (words c) k)
    (hpage' : ∀ c k, HoldsPageWord (page' c k) (words' c) k) (changed : Contract → Nat → Prop)
    (hw : ∀ c i, ¬ changed c i → piece 8 (words' c) i = piece 8 (words c) i) (n : Nat) (s : State)
    (h : ∀ k t, k < n → cycles (cycleProduction M page) k s = .ok t → ¬ changed (M.contract t) (M.pc t).toNat) :
    cycles (cycleProduction M page') n s = cycles (cycleProduction M page) n s :=
  C117_local_production M M rfl words words' page page' hpage hpage' n s fun k t hk ht => by rw [hw _ _ (h k t hk ht)]

/-- C117, production: code can be moved. With other code in front of each contract, a machine that adds 4 positions for each word
of it goes through the same states as without, as long as no position exceeds the type. -/
theorem C117_moved_production (M : Machine 16 State Contract) (before words : Contract → List (Vector Byte 32))
    (page page' : Contract → Nat → U256) (hpage : ∀ c k, HoldsPageWord (page c k) (words c) k)
    (hpage' : ∀ c k, HoldsPageWord (page' c k) (before c ++ words c) k) (n : Nat) (s : State)
    (h : ∀ k t, k < n → cycles (cycleProduction M page) k s = .ok t →
      (M.pc t).toNat + 4 * (before (M.contract t)).length < 2 ^ 16) :
    cycles (cycleProduction { M with
      pc := fun s => wrappingAdd (M.pc s) (fromU64Clipped 16 (BitVec.ofNat 64 (4 * (before (M.contract s)).length))) }
      page') n s = cycles (cycleProduction M page) n s := by
  refine C117_local_production M ⟨M.contract, fun s => wrappingAdd (M.pc s) (fromU64Clipped 16 (BitVec.ofNat 64
    (4 * (before (M.contract s)).length))), M.execute⟩ rfl words (fun c => before c ++ words c) page page' hpage hpage' n s fun k t hk ht => ?_
  have hp : (wrappingAdd (M.pc t) (fromU64Clipped 16 (BitVec.ofNat 64 (4 * (before (M.contract t)).length)))).toNat =
      (M.pc t).toNat + 4 * (before (M.contract t)).length := by
    have := h k t hk ht
    unfold wrappingAdd fromU64Clipped
    rw [BitVec.toNat_add, BitVec.toNat_setWidth, BitVec.toNat_ofNat, Nat.mod_eq_of_lt (a := 4 * _) (by omega),
      Nat.mod_eq_of_lt (a := 4 * _) (by omega), Nat.mod_eq_of_lt (by omega)]
  dsimp only
  rw [hp, piece_after (c := 4) rfl]

/-- C117, production: if a position does exceed the type, the machine gets into the code in front. -/
theorem C117_wraps_production (pc : BitVec 16) (before : List (Vector Byte 32)) (hb : 4 * before.length < 2 ^ 16)
    (h : 2 ^ 16 ≤ pc.toNat + 4 * before.length) :
    (wrappingAdd pc (fromU64Clipped 16 (BitVec.ofNat 64 (4 * before.length)))).toNat < 4 * before.length := by
  have := pc.isLt
  unfold wrappingAdd fromU64Clipped
  rw [BitVec.toNat_add, BitVec.toNat_setWidth, BitVec.toNat_ofNat, Nat.mod_eq_of_lt (a := 4 * _) (by omega),
    Nat.mod_eq_of_lt (a := 4 * _) (by omega), Nat.mod_eq_sub_mod h, Nat.mod_eq_of_lt (by omega)]
  omega

/-- C117, production: words behind a code are not read by a machine that stays in it. -/
theorem C117_appended_production (M : Machine 16 State Contract) (words after : Contract → List (Vector Byte 32))
    (page page' : Contract → Nat → U256) (hpage : ∀ c k, HoldsPageWord (page c k) (words c) k)
    (hpage' : ∀ c k, HoldsPageWord (page' c k) (words c ++ after c) k) (n : Nat) (s : State)
    (h : ∀ k t, k < n → cycles (cycleProduction M page) k s = .ok t → (M.pc t).toNat < 4 * (words (M.contract t)).length) :
    cycles (cycleProduction M page') n s = cycles (cycleProduction M page) n s :=
  C117_local_production M M rfl words (fun c => words c ++ after c) page page' hpage hpage' n s fun k t hk ht => by
    rw [piece_before (c := 4) rfl _ _ _ (h k t hk ht)]

private theorem cycle_reads_testing (M : Machine 32 State Contract) (page : Contract → Nat → U256)
    (words : Contract → List (Vector Byte 32)) (hpage : ∀ c k, HoldsPageWord (page c k) (words c) k) (s : State) :
    ∃ raw : BitVec 128, raw.toNat = beNat (piece 16 (words (M.contract s)) (M.pc s).toNat) ∧
      cycleTesting M page s = (Testing.parse raw >>= fun d => executeDecoded M s d) := by
  obtain ⟨raw, hr, hn⟩ := fetched_testing (M.pc s) (holds_flat (hpage (M.contract s) (Testing.splitPc (M.pc s)).1.toNat))
  rw [piece_padded (c := 2) rfl] at hn
  exact ⟨raw, hn, cycle_bind hr⟩

/-- C117, testing: a run depends only on the 16 bytes at the positions it visits. If another machine that executes the same
finds the same 16 bytes wherever the first one looks, though in other code, of another contract, at another position, it goes
through the same states. -/
theorem C117_local_testing (M : Machine 32 State Contract) (M' : Machine 32 State Contract') (he : M'.execute = M.execute)
    (words : Contract → List (Vector Byte 32)) (words' : Contract' → List (Vector Byte 32)) (page : Contract → Nat → U256)
    (page' : Contract' → Nat → U256) (hpage : ∀ c k, HoldsPageWord (page c k) (words c) k)
    (hpage' : ∀ c k, HoldsPageWord (page' c k) (words' c) k) (n : Nat) (s : State)
    (h : ∀ k t, k < n → cycles (cycleTesting M page) k s = .ok t →
      beNat (piece 16 (words' (M'.contract t)) (M'.pc t).toNat) = beNat (piece 16 (words (M.contract t)) (M.pc t).toNat)) :
    cycles (cycleTesting M' page') n s = cycles (cycleTesting M page) n s := by
  refine cycles_congr n s fun k t hk ht => ?_
  obtain ⟨raw, hr, hc⟩ := cycle_reads_testing M page words hpage t
  obtain ⟨raw', hr', hc'⟩ := cycle_reads_testing M' page' words' hpage' t
  obtain rfl : raw' = raw := BitVec.eq_of_toNat_eq (hr'.trans ((h k t hk ht).trans hr.symm))
  rw [hc, hc']
  exact congrArg _ (funext fun d => executeDecoded_congr he t d)

/-- C117, testing: code that is not visited can be replaced. Codes that agree outside some positions run the same on every
machine that does not come to these. -/
theorem C117_patched_testing (M : Machine 32 State Contract) (words words' : Contract → List (Vector Byte 32))
    (page page' : Contract → Nat → U256) (hpage : ∀ c k, HoldsPageWord (page c k) (words c) k)
    (hpage' : ∀ c k, HoldsPageWord (page' c k) (words' c) k) (changed : Contract → Nat → Prop)
    (hw : ∀ c i, ¬ changed c i → piece 16 (words' c) i = piece 16 (words c) i) (n : Nat) (s : State)
    (h : ∀ k t, k < n → cycles (cycleTesting M page) k s = .ok t → ¬ changed (M.contract t) (M.pc t).toNat) :
    cycles (cycleTesting M page') n s = cycles (cycleTesting M page) n s :=
  C117_local_testing M M rfl words words' page page' hpage hpage' n s fun k t hk ht => by rw [hw _ _ (h k t hk ht)]

/-- C117, testing: code can be moved. With other code in front of each contract, a machine that adds 2 positions for each word
of it goes through the same states as without, as long as no position exceeds the type. -/
theorem C117_moved_testing (M : Machine 32 State Contract) (before words : Contract → List (Vector Byte 32))
    (page page' : Contract → Nat → U256) (hpage : ∀ c k, HoldsPageWord (page c k) (words c) k)
    (hpage' : ∀ c k, HoldsPageWord (page' c k) (before c ++ words c) k) (n : Nat) (s : State)
    (h : ∀ k t, k < n → cycles (cycleTesting M page) k s = .ok t →
      (M.pc t).toNat + 2 * (before (M.contract t)).length < 2 ^ 32) :
    cycles (cycleTesting { M with
      pc := fun s => wrappingAdd (M.pc s) (fromU64Clipped 32 (BitVec.ofNat 64 (2 * (before (M.contract s)).length))) }
      page') n s = cycles (cycleTesting M page) n s := by
  refine C117_local_testing M ⟨M.contract, fun s => wrappingAdd (M.pc s) (fromU64Clipped 32 (BitVec.ofNat 64
    (2 * (before (M.contract s)).length))), M.execute⟩ rfl words (fun c => before c ++ words c) page page' hpage hpage' n s fun k t hk ht => ?_
  have hp : (wrappingAdd (M.pc t) (fromU64Clipped 32 (BitVec.ofNat 64 (2 * (before (M.contract t)).length)))).toNat =
      (M.pc t).toNat + 2 * (before (M.contract t)).length := by
    have := h k t hk ht
    unfold wrappingAdd fromU64Clipped
    rw [BitVec.toNat_add, BitVec.toNat_setWidth, BitVec.toNat_ofNat, Nat.mod_eq_of_lt (a := 2 * _) (by omega),
      Nat.mod_eq_of_lt (a := 2 * _) (by omega), Nat.mod_eq_of_lt (by omega)]
  dsimp only
  rw [hp, piece_after (c := 2) rfl]

/-- C117, testing: if a position does exceed the type, the machine gets into the code in front. -/
theorem C117_wraps_testing (pc : BitVec 32) (before : List (Vector Byte 32)) (hb : 2 * before.length < 2 ^ 32)
    (h : 2 ^ 32 ≤ pc.toNat + 2 * before.length) :
    (wrappingAdd pc (fromU64Clipped 32 (BitVec.ofNat 64 (2 * before.length)))).toNat < 2 * before.length := by
  have := pc.isLt
  unfold wrappingAdd fromU64Clipped
  rw [BitVec.toNat_add, BitVec.toNat_setWidth, BitVec.toNat_ofNat, Nat.mod_eq_of_lt (a := 2 * _) (by omega),
    Nat.mod_eq_of_lt (a := 2 * _) (by omega), Nat.mod_eq_sub_mod h, Nat.mod_eq_of_lt (by omega)]
  omega

/-- C117, testing: words behind a code are not read by a machine that stays in it. -/
theorem C117_appended_testing (M : Machine 32 State Contract) (words after : Contract → List (Vector Byte 32))
    (page page' : Contract → Nat → U256) (hpage : ∀ c k, HoldsPageWord (page c k) (words c) k)
    (hpage' : ∀ c k, HoldsPageWord (page' c k) (words c ++ after c) k) (n : Nat) (s : State)
    (h : ∀ k t, k < n → cycles (cycleTesting M page) k s = .ok t → (M.pc t).toNat < 2 * (words (M.contract t)).length) :
    cycles (cycleTesting M page') n s = cycles (cycleTesting M page) n s :=
  C117_local_testing M M rfl words (fun c => words c ++ after c) page page' hpage hpage' n s fun k t hk ht => by
    rw [piece_before (c := 2) rfl _ _ _ (h k t hk ht)]

/-! Cases: a machine that walks through the first 100 positions again and again and writes down what it executes; two words of
other code in front of it, and a code of which the last of 104 pieces is replaced. -/

private abbrev Walk (w : Nat) := Nat × List (DecodedOpcode w)
private abbrev walker (w : Nat) : Machine w (Walk w) Unit where
  contract _ := ()
  pc s := BitVec.ofNat w (s.1 % 100)
  execute s o _ _ := (s.1 + 1, o :: s.2)
private abbrev front : List (Vector Byte 32) := [Vector.replicate 32 7, Vector.replicate 32 9]

private theorem walker_pc (w : Nat) (s : Walk w) : ((walker w).pc s).toNat < 100 := by
  show (BitVec.ofNat w (s.1 % 100)).toNat < 100
  rw [BitVec.toNat_ofNat]
  exact Nat.lt_of_le_of_lt (Nat.mod_le _ _) (Nat.mod_lt _ (by decide))

private theorem page_exists (words : List (Vector Byte 32)) : ∃ page : Unit → Nat → U256, ∀ c k, HoldsPageWord (page c k) words k := by
  have h : ∀ k, ∃ v, HoldsPageWord v words k := fun k => by
    obtain ⟨v, hv⟩ := C09_word_exists (words.flatMap Vector.toList) k
    refine ⟨v, ?_⟩
    unfold HoldsPageWord
    rw [pageWord_eq]
    exact hv
  exact ⟨fun _ k => (h k).choose, fun _ k => (h k).choose_spec⟩

example (words : List (Vector Byte 32)) (n : Nat) (s : Walk 16) : ∃ page page' : Unit → Nat → U256,
    (∀ c k, HoldsPageWord (page c k) words k) ∧ (∀ c k, HoldsPageWord (page' c k) (front ++ words) k) ∧
    cycles (cycleProduction { walker 16 with pc := fun s => wrappingAdd ((walker 16).pc s) (fromU64Clipped 16 8) } page') n s =
      cycles (cycleProduction (walker 16) page) n s := by
  obtain ⟨page, hp⟩ := page_exists words
  obtain ⟨page', hp'⟩ := page_exists (front ++ words)
  exact ⟨page, page', hp, hp', C117_moved_production (walker 16) (fun _ => front) (fun _ => words) page page' hp hp' n s
    fun _ t _ _ => Nat.lt_of_lt_of_le (Nat.add_lt_add_right (walker_pc 16 t) _) (by decide)⟩
example (words : List (Vector Byte 32)) (n : Nat) (s : Walk 32) : ∃ page page' : Unit → Nat → U256,
    (∀ c k, HoldsPageWord (page c k) words k) ∧ (∀ c k, HoldsPageWord (page' c k) (front ++ words) k) ∧
    cycles (cycleTesting { walker 32 with pc := fun s => wrappingAdd ((walker 32).pc s) (fromU64Clipped 32 4) } page') n s =
      cycles (cycleTesting (walker 32) page) n s := by
  obtain ⟨page, hp⟩ := page_exists words
  obtain ⟨page', hp'⟩ := page_exists (front ++ words)
  exact ⟨page, page', hp, hp', C117_moved_testing (walker 32) (fun _ => front) (fun _ => words) page page' hp hp' n s
    fun _ t _ _ => Nat.lt_of_lt_of_le (Nat.add_lt_add_right (walker_pc 32 t) _) (by decide)⟩

example (words after : List (Vector Byte 32)) (hl : words.length = 26) (n : Nat) (s : Walk 16) :
    ∃ page page' : Unit → Nat → U256, (∀ c k, HoldsPageWord (page c k) words k) ∧
      (∀ c k, HoldsPageWord (page' c k) (words ++ after) k) ∧
      cycles (cycleProduction (walker 16) page') n s = cycles (cycleProduction (walker 16) page) n s := by
  obtain ⟨page, hp⟩ := page_exists words
  obtain ⟨page', hp'⟩ := page_exists (words ++ after)
  exact ⟨page, page', hp, hp', C117_appended_production (walker 16) (fun _ => words) (fun _ => after) page page' hp hp' n s
    fun _ t _ _ => by have := walker_pc 16 t; rw [hl]; omega⟩
example (words after : List (Vector Byte 32)) (hl : words.length = 52) (n : Nat) (s : Walk 32) :
    ∃ page page' : Unit → Nat → U256, (∀ c k, HoldsPageWord (page c k) words k) ∧
      (∀ c k, HoldsPageWord (page' c k) (words ++ after) k) ∧
      cycles (cycleTesting (walker 32) page') n s = cycles (cycleTesting (walker 32) page) n s := by
  obtain ⟨page, hp⟩ := page_exists words
  obtain ⟨page', hp'⟩ := page_exists (words ++ after)
  exact ⟨page, page', hp, hp', C117_appended_testing (walker 32) (fun _ => words) (fun _ => after) page page' hp hp' n s
    fun _ t _ _ => by have := walker_pc 32 t; rw [hl]; omega⟩

example (words words' : List (Vector Byte 32)) (h : ∀ i, i ≠ 103 → piece 8 words' i = piece 8 words i) (n : Nat) (s : Walk 16) :
    ∃ page page' : Unit → Nat → U256, (∀ c k, HoldsPageWord (page c k) words k) ∧ (∀ c k, HoldsPageWord (page' c k) words' k) ∧
      cycles (cycleProduction (walker 16) page') n s = cycles (cycleProduction (walker 16) page) n s := by
  obtain ⟨page, hp⟩ := page_exists words
  obtain ⟨page', hp'⟩ := page_exists words'
  exact ⟨page, page', hp, hp', C117_patched_production (walker 16) (fun _ => words) (fun _ => words') page page' hp hp'
    (fun _ i => i = 103) (fun _ i hi => h i hi) n s
    fun _ t _ _ e => by have := walker_pc 16 t; omega⟩
example (words words' : List (Vector Byte 32)) (h : ∀ i, i ≠ 103 → piece 16 words' i = piece 16 words i) (n : Nat) (s : Walk 32) :
    ∃ page page' : Unit → Nat → U256, (∀ c k, HoldsPageWord (page c k) words k) ∧ (∀ c k, HoldsPageWord (page' c k) words' k) ∧
      cycles (cycleTesting (walker 32) page') n s = cycles (cycleTesting (walker 32) page) n s := by
  obtain ⟨page, hp⟩ := page_exists words
  obtain ⟨page', hp'⟩ := page_exists words'
  exact ⟨page, page', hp, hp', C117_patched_testing (walker 32) (fun _ => words) (fun _ => words') page page' hp hp'
    (fun _ i => i = 103) (fun _ i hi => h i hi) n s
    fun _ t _ _ e => by have := walker_pc 32 t; omega⟩

-- the last position of a production code, moved by two words, is the eighth position of the code in front
example : (wrappingAdd 65535#16 (fromU64Clipped 16 (BitVec.ofNat 64 (4 * front.length)))).toNat = 7 := by decide
example : (wrappingAdd 65535#16 (fromU64Clipped 16 (BitVec.ofNat 64 (4 * front.length)))).toNat < 8 :=
  C117_wraps_production 65535#16 front (by decide) (by decide)
example : (wrappingAdd 4294967295#32 (fromU64Clipped 32 (BitVec.ofNat 64 (2 * front.length)))).toNat < 4 :=
  C117_wraps_testing 4294967295#32 front (by decide) (by decide)

example (words : List (Vector Byte 32)) (page : Unit → Nat → U256) (page' : Bool → Nat → U256)
    (hp : ∀ c k, HoldsPageWord (page c k) words k) (hp' : ∀ c k, HoldsPageWord (page' c k) (if c then front ++ words else []) k)
    (n : Nat) (s : Walk 16) :
    cycles (cycleProduction ⟨fun _ => true, fun s => BitVec.ofNat 16 (s.1 % 100 + 8), (walker 16).execute⟩ page') n s =
      cycles (cycleProduction (walker 16) page) n s :=
  C117_local_production (walker 16) ⟨fun _ => true, fun s => BitVec.ofNat 16 (s.1 % 100 + 8), (walker 16).execute⟩ rfl
    (fun _ => words) (fun c => if c then front ++ words else []) page page' hp hp' n s fun _ t _ _ => by
      have := Nat.mod_lt t.1 (show 0 < 100 by decide)
      dsimp only
      rw [if_pos rfl, BitVec.toNat_ofNat, BitVec.toNat_ofNat, Nat.mod_eq_of_lt (a := t.1 % 100 + 8) (by omega),
        Nat.mod_eq_of_lt (a := t.1 % 100) (by omega), show t.1 % 100 + 8 = t.1 % 100 + 4 * front.length from rfl,
        LocalityLemmas.piece_after (c := 4) rfl]

example (words : List (Vector Byte 32)) (page : Unit → Nat → U256) (page' : Bool → Nat → U256)
    (hp : ∀ c k, HoldsPageWord (page c k) words k) (hp' : ∀ c k, HoldsPageWord (page' c k) (if c then front ++ words else []) k)
    (n : Nat) (s : Walk 32) :
    cycles (cycleTesting ⟨fun _ => true, fun s => BitVec.ofNat 32 (s.1 % 100 + 4), (walker 32).execute⟩ page') n s =
      cycles (cycleTesting (walker 32) page) n s :=
  C117_local_testing (walker 32) ⟨fun _ => true, fun s => BitVec.ofNat 32 (s.1 % 100 + 4), (walker 32).execute⟩ rfl
    (fun _ => words) (fun c => if c then front ++ words else []) page page' hp hp' n s fun _ t _ _ => by
      have := Nat.mod_lt t.1 (show 0 < 100 by decide)
      dsimp only
      rw [if_pos rfl, BitVec.toNat_ofNat, BitVec.toNat_ofNat, Nat.mod_eq_of_lt (a := t.1 % 100 + 4) (by omega),
        Nat.mod_eq_of_lt (a := t.1 % 100) (by omega), show t.1 % 100 + 4 = t.1 % 100 + 2 * front.length from rfl,
        LocalityLemmas.piece_after (c := 2) rfl]

end ZkEvm.Props
