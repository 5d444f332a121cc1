import Verif.Spec.Pubdata
import Verif.Props.Prices
import Verif.Props.System
/-!
# Published bytes: C111
-/
namespace ZkEvm.Props
open Spec Spec.Pubdata PriceGenerator Tables PriceLemmas

/-- C111: the constants are the sizes of what is published. -/
theorem C111_sizes (p : Published) : p.bytes.length =
    (if p.isMessage then L1_MESSAGE_PUBDATA_BYTES else 0) +
    (if p.isInitial then INITIAL_STORAGE_WRITE_PUBDATA_BYTES else 0) +
    (if p.isRepeated then REPEATED_STORAGE_WRITE_PUBDATA_BYTES else 0) := by
  cases p <;> simp [Published.bytes, Published.isMessage, Published.isInitial, Published.isRepeated] <;> rfl

/-- C111: so the size of what is published is a sum over the kinds. -/
theorem C111_total (ps : List Published) : (published ps).length =
    ps.countP Published.isMessage * L1_MESSAGE_PUBDATA_BYTES +
    ps.countP Published.isInitial * INITIAL_STORAGE_WRITE_PUBDATA_BYTES +
    ps.countP Published.isRepeated * REPEATED_STORAGE_WRITE_PUBDATA_BYTES := by
  induction ps with
  | nil => simp [published]
  | cons p ps ih =>
    have hs := C111_sizes p
    have hc : (published (p :: ps)).length = p.bytes.length + (published ps).length := by
      simp [published]
    rw [hc, ih, hs]
    simp only [List.countP_cons, Nat.add_mul]
    cases p <;> simp [Published.isMessage, Published.isInitial, Published.isRepeated] <;> omega

/-- C111: what fits into a block can be hashed by one circuit of each kind, whatever else is published with it. -/
theorem C111_block (ps : List Published) (h : (published ps).length ≤ MAX_PUBDATA_PER_BLOCK) :
    ps.countP Published.isInitial ≤ LIMIT_FOR_INITIAL_WRITES_PUBDATA_HASHER ∧
    ps.countP Published.isRepeated ≤ LIMIT_FOR_REPEATED_WRITES_PUBDATA_HASHER := by
  rw [C111_total] at h
  have h1 : INITIAL_STORAGE_WRITE_PUBDATA_BYTES = 64 := rfl
  have h2 : REPEATED_STORAGE_WRITE_PUBDATA_BYTES = 40 := rfl
  have h3 : MAX_PUBDATA_PER_BLOCK = 110000 := rfl
  have h4 : LIMIT_FOR_INITIAL_WRITES_PUBDATA_HASHER = 4600 := rfl
  have h5 : LIMIT_FOR_REPEATED_WRITES_PUBDATA_HASHER = 7400 := rfl
  rw [h1, h2, h3] at h
  omega

/-- C111: whatever a transaction executes within its ergs, what it publishes of its messages fits into a block. -/
theorem C111_messages (m : Mode) (prices : List Nat) (hp : OPCODES_PRICES = .ok prices) (e e' : Nat) (ws : List (BitVec m.bits))
    (he : e ≤ MAX_TX_ERGS_LIMIT) (h : Executes prices e ws e') (ps : List Published) (hm : ∀ p ∈ ps, p.isMessage = true)
    (hl : ps.length ≤ ws.countP (fun w => opcodeOf m w = some (.log .toL1Message))) :
    (published ps).length < MAX_PUBDATA_PER_BLOCK := by
  have hb := C38_pubdata m prices hp e e' ws he h
  have h1 : ps.countP Published.isMessage ≤ ps.length := List.countP_le_length
  have h2 : ps.countP Published.isInitial = 0 := by
    rw [List.countP_eq_zero]
    intro p hp' hi
    have := hm p hp'
    cases p <;> simp [Published.isMessage, Published.isInitial] at this hi
  have h3 : ps.countP Published.isRepeated = 0 := by
    rw [List.countP_eq_zero]
    intro p hp' hi
    have := hm p hp'
    cases p <;> simp [Published.isMessage, Published.isRepeated] at this hi
  rw [C111_total, h2, h3, Nat.zero_mul, Nat.zero_mul]
  exact Nat.lt_of_le_of_lt (Nat.mul_le_mul_right _ (Nat.le_trans h1 hl)) hb

/-- C111: what is prepaid for a call through the `MsgValueSimulator` covers the bytes of any two storage writes, and of no
three initial ones. -/
theorem C111_prepaid (ps : List Published) (hw : ∀ p ∈ ps, p.isMessage = false) :
    (ps.length ≤ 2 → (published ps).length ≤ MSG_VALUE_SIMULATOR_PUBDATA_BYTES_TO_PREPAY) ∧
    (3 ≤ ps.countP Published.isInitial → MSG_VALUE_SIMULATOR_PUBDATA_BYTES_TO_PREPAY < (published ps).length) := by
  have hm : ps.countP Published.isMessage = 0 := by
    rw [List.countP_eq_zero]
    intro p hp hi
    rw [hw p hp] at hi
    cases hi
  have hs : ps.countP Published.isInitial + ps.countP Published.isRepeated ≤ ps.length := by
    clear hw hm
    induction ps with
    | nil => exact Nat.le_refl 0
    | cons p ps ih =>
      rw [List.countP_cons, List.countP_cons, List.length_cons]
      cases p <;> simp [Published.isInitial, Published.isRepeated] <;> omega
  have h1 : INITIAL_STORAGE_WRITE_PUBDATA_BYTES = 64 := rfl
  have h2 : REPEATED_STORAGE_WRITE_PUBDATA_BYTES = 40 := rfl
  have h3 : MSG_VALUE_SIMULATOR_PUBDATA_BYTES_TO_PREPAY = 128 := rfl
  rw [C111_total, hm, h1, h2, h3]
  omega

/-- C111: of one kind only, exactly 1718 initial writes, 2750 repeated ones or 1250 messages fit into a block. -/
theorem C111_capacity (ps : List Published) :
    (ps.countP Published.isInitial = ps.length →
      ((published ps).length ≤ MAX_PUBDATA_PER_BLOCK ↔ ps.length ≤ 1718)) ∧
    (ps.countP Published.isRepeated = ps.length →
      ((published ps).length ≤ MAX_PUBDATA_PER_BLOCK ↔ ps.length ≤ 2750)) ∧
    (ps.countP Published.isMessage = ps.length →
      ((published ps).length ≤ MAX_PUBDATA_PER_BLOCK ↔ ps.length ≤ 1250)) := by
  have hs : ps.countP Published.isMessage + ps.countP Published.isInitial + ps.countP Published.isRepeated = ps.length := by
    induction ps with
    | nil => rfl
    | cons p ps ih =>
      rw [List.countP_cons, List.countP_cons, List.countP_cons, List.length_cons]
      cases p <;> simp [Published.isMessage, Published.isInitial, Published.isRepeated] <;> omega
  have h1 : INITIAL_STORAGE_WRITE_PUBDATA_BYTES = 64 := rfl
  have h2 : REPEATED_STORAGE_WRITE_PUBDATA_BYTES = 40 := rfl
  have h3 : L1_MESSAGE_PUBDATA_BYTES = 88 := rfl
  have h4 : MAX_PUBDATA_PER_BLOCK = 110000 := rfl
  rw [C111_total, h1, h2, h3, h4]
  omega

/-- C111: nothing is lost: if it is known how many things of which kind are published in which order, the bytes say what. -/
theorem C111_readable (ps qs : List Published) (hk : ps.map (fun p => (p.isMessage, p.isInitial)) =
    qs.map fun p => (p.isMessage, p.isInitial)) (h : published ps = published qs) : ps = qs := by
  induction ps generalizing qs with
  | nil =>
    cases qs with
    | nil => rfl
    | cons q qs => cases hk
  | cons p ps ih =>
    cases qs with
    | nil => cases hk
    | cons q qs =>
      obtain ⟨h1, h2⟩ := List.cons.inj hk
      have h : p.bytes ++ published ps = q.bytes ++ published qs := h
      have hl : p.bytes.length = q.bytes.length := by
        rw [C111_sizes, C111_sizes]
        cases p <;> cases q <;> simp [Published.isMessage, Published.isInitial, Published.isRepeated] at h1 ⊢
      obtain ⟨hb, ht⟩ := List.append_inj h hl
      rw [ih qs h2 ht]
      congr 1
      cases p <;> cases q <;> simp [Published.isMessage, Published.isInitial] at h1
      · simp only [Published.bytes, List.cons_append, List.nil_append, List.append_assoc, List.cons.injEq] at hb
        obtain ⟨e1, e2, hb⟩ := hb
        obtain ⟨e3, hb⟩ := List.append_inj hb (by simp)
        obtain ⟨e4, hb⟩ := List.append_inj hb (by simp)
        obtain ⟨e5, e6⟩ := List.append_inj hb (by simp)
        rw [e1, e2, Vector.toList_inj.1 e3, Vector.toList_inj.1 e4, Vector.toList_inj.1 e5, Vector.toList_inj.1 e6]
      · obtain ⟨e1, e2⟩ := List.append_inj hb (by simp)
        rw [Vector.toList_inj.1 e1, Vector.toList_inj.1 e2]
      · obtain ⟨e1, e2⟩ := List.append_inj hb (by simp)
        rw [Vector.toList_inj.1 e1, Vector.toList_inj.1 e2]

/-! ## The hypotheses can be met -/

private def aMessage : Published := .message 0 1 #v[0, 7] (.replicate 20 1) (.replicate 32 2) (.replicate 32 3)
private def aWrite : Published := .initial (.replicate 32 4) (.replicate 32 5)
private def aLaterWrite : Published := .repeated (.replicate 8 6) (.replicate 32 7)

-- a message, an initial and a repeated write take 88 + 64 + 40 bytes, and fit into a block
example : (published [aMessage, aWrite, aLaterWrite]).length = 192 ∧ (192 ≤ MAX_PUBDATA_PER_BLOCK) ∧
    [aMessage, aWrite, aLaterWrite].countP Published.isInitial = 1 := by
  refine ⟨?_, by decide, rfl⟩
  rw [C111_total]
  rfl

-- three messages (instruction 1053), sent with 500000 ergs
example : ∃ prices, OPCODES_PRICES = .ok prices ∧ Executes prices 500000 (List.replicate 3 1053#64) 31250 ∧
    (published [aMessage, aMessage, aMessage]).length < MAX_PUBDATA_PER_BLOCK := by
  have h := executes_replicate (w := 1053#64) (prices_get prices_eq (n := 1053) (by decide)) 3 31250
  rw [show priceOf (entry 1053).opcode = 156250 by decide +kernel] at h
  refine ⟨_, prices_eq, h, C111_messages .production _ prices_eq _ _ _ (by decide) h _ (by simp [aMessage, Published.isMessage]) ?_⟩
  have h : opcodeOf .production 1053#64 = some (.log .toL1Message) :=
    (opcodeOf_eq .production _).trans (congrArg some (by decide +kernel))
  rw [List.countP_replicate, if_pos (decide_eq_true h)]
  exact Nat.le_refl 3

-- two writes are prepaid, three initial ones are not
example : (published [aWrite, aLaterWrite]).length ≤ MSG_VALUE_SIMULATOR_PUBDATA_BYTES_TO_PREPAY ∧
    MSG_VALUE_SIMULATOR_PUBDATA_BYTES_TO_PREPAY < (published [aWrite, aWrite, aWrite]).length :=
  ⟨(C111_prepaid _ (by simp [aWrite, aLaterWrite, Published.isMessage])).1 (by decide),
    (C111_prepaid _ (by simp [aWrite, Published.isMessage])).2 (by decide)⟩

-- a block that is full of initial writes
example : (List.replicate 1718 aWrite).countP Published.isInitial = (List.replicate 1718 aWrite).length := by
  rw [List.countP_replicate, List.length_replicate, if_pos (show aWrite.isInitial = true from rfl)]

-- read back from its bytes
example (ps : List Published) (hk : ps.map (fun p => (p.isMessage, p.isInitial)) = [(true, false), (false, false)])
    (h : published ps = published [aMessage, aLaterWrite]) : ps = [aMessage, aLaterWrite] := C111_readable _ _ hk h

end ZkEvm.Props
