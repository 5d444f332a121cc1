import Verif.Props.Abi
import Verif.Props.System
import Verif.Spec.Pointers
/-! C98: pointers made from a validated one never leave its slice. Vocabulary in `Verif/Spec/Pointers.lean`. -/
namespace ZkEvm.Props
open Spec AbiLemmas

/-! ## C98 -/

private theorem carries_iff {w : U256} {p : FatPointer} : Carries w p ↔ FatPointer.fromU256 w = p := by
  unfold Carries
  rw [← (C43_roundtrip p w).2]
  constructor
  · intro h
    rw [← (C43_roundtrip p w).1, ← u256_ext h, (C43_roundtrip _ w).1]
  · rintro rfl; rfl

private theorem carries_low {v w : U256} (h : u256Nat v % 2 ^ 128 = u256Nat w % 2 ^ 128) {p : FatPointer} :
    Carries v p ↔ Carries w p := by unfold Carries; rw [h]

private theorem valid_iff (p : FatPointer) :
    ((p.validate true).isEmpty = true ↔ p.offset = 0 ∧ p.start.toNat + p.length.toNat < 2 ^ 32) ∧
    ((p.validate false).isEmpty = true ↔ p.start.toNat + p.length.toNat < 2 ^ 32) := by
  have h1 := (C44_validate p true).2.2.2
  have h2 := (C44_validate p false).2.2.2
  refine ⟨?_, ?_⟩
  · rw [h1]
    constructor
    · rintro ⟨h, h'⟩
      exact ⟨BitVec.eq_of_toNat_eq (by simpa using h), h'⟩
    · rintro ⟨h, h'⟩
      exact ⟨by simp [h], h'⟩
  · rw [h2]
    simp

private theorem sum_lt {a b : BitVec 32} (h : a.toNat + b.toNat < 2 ^ 32) : (a + b).toNat = a.toNat + b.toNat := by
  rw [BitVec.toNat_add, Nat.mod_eq_of_lt h]

private theorem diff_le {a b : BitVec 32} (h : b.toNat ≤ a.toNat) : (a - b).toNat = a.toNat - b.toNat := by
  rw [BitVec.toNat_sub_of_le (BitVec.le_def.2 h)]

private theorem remainder_within {p : FatPointer} (hs : p.start.toNat + p.length.toNat < 2 ^ 32)
    (ho : p.offset.toNat ≤ p.length.toNat) :
    (remainder p).start.toNat = p.start.toNat + p.offset.toNat ∧
    (remainder p).length.toNat = p.length.toNat - p.offset.toNat ∧ (remainder p).memoryPage = p.memoryPage :=
  ⟨sum_lt (by omega), diff_le ho, rfl⟩

private theorem handed_inside {p₀ : FatPointer} {w : U256} (h : Handed p₀ w) :
    (p₀.validate true).isEmpty = true ∧ Within (FatPointer.fromU256 w) p₀ := by
  have forward : ∀ {v w : U256}, ((p₀.validate true).isEmpty = true ∧ Within (FatPointer.fromU256 v) p₀) →
      (FatPointer.fromU256 v).validateAsSlice = true → Carries w (remainder (FatPointer.fromU256 v)) →
      (p₀.validate true).isEmpty = true ∧ Within (FatPointer.fromU256 w) p₀ := by
    intro v w ih hs hw
    rw [carries_iff.1 hw]
    obtain ⟨h0, h1, h2, h3⟩ := ih
    have := ((valid_iff p₀).1.1 h0).2
    have ho := (C45_checks (FatPointer.fromU256 v)).2.1.1 hs
    obtain ⟨e1, e2, e3⟩ := remainder_within (p := FatPointer.fromU256 v) (by omega) ho
    exact ⟨h0, e3.trans h1, by omega, by omega⟩
  induction h with
  | fresh h hw => rw [carries_iff.1 hw]; exact ⟨h, rfl, Nat.le_refl _, Nat.le_refl _⟩
  | add x o _ hv _ _ hw ih =>
    rw [carries_iff.1 hv] at ih; rw [carries_iff.1 hw]; exact ih
  | sub x o _ hv _ _ hw ih =>
    rw [carries_iff.1 hv] at ih; rw [carries_iff.1 hw]; exact ih
  | shrink x l _ hv _ hl hw ih =>
    rw [carries_iff.1 hv] at ih; rw [carries_iff.1 hw]
    obtain ⟨h0, h1, h2, h3⟩ := ih
    refine ⟨h0, h1, h2, ?_⟩
    dsimp only
    omega
  | @pack v w x _ hx hw ih =>
    have : FatPointer.fromU256 w = FatPointer.fromU256 v :=
      carries_iff.1 ((carries_low (by omega)).1 (carries_iff.2 (rfl : FatPointer.fromU256 v = _)))
    rw [this]; exact ih
  | advance o _ hv _ _ hw ih =>
    rw [carries_iff.1 hv] at ih; rw [carries_iff.1 hw]; exact ih
  | @farCall v w _ _ hs hw ih =>
    rw [(C48_read v).1] at hs hw
    exact forward ih hs hw
  | @ret v w _ _ hs hw ih =>
    have e : (RetABI.fromU256 v).memoryQuasiFatPointer = FatPointer.fromU256 v := by
      rw [(C49_agrees v).1]; exact (C48_read v).1
    rw [e] at hs hw
    exact forward ih hs hw

/-- C98: every word carries exactly one pointer, and both call and return ABI find it there. -/
theorem C98_one_pointer (w : U256) : ∃ p, Carries w p ∧ (∀ q, Carries w q → q = p) ∧
    (FarCallABI.fromU256 w).memoryQuasiFatPointer = p ∧ (RetABI.fromU256 w).memoryQuasiFatPointer = p := by
  refine ⟨FatPointer.fromU256 w, carries_iff.2 rfl, fun q hq => (carries_iff.1 hq).symm, (C48_read w).1, ?_⟩
  rw [(C49_agrees w).1]; exact (C48_read w).1

/-- C98: whatever is done with a pointer, in any number of steps and through any number of calls and returns: it stays
inside the slice of the pointer it was made from, passes validation again, and if the in-bounds check succeeds, the address
computed in 32-bit arithmetic is one of that slice. -/
theorem C98_inside (p₀ p : FatPointer) (w : U256) (h : Handed p₀ w) (hp : Carries w p) :
    Within p p₀ ∧ (p.validate false).isEmpty = true ∧
    (p.validateInBounds = true →
      p₀.start.toNat ≤ (p.start + p.offset).toNat ∧
      (p.start + p.offset).toNat < p₀.start.toNat + p₀.length.toNat) := by
  obtain ⟨h0, h1⟩ := handed_inside h
  rw [carries_iff.1 hp] at h1
  have hv := ((valid_iff p₀).1.1 h0).2
  obtain ⟨_, h2, h3⟩ := h1
  refine ⟨⟨‹_›, h2, h3⟩, (valid_iff p).2.2 (by omega), fun hb => ?_⟩
  have := (C45_checks p).1.1 hb
  rw [sum_lt (by omega)]
  omega

/-- C98: a slice of 64 bytes at 100 on page 7; the pointer is moved by 10 and passed on in a far call (the fourth limb holds
the forwarding mode), and the callee moves it by 5. -/
private theorem handed_example : Handed ⟨0, 7, 100, 64⟩ (FatPointer.toU256 ⟨5, 7, 110, 54⟩) := by
  have c : ∀ q : FatPointer, Carries q.toU256 q := fun q => carries_iff.2 (C43_roundtrip q U256.zero).1
  have h1 : Handed ⟨0, 7, 100, 64⟩ (FatPointer.toU256 ⟨0, 7, 100, 64⟩) := .fresh (by decide) (c _)
  have h2 : Handed ⟨0, 7, 100, 64⟩ ⟨10 + 7 * 2 ^ 32, 100 + 64 * 2 ^ 32, 0, 2 ^ 32⟩ :=
    .add (p := ⟨0, 7, 100, 64⟩) ⟨10, 0, 0, 0⟩ 10 h1 (c _) (by decide) (by decide) (by unfold Carries; decide)
  have h3 : Handed ⟨0, 7, 100, 64⟩ (FatPointer.toU256 ⟨0, 7, 110, 54⟩) :=
    .farCall h2 (by decide) (by decide) (by unfold Carries; decide)
  exact .add (p := ⟨0, 7, 110, 54⟩) ⟨5, 0, 0, 0⟩ 5 h3 (c _) (by decide) (by decide) (c _)

example : Within ⟨5, 7, 110, 54⟩ ⟨0, 7, 100, 64⟩ :=
  (C98_inside _ _ _ handed_example (carries_iff.2 (C43_roundtrip _ U256.zero).1)).1

private theorem small_word (n : BitVec 32) :
    u256Nat ⟨n.setWidth 64, 0, 0, 0⟩ = n.toNat ∧ u256Nat ⟨n.setWidth 64, 0, 0, 0⟩ < u256Nat MAX_OFFSET_FOR_ADD_SUB := by
  have e : u256Nat ⟨n.setWidth 64, 0, 0, 0⟩ = n.toNat := by
    have := n.isLt
    simp [u256Nat]
    omega
  have hm : u256Nat MAX_OFFSET_FOR_ADD_SUB = 2 ^ 32 := by decide
  rw [e, hm]
  exact ⟨rfl, n.isLt⟩

/-- C98: a read of 32 bytes at an offset that can be dereferenced: the bytes before the end of the pointer's slice all lie
in the original slice, and neither their addresses nor the next offset wrap around. -/
theorem C98_reads (p₀ p : FatPointer) (w : U256) (h : Handed p₀ w) (hp : Carries w p)
    (ho : p.offset.toNat ≤ u256Nat MAX_OFFSET_TO_DEREF) :
    (p.offset + 32).toNat = p.offset.toNat + 32 ∧
    ∀ i : BitVec 32, i.toNat < 32 → p.offset.toNat + i.toNat < p.length.toNat →
      (p.start + p.offset + i).toNat = p.start.toNat + p.offset.toNat + i.toNat ∧
      p₀.start.toNat ≤ (p.start + p.offset + i).toNat ∧
      (p.start + p.offset + i).toNat < p₀.start.toNat + p₀.length.toNat := by
  obtain ⟨h0, h1⟩ := handed_inside h
  rw [carries_iff.1 hp] at h1
  have hv := ((valid_iff p₀).1.1 h0).2
  obtain ⟨_, h2, h3⟩ := h1
  have hm := ((C52_deref ⟨p.offset.setWidth 64, 0, 0, 0⟩).1)
  rw [(small_word _).1] at hm
  have h32 := hm.1 ho
  refine ⟨sum_lt h32, fun i _ hi => ?_⟩
  have e1 := sum_lt (a := p.start) (b := p.offset) (by omega)
  have e2 := sum_lt (a := p.start + p.offset) (b := i) (by omega)
  rw [e2, e1]
  omega

example : (115 : BitVec 32) + 31 < 164 ∧ ((110 : BitVec 32) + 5 + 31).toNat < 100 + 64 :=
  ⟨by decide, ((C98_reads _ _ _ handed_example (carries_iff.2 (C43_roundtrip _ U256.zero).1) (by decide)).2 31 (by decide)
    (by decide)).2.2⟩

private theorem forward {p₀ p : FatPointer} {v w : U256} (h : Handed p₀ v) (hp : Carries v p)
    (hs : p.validateAsSlice = true) (hw : Carries w (remainder p)) : Handed p₀ w := by
  have hx : Handed p₀ ⟨v.l0, v.l1, 0, 1#64 <<< 32⟩ := by
    refine .pack ⟨0, 0, 0, 1#64 <<< 32⟩ h (by decide) ?_
    have h0 := v.l0.isLt
    have h1 := v.l1.isLt
    simp only [u256Nat, show (0 : BitVec 64).toNat = 0 from rfl, show (1#64 <<< 32).toNat = 2 ^ 32 from rfl]
    omega
  have hc : Carries ⟨v.l0, v.l1, 0, 1#64 <<< 32⟩ p := by
    rw [carries_iff] at hp ⊢; exact hp
  have e : (FarCallABI.fromU256 ⟨v.l0, v.l1, 0, 1#64 <<< 32⟩).memoryQuasiFatPointer = p :=
    (C48_read _).1.trans (carries_iff.1 hc)
  exact .farCall hx (by
      simp only [FarCallABI.fromU256, u32ToLeBytes]
      decide) (by rw [e]; exact hs) (by rw [e]; exact hw)

/-- C98: exactly the slices inside the original one, at any offset and with any upper half, can be made. -/
theorem C98_exact (p₀ p : FatPointer) (w : U256) (hp : Carries w p) :
    Handed p₀ w ↔ (p₀.validate true).isEmpty = true ∧ Within p p₀ := by
  constructor
  · intro h
    have := handed_inside h
    rwa [carries_iff.1 hp] at this
  · rintro ⟨hv, h1, h2, h3⟩
    obtain ⟨hz, hv'⟩ := (valid_iff p₀).1.1 hv
    have c : ∀ q : FatPointer, Carries q.toU256 q := fun q => carries_iff.2 (C43_roundtrip q w).1
    have a1 : Handed p₀ p₀.toU256 := .fresh hv (c p₀)
    -- move to the start of the slice
    let d := p.start - p₀.start
    have hd : d.toNat = p.start.toNat - p₀.start.toNat := diff_le h2
    let q1 : FatPointer := { p₀ with offset := d }
    have a2 : Handed p₀ q1.toU256 := .add ⟨d.setWidth 64, 0, 0, 0⟩ d a1 (c p₀) (small_word d).2
      (by rw [(small_word d).1, hz]; simp) (c q1)
    -- pass it on
    have hs : q1.validateAsSlice = true := (C45_checks q1).2.1.2 (by show d.toNat ≤ p₀.length.toNat; omega)
    have a3 := forward a2 (c q1) hs (c (remainder q1))
    obtain ⟨e1, e2, e3⟩ := remainder_within (p := q1) hv' ((C45_checks q1).2.1.1 hs)
    have e2' : (remainder q1).length.toNat = p₀.length.toNat - d.toNat := e2
    have e1' : (remainder q1).start = p.start := BitVec.eq_of_toNat_eq (by
      rw [e1]; show p₀.start.toNat + d.toNat = _; omega)
    -- drop the end
    let x := (remainder q1).length - p.length
    have hx : x.toNat = (remainder q1).length.toNat - p.length.toNat := diff_le (by omega)
    let q2 : FatPointer := { remainder q1 with length := p.length }
    have a4 : Handed p₀ q2.toU256 := .shrink ⟨x.setWidth 64, 0, 0, 0⟩ p.length a3 (c (remainder q1)) (small_word x).2
      (by rw [(small_word x).1]; omega) (c q2)
    -- set the offset
    have e4 : { q2 with offset := p.offset } = p := by
      cases p
      simp only [q2, FatPointer.mk.injEq, true_and, and_true]
      exact ⟨h1.symm, e1'⟩
    exact .add ⟨p.offset.setWidth 64, 0, 0, 0⟩ p.offset a4 (c q2) (small_word p.offset).2
      (by rw [(small_word p.offset).1]; show _ = (0 : BitVec 32).toNat + _; simp) (by rw [e4]; exact hp)

/-- C98: a callee gets no more than its caller: what can be made from the pointer passed on can be made from the
original one. -/
theorem C98_nested (p₀ p : FatPointer) (v w : U256) (h : Handed p₀ v) (hp : Carries v p) (hs : p.validateAsSlice = true)
    (hw : Handed (remainder p) w) : Handed p₀ w := by
  obtain ⟨q, hq, -⟩ := C98_one_pointer w
  have h1 := ((C98_exact p₀ p v hp).1 h)
  have h2 := ((C98_exact _ q w hq).1 hw)
  have hv := ((valid_iff p₀).1.1 h1.1).2
  obtain ⟨_, a1, a2, a3⟩ := h1
  obtain ⟨_, b1, b2, b3⟩ := h2
  obtain ⟨e1, e2, e3⟩ := remainder_within (p := p) (by omega) ((C45_checks p).2.1.1 hs)
  have := (C45_checks p).2.1.1 hs
  exact (C98_exact p₀ q w hq).2 ⟨‹_›, (b1.trans e3).trans a1, by omega, by omega⟩

example (w : U256) (h : Handed (remainder ⟨5, 7, 110, 54⟩) w) : Handed ⟨0, 7, 100, 64⟩ w :=
  C98_nested _ ⟨5, 7, 110, 54⟩ _ w handed_example (carries_iff.2 (C43_roundtrip _ U256.zero).1) (by decide) h

/-- The byte before the slice cannot be reached. -/
example : ¬ Handed ⟨0, 7, 100, 64⟩ (FatPointer.toU256 ⟨0, 7, 99, 2⟩) := fun h =>
  absurd ((C98_exact _ ⟨0, 7, 99, 2⟩ _ (carries_iff.2 (C43_roundtrip _ U256.zero).1)).1 h).2.2.1 (by decide)

/-- C98: in every history of far calls, pointers that were made from pointers into the pages of two different frames
never point into the same page, whoever holds them. -/
theorem C98_isolated (counter : Nat) (bases : List Nat) (h : PageHistory counter bases) (b b' : Nat)
    (hb : b ∈ BOOTLOADER_BASE_PAGE :: bases) (hb' : b' ∈ BOOTLOADER_BASE_PAGE :: bases) (hne : b ≠ b')
    (p₀ q₀ p q : FatPointer) (hp₀ : p₀.memoryPage.toNat ∈ pagesOf b) (hq₀ : q₀.memoryPage.toNat ∈ pagesOf b')
    (v w : U256) (hv : Handed p₀ v) (hw : Handed q₀ w) (hp : Carries v p) (hq : Carries w q) :
    p.memoryPage ≠ q.memoryPage := by
  intro e
  have ho := (C62_owner counter bases h).1
  rw [← (C98_inside p₀ p v hv hp).1.1] at hp₀
  rw [← (C98_inside q₀ q w hw hq).1.1, ← e] at hq₀
  exact hne ((ho b hb _ hp₀).trans (ho b' hb' _ hq₀).symm)

/-- Two frames: a pointer into the heap of the first and one into the heap of the second. -/
example (v w : U256) (p q : FatPointer) (hv : Handed ⟨0, 2050, 100, 64⟩ v) (hw : Handed ⟨0, 2058, 0, 32⟩ w)
    (hp : Carries v p) (hq : Carries w q) : p.memoryPage ≠ q.memoryPage :=
  C98_isolated 2064 [2056, 2048] (.farCall (.farCall .start)) 2048 2056 (by decide) (by decide) (by decide)
    ⟨0, 2050, 100, 64⟩ ⟨0, 2058, 0, 32⟩ p q (by decide) (by decide) v w hv hw hp hq

example : Handed ⟨0, 2050, 100, 64⟩ (FatPointer.toU256 ⟨0, 2050, 100, 64⟩) ∧
    Handed ⟨0, 2058, 0, 32⟩ (FatPointer.toU256 ⟨0, 2058, 0, 32⟩) :=
  ⟨.fresh (by decide) (carries_iff.2 (C43_roundtrip _ U256.zero).1),
    .fresh (by decide) (carries_iff.2 (C43_roundtrip _ U256.zero).1)⟩

/-- C98: no check can be left out. Without validation a pointer that is in bounds addresses memory before its slice; and
if a pointer is passed on without the slice check, the receiver's pointer can lie before the slice although it passes
validation as a fresh pointer and the in-bounds check. -/
theorem C98_checks_needed :
    (∃ p : FatPointer, p.validateInBounds = true ∧ (p.start + p.offset).toNat < p.start.toNat) ∧
    (∃ p₀ w p, Handed p₀ w ∧ Carries w p ∧ p.validateAsSlice = false ∧
      ((remainder p).validate true).isEmpty = true ∧ (remainder p).validateInBounds = true ∧
      ((remainder p).start + (remainder p).offset).toNat < p₀.start.toNat) := by
  refine ⟨⟨⟨1, 0, 2 ^ 32 - 1, 2⟩, by decide, by decide⟩, ⟨0, 7, 10, 5⟩, _, ⟨2 ^ 32 - 5, 7, 10, 5⟩,
    (C98_exact _ ⟨2 ^ 32 - 5, 7, 10, 5⟩ _ (carries_iff.2 (C43_roundtrip _ U256.zero).1)).2
      ⟨by decide, by decide, by decide, by decide⟩, carries_iff.2 (C43_roundtrip _ U256.zero).1, by decide, by decide, by decide,
    by decide⟩

end ZkEvm.Props
