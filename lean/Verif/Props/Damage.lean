import Verif.Spec.Damage
import Verif.Props.Coding
import Verif.Props.Table
/-! C121: what damage to an instruction word does to the instruction. -/
namespace ZkEvm.Props
open Spec Tables Coding Words

private theorem bits_eq_iff {W : Nat} (x y : BitVec W) (a l : Nat) :
    bits x a l = bits y a l ↔ ∀ i, a ≤ i → i < a + l → ¬ BitDiffers x y i := by
  have key : ∀ z : BitVec W, ∀ j, j < l → (bits z a l).testBit j = z.toNat.testBit (a + j) := by
    intro z j hj
    unfold bits
    rw [Nat.testBit_mod_two_pow, decide_eq_true hj, Bool.true_and, Nat.testBit_div_two_pow, Nat.add_comm]
  have hbit : ∀ i, ¬ BitDiffers x y i ↔ x.toNat.testBit i = y.toNat.testBit i := by
    intro i
    unfold BitDiffers
    rw [Nat.testBit_eq_decide_div_mod_eq, Nat.testBit_eq_decide_div_mod_eq, Decidable.not_not]
    rcases Nat.mod_two_eq_zero_or_one (x.toNat / 2 ^ i) with hx | hx <;>
      rcases Nat.mod_two_eq_zero_or_one (y.toNat / 2 ^ i) with hy | hy <;> rw [hx, hy] <;> decide
  constructor
  · intro h i h1 h2
    rw [hbit, show i = a + (i - a) by omega, ← key x (i - a) (by omega), ← key y (i - a) (by omega), h]
  · intro h
    refine Nat.eq_of_testBit_eq fun j => ?_
    by_cases hj : j < l
    · rw [key x j hj, key y j hj]
      exact (hbit _).1 (h (a + j) (by omega) (by omega))
    · unfold bits
      rw [Nat.testBit_mod_two_pow, Nat.testBit_mod_two_pow, decide_eq_false hj, Bool.false_and, Bool.false_and]

private theorem damaged_iff {W : Nat} (n : Nat) (x y : BitVec W) (f : Field) :
    DamagedAt n x y f ↔ bits x (partPlace n f).1 (partPlace n f).2 ≠ bits y (partPlace n f).1 (partPlace n f).2 := by
  rw [ne_eq, bits_eq_iff]
  constructor
  · rintro ⟨i, h1, h2, h3⟩ h
    exact h i h1 h2 h3
  · intro h
    by_cases hd : DamagedAt n x y f
    · exact hd
    · exact absurd (fun i h1 h2 h3 => hd ⟨i, h1, h2, h3⟩) h

private theorem entry_eq_iff (m k : Nat) :
    entry m = entry k ↔ m = k ∨ Unassigned m ∧ Unassigned k := by
  constructor
  · intro h
    by_cases hm : Unassigned m
    · exact .inr ⟨hm, (C16_assigned_distinct.2 k).1 (h ▸ (C16_assigned_distinct.2 m).2 hm)⟩
    · by_cases hk : Unassigned k
      · exact absurd ((C16_assigned_distinct.2 m).1 (h ▸ (C16_assigned_distinct.2 k).2 hk)) hm
      · unfold Unassigned at hm hk
        exact .inl (C16_assigned_distinct.1 m k (by omega) (by omega) h)
  · rintro (h | ⟨hm, hk⟩)
    · rw [h]
    · rw [(C16_assigned_distinct.2 m).2 hm, (C16_assigned_distinct.2 k).2 hk]

private theorem condition_eq_iff (m k : Nat) (hm : m < 8) (hk : k < 8) (c d : Condition)
    (hc : [Condition.always, .gt, .lt, .eq, .ge, .le, .ne, .gtOrLt][m]? = some c)
    (hd : [Condition.always, .gt, .lt, .eq, .ge, .le, .ne, .gtOrLt][k]? = some d) : c = d ↔ m = k := by
  constructor
  · intro h
    subst h
    rw [← hd] at hc
    exact (List.getElem?_inj (by simpa using hm) (by decide)).1 hc
  · intro h
    subst h
    rw [hc] at hd
    exact Option.some.inj hd

private theorem toNat_ne_iff {k : Nat} (x y : BitVec k) (m l : Nat) (hx : x.toNat = m) (hy : y.toNat = l) : x ≠ y ↔ m ≠ l := by
  rw [← hx, ← hy, ne_eq, ne_eq, BitVec.toNat_inj]

private theorem bits_lt {W : Nat} (x : BitVec W) (a l : Nat) : bits x a l < 2 ^ l := Nat.mod_lt _ (Nat.two_pow_pos l)

private def Reads {W n : Nat} (w : BitVec W) (o : DecodedOpcode n) : Prop :=
  o.variant = entry (bits w 0 11) ∧
    [.always, .gt, .lt, .eq, .ge, .le, .ne, .gtOrLt][bits w 13 3]? = some o.condition ∧
    o.src0RegIdx.toNat = bits w 16 4 ∧ o.src1RegIdx.toNat = bits w 20 4 ∧
    o.dst0RegIdx.toNat = bits w 24 4 ∧ o.dst1RegIdx.toNat = bits w 28 4 ∧
    o.imm0.toNat = bits w 32 n ∧ o.imm1.toNat = bits w (32 + n) n

private theorem differ_iff {W n : Nat} (w w' : BitVec W) (o o' : DecodedOpcode n) (h : Reads w o) (h' : Reads w' o') (f : Field) :
    Differ o o' f ↔ DamagedAt n w w' f ∧ ¬ (f = .variant ∧ Unassigned (bits w 0 11) ∧ Unassigned (bits w' 0 11)) := by
  obtain ⟨hv, hc, a0, a1, a2, a3, a4, a5⟩ := h
  obtain ⟨hv', hc', b0, b1, b2, b3, b4, b5⟩ := h'
  rw [damaged_iff]
  cases f
  case variant =>
    unfold Differ partPlace
    dsimp only
    rw [hv, hv', ne_eq, entry_eq_iff, not_or]
    exact and_congr_right fun _ => ⟨fun h2 h3 => h2 h3.2, fun h2 h3 => h2 ⟨rfl, h3⟩⟩
  case condition =>
    unfold Differ partPlace
    dsimp only
    rw [ne_eq, condition_eq_iff _ _ (bits_lt w 13 3) (bits_lt w' 13 3) _ _ hc hc']
    exact ⟨fun h => ⟨h, fun h2 => nomatch h2.1⟩, fun h => h.1⟩
  all_goals
    unfold Differ partPlace
    dsimp only
  case src0 => exact (toNat_ne_iff _ _ _ _ a0 b0).trans ⟨fun h => ⟨h, fun h2 => nomatch h2.1⟩, fun h => h.1⟩
  case src1 => exact (toNat_ne_iff _ _ _ _ a1 b1).trans ⟨fun h => ⟨h, fun h2 => nomatch h2.1⟩, fun h => h.1⟩
  case dst0 => exact (toNat_ne_iff _ _ _ _ a2 b2).trans ⟨fun h => ⟨h, fun h2 => nomatch h2.1⟩, fun h => h.1⟩
  case dst1 => exact (toNat_ne_iff _ _ _ _ a3 b3).trans ⟨fun h => ⟨h, fun h2 => nomatch h2.1⟩, fun h => h.1⟩
  case imm0 => exact (toNat_ne_iff _ _ _ _ a4 b4).trans ⟨fun h => ⟨h, fun h2 => nomatch h2.1⟩, fun h => h.1⟩
  case imm1 => exact (toNat_ne_iff _ _ _ _ a5 b5).trans ⟨fun h => ⟨h, fun h2 => nomatch h2.1⟩, fun h => h.1⟩

private theorem eq_iff_fields {n : Nat} (o o' : DecodedOpcode n) : o = o' ↔ ∀ f, ¬ Differ o o' f := by
  constructor
  · rintro rfl f
    cases f <;> exact fun h => h rfl
  · intro h
    have h0 := Decidable.not_not.1 (h .variant)
    have h1 := Decidable.not_not.1 (h .condition)
    have h2 := Decidable.not_not.1 (h .src0)
    have h3 := Decidable.not_not.1 (h .src1)
    have h4 := Decidable.not_not.1 (h .dst0)
    have h5 := Decidable.not_not.1 (h .dst1)
    have h6 := Decidable.not_not.1 (h .imm0)
    have h7 := Decidable.not_not.1 (h .imm1)
    cases o; cases o'
    dsimp only at h0 h1 h2 h3 h4 h5 h6 h7
    subst h0 h1 h2 h3 h4 h5 h6 h7
    rfl

private theorem reads_production (w : BitVec 64) (o : DecodedOpcode 16) (n : VariantMonotonicNumber)
    (h : Production.parse w = .ok (o, n)) : Reads w o := by
  obtain ⟨_, o', _, hp, _, hr⟩ := C01_decode_production w
  rw [hp] at h
  have h1 := congrArg Prod.fst (Except.ok.inj h)
  dsimp only at h1
  rw [← h1]
  exact hr

private theorem reads_testing (w : BitVec 128) (o : DecodedOpcode 32) (n : VariantMonotonicNumber)
    (h : Testing.parse w = .ok (o, n)) : Reads w o := by
  obtain ⟨_, o', _, hp, _, hr⟩ := C01_decode_testing w
  rw [hp] at h
  have h1 := congrArg Prod.fst (Except.ok.inj h)
  dsimp only at h1
  rw [← h1]
  exact hr

private theorem same_fields (k : Nat) (hk : 0 < k) {W : Nat} (w w' : BitVec W) (o o' : DecodedOpcode k)
    (h : ∀ f, Differ o o' f ↔
      DamagedAt k w w' f ∧ ¬ (f = .variant ∧ Unassigned (bits w 0 11) ∧ Unassigned (bits w' 0 11))) :
    (∀ f, ¬ Differ o o' f) ↔ bits w 13 (19 + 2 * k) = bits w' 13 (19 + 2 * k) ∧
      (bits w 0 11 = bits w' 0 11 ∨ Unassigned (bits w 0 11) ∧ Unassigned (bits w' 0 11)) := by
  have hu : ∀ f, f ≠ .variant → (¬ Differ o o' f ↔ ∀ i, (partPlace k f).1 ≤ i → i < (partPlace k f).1 + (partPlace k f).2 → ¬ BitDiffers w w' i) := by
    intro f hf
    rw [h f]
    constructor
    · intro h1 i h2 h3 h4
      exact h1 ⟨⟨i, h2, h3, h4⟩, fun h5 => hf h5.1⟩
    · rintro h1 ⟨⟨i, h2, h3, h4⟩, _⟩
      exact h1 i h2 h3 h4
  have hv : ¬ Differ o o' .variant ↔
      (bits w 0 11 = bits w' 0 11 ∨ Unassigned (bits w 0 11) ∧ Unassigned (bits w' 0 11)) := by
    rw [h .variant, damaged_iff]
    unfold partPlace
    dsimp only
    constructor
    · intro h1
      by_cases e : bits w 0 11 = bits w' 0 11
      · exact .inl e
      · exact .inr (Classical.byContradiction fun h2 => h1 ⟨e, fun h3 => h2 h3.2⟩)
    · rintro (e | e) ⟨h1, h2⟩
      · exact h1 e
      · exact h2 ⟨rfl, e⟩
  rw [bits_eq_iff, ← hv]
  constructor
  · intro hA
    refine ⟨fun i h1 h2 => ?_, hA .variant⟩
    have c := (hu .condition (nofun)).1 (hA _) i
    have r0 := (hu .src0 (nofun)).1 (hA _) i
    have r1 := (hu .src1 (nofun)).1 (hA _) i
    have r2 := (hu .dst0 (nofun)).1 (hA _) i
    have r3 := (hu .dst1 (nofun)).1 (hA _) i
    have i0 := (hu .imm0 (nofun)).1 (hA _) i
    have i1 := (hu .imm1 (nofun)).1 (hA _) i
    unfold partPlace at c r0 r1 r2 r3 i0 i1
    dsimp only at c r0 r1 r2 r3 i0 i1
    by_cases d1 : i < 16
    · exact c (by omega) (by omega)
    by_cases d2 : i < 20
    · exact r0 (by omega) (by omega)
    by_cases d3 : i < 24
    · exact r1 (by omega) (by omega)
    by_cases d4 : i < 28
    · exact r2 (by omega) (by omega)
    by_cases d5 : i < 32
    · exact r3 (by omega) (by omega)
    by_cases d6 : i < 32 + k
    · exact i0 (by omega) (by omega)
    · exact i1 (by omega) (by omega)
  · rintro ⟨hA, hB⟩ f
    by_cases e : f = .variant
    · rw [e]; exact hB
    · refine (hu f e).2 fun i h1 h2 => hA i ?_ ?_ <;> cases f <;> unfold partPlace at h1 h2 <;> dsimp only at h1 h2 <;>
        first | omega | exact absurd rfl e

private theorem encodable_production (raw : BitVec 64) : ∃ o n, Production.parse raw = .ok (o, n) ∧ Encodable o := by
  obtain ⟨_, o, _, hp, _, hv, _, h1, h2, h3, h4, _⟩ := C01_decode_production raw
  refine ⟨o, _, hp, by rw [hv]; exact wf_entry_any _, ?_, ?_, ?_, ?_⟩
  · rw [h1]; exact Nat.mod_lt _ (by decide)
  · rw [h2]; exact Nat.mod_lt _ (by decide)
  · rw [h3]; exact Nat.mod_lt _ (by decide)
  · rw [h4]; exact Nat.mod_lt _ (by decide)

private theorem encodable_testing (raw : BitVec 128) : ∃ o n, Testing.parse raw = .ok (o, n) ∧ Encodable o := by
  obtain ⟨_, o, _, hp, _, hv, _, h1, h2, h3, h4, _⟩ := C01_decode_testing raw
  refine ⟨o, _, hp, by rw [hv]; exact wf_entry_any _, ?_, ?_, ?_, ?_⟩
  · rw [h1]; exact Nat.mod_lt _ (by decide)
  · rw [h2]; exact Nat.mod_lt _ (by decide)
  · rw [h3]; exact Nat.mod_lt _ (by decide)
  · rw [h4]; exact Nat.mod_lt _ (by decide)

/-- C121, production: whatever happened to an instruction word, the instruction changes in exactly those parts in whose
bits the word changed; only the numbers that belong to no instruction stand for the same one. -/
theorem C121_damage_production (w w' : BitVec 64) (o o' : DecodedOpcode 16) (n n' : VariantMonotonicNumber)
    (h : Production.parse w = .ok (o, n)) (h' : Production.parse w' = .ok (o', n')) (f : Field) :
    Differ o o' f ↔
      DamagedAt 16 w w' f ∧ ¬ (f = .variant ∧ Unassigned (bits w 0 11) ∧ Unassigned (bits w' 0 11)) :=
  differ_iff w w' o o' (reads_production w o n h) (reads_production w' o' n' h') f

/-- C121, testing -/
theorem C121_damage_testing (w w' : BitVec 128) (o o' : DecodedOpcode 32) (n n' : VariantMonotonicNumber)
    (h : Testing.parse w = .ok (o, n)) (h' : Testing.parse w' = .ok (o', n')) (f : Field) :
    Differ o o' f ↔
      DamagedAt 32 w w' f ∧ ¬ (f = .variant ∧ Unassigned (bits w 0 11) ∧ Unassigned (bits w' 0 11)) :=
  differ_iff w w' o o' (reads_testing w o n h) (reads_testing w' o' n' h') f

/-- C121, production: two words stand for the same instruction exactly when they agree in bits 13 to 63 and in the number in
the lowest 11 bits, or in bits 13 to 63 with two numbers of no instruction. -/
theorem C121_same_production (w w' : BitVec 64) (o o' : DecodedOpcode 16) (n n' : VariantMonotonicNumber)
    (h : Production.parse w = .ok (o, n)) (h' : Production.parse w' = .ok (o', n')) :
    o = o' ↔ bits w 13 51 = bits w' 13 51 ∧
      (bits w 0 11 = bits w' 0 11 ∨ Unassigned (bits w 0 11) ∧ Unassigned (bits w' 0 11)) := by
  rw [eq_iff_fields, same_fields 16 (by decide) w w' o o' (C121_damage_production w w' o o' n n' h h')]

/-- C121, production: a single inverted bit changes exactly the one part it belongs to, if any. -/
theorem C121_one_bit_production (w w' : BitVec 64) (o o' : DecodedOpcode 16) (n n' : VariantMonotonicNumber)
    (h : Production.parse w = .ok (o, n)) (h' : Production.parse w' = .ok (o', n')) (i : Nat) (hi : ∀ j, BitDiffers w w' j ↔ j = i)
    (f : Field) :
    Differ o o' f ↔ ((partPlace 16 f).1 ≤ i ∧ i < (partPlace 16 f).1 + (partPlace 16 f).2) ∧
      ¬ (f = .variant ∧ Unassigned (bits w 0 11) ∧ Unassigned (bits w' 0 11)) := by
  rw [C121_damage_production w w' o o' n n' h h' f]
  refine and_congr_left fun _ => ⟨fun ⟨j, h1, h2, h3⟩ => ?_, fun ⟨h1, h2⟩ => ⟨i, h1, h2, (hi i).2 rfl⟩⟩
  rw [(hi j).1 h3] at h1 h2
  exact ⟨h1, h2⟩

/-- C121, production: the encoding has no redundancy in bits 13 to 63. Any damage there turns the word of an instruction into the
word of another instruction that exists. -/
theorem C121_undetected_production (b : Build) (o : DecodedOpcode 16) (hE : Encodable o) (w w' : BitVec 64)
    (h : Production.encodeAsInteger b o = .ok w) (hd : ∀ i, BitDiffers w w' i → 13 ≤ i) (hne : w' ≠ w) :
    ∃ o', Encodable o' ∧ o' ≠ o ∧ Production.encodeAsInteger b o' = .ok w' ∧ Production.isCanonicalEncoding w' = true ∧
      ∃ n, Production.parse w' = .ok (o', n) := by
  obtain ⟨_, w0, n, _, h0, hp, _⟩ := C02_roundtrip_production b o hE
  rw [h] at h0
  obtain rfl := Except.ok.inj h0
  obtain ⟨w1, h1, e⟩ := C04_decode_encode_production b w o _ hp
  rw [h] at h1
  obtain rfl := Except.ok.inj h1
  have hw := e.2.2.2.1 rfl
  obtain ⟨o', n', hp', hE'⟩ := encodable_production w'
  obtain ⟨w2, h2, e2⟩ := C04_decode_encode_production b w' o' n' hp'
  have a1 : bits w' 0 11 = bits w 0 11 := ((bits_eq_iff w w' 0 11).2 fun i _ h3 h4 => by have := hd i h4; omega).symm
  have a2 : bits w' 11 2 = bits w 11 2 := ((bits_eq_iff w w' 11 2).2 fun i _ h3 h4 => by have := hd i h4; omega).symm
  have hw' : w2 = w' := e2.2.2.2.2 (by rw [a1, a2]; exact hw)
  rw [hw'] at h2
  refine ⟨o', hE', fun he => hne ?_, h2, (C06_encoded_canonical b).1 o' w' h2, n', hp'⟩
  rw [he, h] at h2
  exact (Except.ok.inj h2).symm

/-- C121, testing: two words stand for the same instruction exactly when they agree in bits 13 to 95 and in the number in
the lowest 11 bits, or in bits 13 to 95 with two numbers of no instruction. -/
theorem C121_same_testing (w w' : BitVec 128) (o o' : DecodedOpcode 32) (n n' : VariantMonotonicNumber)
    (h : Testing.parse w = .ok (o, n)) (h' : Testing.parse w' = .ok (o', n')) :
    o = o' ↔ bits w 13 83 = bits w' 13 83 ∧
      (bits w 0 11 = bits w' 0 11 ∨ Unassigned (bits w 0 11) ∧ Unassigned (bits w' 0 11)) := by
  rw [eq_iff_fields, same_fields 32 (by decide) w w' o o' (C121_damage_testing w w' o o' n n' h h')]

/-- C121, testing: a single inverted bit changes exactly the one part it belongs to, if any. -/
theorem C121_one_bit_testing (w w' : BitVec 128) (o o' : DecodedOpcode 32) (n n' : VariantMonotonicNumber)
    (h : Testing.parse w = .ok (o, n)) (h' : Testing.parse w' = .ok (o', n')) (i : Nat) (hi : ∀ j, BitDiffers w w' j ↔ j = i)
    (f : Field) :
    Differ o o' f ↔ ((partPlace 32 f).1 ≤ i ∧ i < (partPlace 32 f).1 + (partPlace 32 f).2) ∧
      ¬ (f = .variant ∧ Unassigned (bits w 0 11) ∧ Unassigned (bits w' 0 11)) := by
  rw [C121_damage_testing w w' o o' n n' h h' f]
  refine and_congr_left fun _ => ⟨fun ⟨j, h1, h2, h3⟩ => ?_, fun ⟨h1, h2⟩ => ⟨i, h1, h2, (hi i).2 rfl⟩⟩
  rw [(hi j).1 h3] at h1 h2
  exact ⟨h1, h2⟩

/-- C121, testing: the encoding has no redundancy in bits 13 to 95. Any damage there turns the word of an instruction into the
word of another instruction that exists. -/
theorem C121_undetected_testing (b : Build) (o : DecodedOpcode 32) (hE : Encodable o) (w w' : BitVec 128)
    (h : Testing.encodeAsInteger b o = .ok w) (hd : ∀ i, BitDiffers w w' i → 13 ≤ i ∧ i < 96) (hne : w' ≠ w) :
    ∃ o', Encodable o' ∧ o' ≠ o ∧ Testing.encodeAsInteger b o' = .ok w' ∧ Testing.isCanonicalEncoding w' = true ∧
      ∃ n, Testing.parse w' = .ok (o', n) := by
  obtain ⟨_, w0, n, _, h0, hp, _⟩ := C03_roundtrip_testing b o hE
  rw [h] at h0
  obtain rfl := Except.ok.inj h0
  obtain ⟨w1, h1, e⟩ := C05_decode_encode_testing b w o _ hp
  rw [h] at h1
  obtain rfl := Except.ok.inj h1
  have hw := e.2.2.2.2.1 rfl
  obtain ⟨o', n', hp', hE'⟩ := encodable_testing w'
  obtain ⟨w2, h2, e2⟩ := C05_decode_encode_testing b w' o' n' hp'
  have a1 : bits w' 0 11 = bits w 0 11 := ((bits_eq_iff w w' 0 11).2 fun i _ h3 h4 => by have := hd i h4; omega).symm
  have a2 : bits w' 11 2 = bits w 11 2 := ((bits_eq_iff w w' 11 2).2 fun i _ h3 h4 => by have := hd i h4; omega).symm
  have a3 : bits w' 96 32 = bits w 96 32 := ((bits_eq_iff w w' 96 32).2 fun i _ h3 h4 => by have := hd i h4; omega).symm
  have hw' : w2 = w' := e2.2.2.2.2.2 (by rw [a1, a2, a3]; exact hw)
  rw [hw'] at h2
  refine ⟨o', hE', fun he => hne ?_, h2, (C06_encoded_canonical b).2 o' w' h2, n', hp'⟩
  rw [he, h] at h2
  exact (Except.ok.inj h2).symm

/-! Bits 20 and 40 of the word of an addition are inverted: the second register and the first immediate change, and
nothing else does. -/
private def whole : DecodedOpcode 16 := ⟨⟨.add .add, .full .useRegOnly, .full .useRegOnly, ⟨false, false⟩⟩, .always, 1, 2, 3, 0, 0, 0⟩
example : ∃ w n, Encodable whole ∧ Production.encodeAsInteger .debug whole = .ok w ∧ Production.parse w = .ok (whole, n) ∧
    (∀ i, BitDiffers w (w ^^^ (2 ^ 20 + 2 ^ 40)) i → 13 ≤ i) ∧ w ^^^ (2 ^ 20 + 2 ^ 40) ≠ w := by
  obtain ⟨_, w, n, _, h, hp, _⟩ := C02_roundtrip_production .debug whole (by decide)
  have hb : ∀ i, BitDiffers w (w ^^^ (2 ^ 20 + 2 ^ 40)) i → (2 ^ 20 + 2 ^ 40).testBit i = true := by
    intro i hi
    unfold BitDiffers at hi
    cases hc : (2 ^ 20 + 2 ^ 40).testBit i
    · refine absurd ?_ hi
      have e : w.toNat.testBit i = (w ^^^ (2 ^ 20 + 2 ^ 40)).toNat.testBit i := by
        rw [BitVec.toNat_xor, Nat.testBit_xor, show ((2 ^ 20 + 2 ^ 40 : BitVec 64)).toNat = 2 ^ 20 + 2 ^ 40 by decide, hc,
          Bool.xor_false]
      rw [Nat.testBit_eq_decide_div_mod_eq, Nat.testBit_eq_decide_div_mod_eq, decide_eq_decide] at e
      omega
    · rfl
  refine ⟨w, _, by decide, h, hp, fun i hi => ?_, ?_⟩
  · refine Nat.le_of_not_lt fun hlt => ?_
    have h13 : ∀ i, i < 13 → (2 ^ 20 + 2 ^ 40).testBit i = false := by decide
    exact absurd ((h13 i hlt).symm.trans (hb i hi)) (by decide)
  · intro he
    have := congrArg (w ^^^ ·) he
    rw [← BitVec.xor_assoc, BitVec.xor_self, BitVec.zero_xor] at this
    exact absurd this (by decide)

/-! Inverting bit `i` of any word makes the words differ in bit `i` alone. -/
private theorem bit_inverted {W : Nat} (w : BitVec W) (i : Nat) (hi : i < W) (j : Nat) :
    BitDiffers w (w ^^^ BitVec.twoPow W i) j ↔ j = i := by
  have e : ∀ x : BitVec W, x.toNat / 2 ^ j % 2 = (x.getLsbD j).toNat := fun x => by
    rw [BitVec.getLsbD, Nat.testBit_eq_decide_div_mod_eq]
    rcases Nat.mod_two_eq_zero_or_one (x.toNat / 2 ^ j) with h | h <;> rw [h] <;> rfl
  unfold BitDiffers
  rw [e, e, BitVec.getLsbD_xor, BitVec.getLsbD_twoPow, decide_eq_true hi, Bool.true_and]
  by_cases h : i = j
  · rw [decide_eq_true h]
    cases w.getLsbD j <;> simp [h]
  · rw [decide_eq_false h]
    cases w.getLsbD j <;> simp [Ne.symm h]

/-! In testing words, inverting bit 95 changes the last immediate, and inverting bit 96 changes nothing. -/
private def whole32 : DecodedOpcode 32 := ⟨⟨.add .add, .full .useRegOnly, .full .useRegOnly, ⟨false, false⟩⟩, .always, 1, 2, 3, 0, 0, 0⟩
example : ∃ w w' w'' o' o'' n n' n'', Encodable whole32 ∧ Testing.encodeAsInteger .release whole32 = .ok w ∧
    Testing.parse w = .ok (whole32, n) ∧ Testing.parse w' = .ok (o', n') ∧ Testing.parse w'' = .ok (o'', n'') ∧
    (∀ j, BitDiffers w w' j ↔ j = 95) ∧ (∀ j, BitDiffers w w'' j ↔ j = 96) ∧
    Differ whole32 o' .imm1 ∧ ¬ Differ whole32 o' .imm0 ∧ whole32 = o'' := by
  obtain ⟨_, w, n, _, h, hp, _⟩ := C03_roundtrip_testing .release whole32 (by decide)
  obtain ⟨o', n', hp', _⟩ := encodable_testing (w ^^^ BitVec.twoPow 128 95)
  obtain ⟨o'', n'', hp'', _⟩ := encodable_testing (w ^^^ BitVec.twoPow 128 96)
  have h1 := bit_inverted w 95 (by decide)
  have h2 := bit_inverted w 96 (by decide)
  refine ⟨w, _, _, o', o'', _, n', n'', by decide, h, hp, hp', hp'', h1, h2,
    (C121_one_bit_testing _ _ _ _ _ _ hp hp' 95 h1 .imm1).2 ⟨by decide, nofun⟩, fun hd => ?_, ?_⟩
  · have := ((C121_one_bit_testing _ _ _ _ _ _ hp hp' 95 h1 .imm0).1 hd).1
    unfold partPlace at this
    dsimp only at this
    omega
  · refine (eq_iff_fields _ _).2 fun f hd => ?_
    have := ((C121_one_bit_testing _ _ _ _ _ _ hp hp'' 96 h2 f).1 hd).1
    cases f <;> unfold partPlace at this <;> dsimp only at this <;> omega

end ZkEvm.Props
