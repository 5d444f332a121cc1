import Verif.Spec.Linking
import Verif.Lemmas.Program
import Verif.Lemmas.EncodingMode
/-! Lemmas for C125: numbers written by bytes of which a part is overwritten. -/
namespace ZkEvm.Linking
open Spec Words Program

theorem low_part (P M N Q len k s n : Nat) (hs : s + n ≤ 8 * k) :
    (P * 256 ^ (len + k) + M * 256 ^ k + Q) / 2 ^ s % 2 ^ n = (P * 256 ^ (len + k) + N * 256 ^ k + Q) / 2 ^ s % 2 ^ n := by
  have e : ∀ X : Nat, (P * 256 ^ (len + k) + X * 256 ^ k + Q) / 2 ^ s % 2 ^ n = Q % 2 ^ (s + n) / 2 ^ s := by
    intro X
    rw [← Nat.mod_mul_right_div_self, ← Nat.pow_add]
    congr 1
    have hd : 2 ^ (s + n) ∣ 256 ^ k := by
      rw [show (256 : Nat) = 2 ^ 8 from rfl, ← Nat.pow_mul]
      exact Nat.pow_dvd_pow 2 hs
    obtain ⟨c, hc⟩ := hd
    rw [Nat.pow_add, hc, show P * (256 ^ len * (2 ^ (s + n) * c)) + X * (2 ^ (s + n) * c) + Q
      = Q + 2 ^ (s + n) * (P * 256 ^ len * c + X * c) by
        rw [Nat.mul_add, Nat.add_comm]; congr 2 <;> ac_rfl]
    exact Nat.add_mul_mod_self_left ..
  rw [e, e]

theorem high_part (P M N Q len k s : Nat) (hM : M < 256 ^ len) (hN : N < 256 ^ len) (hQ : Q < 256 ^ k) (hs : 8 * (len + k) ≤ s) :
    (P * 256 ^ (len + k) + M * 256 ^ k + Q) / 2 ^ s = (P * 256 ^ (len + k) + N * 256 ^ k + Q) / 2 ^ s := by
  have e : ∀ X, X < 256 ^ len → (P * 256 ^ (len + k) + X * 256 ^ k + Q) / 2 ^ s = P / 2 ^ (s - 8 * (len + k)) := by
    intro X hX
    have hp : (2 : Nat) ^ s = 256 ^ (len + k) * 2 ^ (s - 8 * (len + k)) := by
      rw [show (256 : Nat) = 2 ^ 8 from rfl, ← Nat.pow_mul, ← Nat.pow_add]
      congr 1; omega
    have hlt : X * 256 ^ k + Q < 256 ^ (len + k) := by
      have : (X + 1) * 256 ^ k ≤ 256 ^ len * 256 ^ k := Nat.mul_le_mul_right _ hX
      rw [Nat.add_mul, Nat.one_mul] at this
      rw [Nat.pow_add]; omega
    rw [hp, ← Nat.div_div_eq_div_mul, Nat.add_assoc, Nat.mul_comm P, Nat.mul_add_div (Nat.pow_pos (by decide)),
      Nat.div_eq_of_lt hlt, Nat.add_zero]
  rw [e M hM, e N hN]

theorem mid_part (P N Q len k : Nat) (hN : N < 256 ^ len) (hQ : Q < 256 ^ k) :
    (P * 256 ^ (len + k) + N * 256 ^ k + Q) / 2 ^ (8 * k) % 2 ^ (8 * len) = N := by
  have h2 : ∀ j, (2 : Nat) ^ (8 * j) = 256 ^ j := fun j => by
    rw [show (256 : Nat) = 2 ^ 8 from rfl, ← Nat.pow_mul]
  rw [h2, h2, Nat.pow_add, show P * (256 ^ len * 256 ^ k) + N * 256 ^ k + Q = 256 ^ k * (256 ^ len * P + N) + Q by
    rw [Nat.mul_add]; congr 2 <;> ac_rfl, Nat.mul_add_div (Nat.pow_pos (by decide)), Nat.div_eq_of_lt hQ, Nat.add_zero,
    Nat.mul_add_mod, Nat.mod_eq_of_lt hN]

theorem overwritten_bits {W : Nat} {old new : List Byte} {start len number : Nat} (h : Overwritten old new start len number)
    (k : Nat) (hk : old.length = start + len + k) (w w' : BitVec W) (hw : beNat old = w.toNat) (hw' : beNat new = w'.toNat) :
    (∀ s n, s + n ≤ 8 * k ∨ 8 * (len + k) ≤ s → bits w' s n = bits w s n) ∧ bits w' (8 * k) (8 * len) = number := by
  obtain ⟨p, m, m', q, rfl, rfl, rfl, rfl, hm', rfl⟩ := h
  obtain rfl : q.length = k := by simp only [List.length_append] at hk; omega
  have hM := beNat_lt m
  have hN := beNat_lt m'
  have hQ := beNat_lt q
  rw [hm'] at hN
  rw [beNat_append, beNat_append, Nat.add_mul, Nat.mul_assoc, ← Nat.pow_add] at hw hw'
  rw [hm'] at hw'
  refine ⟨fun s n hs => ?_, ?_⟩
  · unfold bits
    rw [← hw, ← hw']
    rcases hs with hs | hs
    · exact low_part _ _ _ _ _ _ _ _ hs
    · rw [high_part _ _ _ _ _ _ _ hN hM hQ hs]
  · unfold bits
    rw [← hw']
    exact mid_part _ _ _ _ _ hN hQ

theorem ext_fields {w : Nat} {a b : DecodedOpcode w} (h1 : a.variant = b.variant) (h2 : a.condition = b.condition)
    (h3 : a.src0RegIdx.toNat = b.src0RegIdx.toNat) (h4 : a.src1RegIdx.toNat = b.src1RegIdx.toNat)
    (h5 : a.dst0RegIdx.toNat = b.dst0RegIdx.toNat) (h6 : a.dst1RegIdx.toNat = b.dst1RegIdx.toNat)
    (h7 : a.imm0.toNat = b.imm0.toNat) (h8 : a.imm1.toNat = b.imm1.toNat) : a = b := by
  cases a; cases b
  dsimp only at *
  rw [h1, h2, BitVec.eq_of_toNat_eq h3, BitVec.eq_of_toNat_eq h4, BitVec.eq_of_toNat_eq h5, BitVec.eq_of_toNat_eq h6,
    BitVec.eq_of_toNat_eq h7, BitVec.eq_of_toNat_eq h8]

/-- Two registers in a byte -/
theorem nibbles {W : Nat} (w : BitVec W) (s : Nat) (r0 r1 : Byte) (h0 : r0.toNat < 16)
    (h : bits w s 8 = r1.toNat * 16 + r0.toNat) : bits w s 4 = r0.toNat ∧ bits w (s + 4) 4 = r1.toNat := by
  unfold bits at *
  rw [Nat.pow_add, ← Nat.div_div_eq_div_mul]
  generalize w.toNat / 2 ^ s = x at *
  omega

theorem encodable_into {w : Nat} (f : Fill w) (hf : f.Ok) (o : DecodedOpcode w) (h : Encodable o) : Encodable (f.into o) := by
  obtain ⟨hv, h0, h1, h2, h3⟩ := h
  cases f with
  | imm0 x => exact ⟨hv, h0, h1, h2, h3⟩
  | imm1 x => exact ⟨hv, h0, h1, h2, h3⟩
  | src r0 r1 => exact ⟨hv, hf.1, hf.2, h2, h3⟩
  | dst r0 r1 => exact ⟨hv, h0, h1, hf.1, hf.2⟩

theorem overwritten_split {old new rest tail : List Byte} {start len number : Nat} (hr : start + len ≤ old.length)
    (h : Overwritten (rest ++ (old ++ tail)) new (rest.length + start) len number) :
    ∃ old', new = rest ++ (old' ++ tail) ∧ Overwritten old old' start len number := by
  obtain ⟨p, m, m', q, e, rfl, hp, hm, hm', hn⟩ := h
  have ep : p = rest ++ old.take start := by
    have := congrArg (List.take (rest.length + start)) e
    rw [List.take_length_add_append, List.take_append_of_le_length (by omega), ← hp, List.append_assoc, List.take_left] at this
    exact this.symm
  have e2 : old ++ tail = old.take start ++ (m ++ q) := by
    rw [ep, List.append_assoc, List.append_assoc] at e
    exact List.append_cancel_left e
  have e3 : old.drop start ++ tail = m ++ q := by
    have : old.take start ++ (old.drop start ++ tail) = old.take start ++ (m ++ q) := by
      rw [← List.append_assoc, List.take_append_drop]; exact e2
    exact List.append_cancel_left this
  have em : m = (old.drop start).take len := by
    have := congrArg (List.take len) e3
    rw [List.take_append_of_le_length (by rw [List.length_drop]; omega), ← hm, List.take_left] at this
    rw [← hm]; exact this.symm
  have eq : (old.drop start).drop len ++ tail = q := by
    have := congrArg (List.drop len) e3
    rw [List.drop_append_of_le_length (by rw [List.length_drop]; omega), ← hm, List.drop_left] at this
    rw [← hm]; exact this
  refine ⟨old.take start ++ m' ++ (old.drop start).drop len, ?_, _, m, m', _, ?_, rfl, ?_, hm, hm', hn⟩
  · rw [ep, ← eq]; simp only [List.append_assoc]
  · rw [em, List.append_assoc, List.take_append_drop, List.take_append_drop]
  · rw [List.length_take]; omega

theorem overwritten_exists (old : List Byte) (start len number : Nat) (h : start + len ≤ old.length) (hn : number < 256 ^ len) :
    ∃ new, Overwritten old new start len number := by
  have : ∀ len number, number < 256 ^ len → ∃ bs : List Byte, bs.length = len ∧ beNat bs = number := by
    intro len
    induction len with
    | zero => intro n hn; exact ⟨[], rfl, by simp at hn; simp [beNat, hn]⟩
    | succ l ih =>
      intro n hn
      rw [Nat.pow_succ] at hn
      have hp : 0 < 256 ^ l := Nat.pow_pos (by decide)
      obtain ⟨bs, hl, hb⟩ := ih (n % 256 ^ l) (Nat.mod_lt _ hp)
      have hq : n / 256 ^ l < 256 := (Nat.div_lt_iff_lt_mul hp).2 (by omega)
      refine ⟨BitVec.ofNat 8 (n / 256 ^ l) :: bs, by rw [List.length_cons, hl], ?_⟩
      unfold beNat
      rw [hl, hb, BitVec.toNat_ofNat, Nat.mod_eq_of_lt hq, Nat.mul_comm]
      exact Nat.div_add_mod ..
  obtain ⟨bs, hl, hb⟩ := this len number hn
  refine ⟨old.take start ++ bs ++ (old.drop start).drop len, _, (old.drop start).take len, bs, _, ?_, rfl, ?_, ?_, hl, hb⟩
  · rw [List.append_assoc, List.take_append_drop, List.take_append_drop]
  · rw [List.length_take]; omega
  · rw [List.length_take, List.length_drop]; omega

theorem assembled_at {w size : Nat} {enc : DecodedOpcode w → Res (List Byte)} (hsize : ∀ o bs, enc o = .ok bs → bs.length = size)
    {prog : List (DecodedOpcode w)} {code : List Byte} (h : Assembled enc prog code) (i : Nat) (o : DecodedOpcode w)
    (hi : prog[i]? = some o) :
    ∃ before bs after, code = before ++ (bs ++ after) ∧ before.length = size * i ∧ enc o = .ok bs ∧
      ∀ o' bs', enc o' = .ok bs' → Assembled enc (prog.set i o') (before ++ (bs' ++ after)) := by
  induction h generalizing i with
  | nil => cases hi
  | @cons a prog bs code ha hp ih =>
    cases i with
    | zero =>
      injection hi with hi
      subst hi
      exact ⟨[], bs, code, rfl, rfl, ha, fun o' bs' h' => Assembled.cons (bs := bs') h' hp⟩
    | succ i =>
      obtain ⟨before, bs2, after, e, hl, h2, h3⟩ := ih i hi
      refine ⟨bs ++ before, bs2, after, by rw [e, List.append_assoc], ?_, h2, fun o' bs' h' => ?_⟩
      · rw [List.length_append, hl, hsize _ _ ha, Nat.mul_add]; omega
      · rw [List.append_assoc]
        exact .cons ha (h3 o' bs' h')

theorem modify_at {α : Type} (f : α → α) (prog : List α) (i : Nat) (o : α) (h : prog[i]? = some o) :
    prog.modify i f = prog.set i (f o) := by
  apply List.ext_getElem?
  intro j
  rw [List.getElem?_modify, List.getElem?_set]
  by_cases hj : i = j
  · subst hj
    obtain ⟨hl, he⟩ := List.getElem?_eq_some_iff.1 h
    simp [hl, he]
  · simp [hj]

theorem linked_length {w : Nat} (l : List (Nat × Fill w)) (prog : List (DecodedOpcode w)) :
    (linked l prog).length = prog.length := by
  induction l generalizing prog with
  | nil => rfl
  | cons a l ih => unfold linked; rw [ih, List.length_modify]

theorem into_comm {w : Nat} (f g : Fill w) (h : ¬ f.SamePart g) (o : DecodedOpcode w) : f.into (g.into o) = g.into (f.into o) := by
  cases f <;> cases g <;> first | rfl | exact absurd trivial h

theorem modify_comm {w : Nat} (i j : Nat) (f g : Fill w) (h : i = j → ¬ f.SamePart g) (prog : List (DecodedOpcode w)) :
    (prog.modify i f.into).modify j g.into = (prog.modify j g.into).modify i f.into := by
  apply List.ext_getElem?
  intro k
  simp only [List.getElem?_modify]
  cases prog[k]? with
  | none => rfl
  | some o =>
    show some _ = some _
    congr 1
    dsimp only
    by_cases hi : i = k
    · by_cases hj : j = k
      · simp only [if_pos hi, if_pos hj]
        exact (into_comm f g (h (hi.trans hj.symm)) o).symm
      · simp only [if_neg hj]
    · simp only [if_neg hi]

/-- Filling in, in both modes, from the effect on one instruction -/
theorem link_any {w : Nat} (size : Nat) (place : Fill w → Nat × Nat) (enc : DecodedOpcode w → Res (List Byte))
    (hsize : ∀ o bs, enc o = .ok bs → bs.length = size)
    (hplace : ∀ f : Fill w, (place f).1 + (place f).2 ≤ size)
    (hnum : ∀ f : Fill w, f.Ok → f.number < 256 ^ (place f).2)
    (hone : ∀ (f : Fill w) (o : DecodedOpcode w) (bs bs' : List Byte), f.Ok → Encodable o → enc o = .ok bs →
      Overwritten bs bs' (place f).1 (place f).2 f.number → enc (f.into o) = .ok bs')
    (l : List (Nat × Fill w)) (prog : List (DecodedOpcode w)) (code : List Byte) (hE : ∀ o ∈ prog, Encodable o)
    (hA : Assembled enc prog code) (hl : ∀ x ∈ l, x.1 < prog.length ∧ x.2.Ok) :
    (∃ code', LinkedCode size place l code code') ∧ ∀ code', LinkedCode size place l code code' →
      Assembled enc (linked l prog) code' ∧ ∀ o ∈ linked l prog, Encodable o := by
  induction l generalizing prog code with
  | nil =>
    refine ⟨⟨code, .nil⟩, fun code' h => ?_⟩
    cases h
    exact ⟨hA, hE⟩
  | cons x l ih =>
    obtain ⟨i, f⟩ := x
    obtain ⟨hi, hf⟩ := hl (i, f) (List.mem_cons_self ..)
    dsimp only at hi hf
    have ho : prog[i]? = some prog[i] := List.getElem?_eq_getElem hi
    obtain ⟨before, bs, after, hc, hb, henc, hset⟩ := assembled_at hsize hA i _ ho
    have hmod := modify_at f.into prog i _ ho
    have hEi : Encodable prog[i] := hE _ (List.getElem_mem hi)
    have hE' : ∀ o ∈ prog.modify i f.into, Encodable o := by
      intro o h
      rw [hmod] at h
      rcases List.mem_or_eq_of_mem_set h with h | h
      · exact hE o h
      · rw [h]; exact encodable_into f hf _ hEi
    have hl' : ∀ x ∈ l, x.1 < (prog.modify i f.into).length ∧ x.2.Ok := by
      intro x hx
      rw [List.length_modify]
      exact hl x (List.mem_cons_of_mem _ hx)
    have step : ∀ next, Overwritten code next (size * i + (place f).1) (place f).2 f.number →
        Assembled enc (prog.modify i f.into) next := by
      intro next h
      rw [hc, ← hb] at h
      obtain ⟨bs', rfl, h'⟩ := overwritten_split (by rw [hsize _ _ henc]; exact hplace f) h
      rw [hmod]
      exact hset _ _ (hone f _ bs bs' hf hEi henc h')
    constructor
    · have hlen : size * i + (place f).1 + (place f).2 ≤ code.length := by
        rw [hc, List.length_append, List.length_append, hb, hsize _ _ henc]
        have := hplace f
        omega
      obtain ⟨next, hn⟩ := overwritten_exists code _ _ _ hlen (hnum f hf)
      obtain ⟨last, h⟩ := (ih _ next hE' (step next hn) hl').1
      exact ⟨last, .cons hn h⟩
    · intro code' h
      cases h with
      | cons hn h => exact (ih _ _ hE' (step _ hn) hl').2 _ h

/-- Entries for different parts may be taken in any order. -/
theorem linked_perm {w : Nat} {l l' : List (Nat × Fill w)} (h : l.Perm l')
    (hd : l.Pairwise fun x y => ¬ (x.1 = y.1 ∧ x.2.SamePart y.2)) (prog : List (DecodedOpcode w)) :
    linked l prog = linked l' prog := by
  induction h generalizing prog with
  | nil => rfl
  | cons x h ih =>
    unfold linked
    exact ih (List.pairwise_cons.1 hd).2 _
  | swap x y l =>
    have hxy := (List.pairwise_cons.1 hd).1 x (List.mem_cons_self ..)
    unfold linked linked
    rw [modify_comm y.1 x.1 y.2 x.2 fun e h => hxy ⟨e, h⟩]
  | trans h1 h2 ih1 ih2 =>
    rw [ih1 hd, ih2]
    refine (h1.pairwise_iff ?_).1 hd
    intro x y h ⟨e, hs⟩
    refine h ⟨e.symm, ?_⟩
    revert hs
    cases x.2 <;> cases y.2 <;> exact id

end ZkEvm.Linking
