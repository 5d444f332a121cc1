import Verif.Spec.Derived
/-! Derived hashing can be decoded byte by byte; lexicographic order. -/
namespace ZkEvm.Derived
open Spec

/-- whatever follows, the value and what follows it can be told from the whole -/
def Decodes {α β : Type} (f : α → List β) : Prop := ∀ a b r s, f a ++ r = f b ++ s → a = b ∧ r = s

theorem prefixFree_iff {α β : Type} {f : α → List β} : PrefixFree f ↔ Decodes f := by
  constructor
  · intro h a b r s he
    have h1 : f a <+: f b ++ s := ⟨r, he⟩
    have h2 : f b <+: f b ++ s := ⟨s, rfl⟩
    have hab : a = b := by
      rcases List.prefix_or_prefix_of_prefix h1 h2 with h' | h'
      · exact h a b h'
      · exact (h b a h').symm
    subst hab
    exact ⟨rfl, List.append_cancel_left he⟩
  · rintro h a b ⟨t, ht⟩
    exact (h a b t [] (by rw [ht, List.append_nil])).1

theorem decodes_fixed {α β : Type} {f : α → List β} (n : Nat) (hn : ∀ a, (f a).length = n)
    (hi : ∀ a b, f a = f b → a = b) : Decodes f := by
  intro a b r s h
  obtain ⟨h1, h2⟩ := List.append_inj h (by rw [hn, hn])
  exact ⟨hi a b h1, h2⟩

theorem leBytes_length (n v : Nat) : (leBytes n v).length = n := by
  induction n generalizing v with
  | zero => rfl
  | succ n ih => simp [leBytes, ih]

theorem leBytes_inj {n : Nat} {v w : Nat} (hv : v < 256 ^ n) (hw : w < 256 ^ n) (h : leBytes n v = leBytes n w) : v = w := by
  induction n generalizing v w with
  | zero => simp at hv hw; omega
  | succ n ih =>
    simp only [leBytes, List.cons.injEq] at h
    obtain ⟨h1, h2⟩ := h
    have h1 := congrArg BitVec.toNat h1
    simp only [BitVec.toNat_ofNat] at h1
    have := ih (v := v / 256) (w := w / 256) (by rw [Nat.pow_succ] at hv; omega) (by rw [Nat.pow_succ] at hw; omega) h2
    omega

theorem bytes_length (p : Platform) (n v : Nat) : (p.bytes n v).length = n := by
  unfold Platform.bytes
  split <;> simp [leBytes_length]

theorem bytes_inj (p : Platform) {n : Nat} {v w : Nat} (hv : v < 256 ^ n) (hw : w < 256 ^ n)
    (h : p.bytes n v = p.bytes n w) : v = w := by
  unfold Platform.bytes at h
  split at h
  · exact leBytes_inj hv hw (List.reverse_inj.1 h)
  · exact leBytes_inj hv hw h

theorem dec_uint (p : Platform) (n : Nat) {w : Nat} (hw : 2 ^ w ≤ 256 ^ n) :
    Decodes (fun v : BitVec w => p.bytes n v.toNat) :=
  decodes_fixed n (fun _ => bytes_length p n _) fun a b h =>
    BitVec.eq_of_toNat_eq (bytes_inj p (Nat.lt_of_lt_of_le a.isLt hw) (Nat.lt_of_lt_of_le b.isLt hw) h)

theorem dec_u8 (p : Platform) : Decodes (fun v : BitVec 8 => p.bytes 1 v.toNat) := dec_uint p 1 (by decide)
theorem dec_u16 (p : Platform) : Decodes (fun v : BitVec 16 => p.bytes 2 v.toNat) := dec_uint p 2 (by decide)
theorem dec_u32 (p : Platform) : Decodes (fun v : BitVec 32 => p.bytes 4 v.toNat) := dec_uint p 4 (by decide)
theorem dec_u64 (p : Platform) : Decodes (fun v : BitVec 64 => p.bytes 8 v.toNat) := dec_uint p 8 (by decide)

/-- small numbers of type `usize` or `isize` -/
theorem dec_size (p : Platform) {a b : Nat} {r s : List Byte} (ha : a < 256) (hb : b < 256)
    (h : p.bytes p.usizeBytes a ++ r = p.bytes p.usizeBytes b ++ s) : a = b ∧ r = s := by
  obtain ⟨h1, h2⟩ := List.append_inj h (by rw [bytes_length, bytes_length])
  have hp : 256 ≤ 256 ^ p.usizeBytes := Nat.le_self_pow (by have := p.wide; omega) 256
  exact ⟨bytes_inj p (by omega) (by omega) h1, h2⟩

theorem stream_nil (p : Platform) : p.stream [] = [] := rfl
theorem stream_cons (p : Platform) (c : HasherCall) (l : List HasherCall) : p.stream (c :: l) = p.callBytes c ++ p.stream l := rfl
theorem stream_append (p : Platform) (l m : List HasherCall) : p.stream (l ++ m) = p.stream l ++ p.stream m := by
  simp [Platform.stream]

theorem dec_discr (p : Platform) {α : Type} {idx : α → Nat} (hlt : ∀ a, idx a < 256) (hi : ∀ a b, idx a = idx b → a = b) :
    Decodes (fun a => p.stream (hashDiscrU8 (idx a))) := by
  intro a b r s h
  simp only [hashDiscrU8, stream_cons, stream_nil, List.append_nil, Platform.callBytes] at h
  obtain ⟨h1, h2⟩ := dec_u8 p _ _ _ _ h
  have h1 := congrArg BitVec.toNat h1
  simp only [BitVec.toNat_ofNat] at h1
  have := hlt a
  have := hlt b
  exact ⟨hi a b (by omega), h2⟩

theorem dec_context (p : Platform) : Decodes (fun a : ContextOpcode => p.stream a.hash) :=
  dec_discr p (fun a => by cases a <;> decide) (fun a b => by cases a <;> cases b <;> decide)
theorem dec_shift (p : Platform) : Decodes (fun a : ShiftOpcode => p.stream a.hash) :=
  dec_discr p (fun a => by cases a <;> decide) (fun a b => by cases a <;> cases b <;> decide)
theorem dec_binop (p : Platform) : Decodes (fun a : BinopOpcode => p.stream a.hash) :=
  dec_discr p (fun a => by cases a <;> decide) (fun a b => by cases a <;> cases b <;> decide)
theorem dec_ptr (p : Platform) : Decodes (fun a : PtrOpcode => p.stream a.hash) :=
  dec_discr p (fun a => by cases a <;> decide) (fun a b => by cases a <;> cases b <;> decide)
theorem dec_log (p : Platform) : Decodes (fun a : LogOpcode => p.stream a.hash) :=
  dec_discr p (fun a => by cases a <;> decide) (fun a b => by cases a <;> cases b <;> decide)
theorem dec_farCall (p : Platform) : Decodes (fun a : FarCallOpcode => p.stream a.hash) :=
  dec_discr p (fun a => by cases a <;> decide) (fun a b => by cases a <;> cases b <;> decide)
theorem dec_ret (p : Platform) : Decodes (fun a : RetOpcode => p.stream a.hash) :=
  dec_discr p (fun a => by cases a <;> decide) (fun a b => by cases a <;> cases b <;> decide)
theorem dec_uma (p : Platform) : Decodes (fun a : UMAOpcode => p.stream a.hash) :=
  dec_discr p (fun a => by cases a <;> decide) (fun a b => by cases a <;> cases b <;> decide)
theorem dec_imm (p : Platform) : Decodes (fun a : ImmMemHandlerFlags => p.stream a.hash) :=
  dec_discr p (fun a => by cases a <;> decide) (fun a b => by cases a <;> cases b <;> decide)
theorem dec_regOrImm (p : Platform) : Decodes (fun a : RegOrImmFlags => p.stream a.hash) :=
  dec_discr p (fun a => by cases a <;> decide) (fun a b => by cases a <;> cases b <;> decide)
theorem dec_condition (p : Platform) : Decodes (fun a : Condition => p.stream a.hash) :=
  dec_discr p (fun a => by cases a <;> decide) (fun a b => by cases a <;> cases b <;> decide)
theorem dec_farCallPage (p : Platform) : Decodes (fun a : FarCallForwardPageType => p.stream a.hash) :=
  dec_discr p (fun a => by cases a <;> decide) (fun a b => by cases a <;> cases b <;> decide)
theorem dec_retPage (p : Platform) : Decodes (fun a : RetForwardPageType => p.stream a.hash) :=
  dec_discr p (fun a => by cases a <;> decide) (fun a b => by cases a <;> cases b <;> decide)
theorem dec_bool (p : Platform) : Decodes (fun a : Bool => p.stream (boolHash a)) :=
  dec_discr (idx := Bool.toNat) p (fun a => by cases a <;> decide) (fun a b => by cases a <;> cases b <;> decide)

theorem opcode_lt (a : Opcode) : a.ctorIdx < 256 := by
  cases a <;> exact Nat.le_of_ble_eq_true rfl

theorem dec_opcode (p : Platform) : Decodes (fun a : Opcode => p.stream a.hash) := by
  intro a b r s h
  simp only [Opcode.hash, stream_cons, Platform.callBytes, List.append_assoc] at h
  obtain ⟨h1, h2⟩ := dec_size p (opcode_lt a) (opcode_lt b) h
  clear h
  cases a <;> cases b <;> try (cases h1; done)
  case invalid.invalid x y =>
    cases x; cases y
    exact ⟨rfl, h2⟩
  case nop.nop x y =>
    cases x; cases y
    exact ⟨rfl, h2⟩
  case add.add x y =>
    cases x; cases y
    exact ⟨rfl, h2⟩
  case sub.sub x y =>
    cases x; cases y
    exact ⟨rfl, h2⟩
  case mul.mul x y =>
    cases x; cases y
    exact ⟨rfl, h2⟩
  case div.div x y =>
    cases x; cases y
    exact ⟨rfl, h2⟩
  case jump.jump x y =>
    cases x; cases y
    exact ⟨rfl, h2⟩
  case context.context x y =>
    obtain ⟨e, h3⟩ := dec_context p x y r s h2
    exact ⟨congrArg Opcode.context e, h3⟩
  case shift.shift x y =>
    obtain ⟨e, h3⟩ := dec_shift p x y r s h2
    exact ⟨congrArg Opcode.shift e, h3⟩
  case binop.binop x y =>
    obtain ⟨e, h3⟩ := dec_binop p x y r s h2
    exact ⟨congrArg Opcode.binop e, h3⟩
  case ptr.ptr x y =>
    obtain ⟨e, h3⟩ := dec_ptr p x y r s h2
    exact ⟨congrArg Opcode.ptr e, h3⟩
  case nearCall.nearCall x y =>
    cases x; cases y
    exact ⟨rfl, h2⟩
  case log.log x y =>
    obtain ⟨e, h3⟩ := dec_log p x y r s h2
    exact ⟨congrArg Opcode.log e, h3⟩
  case farCall.farCall x y =>
    obtain ⟨e, h3⟩ := dec_farCall p x y r s h2
    exact ⟨congrArg Opcode.farCall e, h3⟩
  case ret.ret x y =>
    obtain ⟨e, h3⟩ := dec_ret p x y r s h2
    exact ⟨congrArg Opcode.ret e, h3⟩
  case uma.uma x y =>
    obtain ⟨e, h3⟩ := dec_uma p x y r s h2
    exact ⟨congrArg Opcode.uma e, h3⟩

theorem dec_operand (p : Platform) : Decodes (fun a : Operand => p.stream a.hash) := by
  intro a b r s h
  cases a <;> cases b <;>
    simp only [Operand.hash, stream_cons, stream_nil, Platform.callBytes, List.append_assoc, List.nil_append] at h <;>
    obtain ⟨h1, h2⟩ := dec_size p (by decide) (by decide) h <;> try (cases h1; done)
  case regOnly.regOnly => exact ⟨rfl, h2⟩
  case regOrImm.regOrImm x y =>
    obtain ⟨e, h3⟩ := dec_regOrImm p x y r s h2
    exact ⟨congrArg Operand.regOrImm e, h3⟩
  case full.full x y =>
    obtain ⟨e, h3⟩ := dec_imm p x y r s h2
    exact ⟨congrArg Operand.full e, h3⟩

theorem dec_flags (p : Platform) : Decodes (fun a : Flags => p.stream a.hash) := by
  rintro ⟨a0, a1⟩ ⟨b0, b1⟩ r s h
  simp only [Flags.hash, stream_cons, stream_append, Platform.callBytes, List.append_assoc] at h
  obtain ⟨_, h1⟩ := dec_size p (by decide) (by decide) h
  obtain ⟨e2, h2⟩ := dec_bool p _ _ _ _ h1
  obtain ⟨e3, h3⟩ := dec_bool p _ _ _ _ h2
  subst e2 e3
  exact ⟨rfl, h3⟩

theorem dec_variant (p : Platform) : Decodes (fun a : OpcodeVariant => p.stream a.hash) := by
  rintro ⟨a1, a2, a3, a4⟩ ⟨b1, b2, b3, b4⟩ r s h
  simp only [OpcodeVariant.hash, stream_append, List.append_assoc] at h
  obtain ⟨e1, h1⟩ := dec_opcode p _ _ _ _ h
  obtain ⟨e2, h2⟩ := dec_operand p _ _ _ _ h1
  obtain ⟨e3, h3⟩ := dec_operand p _ _ _ _ h2
  obtain ⟨e4, h4⟩ := dec_flags p _ _ _ _ h3
  subst e1 e2 e3 e4
  exact ⟨rfl, h4⟩

theorem dec_fatPointer (p : Platform) : Decodes (fun a : FatPointer => p.stream a.hash) := by
  rintro ⟨a1, a2, a3, a4⟩ ⟨b1, b2, b3, b4⟩ r s h
  simp only [FatPointer.hash, stream_cons, stream_nil, Platform.callBytes, List.append_assoc, List.nil_append] at h
  obtain ⟨e1, h1⟩ := dec_u32 p _ _ _ _ h
  obtain ⟨e2, h2⟩ := dec_u32 p _ _ _ _ h1
  obtain ⟨e3, h3⟩ := dec_u32 p _ _ _ _ h2
  obtain ⟨e4, h4⟩ := dec_u32 p _ _ _ _ h3
  subst e1 e2 e3 e4
  exact ⟨rfl, h4⟩

theorem dec_farCallABI (p : Platform) : Decodes (fun a : FarCallABI => p.stream a.hash) := by
  rintro ⟨a1, a2, a3, a4, a5, a6⟩ ⟨b1, b2, b3, b4, b5, b6⟩ r s h
  simp only [FarCallABI.hash, stream_append, stream_cons, stream_nil, Platform.callBytes, List.append_assoc,
    List.nil_append] at h
  obtain ⟨e1, h1⟩ := dec_fatPointer p _ _ _ _ h
  obtain ⟨e2, h2⟩ := dec_u32 p _ _ _ _ h1
  obtain ⟨e3, h3⟩ := dec_u8 p _ _ _ _ h2
  obtain ⟨e4, h4⟩ := dec_farCallPage p _ _ _ _ h3
  obtain ⟨e5, h5⟩ := dec_bool p _ _ _ _ h4
  obtain ⟨e6, h6⟩ := dec_bool p _ _ _ _ h5
  subst e1 e2 e3 e4 e5 e6
  exact ⟨rfl, h6⟩

theorem dec_retABI (p : Platform) : Decodes (fun a : RetABI => p.stream a.hash) := by
  rintro ⟨a1, a2⟩ ⟨b1, b2⟩ r s h
  simp only [RetABI.hash, stream_append, List.append_assoc] at h
  obtain ⟨e1, h1⟩ := dec_fatPointer p _ _ _ _ h
  obtain ⟨e2, h2⟩ := dec_retPage p _ _ _ _ h1
  subst e1 e2
  exact ⟨rfl, h2⟩

theorem dec_nearCallABI (p : Platform) : Decodes (fun a : NearCallABI => p.stream a.hash) := by
  rintro ⟨a1⟩ ⟨b1⟩ r s h
  simp only [NearCallABI.hash, stream_cons, stream_nil, Platform.callBytes, List.append_assoc, List.nil_append] at h
  obtain ⟨e1, h1⟩ := dec_u32 p _ _ _ _ h
  subst e1
  exact ⟨rfl, h1⟩

theorem dec_precompile (p : Platform) : Decodes (fun a : PrecompileCallABI => p.stream a.hash) := by
  rintro ⟨a1, a2, a3, a4, a5⟩ ⟨b1, b2, b3, b4, b5⟩ r s h
  simp only [PrecompileCallABI.hash, stream_cons, stream_nil, Platform.callBytes, List.append_assoc, List.nil_append] at h
  obtain ⟨e1, h1⟩ := dec_u32 p _ _ _ _ h
  obtain ⟨e2, h2⟩ := dec_u32 p _ _ _ _ h1
  obtain ⟨e3, h3⟩ := dec_u32 p _ _ _ _ h2
  obtain ⟨e4, h4⟩ := dec_u32 p _ _ _ _ h3
  obtain ⟨e5, h5⟩ := dec_u64 p _ _ _ _ h4
  subst e1 e2 e3 e4 e5
  exact ⟨rfl, h5⟩

theorem dec_precompileInner (p : Platform) : Decodes (fun a : PrecompileCallInnerABI => p.stream a.hash) := by
  rintro ⟨a1, a2, a3, a4, a5, a6, a7⟩ ⟨b1, b2, b3, b4, b5, b6, b7⟩ r s h
  simp only [PrecompileCallInnerABI.hash, stream_cons, stream_nil, Platform.callBytes, List.append_assoc,
    List.nil_append] at h
  obtain ⟨e1, h1⟩ := dec_u32 p _ _ _ _ h
  obtain ⟨e2, h2⟩ := dec_u32 p _ _ _ _ h1
  obtain ⟨e3, h3⟩ := dec_u32 p _ _ _ _ h2
  obtain ⟨e4, h4⟩ := dec_u32 p _ _ _ _ h3
  obtain ⟨e5, h5⟩ := dec_u32 p _ _ _ _ h4
  obtain ⟨e6, h6⟩ := dec_u32 p _ _ _ _ h5
  obtain ⟨e7, h7⟩ := dec_u64 p _ _ _ _ h6
  subst e1 e2 e3 e4 e5 e6 e7
  exact ⟨rfl, h7⟩

theorem dec_meta (p : Platform) : Decodes (fun a : VmMetaParameters => p.stream a.hash) := by
  rintro ⟨a1, a2, a3, a4, a5, a6⟩ ⟨b1, b2, b3, b4, b5, b6⟩ r s h
  simp only [VmMetaParameters.hash, stream_cons, stream_nil, Platform.callBytes, List.append_assoc, List.nil_append] at h
  obtain ⟨e1, h1⟩ := dec_u32 p _ _ _ _ h
  obtain ⟨e2, h2⟩ := dec_u32 p _ _ _ _ h1
  obtain ⟨e3, h3⟩ := dec_u32 p _ _ _ _ h2
  obtain ⟨e4, h4⟩ := dec_u8 p _ _ _ _ h3
  obtain ⟨e5, h5⟩ := dec_u8 p _ _ _ _ h4
  obtain ⟨e6, h6⟩ := dec_u8 p _ _ _ _ h5
  subst e1 e2 e3 e4 e5 e6
  exact ⟨rfl, h6⟩

theorem dec_layout (p : Platform) : Decodes (fun a : ContractCodeSha256Storage => p.stream a.hash) := by
  rintro ⟨a1, a2, a3⟩ ⟨b1, b2, b3⟩ r s h
  simp only [ContractCodeSha256Storage.hash, stream_cons, stream_nil, Platform.callBytes, List.append_assoc,
    List.nil_append] at h
  obtain ⟨e1, h1⟩ := dec_u16 p _ _ _ _ h
  obtain ⟨e2, h2⟩ := dec_u8 p _ _ _ _ h1
  obtain ⟨_, h3⟩ := dec_size p (by decide) (by decide) h2
  obtain ⟨h8, h9⟩ := List.append_inj h3 (by simp)
  rw [Vector.toList_inj] at h8
  subst e1 e2 h8
  exact ⟨rfl, h9⟩

/-- calls decode if their bytes do -/
theorem calls_of_stream {α : Type} (p : Platform) {f : α → List HasherCall} (h : Decodes (fun a => p.stream (f a))) :
    PrefixFree f := by
  rintro a b ⟨t, ht⟩
  exact (h a b (p.stream t) [] (by rw [List.append_nil, ← stream_append, ht])).1

theorem decodes_flatMap {α β : Type} {f : α → List β} (h : Decodes f) {l m : List α} (hl : l.length = m.length)
    {r s : List β} (he : l.flatMap f ++ r = m.flatMap f ++ s) : l = m ∧ r = s := by
  induction l generalizing m with
  | nil =>
    cases m with
    | nil => exact ⟨rfl, he⟩
    | cons b m => simp at hl
  | cons a l ih =>
    cases m with
    | nil => simp at hl
    | cons b m =>
      simp only [List.flatMap_cons, List.append_assoc] at he
      obtain ⟨e1, h1⟩ := h _ _ _ _ he
      obtain ⟨e2, h2⟩ := ih (by simpa using hl) h1
      exact ⟨by rw [e1, e2], h2⟩

/-! Lexicographic order -/

theorem compare_then (a b : Nat) (l m : List Nat) : (compare a b).then (lexCmp l m) = lexCmp (a :: l) (b :: m) := by
  rcases Nat.lt_trichotomy a b with h | h | h
  · rw [Nat.compare_eq_lt.2 h, lexCmp, if_pos h]; rfl
  · subst h
    rw [Nat.compare_eq_eq.2 rfl, lexCmp, if_neg (Nat.lt_irrefl _), if_neg (Nat.lt_irrefl _)]; rfl
  · rw [Nat.compare_eq_gt.2 h, lexCmp, if_neg (by omega), if_pos h]; rfl

theorem compare_last (a b : Nat) : compare a b = lexCmp [a] [b] := by
  rw [← compare_then, show lexCmp [] [] = Ordering.eq from rfl, Ordering.then_eq]

theorem lexCmp_eq : ∀ {l m : List Nat}, lexCmp l m = .eq ↔ l = m
  | [], [] => by simp [lexCmp]
  | [], _ :: _ => by simp [lexCmp]
  | _ :: _, [] => by simp [lexCmp]
  | a :: l, b :: m => by
    unfold lexCmp
    split
    · constructor
      · exact fun h => nomatch h
      · intro h; cases h; omega
    · split
      · constructor
        · exact fun h => nomatch h
        · intro h; cases h; omega
      · rw [lexCmp_eq, List.cons.injEq]
        constructor
        · exact fun h => ⟨by omega, h⟩
        · exact fun h => h.2

theorem lexCmp_swap : ∀ l m : List Nat, lexCmp m l = (lexCmp l m).swap
  | [], [] => rfl
  | [], _ :: _ => rfl
  | _ :: _, [] => rfl
  | a :: l, b :: m => by
    rw [lexCmp, lexCmp]
    by_cases h1 : a < b
    · rw [if_neg (by omega), if_pos h1, if_pos h1]; rfl
    · by_cases h2 : b < a
      · rw [if_pos h2, if_neg h1, if_pos h2]; rfl
      · rw [if_neg h2, if_neg h1, if_neg h1, if_neg h2]
        exact lexCmp_swap l m

theorem lexCmp_trans : ∀ {l m n : List Nat}, lexCmp l m ≠ .gt → lexCmp m n ≠ .gt →
    lexCmp l n ≠ .gt ∧ (lexCmp l m = .lt → lexCmp l n = .lt)
  | [], [], _ => fun _ h2 => ⟨h2, fun h => nomatch h⟩
  | [], _ :: _, [] => fun _ h2 => absurd rfl h2
  | [], _ :: _, _ :: _ => fun _ _ => ⟨nofun, fun _ => rfl⟩
  | _ :: _, [], _ => fun h1 _ => absurd rfl h1
  | _ :: _, _ :: _, [] => fun _ h2 => absurd rfl h2
  | a :: l, b :: m, c :: n => by
    intro h1 h2
    rw [lexCmp] at h1 h2 ⊢
    rw [lexCmp]
    by_cases ha : a < b
    · simp only [ha, if_true]
      by_cases hb : b < c
      · rw [if_pos (show a < c by omega)]; exact ⟨nofun, fun _ => rfl⟩
      · by_cases hb' : c < b
        · rw [if_neg hb, if_pos hb'] at h2; exact absurd rfl h2
        · rw [if_pos (show a < c by omega)]; exact ⟨nofun, fun _ => rfl⟩
    · by_cases ha' : b < a
      · rw [if_neg ha, if_pos ha'] at h1; exact absurd rfl h1
      · have hab : a = b := by omega
        subst hab
        rw [if_neg ha, if_neg ha] at h1
        rw [if_neg ha, if_neg ha]
        by_cases hb : a < c
        · rw [if_pos hb]; exact ⟨nofun, fun _ => rfl⟩
        · by_cases hb' : c < a
          · rw [if_neg hb, if_pos hb'] at h2; exact absurd rfl h2
          · rw [if_neg hb, if_neg hb'] at h2 ⊢
            exact lexCmp_trans h1 h2

theorem ptr_cmp (a b : FatPointer) : a.cmp b = lexCmp [a.offset.toNat, a.memoryPage.toNat, a.start.toNat, a.length.toNat]
    [b.offset.toNat, b.memoryPage.toNat, b.start.toNat, b.length.toNat] := by
  unfold FatPointer.cmp uintCmp
  rw [compare_last a.length.toNat, compare_then, compare_then, compare_then]

theorem then_lex (l m l' m' : List Nat) (h : l.length = m.length) :
    (lexCmp l m).then (lexCmp l' m') = lexCmp (l ++ l') (m ++ m') := by
  induction l generalizing m with
  | nil =>
    cases m with
    | nil => rfl
    | cons b m => simp at h
  | cons a l ih =>
    cases m with
    | nil => simp at h
    | cons b m =>
      rw [← compare_then, Ordering.then_assoc, ih m (by simpa using h), List.cons_append, List.cons_append, ← compare_then]

theorem total_of_key {α : Type} {cmp : α → α → Ordering} (key : α → List Nat) (hc : ∀ a b, cmp a b = lexCmp (key a) (key b))
    (hi : ∀ a b, key a = key b → a = b) : TotalOrder cmp := by
  refine ⟨fun a b => ?_, fun a b => ?_, fun a b c => ?_, fun a b c => ?_⟩
  · rw [hc, lexCmp_eq]; exact ⟨hi a b, fun h => by rw [h]⟩
  · rw [hc, hc, lexCmp_swap]
  · rw [hc, hc, hc]; exact fun h1 h2 => (lexCmp_trans h1 h2).1
  · rw [hc, hc, hc]; exact fun h1 h2 => (lexCmp_trans (by rw [h1]; nofun) h2).2 h1

end ZkEvm.Derived
