import Verif.Spec.Words
/-! Fixed-width bit fields packed into a number, lowest field first. -/
namespace ZkEvm.Pack

/-- The number made of the fields `(width, value)`, lowest first. -/
def pack : List (Nat × Nat) → Nat
  | [] => 0
  | (k, v) :: r => v + 2 ^ k * pack r

def width : List (Nat × Nat) → Nat
  | [] => 0
  | (k, _) :: r => k + width r

/-- Every value fits its width. -/
def Fits : List (Nat × Nat) → Prop
  | [] => True
  | (k, v) :: r => v < 2 ^ k ∧ Fits r

theorem pack_lt {l : List (Nat × Nat)} (h : Fits l) : pack l < 2 ^ width l := by
  induction l with
  | nil => simp [pack, width]
  | cons p r ih =>
    obtain ⟨k, v⟩ := p
    obtain ⟨h1, h2⟩ := h
    have := ih h2
    simp only [pack, width, Nat.pow_add]
    have : 2 ^ k * (pack r + 1) ≤ 2 ^ k * 2 ^ width r := Nat.mul_le_mul_left _ this
    rw [Nat.mul_add, Nat.mul_one] at this
    omega

theorem pack_append (a b : List (Nat × Nat)) : pack (a ++ b) = pack a + 2 ^ width a * pack b := by
  induction a with
  | nil => simp [pack, width]
  | cons p r ih =>
    obtain ⟨k, v⟩ := p
    simp only [List.cons_append, pack, width, ih, Nat.pow_add, Nat.mul_add, Nat.mul_assoc, Nat.add_assoc]

theorem fits_append {a b : List (Nat × Nat)} : Fits (a ++ b) ↔ Fits a ∧ Fits b := by
  induction a with
  | nil => simp [Fits]
  | cons p r ih => obtain ⟨k, v⟩ := p; simp only [List.cons_append, Fits, ih, and_assoc]

/-- The fields after `a`. -/
theorem pack_div {a b : List (Nat × Nat)} (ha : Fits a) : pack (a ++ b) / 2 ^ width a = pack b := by
  rw [pack_append, Nat.add_mul_div_left _ _ (Nat.two_pow_pos _), Nat.div_eq_of_lt (pack_lt ha), Nat.zero_add]

theorem pack_mod {a b : List (Nat × Nat)} (ha : Fits a) : pack (a ++ b) % 2 ^ width a = pack a := by
  rw [pack_append, Nat.add_mul_mod_self_left, Nat.mod_eq_of_lt (pack_lt ha)]

/-- The field after `a`. -/
theorem pack_field (a : List (Nat × Nat)) (k v : Nat) (b : List (Nat × Nat)) (h : Fits (a ++ (k, v) :: b)) :
    pack (a ++ (k, v) :: b) / 2 ^ width a % 2 ^ k = v := by
  obtain ⟨ha, hv, hb⟩ := fits_append.1 h
  rw [pack_div ha]
  show (v + 2 ^ k * pack b) % 2 ^ k = v
  rw [Nat.add_mul_mod_self_left, Nat.mod_eq_of_lt hv]

/-- The fields of a number. -/
def unpack : Nat → List Nat → Nat → List (Nat × Nat)
  | _, [], _ => []
  | pos, k :: ks, n => (k, n / 2 ^ pos % 2 ^ k) :: unpack (pos + k) ks n

theorem pack_unpack (ks : List Nat) : ∀ pos n,
    pack (unpack pos ks n) = n / 2 ^ pos % 2 ^ ks.sum := by
  induction ks with
  | nil => intro pos n; simp [unpack, pack, Nat.mod_one]
  | cons k ks ih =>
    intro pos n
    simp only [unpack, pack, ih, List.sum_cons, Nat.pow_add]
    rw [Nat.mod_mul, Nat.div_div_eq_div_mul]

end ZkEvm.Pack
