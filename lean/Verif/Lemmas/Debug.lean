import Verif.Model.Debug
import Verif.Spec.Debug
import Verif.Lemmas.Display
import Verif.Lemmas.Enum
/-! Lemmas about reading `{:?}` texts: one for each form of text. -/
namespace ZkEvm.DebugLemmas
open ZkEvm.Spec ZkEvm.Display

/-- What may follow a value: nothing, `,`, `)`, `]` or ` }` -/
inductive Stop : List Char → Prop
  | nil : Stop []
  | comma (r) : Stop (',' :: r)
  | paren (r) : Stop (')' :: r)
  | bracket (r) : Stop (']' :: r)
  | brace (r) : Stop (' ' :: '}' :: r)

/-- `s` is the text of `t`, whatever follows. -/
def Reads (s : List Char) (t : Printed) : Prop :=
  ∀ fuel, s.length ≤ fuel → ∀ rest, Stop rest → readPrinted fuel (s ++ rest) = some (t, rest)

/-- A name: name characters, the first not a digit -/
def IsName (s : List Char) : Prop := s ≠ [] ∧ s.all isNameChar = true ∧ (s.head?.all fun c => !c.isDigit) = true

instance (s : List Char) : Decidable (IsName s) := inferInstanceAs (Decidable (_ ∧ _ ∧ _))

theorem span {p : Char → Bool} : ∀ {a b : List Char}, a.all p = true → (∀ c ∈ b.head?, p c = false) →
    (a ++ b).takeWhile p = a ∧ (a ++ b).dropWhile p = b
  | [], [], _, _ => ⟨rfl, rfl⟩
  | [], c :: b, _, h => by
    have := h c rfl
    simp [this]
  | x :: a, b, ha, h => by
    rw [List.all_cons, Bool.and_eq_true] at ha
    have := span ha.2 h
    simp [ha.1, this.1, this.2]

theorem stop_head {p : Char → Bool} (h : p ' ' = false ∧ p ',' = false ∧ p ')' = false ∧ p ']' = false) {rest}
    (hs : Stop rest) : ∀ c ∈ rest.head?, p c = false := by
  intro c hc
  cases hs <;> cases hc
  · exact h.2.1
  · exact h.2.2.1
  · exact h.2.2.2
  · exact h.1

theorem stop_name {rest} (h : Stop rest) : ∀ c ∈ rest.head?, isNameChar c = false := stop_head (by decide) h
theorem stop_digit {rest} (h : Stop rest) : ∀ c ∈ rest.head?, c.isDigit = false := stop_head (by decide) h

theorem reads_word {s : List Char} (h : IsName s) : Reads s (.word s) := by
  intro fuel hf rest hs
  obtain ⟨hne, ha, hd⟩ := h
  obtain ⟨h1, h2⟩ := span ha (stop_name hs)
  rcases s with _ | ⟨c, s⟩
  · exact absurd rfl hne
  rcases fuel with _ | fuel
  · simp at hf
  have hc : c.isDigit = false := by simpa using hd
  have hb : c ≠ '[' := by
    rintro rfl
    rw [List.all_cons] at ha
    revert ha
    simp [show isNameChar '[' = false by decide]
  rw [List.cons_append] at h1 h2 ⊢
  unfold readPrinted
  have hnc : isNameChar c = true := by
    rw [List.all_cons, Bool.and_eq_true] at ha
    exact ha.1
  rw [if_neg hb, hc, if_neg (by decide), if_pos hnc, h1, h2]
  cases hs <;> rfl

theorem reads_number {n : Nat} (h : n < 10 ^ 39) : Reads (fmtDec n) (.number n) := by
  intro fuel hf rest hs
  have hdig : (fmtDec n).all Char.isDigit = true := by
    unfold fmtDec
    rw [List.all_eq_true]
    intro c hc
    obtain ⟨d, hd, rfl⟩ := List.mem_map.1 hc
    have := digitsRev_lt (base := 10) (by decide) _ _ d (List.mem_reverse.1 hd)
    exact (by decide : ∀ d, d < 10 → (digitChar d).isDigit = true) d this
  have hne : fmtDec n ≠ [] := by
    unfold fmtDec digitsRev
    split <;> simp
  have hr := readNumber_fmtDec h
  obtain ⟨h1, h2⟩ := span hdig (stop_digit hs)
  generalize fmtDec n = s at *
  rcases s with _ | ⟨c, s⟩
  · exact absurd rfl hne
  rcases fuel with _ | fuel
  · simp at hf
  have hc : c.isDigit = true := by
    rw [List.all_cons, Bool.and_eq_true] at hdig
    exact hdig.1
  have hb : c ≠ '[' := by
    rintro rfl
    exact absurd hc (by decide)
  rw [List.cons_append] at h1 h2 ⊢
  unfold readPrinted
  rw [if_neg hb, if_pos hc, h1, h2, hr]

theorem readPrinted_name {name s : List Char} (hn : IsName name) (fuel : Nat)
    (hs : ∀ c ∈ s.head?, isNameChar c = false) :
    readPrinted (fuel + 1) (name ++ s) =
      match (generalizing := false) s with
      | '(' :: r =>
        match readPrinted fuel r with
        | some (x, ')' :: r) => some (.tuple name x, r)
        | _ => none
      | ' ' :: '{' :: ' ' :: r => (readFields (readPrinted fuel) fuel r).map fun p => (.record name p.1, p.2)
      | r => some (.word name, r) := by
  obtain ⟨hne, ha, hd⟩ := hn
  obtain ⟨h1, h2⟩ := span ha hs
  rcases name with _ | ⟨c, name⟩
  · exact absurd rfl hne
  have hc : c.isDigit = false := by simpa using hd
  have hb : c ≠ '[' := by
    rintro rfl
    rw [List.all_cons] at ha
    revert ha
    simp [show isNameChar '[' = false by decide]
  rw [List.cons_append] at h1 h2 ⊢
  conv => lhs; unfold readPrinted
  have hnc : isNameChar c = true := by
    rw [List.all_cons, Bool.and_eq_true] at ha
    exact ha.1
  rw [if_neg hb, hc, if_neg (by decide), if_pos hnc, h1, h2]
  rfl

theorem reads_tuple {name s : List Char} {t : Printed} (hn : IsName name) (h : Reads s t) :
    Reads (name ++ ['('] ++ s ++ [')']) (.tuple name t) := by
  intro fuel hf rest _
  rcases fuel with _ | fuel
  · simp at hf
  rw [show name ++ ['('] ++ s ++ [')'] ++ rest = name ++ '(' :: (s ++ ')' :: rest) by simp]
  rw [readPrinted_name hn fuel (by intro c hc; cases hc; decide)]
  show (match readPrinted fuel (s ++ ')' :: rest) with
    | some (x, ')' :: r) => some (Printed.tuple name x, r)
    | _ => none) = _
  rw [h fuel (by simp at hf; omega) _ (.paren _)]
  rfl

theorem items_read (fuel : Nat) (rest : List Char) : ∀ (xs : List (List Char × Printed)), xs ≠ [] →
    (∀ x ∈ xs, Reads x.1 x.2 ∧ x.1.length ≤ fuel) → ∀ k, xs.length ≤ k →
    readItems (readPrinted fuel) k (joinTexts ", ".toList (xs.map (·.1)) ++ ']' :: rest) = some (xs.map (·.2), rest)
  | [], h, _, _, _ => absurd rfl h
  | _ :: _, _, _, 0, hk => absurd hk (by simp)
  | [x], _, h, k + 1, _ => by
    have hx := h x List.mem_cons_self
    unfold readItems
    show (readPrinted fuel (x.1 ++ ']' :: rest) >>= _) = _
    rw [hx.1 fuel hx.2 _ (.bracket _)]
    rfl
  | x :: y :: xs, _, h, k + 1, hk => by
    have hx := h x List.mem_cons_self
    have ih := items_read fuel rest (y :: xs) (by simp) (fun z hz => h z (List.mem_cons_of_mem _ hz)) k (by simpa using hk)
    unfold readItems
    rw [show joinTexts ", ".toList (List.map (·.1) (x :: y :: xs)) ++ ']' :: rest =
      x.1 ++ ',' :: ' ' :: (joinTexts ", ".toList (List.map (·.1) (y :: xs)) ++ ']' :: rest) by
        simp [joinTexts]]
    rw [hx.1 fuel hx.2 _ (.comma _)]
    show (readItems (readPrinted fuel) k _ >>= _) = _
    rw [ih]
    rfl

theorem joinTexts_length (sep : Text) : ∀ (xs : List Text) (x), x ∈ xs → x.length ≤ (joinTexts sep xs).length
  | [], x, h => nomatch h
  | [y], x, h => by
    rcases List.mem_singleton.1 h with rfl
    exact Nat.le_refl _
  | y :: z :: xs, x, h => by
    unfold joinTexts
    rw [List.length_append, List.length_append]
    rcases List.mem_cons.1 h with rfl | h
    · omega
    · have := joinTexts_length sep (z :: xs) x h
      omega

theorem joinTexts_count (sep : Text) (hs : sep ≠ []) : ∀ xs : List Text, xs.length ≤ (joinTexts sep xs).length + 1
  | [] => by simp
  | [y] => by simp
  | y :: z :: xs => by
    have := joinTexts_count sep hs (z :: xs)
    have : 0 < sep.length := List.length_pos_iff.2 hs
    unfold joinTexts
    simp only [List.length_append, List.length_cons] at *
    omega

/-- A text that can be read is not empty and does not begin with `]`. -/
theorem reads_head {s : List Char} {t : Printed} (h : Reads s t) : ∃ c r, s = c :: r ∧ c ≠ ']' := by
  rcases s with _ | ⟨c, s⟩
  · exact nomatch h 0 (Nat.le_refl _) [] .nil
  refine ⟨c, s, rfl, ?_⟩
  rintro rfl
  have := h ((s.length + 1)) (Nat.le_refl _) [] .nil
  unfold readPrinted at this
  simp [show ¬ ']'.isDigit from by decide, show ¬ isNameChar ']' from by decide] at this

theorem reads_list (xs : List (List Char × Printed)) (h : ∀ x ∈ xs, Reads x.1 x.2) :
    Reads (debugList (xs.map (·.1))) (.list (xs.map (·.2))) := by
  intro fuel hf rest _
  by_cases hne : xs = []
  · subst hne
    rcases fuel with _ | fuel
    · simp [debugList] at hf
    unfold readPrinted
    rfl
  unfold debugList at hf ⊢
  rcases fuel with _ | fuel
  · simp at hf
  simp only [List.length_append, List.length_singleton] at hf
  rw [show ['['] ++ joinTexts ", ".toList (xs.map (·.1)) ++ [']'] ++ rest =
    '[' :: (joinTexts ", ".toList (xs.map (·.1)) ++ ']' :: rest) by simp]
  unfold readPrinted
  have hl : ∀ x ∈ xs, x.1.length ≤ fuel := fun x hx => by
    have := joinTexts_length ", ".toList (xs.map (·.1)) x.1 (List.mem_map_of_mem hx)
    omega
  have hc : xs.length ≤ fuel := by
    have := joinTexts_count ", ".toList (by decide) (xs.map (·.1))
    rw [List.length_map] at this
    omega
  have hh : (joinTexts ", ".toList (xs.map (·.1)) ++ ']' :: rest).head? ≠ some ']' := by
    rcases xs with _ | ⟨x, xs⟩
    · exact absurd rfl hne
    obtain ⟨c, r, e, hne'⟩ := reads_head (h x List.mem_cons_self)
    rcases xs with _ | ⟨y, xs⟩ <;> simp [joinTexts, e, hne']
  rw [if_pos rfl, if_neg hh, items_read fuel rest xs hne (fun x hx => ⟨h x hx, hl x hx⟩) fuel hc]
  rfl

/-- The text of one field -/
def fieldText (f : String × List Char × Printed) : Text := f.1.toList ++ ": ".toList ++ f.2.1

theorem field_name {name : String} {s r : List Char} (hn : IsName name.toList) :
    (name.toList ++ ": ".toList ++ s ++ r).takeWhile isNameChar = name.toList ∧
    (name.toList ++ ": ".toList ++ s ++ r).dropWhile isNameChar = ':' :: ' ' :: (s ++ r) := by
  rw [show name.toList ++ ": ".toList ++ s ++ r = name.toList ++ ':' :: ' ' :: (s ++ r) by simp]
  exact span hn.2.1 (by intro c hc; cases hc; decide)

theorem fields_read (fuel : Nat) (rest : List Char) : ∀ (fs : List (String × List Char × Printed)), fs ≠ [] →
    (∀ f ∈ fs, IsName f.1.toList ∧ Reads f.2.1 f.2.2 ∧ f.2.1.length ≤ fuel) → ∀ k, fs.length ≤ k →
    readFields (readPrinted fuel) k (joinTexts ", ".toList (fs.map fieldText) ++ ' ' :: '}' :: rest) =
      some (fs.map fun f => (f.1.toList, f.2.2), rest)
  | [], h, _, _, _ => absurd rfl h
  | _ :: _, _, _, 0, hk => absurd hk (by simp)
  | [f], _, h, k + 1, _ => by
    obtain ⟨hn, hx, hl⟩ := h f List.mem_cons_self
    obtain ⟨h1, h2⟩ := field_name (s := f.2.1) (r := ' ' :: '}' :: rest) hn
    unfold readFields
    rw [show joinTexts ", ".toList (List.map fieldText [f]) ++ ' ' :: '}' :: rest =
      f.1.toList ++ ": ".toList ++ f.2.1 ++ ' ' :: '}' :: rest from rfl, h1, h2, if_neg (by simp [hn.1])]
    show (readPrinted fuel (f.2.1 ++ ' ' :: '}' :: rest) >>= _) = _
    rw [hx fuel hl _ (.brace _)]
    rfl
  | f :: g :: fs, _, h, k + 1, hk => by
    obtain ⟨hn, hx, hl⟩ := h f List.mem_cons_self
    have ih := fields_read fuel rest (g :: fs) (by simp) (fun z hz => h z (List.mem_cons_of_mem _ hz)) k (by simpa using hk)
    obtain ⟨h1, h2⟩ := field_name (s := f.2.1)
      (r := ',' :: ' ' :: (joinTexts ", ".toList (List.map fieldText (g :: fs)) ++ ' ' :: '}' :: rest)) hn
    unfold readFields
    rw [show joinTexts ", ".toList (List.map fieldText (f :: g :: fs)) ++ ' ' :: '}' :: rest =
      f.1.toList ++ ": ".toList ++ f.2.1 ++
        ',' :: ' ' :: (joinTexts ", ".toList (List.map fieldText (g :: fs)) ++ ' ' :: '}' :: rest) by
        simp [joinTexts, fieldText], h1, h2, if_neg (by simp [hn.1])]
    show (readPrinted fuel (f.2.1 ++ _) >>= _) = _
    rw [hx fuel hl _ (.comma _)]
    show (readFields (readPrinted fuel) k _ >>= _) = _
    rw [ih]
    rfl

theorem reads_record (name : String) (fs : List (String × List Char × Printed)) (hn : IsName name.toList) (hne : fs ≠ [])
    (h : ∀ f ∈ fs, IsName f.1.toList ∧ Reads f.2.1 f.2.2) :
    Reads (debugStruct name (fs.map fun f => (f.1, f.2.1))) (recordOf name (fs.map fun f => (f.1, f.2.2))) := by
  intro fuel hf rest _
  have e : debugStruct name (fs.map fun f => (f.1, f.2.1)) =
      name.toList ++ " { ".toList ++ joinTexts ", ".toList (fs.map fieldText) ++ " }".toList := by
    unfold debugStruct
    rw [List.map_map]
    rfl
  rw [e] at hf ⊢
  rcases fuel with _ | fuel
  · simp at hf
  rw [show name.toList ++ " { ".toList ++ joinTexts ", ".toList (fs.map fieldText) ++ " }".toList ++ rest =
    name.toList ++ ' ' :: '{' :: ' ' :: (joinTexts ", ".toList (fs.map fieldText) ++ ' ' :: '}' :: rest) by simp]
  rw [readPrinted_name hn fuel (by intro c hc; cases hc; decide)]
  have hlen : (joinTexts ", ".toList (fs.map fieldText)).length + 5 ≤ fuel + 1 := by
    simp only [List.length_append] at hf
    have : (" { ".toList).length = 3 := rfl
    have : (" }".toList).length = 2 := rfl
    omega
  show Option.map _ (readFields (readPrinted fuel) fuel
    (joinTexts ", ".toList (fs.map fieldText) ++ ' ' :: '}' :: rest)) = _
  have hl : ∀ f ∈ fs, f.2.1.length ≤ fuel := fun f hf => by
    have := joinTexts_length ", ".toList (fs.map fieldText) (fieldText f) (List.mem_map_of_mem hf)
    have e : (fieldText f).length = f.1.toList.length + 2 + f.2.1.length := by
      unfold fieldText; simp; omega
    omega
  have hc : fs.length ≤ fuel := by
    have := joinTexts_count ", ".toList (by decide) (fs.map fieldText)
    rw [List.length_map] at this
    omega
  rw [fields_read fuel rest fs hne (fun f hf => ⟨(h f hf).1, (h f hf).2, hl f hf⟩) fuel hc]
  unfold recordOf
  rw [List.map_map]
  rfl

/-- Texts of fields and what they say -/
inductive Fields : List (String × Text) → List (String × Printed) → Prop
  | nil : Fields [] []
  | cons {n s t fs ts} (hn : IsName n.toList) (h : Reads s t) (rest : Fields fs ts) : Fields ((n, s) :: fs) ((n, t) :: ts)

theorem reads_struct {name : String} {fs ts} (hn : IsName name.toList) (h : Fields fs ts) (hne : fs ≠ []) :
    Reads (debugStruct name fs) (recordOf name ts) := by
  have key : ∃ xs : List (String × List Char × Printed), fs = xs.map (fun f => (f.1, f.2.1)) ∧
      ts = xs.map (fun f => (f.1, f.2.2)) ∧ ∀ f ∈ xs, IsName f.1.toList ∧ Reads f.2.1 f.2.2 := by
    clear hne
    induction h with
    | nil => exact ⟨[], rfl, rfl, nofun⟩
    | @cons n s t fs ts hn h rest ih =>
      obtain ⟨xs, rfl, rfl, hx⟩ := ih
      refine ⟨(n, s, t) :: xs, rfl, rfl, fun f hf => ?_⟩
      rcases List.mem_cons.1 hf with rfl | hf
      · exact ⟨hn, h⟩
      · exact hx f hf
  obtain ⟨xs, rfl, rfl, hx⟩ := key
  exact reads_record name xs hn (by rintro rfl; exact hne rfl) hx

theorem readDebug_of {s : List Char} {t : Printed} (h : Reads s t) : readDebug s = some t := by
  have := h s.length (Nat.le_refl _) [] .nil
  rw [List.append_nil] at this
  unfold readDebug
  rw [this]

theorem reads_opcode (o : Opcode) : Reads o.debug (opcodePrinted o) := by
  have h := Enum.forall_opcode (p := fun o => decide (o.debug = (opcodeNames o).1.toList ++ ['('] ++ (opcodeNames o).2.toList ++ [')']
    ∧ IsName (opcodeNames o).1.toList ∧ IsName (opcodeNames o).2.toList)) (by decide +kernel) o
  obtain ⟨h1, h2, h3⟩ := of_decide_eq_true h
  rw [h1]
  exact reads_tuple h2 (reads_word h3)

theorem reads_operand (o : Operand) : Reads o.debug (operandPrinted o) := by
  rcases o with _ | f | f
  · exact reads_word (by decide)
  · cases f <;> exact reads_tuple (by decide) (reads_word (by decide))
  · cases f <;> exact reads_tuple (by decide) (reads_word (by decide))

theorem reads_condition (c : Condition) : Reads c.debug (wordOf (conditionName c)) := by
  cases c <;> exact reads_word (by decide)

end ZkEvm.DebugLemmas
