import Verif.Lemmas.Debug
import Verif.Spec.DebugLayout
/-! Lemmas about `{:#?}` texts: one for each form of text. -/
namespace ZkEvm.DebugLemmas
open ZkEvm.Spec ZkEvm.Display

/-- `s` with `4 * d` spaces after every new line -/
def shift (d : Nat) (s : Text) : Text := s.flatMap fun c => if c = '\n' then newLine d else [c]

theorem shift_append (d : Nat) (a b : Text) : shift d (a ++ b) = shift d a ++ shift d b := List.flatMap_append

theorem shift_nil (d : Nat) : shift d [] = [] := rfl

theorem shift_cons (d : Nat) (c : Char) (s : Text) :
    shift d (c :: s) = (if c = '\n' then newLine d else [c]) ++ shift d s := List.flatMap_cons ..

theorem shift_plain (d : Nat) : ∀ {s : Text}, (∀ c ∈ s, c ≠ '\n') → shift d s = s
  | [], _ => rfl
  | c :: s, h => by
    rw [shift_cons, if_neg (h c List.mem_cons_self), shift_plain d fun x hx => h x (List.mem_cons_of_mem _ hx)]
    rfl

theorem shift_zero (s : Text) : shift 0 s = s := by
  induction s with
  | nil => rfl
  | cons c s ih =>
    rw [shift_cons, ih]
    split
    · rename_i h; rw [h]; rfl
    · rfl

theorem shift_shift (d : Nat) (s : Text) : shift d (shift 1 s) = shift (d + 1) s := by
  induction s with
  | nil => rfl
  | cons c s ih =>
    rw [shift_cons 1, shift_append, ih, shift_cons]
    congr 1
    by_cases h : c = '\n'
    · rw [if_pos h, if_pos h, newLine, shift_cons, if_pos rfl, shift_plain]
      · unfold newLine
        rw [List.cons_append, List.replicate_append_replicate, show 4 * d + 4 * 1 = 4 * (d + 1) by omega]
      · intro x hx
        rw [(List.mem_replicate.1 hx).2]
        decide
    · rw [if_neg h, if_neg h, shift_cons, if_neg h]
      rfl

theorem padLines_line (b : Bool) (s : Text) :
    padLines b (s ++ ['\n']) = (if b then "    ".toList else []) ++ shift 1 s ++ ['\n'] := by
  induction s generalizing b with
  | nil => cases b <;> rfl
  | cons c s ih =>
    rw [List.cons_append, padLines, ih, shift_cons]
    by_cases h : c = '\n'
    · subst h
      simp [newLine]
    · simp [h]

theorem prettyPart_eq (s : Text) : prettyPart s = "    ".toList ++ shift 1 s ++ ",\n".toList := by
  unfold prettyPart
  rw [show s ++ ",\n".toList = (s ++ [',']) ++ ['\n'] by simp, padLines_line, shift_append]
  simp [shift_cons, shift_nil]

/-- A part inside a value of depth `d`; the indentation of the next line is left out. -/
theorem shift_prettyPart (d : Nat) (s : Text) :
    shift d (prettyPart s) = "    ".toList ++ shift (d + 1) s ++ ',' :: newLine d := by
  rw [prettyPart_eq, shift_append, shift_append, shift_shift, shift_plain d (by decide)]
  congr 1
  simp [shift_cons, shift_nil]

/-- `p` is the `{:#?}` text and `s` the `{:?}` text of one value, whatever follows. -/
structure Lays (s p : Text) : Prop where
  out : ∀ d rest, layOut d (s ++ rest) = shift d p ++ layOut d rest
  back : ∃ c q, (c ≠ ')' ∧ c ≠ ']' ∧ c ≠ '}') ∧
    (∀ d b rest, dropIndent b (shift d p ++ rest) = c :: q ++ dropIndent false rest) ∧
    (∀ rest, joinLines (c :: q ++ rest) = s ++ joinLines rest)
  head : ∃ c r, s = c :: r ∧ c ≠ ']' ∧ c ≠ '}'

/-- Characters that both texts have alike -/
def isPlainChar (c : Char) : Bool := isNameChar c || c == ':'

theorem layOut_plain {c : Char} (h : isPlainChar c = true) (d : Nat) (s : List Char) : layOut d (c :: s) = c :: layOut d s := by
  rw [layOut]
  all_goals (first | (rintro rfl; exact absurd h (by decide)) | (rintro _ rfl; exact absurd h (by decide)) | skip)

theorem joinLines_plain {c : Char} (h : isPlainChar c = true) (s : List Char) : joinLines (c :: s) = c :: joinLines s := by
  rw [joinLines]
  all_goals (first | (rintro rfl; exact absurd h (by decide)) | (rintro _ rfl; exact absurd h (by decide)) | skip)

theorem dropIndent_keep {c : Char} (h : c ≠ ' ') (h' : c ≠ '\n') (b : Bool) (s : List Char) :
    dropIndent b (c :: s) = c :: dropIndent false s := by
  rw [dropIndent, beq_false_of_ne h, beq_false_of_ne h', Bool.and_false, if_neg (by decide)]

theorem plain_ne {c : Char} (h : isPlainChar c = true) : c ≠ ' ' ∧ c ≠ '\n' ∧ c ≠ ')' ∧ c ≠ ']' ∧ c ≠ '}' := by
  refine ⟨?_, ?_, ?_, ?_, ?_⟩ <;> (rintro rfl; exact absurd h (by decide))

theorem dropIndent_spaces (n : Nat) (s : List Char) : dropIndent true (List.replicate n ' ' ++ s) = dropIndent true s := by
  induction n with
  | zero => rfl
  | succ n ih => rw [List.replicate_succ, List.cons_append, dropIndent]; simpa using ih

theorem dropIndent_newLine (d : Nat) (b : Bool) (s : List Char) : dropIndent b (newLine d ++ s) = '\n' :: dropIndent true s := by
  rw [newLine, List.cons_append, dropIndent]
  simp [dropIndent_spaces]

theorem newLine_succ (d : Nat) (s : List Char) : newLine d ++ ("    ".toList ++ s) = newLine (d + 1) ++ s := by
  unfold newLine
  rw [show "    ".toList = List.replicate 4 ' ' from rfl, List.cons_append, List.cons_append, ← List.append_assoc,
    List.replicate_append_replicate, show 4 * d + 4 = 4 * (d + 1) by omega]

/-- Names and numbers are printed alike. -/
theorem lays_plain {s : Text} (hne : s ≠ []) (h : s.all isPlainChar = true) : Lays s s := by
  have h' : ∀ c ∈ s, isPlainChar c = true := List.all_eq_true.1 h
  have hs : ∀ d, shift d s = s := fun d => shift_plain d fun c hc => (plain_ne (h' c hc)).2.1
  have ho : ∀ (s : Text), (∀ c ∈ s, isPlainChar c = true) → (∀ d rest, layOut d (s ++ rest) = s ++ layOut d rest) ∧
      (∀ rest, joinLines (s ++ rest) = s ++ joinLines rest) ∧
      (∀ rest, dropIndent false (s ++ rest) = s ++ dropIndent false rest) := by
    intro s
    induction s with
    | nil => exact fun _ => ⟨fun _ _ => rfl, fun _ => rfl, fun _ => rfl⟩
    | cons c s ih =>
      intro h
      have hc := h c List.mem_cons_self
      obtain ⟨i1, i2, i3⟩ := ih fun x hx => h x (List.mem_cons_of_mem _ hx)
      refine ⟨fun d rest => ?_, fun rest => ?_, fun rest => ?_⟩
      · rw [List.cons_append, layOut_plain hc, i1]; rfl
      · rw [List.cons_append, joinLines_plain hc, i2]; rfl
      · rw [List.cons_append, dropIndent_keep (plain_ne hc).1 (plain_ne hc).2.1, i3]; rfl
  rcases s with _ | ⟨c, s⟩
  · exact absurd rfl hne
  have hc := plain_ne (h' c List.mem_cons_self)
  obtain ⟨h1, h2, _⟩ := ho _ h'
  refine ⟨fun d rest => ?_, ⟨c, s, hc.2.2, fun d b rest => ?_, h2⟩, ⟨c, s, rfl, hc.2.2.2⟩⟩
  · rw [hs]; exact h1 d rest
  · rw [hs, List.cons_append, dropIndent_keep hc.1 hc.2.1, (ho s fun x hx => h' x (List.mem_cons_of_mem _ hx)).2.2]; rfl

theorem plain_name {s : List Char} (h : IsName s) : s.all isPlainChar = true := by
  rw [List.all_eq_true]
  intro c hc
  simp [isPlainChar, List.all_eq_true.1 h.2.1 c hc]

theorem lays_word {s : Text} (h : IsName s) : Lays s s := lays_plain h.1 (plain_name h)

theorem lays_number (n : Nat) : Lays (fmtDec n) (fmtDec n) := by
  refine lays_plain ?_ ?_
  · unfold fmtDec digitsRev
    split <;> simp
  · unfold fmtDec
    rw [List.all_eq_true]
    intro c hc
    obtain ⟨d, hd, rfl⟩ := List.mem_map.1 hc
    have := digitsRev_lt (base := 10) (by decide) _ _ d (List.mem_reverse.1 hd)
    exact (by decide : ∀ d, d < 10 → isPlainChar (digitChar d) = true) d this

/-- The text of a field -/
theorem lays_field {name : Text} {s p : Text} (hn : IsName name) (h : Lays s p) :
    Lays (name ++ ": ".toList ++ s) (name ++ ": ".toList ++ p) := by
  have hN : Lays (name ++ [':']) (name ++ [':']) := lays_plain (by simp) (by simp [plain_name hn]; decide)
  obtain ⟨cs, rs, es, hs1, hs2⟩ := h.head
  obtain ⟨cv, qv, _, hv1, hv2⟩ := h.back
  obtain ⟨c, q, hc, h1, h2⟩ := hN.back
  obtain ⟨c', r', e', hh⟩ := hN.head
  have e : ∀ t : Text, name ++ ": ".toList ++ t = (name ++ [':']) ++ ' ' :: t := fun t => by simp
  refine ⟨fun d rest => ?_, ⟨c, q ++ ' ' :: cv :: qv, hc, fun d b rest => ?_, fun rest => ?_⟩, ?_⟩
  · have hsp : layOut d (' ' :: (s ++ rest)) = ' ' :: layOut d (s ++ rest) := by
      rw [es, List.cons_append, layOut]
      all_goals first
        | (intro h; exact absurd h (by decide))
        | (intro _ h; exact absurd h (by decide))
        | (intro _ _ h; exact hs2 (List.cons.inj h).1)
    rw [e, e, List.append_assoc, hN.out, List.cons_append, hsp, h.out, shift_append _ (name ++ [':']), shift_cons _ ' ',
      if_neg (by decide)]
    simp
  · rw [e, shift_append, List.append_assoc, h1, shift_cons, if_neg (by decide)]
    rw [show ([' '] ++ shift d p) ++ rest = ' ' :: (shift d p ++ rest) from rfl]
    rw [show dropIndent false (' ' :: (shift d p ++ rest)) = ' ' :: dropIndent false (shift d p ++ rest) from rfl, hv1]
    simp
  · rw [e, show c :: (q ++ ' ' :: cv :: qv) ++ rest = c :: q ++ ' ' :: (cv :: qv ++ rest) by simp, h2]
    rw [show joinLines (' ' :: (cv :: qv ++ rest)) = ' ' :: joinLines (cv :: qv ++ rest) from rfl, hv2]
    simp
  · exact ⟨c', r' ++ ' ' :: s, by rw [e, e']; rfl, hh⟩

/-- Parts of a value, laid out one to a line -/
theorem seq_out (d : Nat) (rest tail : Text) (hr : layOut (d + 1) rest = ',' :: newLine d ++ tail) :
    ∀ xs : List (Text × Text), xs ≠ [] → (∀ x ∈ xs, Lays x.1 x.2) →
    newLine (d + 1) ++ layOut (d + 1) (joinTexts ", ".toList (xs.map (·.1)) ++ rest) =
      newLine d ++ shift d ((xs.map (·.2)).flatMap prettyPart) ++ tail
  | [], h, _ => absurd rfl h
  | [x], _, h => by
    have hx := h x List.mem_cons_self
    show newLine (d + 1) ++ layOut (d + 1) (x.1 ++ rest) = newLine d ++ shift d (prettyPart x.2 ++ []) ++ tail
    rw [hx.out, hr, List.append_nil, shift_prettyPart, List.append_assoc, List.append_assoc, List.append_assoc, newLine_succ]
  | x :: y :: xs, _, h => by
    have hx := h x List.mem_cons_self
    have ih := seq_out d rest tail hr (y :: xs) (by simp) fun z hz => h z (List.mem_cons_of_mem _ hz)
    rw [show joinTexts ", ".toList (List.map (·.1) (x :: y :: xs)) ++ rest =
      x.1 ++ ',' :: ' ' :: (joinTexts ", ".toList (List.map (·.1) (y :: xs)) ++ rest) by simp [joinTexts]]
    rw [hx.out, show ∀ s, layOut (d + 1) (',' :: ' ' :: s) = ',' :: newLine (d + 1) ++ layOut (d + 1) s from fun _ => rfl]
    rw [List.cons_append, ih, show List.map (·.2) (x :: y :: xs) = x.2 :: List.map (·.2) (y :: xs) from rfl,
      List.flatMap_cons, shift_append, shift_prettyPart]
    have a : ∀ A B C D E F : Text, A ++ ((B ++ C ++ ',' :: D) ++ E) ++ F = A ++ (B ++ (C ++ ',' :: (D ++ E ++ F))) := by
      intros; simp
    rw [a, newLine_succ]

theorem seq_back : ∀ xs : List (Text × Text), xs ≠ [] → (∀ x ∈ xs, Lays x.1 x.2) →
    ∃ c q, (c ≠ ')' ∧ c ≠ ']' ∧ c ≠ '}') ∧
      (∀ d rest, dropIndent true (shift d ((xs.map (·.2)).flatMap prettyPart) ++ rest) =
        c :: q ++ ',' :: '\n' :: dropIndent true rest) ∧
      (∀ rest, joinLines (c :: q ++ rest) = joinTexts ", ".toList (xs.map (·.1)) ++ joinLines rest)
  | [], h, _ => absurd rfl h
  | x :: xs, _, h => by
    obtain ⟨c, q, hc, h1, h2⟩ := (h x List.mem_cons_self).back
    have hd : ∀ d rest, dropIndent true (shift d (prettyPart x.2) ++ rest) = c :: q ++ ',' :: '\n' :: dropIndent true rest := by
      intro d rest
      have a : ∀ A B C D : Text, (A ++ B ++ ',' :: C) ++ D = A ++ (B ++ ',' :: (C ++ D)) := by intros; simp
      rw [shift_prettyPart, a, show "    ".toList = List.replicate 4 ' ' from rfl, dropIndent_spaces, h1,
        dropIndent_keep (by decide) (by decide), dropIndent_newLine]
    rcases xs with _ | ⟨y, xs⟩
    · refine ⟨c, q, hc, fun d rest => ?_, h2⟩
      show dropIndent true (shift d (prettyPart x.2 ++ []) ++ rest) = _
      rw [List.append_nil, hd]
    · obtain ⟨c', q', hc', i1, i2⟩ := seq_back (y :: xs) (by simp) fun z hz => h z (List.mem_cons_of_mem _ hz)
      refine ⟨c, q ++ ',' :: '\n' :: c' :: q', hc, fun d rest => ?_, fun rest => ?_⟩
      · rw [List.map_cons, List.flatMap_cons, shift_append, List.append_assoc, hd, i1]
        simp
      · rw [show c :: (q ++ ',' :: '\n' :: c' :: q') ++ rest = c :: q ++ ',' :: '\n' :: (c' :: q' ++ rest) by simp, h2]
        have hj : joinLines (',' :: '\n' :: (c' :: q' ++ rest)) = ',' :: ' ' :: joinLines (c' :: q' ++ rest) := by
          rw [List.cons_append, joinLines]
          all_goals (intro _ h; have := (List.cons.inj h).1; simp_all)
        rw [hj, i2]
        simp [joinTexts]

theorem lays_list (xs : List (Text × Text)) (h : ∀ x ∈ xs, Lays x.1 x.2) :
    Lays (debugList (xs.map (·.1))) (prettyList (xs.map (·.2))) := by
  by_cases hne : xs = []
  · subst hne
    exact ⟨fun _ _ => rfl, ⟨'[', [']'], by decide, fun _ b _ => by cases b <;> rfl, fun _ => rfl⟩, ⟨'[', [']'], rfl, by decide⟩⟩
  have ep : prettyList (xs.map (·.2)) = "[\n".toList ++ (xs.map (·.2)).flatMap prettyPart ++ [']'] := by
    unfold prettyList
    rw [if_neg (by simpa using hne)]
  obtain ⟨c, q, hc, h1, h2⟩ := seq_back xs hne h
  have hsh : ∀ d, shift d (prettyList (xs.map (·.2))) =
      '[' :: (newLine d ++ shift d ((xs.map (·.2)).flatMap prettyPart) ++ [']']) := fun d => by
    rw [ep, shift_append, shift_append]
    simp [shift_cons, shift_nil]
  have ed : ∀ rest, debugList (xs.map (·.1)) ++ rest = '[' :: (joinTexts ", ".toList (xs.map (·.1)) ++ ']' :: rest) := fun rest => by
    simp [debugList]
  refine ⟨fun d rest => ?_, ⟨'[', '\n' :: c :: q ++ [',', '\n', ']'], by decide, fun d b rest => ?_, fun rest => ?_⟩, ?_⟩
  · have hj : ∃ a r, joinTexts ", ".toList (xs.map (·.1)) = a :: r ∧ a ≠ ']' := by
      rcases xs with _ | ⟨x, xs⟩
      · exact absurd rfl hne
      obtain ⟨a, r, e, ha, _⟩ := (h x List.mem_cons_self).head
      rcases xs with _ | ⟨y, xs⟩
      · exact ⟨a, r, e, ha⟩
      · refine ⟨a, r ++ (", ".toList ++ joinTexts ", ".toList (List.map (·.1) (y :: xs))), ?_, ha⟩
        show x.1 ++ ", ".toList ++ joinTexts ", ".toList (List.map (·.1) (y :: xs)) = _
        rw [e]
        simp
    obtain ⟨a, r, ea, ha⟩ := hj
    have hl : layOut d ('[' :: (joinTexts ", ".toList (xs.map (·.1)) ++ ']' :: rest)) =
        '[' :: newLine (d + 1) ++ layOut (d + 1) (joinTexts ", ".toList (xs.map (·.1)) ++ ']' :: rest) := by
      rw [ea, List.cons_append, layOut]
      all_goals (intro _ h; exact ha (List.cons.inj h).1)
    rw [ed, hl, hsh, List.cons_append, seq_out d (']' :: rest) (']' :: layOut d rest) rfl xs hne h]
    simp
  · rw [hsh, List.cons_append, dropIndent_keep (by decide) (by decide), List.append_assoc, List.append_assoc, dropIndent_newLine, h1]
    rw [show [']'] ++ rest = ']' :: rest from rfl, dropIndent_keep (by decide) (by decide)]
    simp
  · rw [show '[' :: ('\n' :: c :: q ++ [',', '\n', ']']) ++ rest = '[' :: '\n' :: (c :: q ++ ',' :: '\n' :: ']' :: rest) by simp]
    rw [show ∀ s, joinLines ('[' :: '\n' :: s) = '[' :: joinLines s from fun _ => rfl, h2, ed]
    rfl
  · exact ⟨'[', _, by rw [← List.append_nil (debugList _), ed], by decide⟩

theorem lays_tuple {name : String} {s p : Text} (hn : IsName name.toList) (h : Lays s p) :
    Lays (debugTuple name s) (prettyTuple name p) := by
  have hN := lays_word hn
  obtain ⟨c, q, hc, h1, h2⟩ := hN.back
  obtain ⟨c', q', hc', h1', h2'⟩ := h.back
  obtain ⟨a, r, ea, ha⟩ := hN.head
  have hsN : ∀ d, shift d name.toList = name.toList := fun d =>
    shift_plain d fun c hc => (plain_ne (List.all_eq_true.1 (plain_name hn) c hc)).2.1
  have hsh : ∀ d rest, shift d (prettyTuple name p) ++ rest =
      name.toList ++ '(' :: (newLine d ++ ("    ".toList ++ (shift (d + 1) p ++ ',' :: (newLine d ++ ')' :: rest)))) := fun d rest => by
    unfold prettyTuple
    rw [shift_append, shift_append, shift_append, hsN, shift_prettyPart]
    simp [shift_cons, shift_nil]
  have ed : ∀ rest, debugTuple name s ++ rest = name.toList ++ '(' :: (s ++ ')' :: rest) := fun rest => by
    simp [debugTuple]
  have h1n : ∀ b rest, dropIndent b (name.toList ++ rest) = c :: q ++ dropIndent false rest := fun b rest => by
    have := h1 0 b rest
    rwa [hsN] at this
  refine ⟨fun d rest => ?_, ⟨c, q ++ '(' :: '\n' :: c' :: q' ++ [',', '\n', ')'], hc, fun d b rest => ?_, fun rest => ?_⟩, ?_⟩
  · rw [ed, hN.out, hsh, hsN, newLine_succ]
    rw [show ∀ s, layOut d ('(' :: s) = '(' :: newLine (d + 1) ++ layOut (d + 1) s from fun _ => rfl, h.out]
    rw [show layOut (d + 1) (')' :: rest) = ',' :: newLine d ++ ')' :: layOut d rest from rfl]
    simp
  · rw [hsh, h1n, dropIndent_keep (by decide) (by decide), dropIndent_newLine, show "    ".toList = List.replicate 4 ' ' from rfl,
      dropIndent_spaces, h1', dropIndent_keep (by decide) (by decide), dropIndent_newLine,
      dropIndent_keep (by decide) (by decide)]
    simp
  · rw [show c :: (q ++ '(' :: '\n' :: c' :: q' ++ [',', '\n', ')']) ++ rest =
      c :: q ++ '(' :: '\n' :: (c' :: q' ++ ',' :: '\n' :: ')' :: rest) by simp, h2]
    rw [show ∀ s, joinLines ('(' :: '\n' :: s) = '(' :: joinLines s from fun _ => rfl, h2', ed]
    rfl
  · exact ⟨a, r ++ '(' :: (s ++ [')']), by rw [← List.append_nil (debugTuple _ _), ed, ea]; simp, ha⟩

theorem lays_record {name : String} {xs : List (Text × Text)} (hn : IsName name.toList) (hne : xs ≠ [])
    (h : ∀ x ∈ xs, Lays x.1 x.2) :
    Lays (name.toList ++ " { ".toList ++ joinTexts ", ".toList (xs.map (·.1)) ++ " }".toList)
      (name.toList ++ " {\n".toList ++ (xs.map (·.2)).flatMap prettyPart ++ ['}']) := by
  have hN := lays_word hn
  obtain ⟨c, q, hc, h1, h2⟩ := hN.back
  obtain ⟨c', q', hc', h1', h2'⟩ := seq_back xs hne h
  obtain ⟨a, r, ea, ha⟩ := hN.head
  have hsN : ∀ d, shift d name.toList = name.toList := fun d =>
    shift_plain d fun c hc => (plain_ne (List.all_eq_true.1 (plain_name hn) c hc)).2.1
  have hsh : ∀ d rest, shift d (name.toList ++ " {\n".toList ++ (xs.map (·.2)).flatMap prettyPart ++ ['}']) ++ rest =
      name.toList ++ ' ' :: '{' :: (newLine d ++ (shift d ((xs.map (·.2)).flatMap prettyPart) ++ '}' :: rest)) := fun d rest => by
    rw [shift_append, shift_append, shift_append, hsN]
    simp [shift_cons, shift_nil]
  have ed : ∀ rest, name.toList ++ " { ".toList ++ joinTexts ", ".toList (xs.map (·.1)) ++ " }".toList ++ rest =
      name.toList ++ ' ' :: '{' :: ' ' :: (joinTexts ", ".toList (xs.map (·.1)) ++ ' ' :: '}' :: rest) := fun rest => by
    simp
  have h1n : ∀ b rest, dropIndent b (name.toList ++ rest) = c :: q ++ dropIndent false rest := fun b rest => by
    have := h1 0 b rest
    rwa [hsN] at this
  refine ⟨fun d rest => ?_, ⟨c, q ++ ' ' :: '{' :: '\n' :: c' :: q' ++ [',', '\n', '}'], hc, fun d b rest => ?_, fun rest => ?_⟩, ?_⟩
  · rw [ed, hN.out, hsh, hsN]
    rw [show ∀ s, layOut d (' ' :: '{' :: ' ' :: s) = ' ' :: '{' :: newLine (d + 1) ++ layOut (d + 1) s from fun _ => rfl]
    rw [List.cons_append, List.cons_append, seq_out d (' ' :: '}' :: rest) ('}' :: layOut d rest) rfl xs hne h]
    simp
  · rw [hsh, h1n, show ∀ s, dropIndent false (' ' :: '{' :: s) = ' ' :: '{' :: dropIndent false s from fun _ => rfl,
      dropIndent_newLine, h1', dropIndent_keep (by decide) (by decide)]
    simp
  · rw [show c :: (q ++ ' ' :: '{' :: '\n' :: c' :: q' ++ [',', '\n', '}']) ++ rest =
      c :: q ++ ' ' :: '{' :: '\n' :: (c' :: q' ++ ',' :: '\n' :: '}' :: rest) by simp, h2]
    rw [show ∀ s, joinLines (' ' :: '{' :: '\n' :: s) = ' ' :: '{' :: ' ' :: joinLines s from fun _ => rfl, h2', ed]
    rfl
  · exact ⟨a, _, by rw [← List.append_nil (_ ++ " }".toList), ed, ea, List.cons_append], ha⟩

/-- Fields, printed both ways -/
inductive LaidFields : List (String × Text) → List (String × Text) → Prop
  | nil : LaidFields [] []
  | cons {n s t fs ts} (hn : IsName n.toList) (h : Lays s t) (rest : LaidFields fs ts) :
    LaidFields ((n, s) :: fs) ((n, t) :: ts)

theorem lays_struct {name : String} {fs ts} (hn : IsName name.toList) (h : LaidFields fs ts) (hne : fs ≠ []) :
    Lays (debugStruct name fs) (prettyStruct name ts) := by
  have key : ∃ xs : List (Text × Text), fs.map (fun f => f.1.toList ++ ": ".toList ++ f.2) = xs.map (·.1) ∧
      ts.map (fun f => f.1.toList ++ ": ".toList ++ f.2) = xs.map (·.2) ∧ ∀ x ∈ xs, Lays x.1 x.2 := by
    clear hne
    induction h with
    | nil => exact ⟨[], rfl, rfl, nofun⟩
    | @cons n s t fs ts hn h rest ih =>
      obtain ⟨xs, e1, e2, hx⟩ := ih
      refine ⟨(n.toList ++ ": ".toList ++ s, n.toList ++ ": ".toList ++ t) :: xs, by rw [List.map_cons, e1]; rfl,
        by rw [List.map_cons, e2]; rfl, fun f hf => ?_⟩
      rcases List.mem_cons.1 hf with rfl | hf
      · exact lays_field hn h
      · exact hx f hf
  obtain ⟨xs, e1, e2, hx⟩ := key
  unfold debugStruct prettyStruct
  rw [e1, ← List.flatMap_map (f := fun f : String × Text => f.1.toList ++ ": ".toList ++ f.2) (g := prettyPart), e2]
  refine lays_record hn ?_ hx
  rintro rfl
  exact hne (List.map_eq_nil_iff.1 e1)

/-- The layout of a whole text -/
theorem layOut_of {s p : Text} (h : Lays s p) : p = layOut 0 s ∧ onOneLine p = s := by
  constructor
  · have := h.out 0 []
    rw [List.append_nil, shift_zero, layOut, List.append_nil] at this
    exact this.symm
  · obtain ⟨c, q, _, h1, h2⟩ := h.back
    have e1 := h1 0 false []
    have e2 := h2 []
    rw [List.append_nil, shift_zero, dropIndent, List.append_nil] at e1
    rw [List.append_nil, joinLines, List.append_nil] at e2
    unfold onOneLine
    rw [e1, e2]

theorem lays_opcode (o : Opcode) : Lays o.debug o.debugPretty := by
  have h := Enum.forall_opcode (p := fun o => decide (
    o.debug = debugTuple (opcodeNames o).1 (opcodeNames o).2.toList ∧
    o.debugPretty = prettyTuple (opcodeNames o).1 (opcodeNames o).2.toList ∧
    IsName (opcodeNames o).1.toList ∧ IsName (opcodeNames o).2.toList)) (by decide +kernel) o
  obtain ⟨h1, h2, h3, h4⟩ := of_decide_eq_true h
  rw [h1, h2]
  exact lays_tuple h3 (lays_word h4)

theorem lays_operand (o : Operand) : Lays o.debug o.debugPretty := by
  rcases o with _ | f | f
  · exact lays_word (by decide)
  · cases f <;> exact lays_tuple (by decide) (lays_word (by decide))
  · cases f <;> exact lays_tuple (by decide) (lays_word (by decide))

theorem lays_condition (c : Condition) : Lays c.debug c.debug := by
  cases c <;> exact lays_word (by decide)

theorem lays_bool (b : Bool) : Lays (debugBool b) (debugBool b) := by
  cases b <;> exact lays_word (by decide)

theorem lays_list_map {α : Type} (f g : α → Text) (h : ∀ x, Lays (f x) (g x)) (xs : List α) :
    Lays (debugList (xs.map f)) (prettyList (xs.map g)) := by
  have := lays_list (xs.map fun x => (f x, g x)) fun y hy => by
    obtain ⟨x, _, rfl⟩ := List.mem_map.1 hy
    exact h x
  rw [List.map_map, List.map_map] at this
  exact this

/-! ## The types of the crate -/

theorem lays_variant (v : OpcodeVariant) : Lays v.debug v.debugPretty :=
  lays_struct (by decide) (.cons (by decide) (lays_opcode _) (.cons (by decide) (lays_operand _) (.cons (by decide) (lays_operand _) (.cons (by decide) (lays_list_map debugBool debugBool lays_bool [v.flags.f0, v.flags.f1]) .nil)))) (by simp)

theorem lays_decoded {w : Nat} (o : DecodedOpcode w) : Lays o.debug o.debugPretty :=
  lays_struct (by decide) (.cons (by decide) (lays_variant _) (.cons (by decide) (lays_condition _) (.cons (by decide) (lays_number _) (.cons (by decide) (lays_number _) (.cons (by decide) (lays_number _) (.cons (by decide) (lays_number _) (.cons (by decide) (lays_number _) (.cons (by decide) (lays_number _) .nil)))))))) (by simp)

theorem lays_data (d : OpcodeVariantData) : Lays d.debug d.debugPretty :=
  lays_struct (by decide) (.cons (by decide) (lays_number _) (.cons (by decide) (lays_number _) (.cons (by decide) (lays_number _) .nil))) (by simp)

theorem lays_pointer (p : FatPointer) : Lays p.debug p.debugPretty :=
  lays_struct (by decide) (.cons (by decide) (lays_number _) (.cons (by decide) (lays_number _) (.cons (by decide) (lays_number _) (.cons (by decide) (lays_number _) .nil)))) (by simp)

theorem lays_farCall (a : FarCallABI) : Lays a.debug a.debugPretty :=
  lays_struct (by decide) (.cons (by decide) (lays_pointer _) (.cons (by decide) (lays_number _) (.cons (by decide) (lays_number _) (.cons (by decide) (by cases a.forwardingMode <;> exact lays_word (by decide)) (.cons (by decide) (lays_bool _) (.cons (by decide) (lays_bool _) .nil)))))) (by simp)

theorem lays_retAbi (a : RetABI) : Lays a.debug a.debugPretty :=
  lays_struct (by decide) (.cons (by decide) (lays_pointer _) (.cons (by decide) (by cases a.pageForwardingMode <;> exact lays_word (by decide)) .nil)) (by simp)

theorem lays_nearCall (a : NearCallABI) : Lays a.debug a.debugPretty :=
  lays_struct (by decide) (.cons (by decide) (lays_number _) .nil) (by simp)

theorem lays_precompile (a : PrecompileCallABI) : Lays a.debug a.debugPretty :=
  lays_struct (by decide) (.cons (by decide) (lays_number _) (.cons (by decide) (lays_number _) (.cons (by decide) (lays_number _) (.cons (by decide) (lays_number _) (.cons (by decide) (lays_number _) .nil))))) (by simp)

theorem lays_precompileInner (a : PrecompileCallInnerABI) : Lays a.debug a.debugPretty :=
  lays_struct (by decide) (.cons (by decide) (lays_number _) (.cons (by decide) (lays_number _) (.cons (by decide) (lays_number _) (.cons (by decide) (lays_number _) (.cons (by decide) (lays_number _) (.cons (by decide) (lays_number _) (.cons (by decide) (lays_number _) .nil))))))) (by simp)

theorem lays_metaParams (a : VmMetaParameters) : Lays a.debug a.debugPretty :=
  lays_struct (by decide) (.cons (by decide) (lays_number _) (.cons (by decide) (lays_number _) (.cons (by decide) (lays_number _) (.cons (by decide) (lays_number _) (.cons (by decide) (lays_number _) (.cons (by decide) (lays_number _) .nil)))))) (by simp)

theorem lays_storage (s : ContractCodeSha256Storage) : Lays s.debug s.debugPretty :=
  lays_struct (by decide) (.cons (by decide) (lays_number _) (.cons (by decide) (lays_number _) (.cons (by decide) (lays_list_map _ _ (fun b : Byte => lays_number b.toNat) _) .nil))) (by simp)

theorem lays_hash (h : VersionedHashGeneric contractCodeSha256) :
    Lays (h.debug ContractCodeSha256Storage.fmtDebug) (h.debugPretty ContractCodeSha256Storage.fmtDebug) :=
  lays_struct (by decide) (.cons (by decide) (lays_storage h.data) .nil) (by simp)

theorem lays_version (v : ISAVersion) : Lays v.debug v.debugPretty := lays_tuple (by decide) (lays_number _)
theorem lays_monotonic (n : VariantMonotonicNumber) : Lays n.debug n.debugPretty := lays_tuple (by decide) (lays_number _)

end ZkEvm.DebugLemmas
