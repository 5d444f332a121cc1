import Verif.Lemmas.Generator
import Verif.Lemmas.PriceReader
import Verif.Spec.Sessions
import Verif.Props.Prices
/-! C78: crash points and concurrent runs of the price generator. -/
namespace ZkEvm.Props
open Spec PriceGenerator GeneratorLemmas

/-! ## C78 -/

private theorem gen_concurrent (text old : List Byte) (n : Nat) (w : World) (h : Reaches text (launch old n) w) :
    (w.created = [] → w.file = old) ∧
    (w.created ≠ [] → w.file.length ≤ text.length ∧
      ∀ (i : Nat) b, w.file[i]? = some b → b = 0 ∨ text[i]? = some b) ∧
    (∀ q rest, w.created = q :: rest → w.procs[q]? = some .done → w.file = text) := by
  have hi := Inv.reaches h
  refine ⟨fun h0 => (hi.fresh h0).1, hi.bytes, fun q rest hq hd => ?_⟩
  obtain ⟨ph, h1, h2⟩ := hi.last q rest hq
  rw [hd] at h1
  cases Option.some.inj h1
  have hlen := (hi.bytes (by rw [hq]; simp)).1
  apply List.ext_getElem?
  intro i
  by_cases hlt : i < text.length
  · exact h2 i hlt
  · rw [List.getElem?_eq_none (by omega), List.getElem?_eq_none (by omega)]

private theorem gen_all_done (text old : List Byte) (n : Nat) (w : World) (hn : 0 < n)
    (h : Reaches text (launch old n) w) (hd : ∀ ph ∈ w.procs, ph = .done) : w.file = text := by
  have hi := Inv.reaches h
  have hlen : w.procs.length = n := by
    have : ∀ w, Reaches text (launch old n) w → w.procs.length = n := by
      intro w h
      induction h with
      | refl => exact List.length_replicate
      | step _ hs ih => obtain ⟨p, ph, ph', f, h1, h2⟩ := hs; simpa using ih
    exact this w h
  cases hc : w.created with
  | nil =>
    have hp : w.procs[0]? = some w.procs[0] := List.getElem?_eq_getElem (by omega)
    have := (hi.fresh hc).2 0 _ hp
    rw [hd _ (List.getElem_mem _)] at this
    rcases this with h | h <;> cases h
  | cons q rest =>
    obtain ⟨ph, h1, _⟩ := hi.last q rest hc
    have hph := hd ph (List.mem_of_getElem? h1)
    subst hph
    exact (gen_concurrent text old n w h).2.2 q rest hc h1

/-- C78: any number of generators on the same file, whatever it held, in any interleaving and stopped at any point.
While none has opened the file it is unchanged. Afterwards it is never longer than the generated text and every byte of
it is the generated one at that position, or a zero. Once the generator that opened the file last has returned, the
file is the generated text. -/
theorem C78_concurrent (build : Build) (old : List Byte) (n : Nat) (w : World) :
    ∃ text, fileContent build = .ok text ∧ (Reaches (asBytes text) (launch old n) w →
      (w.created = [] → w.file = old) ∧
      (w.created ≠ [] → w.file.length ≤ (asBytes text).length ∧
        ∀ (i : Nat) b, w.file[i]? = some b → b = 0 ∨ (asBytes text)[i]? = some b) ∧
      (∀ q rest, w.created = q :: rest → w.procs[q]? = some .done → w.file = asBytes text)) :=
  ⟨_, C42_file build, gen_concurrent _ old n w⟩

/-- C78: when all of them have returned, the file is the generated text. -/
theorem C78_all_done (build : Build) (old : List Byte) (n : Nat) (w : World) (hn : 0 < n) :
    ∃ text, fileContent build = .ok text ∧ (Reaches (asBytes text) (launch old n) w →
      (∀ ph ∈ w.procs, ph = .done) → w.file = asBytes text) :=
  ⟨_, C42_file build, gen_all_done _ old n w hn⟩

/-- C78: three generators started on an old file. -/
example (w : World) : ∃ text, fileContent .debug = .ok text ∧ (Reaches (asBytes text) (launch [1, 2] 3) w →
    (∀ ph ∈ w.procs, ph = .done) → w.file = asBytes text) := C78_all_done .debug [1, 2] 3 w (by decide)

private theorem gen_crash (text old file : List Byte) (h : Sessions text old file) : file = old ∨ file <+: text := by
  induction h with
  | none => exact .inl rfl
  | run _ hr ih =>
    rename_i f w _
    obtain ⟨ph, h1, h2⟩ := Alone.reaches hr
    cases ph with
    | start => simp only at h2; rw [h2]; exact ih
    | writing pos => exact .inr (by rw [h2.2]; exact List.take_prefix _ _)
    | done => simp only at h2; exact .inr (by rw [h2]; exact List.prefix_refl _)
    | failed =>
      rcases h2 with h2 | h2
      · rw [h2]; exact ih
      · exact .inr h2

/-- C78: with one generator at a time, stopped anywhere and rerun any number of times, the file is unchanged or a
prefix of the generated text. -/
theorem C78_crash (build : Build) (old file : List Byte) :
    ∃ text, fileContent build = .ok text ∧
      (Sessions (asBytes text) old file → file = old ∨ file <+: asBytes text) :=
  ⟨_, C42_file build, gen_crash _ old file⟩

/-- C78: a run that is not disturbed can always finish, and then the file is the generated text, whatever it held. -/
theorem C78_run (text old : List Byte) :
    (∃ w, Reaches text (launch old 1) w ∧ w.procs = [.done]) ∧
    ∀ w, Reaches text (launch old 1) w → w.procs = [.done] → w.file = text := by
  refine ⟨?_, fun w h hd => ?_⟩
  · have h1 : Reaches text (launch old 1) ⟨[], [.writing 0], [0]⟩ :=
      .step .refl (.act (launch old 1) 0 .start (.writing 0) [] rfl (.create _))
    cases hl : text.length with
    | zero =>
      have := List.eq_nil_of_length_eq_zero hl
      subst this
      exact ⟨_, .step h1 (.act _ 0 (.writing 0) .done _ rfl (.finish _)), rfl⟩
    | succ n =>
      have h2 := Reaches.step h1 (.act _ 0 (.writing 0) (.writing (0 + text.length)) _ rfl
        (.write _ 0 text.length (by omega) (by omega)))
      rw [Nat.zero_add] at h2
      exact ⟨_, .step h2 (.act _ 0 (.writing text.length) .done _ rfl (.finish _)), rfl⟩
  · obtain ⟨ph, h1, h2⟩ := Alone.reaches h
    rw [hd] at h1
    cases h1
    exact h2

private theorem ascii_back (l : List Char) (h : l.all (fun c => decide (c.toNat < 128)) = true) :
    (l.map fun c => BitVec.ofNat 8 c.toNat).map (fun b => Char.ofNat b.toNat) = l := by
  rw [List.map_map]
  conv => rhs; rw [← List.map_id l]
  apply List.map_congr_left
  intro c hc
  have := of_decide_eq_true (List.all_eq_true.1 h c hc)
  simp only [Function.comp_apply, BitVec.toNat_ofNat, id]
  rw [Nat.mod_eq_of_lt (by omega), Char.ofNat_toNat]

private theorem gen_prefix (text : String) (l : List Char) (hl : text.toList = l)
    (f1 : l.all (fun c => decide (c.toNat < 128)) = true) (f2 : readConstants (lines l) = some priceConstants)
    (f3 : (lines l).all partsOk = true) (f4 : (lines l).length = 28) (f5 : (lines l)[27]? = some [])
    (f6 : (lines l)[26]?.any partsLess = true)
    (f7 : (readConstants ((lines l).take 26)).any (fun r => decide (r.length < 18)) = true) (file : List Byte) :
    readPrices (asBytes text) = some priceConstants ∧ (file <+: asBytes text →
      (readPrices file = none ∨ ∃ r, readPrices file = some r ∧ r <+: priceConstants) ∧
      (readPrices file = some priceConstants → file = asBytes text ∨ file ++ [10] = asBytes text)) := by
  have hb : asBytes text = l.map fun c => BitVec.ofNat 8 c.toNat := by rw [asBytes, hl]
  rw [hb]
  have hback := ascii_back l f1
  refine ⟨by rw [readPrices, hback]; exact f2, fun hpre => ?_⟩
  have hfile : file = (l.take file.length).map fun c => BitVec.ofNat 8 c.toNat := by
    rw [List.map_take]
    exact List.prefix_iff_eq_take.1 hpre
  generalize file.length = n at hfile
  have hread : readPrices file = readConstants (lines (l.take n)) := by
    rw [readPrices, hfile, ascii_back (l.take n) (List.all_eq_true.2 fun c hc =>
      List.all_eq_true.1 f1 c (List.mem_of_mem_take hc))]
  rw [hread]
  refine ⟨read_take f2 f3 n, fun h => ?_⟩
  cases hl26 : (lines l)[26]? with
  | none => rw [hl26] at f6; cases f6
  | some last =>
  cases hr26 : readConstants ((lines l).take 26) with
  | none => rw [hr26] at f7; cases f7
  | some rest =>
  rw [hl26] at f6
  rw [hr26] at f7
  rcases read_take_less (full := priceConstants) f3 f4 f5 hl26 f6 hr26 (of_decide_eq_true f7) n h with h' | h'
  · left; rw [hfile, h']
  · right
    rw [hfile]
    conv => rhs; rw [← h']
    rw [List.map_append]
    rfl

/-- C78: what a stopped run leaves never reads as a wrong price. Any prefix of the generated text is malformed or
declares an initial part of the crate's price constants with their values; and it declares all of them only if it is
the whole text, or lacks just the final newline. -/
theorem C78_prefix_prices (build : Build) (file : List Byte) :
    ∃ text, fileContent build = .ok text ∧ readPrices (asBytes text) = some priceConstants ∧ (file <+: asBytes text →
      (readPrices file = none ∨ ∃ r, readPrices file = some r ∧ r <+: priceConstants) ∧
      (readPrices file = some priceConstants → file = asBytes text ∨ file ++ [10] = asBytes text)) := by
  obtain ⟨l, hl, hf⟩ := file_facts
  simp only [Bool.and_eq_true] at hf
  obtain ⟨⟨⟨⟨⟨⟨f1, f2⟩, f3⟩, f4⟩, f5⟩, f6⟩, f7⟩ := hf
  exact ⟨_, C42_file build, gen_prefix _ l hl f1 (of_decide_eq_true f2) f3 (of_decide_eq_true f4)
    (of_decide_eq_true f5) f6 (of_decide_eq_true f7) file⟩

private theorem gen_not_atomic (text old : List Byte) (k : Nat) (hk : k ≤ text.length) :
    ∃ w, Reaches text (launch old 1) w ∧ w.file = text.take k := by
  have h1 : Reaches text (launch old 1) ⟨[], [.writing 0], [0]⟩ :=
    .step .refl (.act (launch old 1) 0 .start (.writing 0) [] rfl (.create _))
  cases k with
  | zero => exact ⟨_, h1, rfl⟩
  | succ k =>
    refine ⟨_, .step h1 (.act _ 0 (.writing 0) (.writing (0 + (k + 1))) _ rfl
      (.write _ 0 (k + 1) (by omega) (by omega))), ?_⟩
    simp [writeAt]

/-- C78: the write is not atomic. From every content of the file a run can be stopped so that exactly the first `k`
bytes of the generated text are there, for every `k`; in particular none. -/
theorem C78_not_atomic (build : Build) (old : List Byte) (k : Nat) :
    ∃ text, fileContent build = .ok text ∧ (k ≤ (asBytes text).length →
      ∃ w, Reaches (asBytes text) (launch old 1) w ∧ w.file = (asBytes text).take k) :=
  ⟨_, C42_file build, gen_not_atomic _ old k⟩

-- Two generators: the second truncates while the first is writing; the file then holds a gap, which the second one's
-- writes fill.
example : ∃ w, Reaches [7, 8, 9] (launch [1] 2) w ∧ w.file = [0, 0, 9] ∧ w.procs = [.done, .writing 0] := by
  refine ⟨_, .step (.step (.step (.step (.step .refl
    (.act _ 0 .start (.writing 0) [] rfl (.create _)))
    (.act _ 0 (.writing 0) (.writing 2) _ rfl (.write _ 0 2 (by decide) (by decide))))
    (.act _ 1 .start (.writing 0) [] rfl (.create _)))
    (.act _ 0 (.writing 2) (.writing 3) _ rfl (.write _ 2 1 (by decide) (by decide))))
    (.act _ 0 (.writing 3) .done _ rfl (.finish _)), rfl, rfl⟩

-- a session: stopped after two bytes, then run to the end
example : Sessions [7, 8, 9] [1] [7, 8] ∧ [7, 8] <+: [7, 8, 9] := by
  refine ⟨?_, by decide⟩
  exact .run (w := ⟨[7, 8], [.writing 2], [0]⟩) .none (.step (.step .refl
    (.act _ 0 .start (.writing 0) [] rfl (.create _)))
    (.act _ 0 (.writing 0) (.writing 2) _ rfl (.write _ 0 2 (by decide) (by decide))))

-- the reader does reject and accept
example : readLine "pub const A_B: u32 = 12;".toList = .constant "A_B" 12 ∧
    readLine "pub const A_B: u32 = 12".toList = .malformed ∧ readLine "// x".toList = .nothing := by decide +kernel

end ZkEvm.Props
