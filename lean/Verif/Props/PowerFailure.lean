import Verif.Lemmas.PowerFailure
import Verif.Props.Generator
/-! C100: damaged price files: zeros left by concurrent generators, and power failures. -/
namespace ZkEvm.Props
open Spec PriceGenerator GeneratorLemmas

/-! ## C100 -/

private theorem damaged_of_bytes (l : List Char) (h : l.all (fun c => decide (c.toNat < 128)) = true) (file : List Byte)
    (hlen : file.length ≤ l.length)
    (hb : ∀ (i : Nat) b, file[i]? = some b → b = 0 ∨ (l.map fun c => BitVec.ofNat 8 c.toNat)[i]? = some b) :
    Damaged (file.map fun b => Char.ofNat b.toNat) l := by
  refine .of_get (by simpa using hlen) fun i c hc => ?_
  rw [List.getElem?_map, Option.map_eq_some_iff] at hc
  obtain ⟨b, hbi, rfl⟩ := hc
  rcases hb i b hbi with rfl | h'
  · exact .inl rfl
  · right
    rw [List.getElem?_map, Option.map_eq_some_iff] at h'
    obtain ⟨c, hci, rfl⟩ := h'
    rw [hci]
    have := of_decide_eq_true (List.all_eq_true.1 h c (List.mem_of_getElem? hci))
    rw [BitVec.toNat_ofNat, Nat.mod_eq_of_lt (by omega), Char.ofNat_toNat]

private theorem gen_damaged (text : String) (l : List Char) (hl : text.toList = l)
    (f1 : l.all (fun c => decide (c.toNat < 128)) = true) (f2 : readConstants (lines l) = some priceConstants)
    (f3 : (lines l).all partsOk = true) (file : List Byte) (hlen : file.length ≤ (asBytes text).length)
    (hb : ∀ (i : Nat) b, file[i]? = some b → b = 0 ∨ (asBytes text)[i]? = some b)
    (r : List (String × Nat)) (hr : readPrices file = some r) : r.Sublist priceConstants := by
  have he : asBytes text = l.map fun c => BitVec.ofNat 8 c.toNat := by rw [asBytes, hl]
  rw [he] at hlen hb
  exact read_damaged f2 f3 (damaged_of_bytes l f1 file (by simpa using hlen) hb) hr

/-- C100: a file that is no longer than the generated text and holds in every place the right byte or a zero never reads
as a wrong price: it is malformed, or declares some of the crate's price constants, with their values and in their
order. -/
theorem C100_damaged (build : Build) (file : List Byte) : ∃ text, fileContent build = .ok text ∧
    (file.length ≤ (asBytes text).length →
      (∀ (i : Nat) b, file[i]? = some b → b = 0 ∨ (asBytes text)[i]? = some b) →
      ∀ r, readPrices file = some r → r.Sublist priceConstants) := by
  obtain ⟨l, hl, hf⟩ := file_facts
  simp only [Bool.and_eq_true] at hf
  obtain ⟨⟨⟨⟨⟨⟨f1, f2⟩, f3⟩, _⟩, _⟩, _⟩, _⟩ := hf
  exact ⟨_, C42_file build, gen_damaged _ l hl f1 (of_decide_eq_true f2) f3 file⟩

-- A file that is damaged in a comment and reads as part of the prices: the newline after a comment has become zero.
example : readConstants (lines ("// a".toList ++ [Char.ofNat 0] ++ "pub const A: u32 = 1;\npub const B: u32 = 2;".toList)) =
    some [("B", 2)] := by decide +kernel

-- The hypotheses hold of the generated file with any byte zeroed.
example (text : List Byte) (k : Nat) : (text.set k 0).length ≤ text.length ∧
    ∀ (i : Nat) b, (text.set k 0)[i]? = some b → b = 0 ∨ text[i]? = some b := by
  refine ⟨by simp, fun i b h => ?_⟩
  rw [List.getElem?_set] at h
  split at h
  · split at h
    · exact .inl (Option.some.inj h).symm
    · cases h
  · exact .inr h

/-- C100: so the file that any number of generators, interleaved and stopped anywhere, leave behind never reads as a
wrong price, once one of them has opened it. -/
theorem C100_concurrent_prices (build : Build) (old : List Byte) (n : Nat) (w : World) :
    ∃ text, fileContent build = .ok text ∧ (Reaches (asBytes text) (launch old n) w → w.created ≠ [] →
      ∀ r, readPrices w.file = some r → r.Sublist priceConstants) := by
  obtain ⟨text, ht, h⟩ := C78_concurrent build old n w
  obtain ⟨text', ht', h'⟩ := C100_damaged build w.file
  rw [ht] at ht'; cases ht'
  refine ⟨text, ht, fun hr hc => ?_⟩
  obtain ⟨h1, h2⟩ := (h hr).2.1 hc
  exact h' h1 h2

-- Two generators: the first writes two bytes, the second truncates, the first goes on: two zeros, then its third byte.
example : ∃ w, Reaches [7, 8, 9] (launch [1] 2) w ∧ w.created ≠ [] ∧ w.file = [0, 0, 9] :=
  ⟨_, .step (.step (.step (.step .refl
    (.act _ 0 .start (.writing 0) [] rfl (.create _)))
    (.act _ 0 (.writing 0) (.writing 2) _ rfl (.write _ 0 2 (by decide) (by decide))))
    (.act _ 1 .start (.writing 0) [] rfl (.create _)))
    (.act _ 0 (.writing 2) (.writing 3) _ rfl (.write _ 2 1 (by decide) (by decide))), by decide, rfl⟩

/-- C100: after any number of power failures, each at any moment while any number of generators run, every byte of the
file is the one the file had there at the beginning, the generated one, or zero; and the file is no longer than the
longer of the two. If the file was missing, empty, or generated before, it never reads as a wrong price. -/
theorem C100_power_failures (build : Build) (old file : List Byte) : ∃ text, fileContent build = .ok text ∧
    (Boots (asBytes text) old file →
      (file.length ≤ max old.length (asBytes text).length ∧
        ∀ (i : Nat) b, file[i]? = some b → b = 0 ∨ old[i]? = some b ∨ (asBytes text)[i]? = some b) ∧
      (old <+: asBytes text → ∀ r, readPrices file = some r → r.Sublist priceConstants)) := by
  obtain ⟨text, ht, h⟩ := C100_damaged build file
  refine ⟨text, ht, fun hb => ?_⟩
  obtain ⟨h1, h2⟩ := mixed_boots hb
  refine ⟨⟨h1, h2⟩, fun hold => h ?_ fun i b hi => ?_⟩
  · have := hold.length_le
    omega
  · rcases h2 i b hi with h | h | h
    · exact .inl h
    · right
      have hlt := (List.getElem?_eq_some_iff.1 h).1
      obtain ⟨t, ht⟩ := hold
      rw [← ht, List.getElem?_append_left hlt]; exact h
    · exact .inr h

-- A power failure between two runs: the first generator has written two bytes, of which one survives.
example : Boots [7, 8, 9] [1] [0, 8] := by
  refine .failure 1 .first (.step (.step .refl
    (.act _ 0 .start (.writing 0) [] rfl (.create _)))
    (.act _ 0 (.writing 0) (.writing 2) _ rfl (.write _ 0 2 (by decide) (by decide)))) ⟨?_, fun i b hb => ?_⟩
  · exact ⟨_, List.mem_cons_self, rfl⟩
  · match i, hb with
    | 0, hb => left; cases hb; rfl
    | 1, hb => right; cases hb; exact ⟨_, List.mem_cons_self, rfl⟩

/-- C100: however the file was damaged, generators that run to their end afterwards write exactly the generated text. -/
theorem C100_repair (build : Build) (old file : List Byte) (n : Nat) (w : World) (hn : 0 < n) :
    ∃ text, fileContent build = .ok text ∧ (Boots (asBytes text) old file →
      (∃ v, Reaches (asBytes text) (launch file 1) v ∧ v.procs = [.done]) ∧
      (Reaches (asBytes text) (launch file n) w → (∀ ph ∈ w.procs, ph = .done) → w.file = asBytes text)) := by
  obtain ⟨text, ht, h⟩ := C78_all_done build file n w hn
  exact ⟨text, ht, fun _ => ⟨(C78_run (asBytes text) file).1, h⟩⟩

-- The file of the last example is repaired by one generator.
example : ∃ w, Reaches [7, 8, 9] (launch [0, 8] 1) w ∧ w.procs = [.done] ∧ w.file = [7, 8, 9] :=
  ⟨_, .step (.step (.step .refl
    (.act _ 0 .start (.writing 0) [] rfl (.create _)))
    (.act _ 0 (.writing 0) (.writing 3) _ rfl (.write _ 0 3 (by decide) (by decide))))
    (.act _ 0 (.writing 3) .done _ rfl (.finish _)), rfl, rfl⟩

private theorem not_durable (text old disk : List Byte)
    (hd : disk = old ∨ (disk.length = text.length ∧ ∀ (i : Nat) b, disk[i]? = some b → b = 0 ∨ text[i]? = some b)) :
    ∃ w seen, Seen text (launch old 1) w seen ∧ w.procs = [.done] ∧ w.file = text ∧ Survives seen disk := by
  obtain ⟨⟨w, hr, hp⟩, hall⟩ := C78_run text old
  have hfile := hall w hr hp
  have key : ∀ v, Reaches text (launch old 1) v → ∃ seen, Seen text (launch old 1) v seen ∧ old ∈ seen ∧ v.file ∈ seen := by
    intro v hv
    induction hv with
    | refl => exact ⟨_, .refl, List.mem_singleton.2 rfl, List.mem_singleton.2 rfl⟩
    | step _ ha ih =>
      obtain ⟨seen, h1, h2, _⟩ := ih
      exact ⟨_, .step h1 ha, List.mem_cons_of_mem _ h2, List.mem_cons_self⟩
  obtain ⟨seen, hs, h1, h2⟩ := key w hr
  rw [hfile] at h2
  refine ⟨w, seen, hs, hp, hfile, ?_⟩
  rcases hd with rfl | ⟨hlen, hb⟩
  · exact ⟨⟨disk, h1, rfl⟩, fun i b hi => .inr ⟨disk, h1, hi⟩⟩
  · refine ⟨⟨text, h2, hlen⟩, fun i b hi => ?_⟩
    rcases hb i b hi with h | h
    · exact .inl h
    · exact .inr ⟨text, h2, h⟩

/-- C100: the write is not durable. Even after the generator has returned, a power failure may leave the old content, or
a file of the right length with any of its bytes zeroed. -/
theorem C100_not_durable (build : Build) (old disk : List Byte) : ∃ text, fileContent build = .ok text ∧
    (disk = old ∨ (disk.length = (asBytes text).length ∧
      ∀ (i : Nat) b, disk[i]? = some b → b = 0 ∨ (asBytes text)[i]? = some b) →
    ∃ w seen, Seen (asBytes text) (launch old 1) w seen ∧ w.procs = [.done] ∧ w.file = asBytes text ∧
      Survives seen disk) :=
  ⟨_, C42_file build, not_durable _ old disk⟩

-- In particular the old file may be back, or the new one may be all zeros.
example (build : Build) (old : List Byte) : ∃ text, fileContent build = .ok text ∧
    (∃ w seen, Seen (asBytes text) (launch old 1) w seen ∧ w.procs = [.done] ∧ w.file = asBytes text ∧
      Survives seen old) ∧
    ∃ w seen, Seen (asBytes text) (launch old 1) w seen ∧ w.procs = [.done] ∧ w.file = asBytes text ∧
      Survives seen (List.replicate (asBytes text).length 0) := by
  obtain ⟨text, ht, h⟩ := C100_not_durable build old old
  obtain ⟨text', ht', h'⟩ := C100_not_durable build old (List.replicate (asBytes text).length 0)
  rw [ht] at ht'; cases ht'
  refine ⟨text, ht, h (.inl rfl), h' (.inr ⟨by simp, fun i b hb => .inl ?_⟩)⟩
  exact (List.mem_replicate.1 (List.mem_of_getElem? hb)).2

end ZkEvm.Props
