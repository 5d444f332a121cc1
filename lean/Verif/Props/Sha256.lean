import Verif.Lemmas.Sha256
import Verif.Lemmas.Hash
import Verif.Props.Published
import Verif.Spec.Decommitment
/-! C93, C94: hashing code by rounds of SHA-256. The standard is in `Verif/Spec/Sha256.lean`. -/
namespace ZkEvm.Props
open Spec Sha256 Tables

/-! ## C93 -/

private def rootCheck (d p : Nat) (k : Word) : Bool :=
  (List.range 18).any fun i =>
    decide ((2 ^ 32 * i + k.toNat) ^ d ≤ 2 ^ (32 * d) * p) && decide (2 ^ (32 * d) * p < (2 ^ 32 * i + k.toNat + 1) ^ d)

private theorem rootCheck_ok {d p : Nat} {k : Word} (h : rootCheck d p k = true) : IsRootBits d p k := by
  unfold rootCheck at h
  obtain ⟨i, _, hi⟩ := List.any_eq_true.1 h
  simp only [Bool.and_eq_true, decide_eq_true_eq] at hi
  exact ⟨i, hi⟩

private theorem roots_of (d : Nat) (ps : List Nat) (ks : List Word) (h : ((ps.zip ks).all fun x => rootCheck d x.1 x.2) = true)
    (t : Nat) (p : Nat) (k : Word) (hp : ps[t]? = some p) (hk : ks[t]? = some k) : IsRootBits d p k := by
  refine rootCheck_ok (List.all_eq_true.1 h (p, k) ?_)
  refine List.mem_of_getElem? (i := t) ?_
  rw [List.getElem?_zip_eq_some]
  exact ⟨hp, hk⟩

/-- C93: the constants are those of the standard: the first 32 bits of the fractional parts of the cube roots of the first
64 prime numbers, and of the square roots of the first eight. -/
theorem C93_constants :
    firstPrimes.length = 64 ∧ ROUND_CONSTANTS.length = 64 ∧
    (∀ (t p : Nat) (k : Word), firstPrimes[t]? = some p → ROUND_CONSTANTS[t]? = some k → IsRootBits 3 p k) ∧
    (∀ (t p : Nat) (k : Word), firstPrimes[t]? = some p → (stateWords INITIAL)[t]? = some k → IsRootBits 2 p k) :=
  ⟨by decide +kernel, by decide +kernel, roots_of 3 _ _ (by decide +kernel), roots_of 2 _ _ (by decide +kernel)⟩

/-- C93: a block is compressed into every hash state as the standard says. -/
theorem C93_compress (s : State) (b : List Byte) (h : b.length = 64) : compress s b = compression s b :=
  compress_eq s b h

/-- C93: one block of 64 bytes. -/
example (s : State) : compress s (List.replicate 64 0x61) = compression s (List.replicate 64 0x61) :=
  C93_compress s _ List.length_replicate

private theorem isSha256_of (m : List Byte) (s : State)
    (h : ∀ p, Padded m p → s = chain compress INITIAL p (p.length / 64)) : IsSha256 m s.output := by
  obtain ⟨p, hp⟩ := padded_exists m
  refine ⟨p, hp, output_length s, fun i hi => ?_⟩
  rw [← chain_congr INITIAL p (p.length / 64) (by omega) (f := compress) fun s b hb => compress_eq s b hb, ← h p hp]
  exact wordAt_output s i hi

/-- C93: bytes fed to the hasher in any pieces give the SHA-256 digest of all of them together, and there is only one. -/
theorem C93_streaming (chunks : List (List Byte)) (h : chunks.flatten.length < 2 ^ 61) :
    IsSha256 chunks.flatten ((chunks.foldl (fun h d => h.update compress d) (Hasher.new INITIAL)).finalize compress).output ∧
    ∀ d, IsSha256 chunks.flatten d →
      d = ((chunks.foldl (fun h d => h.update compress d) (Hasher.new INITIAL)).finalize compress).output := by
  have h1 := isSha256_of chunks.flatten _ fun p hp => chunks_eq compress INITIAL chunks p h hp
  exact ⟨h1, fun d hd => isSha256_unique hd h1⟩

/-- the test vector "abc" of the standard, in two pieces -/
example : IsSha256 [0x61, 0x62, 0x63]
    [0xba, 0x78, 0x16, 0xbf, 0x8f, 0x01, 0xcf, 0xea, 0x41, 0x41, 0x40, 0xde, 0x5d, 0xae, 0x22, 0x23,
     0xb0, 0x03, 0x61, 0xa3, 0x96, 0x17, 0x7a, 0x9c, 0xb4, 0x10, 0xff, 0x61, 0xf2, 0x00, 0x15, 0xad] := by
  have h := (C93_streaming [[0x61], [0x62, 0x63]] (by decide)).1
  have e : (([[0x61], [0x62, 0x63]].foldl (fun h d => h.update compress d) (Hasher.new INITIAL)).finalize compress).output =
    [0xba, 0x78, 0x16, 0xbf, 0x8f, 0x01, 0xcf, 0xea, 0x41, 0x41, 0x40, 0xde, 0x5d, 0xae, 0x22, 0x23,
     0xb0, 0x03, 0x61, 0xa3, 0x96, 0x17, 0x7a, 0x9c, 0xb4, 0x10, 0xff, 0x61, 0xf2, 0x00, 0x15, 0xad] := by decide +kernel
  rw [e] at h
  exact h

private theorem output_eq (words : List (Vector Byte 32)) (h : words.length < 2 ^ 56) (d : Vector Byte 32)
    (hd : IsSha256 (words.flatMap Vector.toList) d.toList) : Sha256.output words = d := by
  have h1 := isSha256_of (words.flatMap Vector.toList) _ fun p hp => hashWords_eq compress INITIAL words p h hp
  exact Vector.toList_inj.1 (isSha256_unique h1 hd)

/-- C93: the crate's loop over the words computes the SHA-256 digest of the bytecode: whatever function `sha256` gives
every message its SHA-256 digest, the code hash is the one computed with it. There is such a function. -/
theorem C93_code_hash :
    (∀ sha256 : Digest, (∀ m, m.length < 2 ^ 61 → IsSha256 m (sha256 m).toList) →
      ∀ (limit : BitVec 64) (words : List (Vector Byte 32)), limit.toNat < 2 ^ 56 →
        bytecodeToCodeHashLoop limit words = bytecodeToCodeHashUpTo sha256 limit words) ∧
    ∃ sha256 : Digest, ∀ m, m.length < 2 ^ 61 → IsSha256 m (sha256 m).toList := by
  refine ⟨fun sha256 hs limit words hl => ?_, ?_⟩
  · unfold bytecodeToCodeHashLoop bytecodeToCodeHashUpTo
    split
    · rfl
    · split
      · rfl
      · rename_i h2
        rw [output_eq words (by omega) _ (hs _ (by rw [flat_length]; omega))]
        rfl
  · refine ⟨fun m => ⟨((([m].foldl (fun h d => h.update compress d) (Hasher.new INITIAL)).finalize compress).output).toArray,
      by simp [State.output, beBytes]⟩, fun m hm => ?_⟩
    have := (C93_streaming [m] (by simpa using hm)).1
    rw [List.flatten_cons, List.flatten_nil, List.append_nil] at this
    exact this

/-- both modes of the crate have such limits -/
example (sha256 : Digest) (hs : ∀ m, m.length < 2 ^ 61 → IsSha256 m (sha256 m).toList) (words : List (Vector Byte 32)) :
    bytecodeToCodeHashLoop (asU64 (pcOrImmMax 16)) words = bytecodeToCodeHash sha256 words ∧
    bytecodeToCodeHashLoop (asU64 (pcOrImmMax 32)) words = bytecodeToCodeHashForMode sha256 32 words :=
  ⟨C93_code_hash.1 sha256 hs _ words (by decide), C93_code_hash.1 sha256 hs _ words (by decide)⟩

private theorem drop_words (words : List (Vector Byte 32)) (i : Nat) :
    (words.flatMap Vector.toList).drop (32 * i) = (words.drop i).flatMap Vector.toList := by
  induction i generalizing words with
  | zero => rfl
  | succ i ih =>
    cases words with
    | nil => simp
    | cons w ws =>
      rw [List.flatMap_cons, List.drop_succ_cons, ← ih ws, show 32 * (i + 1) = 32 + 32 * i by omega, ← List.drop_drop,
        List.drop_left' (by simp)]

/-- C93: an odd number of words makes the padding fit behind the last word: `n` words are hashed in exactly `(n + 1) / 2`
rounds. Each but the last takes two words; the last takes the last word, a byte 0x80, 23 zeros and the number of bits. -/
theorem C93_rounds (words : List (Vector Byte 32)) (hodd : words.length % 2 = 1) (p : List Byte)
    (hp : Padded (words.flatMap Vector.toList) p) :
    p.length = 64 * ((words.length + 1) / 2) ∧
    (∀ (i : Nat) (v w : Vector Byte 32), words[2 * i]? = some v → words[2 * i + 1]? = some w →
      block p i = v.toList ++ w.toList) ∧
    (∀ w : Vector Byte 32, words[words.length - 1]? = some w →
      block p ((words.length + 1) / 2 - 1) = w.toList ++ [0x80] ++ List.replicate 23 0 ++ bigEndian64 (256 * words.length)) := by
  obtain ⟨k, hk, rfl, h1⟩ := hp
  have hf := flat_length words
  simp only [List.length_append, List.length_replicate, List.length_cons, List.length_nil, bigEndian64_length, hf] at h1 ⊢
  have hk : k = 23 := by omega
  subst hk
  refine ⟨by omega, fun i v w hv hw => ?_, fun w hw => ?_⟩
  · obtain ⟨h2, rfl⟩ := List.getElem?_eq_some_iff.1 hw
    obtain ⟨h3, rfl⟩ := List.getElem?_eq_some_iff.1 hv
    unfold block
    simp only [List.append_assoc]
    rw [List.drop_append_of_le_length (by rw [hf]; omega), List.take_append_of_le_length (by simp [hf]; omega),
      show 64 * i = 32 * (2 * i) by omega, drop_words, List.drop_eq_getElem_cons h3, List.drop_eq_getElem_cons h2,
      List.flatMap_cons, List.flatMap_cons, ← List.append_assoc, List.take_left' (by simp)]
  · obtain ⟨h2, rfl⟩ := List.getElem?_eq_some_iff.1 hw
    unfold block
    simp only [List.append_assoc]
    rw [List.drop_append_of_le_length (by rw [hf]; omega),
      show 64 * ((words.length + 1) / 2 - 1) = 32 * (words.length - 1) by omega, drop_words,
      List.drop_eq_getElem_cons h2, List.drop_eq_nil_of_le (by omega), List.flatMap_cons, List.flatMap_nil,
      List.append_nil, List.take_of_length_le (by simp [bigEndian64_length]), show 8 * (32 * words.length) = 256 * words.length by omega]

/-- with an even number of words the padding takes a block of its own: two words, two rounds -/
example : ∃ p, Padded ([Vector.replicate 32 1, Vector.replicate 32 2].flatMap Vector.toList) p ∧ p.length = 64 * 2 := by
  obtain ⟨p, hp⟩ := padded_exists ([Vector.replicate 32 1, Vector.replicate 32 2].flatMap Vector.toList)
  refine ⟨p, hp, ?_⟩
  rw [padded_length hp, flat_length]
  rfl

/-- C93: collisions come from the compression function alone. For any compression function and any part `part` of the hash
value that is compared: from two different messages whose hashes agree in that part one finds two different inputs of the
compression function, each an input occurring while hashing, with the same output, or, if both inputs are the last ones,
with outputs that agree in that part. -/
theorem C93_reduction {S T : Type} (f : S → List Byte → S) (initial : S) (part : S → T) (m m' p p' : List Byte)
    (hm : m.length < 2 ^ 61) (hm' : m'.length < 2 ^ 61) (hp : Padded m p) (hp' : Padded m' p') (hne : m ≠ m')
    (h : part (chain f initial p (p.length / 64)) = part (chain f initial p' (p'.length / 64))) :
    ∃ i j, i < p.length / 64 ∧ j < p'.length / 64 ∧
      (chain f initial p i, block p i) ≠ (chain f initial p' j, block p' j) ∧
      (f (chain f initial p i) (block p i) = f (chain f initial p' j) (block p' j) ∨
        i + 1 = p.length / 64 ∧ j + 1 = p'.length / 64 ∧
        part (f (chain f initial p i) (block p i)) = part (f (chain f initial p' j) (block p' j))) := by
  have hl := padded_length hp
  have hl' := padded_length hp'
  obtain ⟨i, hi⟩ : ∃ i, p.length / 64 = i + 1 := ⟨p.length / 64 - 1, by omega⟩
  obtain ⟨j, hj⟩ : ∃ j, p'.length / 64 = j + 1 := ⟨p'.length / 64 - 1, by omega⟩
  rw [hi, hj] at h ⊢
  by_cases he : (chain f initial p i, block p i) = (chain f initial p' j, block p' j)
  · obtain ⟨e1, e2⟩ := Prod.mk.inj he
    have b1 := last_block hp
    have b2 := last_block hp'
    rw [hi, Nat.add_sub_cancel] at b1
    rw [hj, Nat.add_sub_cancel] at b2
    have hlen : m.length = m'.length := by
      have := bigEndian64_inj (by omega) (by omega) (b1.symm.trans ((congrArg (List.drop 56) e2).trans b2))
      omega
    have hij : i = j := by rw [hlen] at hl; omega
    subst hij
    rcases collision_below f initial p p' i e1 with ⟨k, hk, h1, h2⟩ | hb
    · exact ⟨k, k, by omega, by omega, h1, .inl h2⟩
    · have hpp : p = p' := eq_of_blocks (i + 1) p p' (by omega) (by omega) fun k hk => by
        by_cases hki : k = i
        · rw [hki]; exact e2
        · exact hb k (by omega)
      subst hpp
      exact absurd (padded_inj hp hp' hlen) hne
  · exact ⟨i, j, by omega, by omega, he, .inr ⟨rfl, rfl, h⟩⟩

private theorem flat_inj : ∀ (p q : List (Vector Byte 32)), p.flatMap Vector.toList = q.flatMap Vector.toList → p = q
  | [], [], _ => rfl
  | [], y :: q, h => by
    have := congrArg List.length h
    simp at this
    omega
  | x :: p, [], h => by
    have := congrArg List.length h
    simp at this
  | x :: p, y :: q, h => by
    rw [List.flatMap_cons, List.flatMap_cons] at h
    obtain ⟨h1, h2⟩ := List.append_inj h (by simp)
    rw [flat_inj p q h2, Vector.toList_inj.1 h1]

private theorem wordAt_drop (b : List Byte) (i : Nat) : wordAt b (i + 1) = wordAt (b.drop 4) i := by
  unfold wordAt
  rw [List.drop_drop, show 4 * (i + 1) = 4 + 4 * i by omega]

private theorem last_words (s s' : State) (d d' : List Byte) (hd : d.drop 4 = d'.drop 4)
    (h : ∀ i, i < 8 → (stateWords s)[i]? = some (wordAt d i)) (h' : ∀ i, i < 8 → (stateWords s')[i]? = some (wordAt d' i)) :
    (stateWords s).drop 1 = (stateWords s').drop 1 := by
  apply List.ext_getElem?
  intro i
  rw [List.getElem?_drop, List.getElem?_drop, Nat.add_comm]
  by_cases hi : i + 1 < 8
  · rw [h _ hi, h' _ hi, wordAt_drop, wordAt_drop, hd]
  · rw [List.getElem?_eq_none (by show 8 ≤ i + 1; omega), List.getElem?_eq_none (by show 8 ≤ i + 1; omega)]

/-- C93: two different bytecodes with the same code hash (in production or in testing mode) give, among the inputs that
occur while hashing them, two different inputs of the SHA-256 compression function whose outputs agree in their last seven
words. -/
theorem C93_code_collision (limit limit' : BitVec 64) (hl : limit.toNat < 2 ^ 56) (hl' : limit'.toNat < 2 ^ 56)
    (words words' : List (Vector Byte 32)) (b : Vector Byte 32)
    (h : bytecodeToCodeHashLoop limit words = .ok b) (h' : bytecodeToCodeHashLoop limit' words' = .ok b)
    (hne : words ≠ words') (p p' : List Byte)
    (hp : Padded (words.flatMap Vector.toList) p) (hp' : Padded (words'.flatMap Vector.toList) p') :
    ∃ i j, i < p.length / 64 ∧ j < p'.length / 64 ∧
      (chain compression INITIAL p i, block p i) ≠ (chain compression INITIAL p' j, block p' j) ∧
      (stateWords (compression (chain compression INITIAL p i) (block p i))).drop 1 =
        (stateWords (compression (chain compression INITIAL p' j) (block p' j))).drop 1 := by
  obtain ⟨sha256, hs⟩ := C93_code_hash.2
  rw [C93_code_hash.1 sha256 hs limit words hl, HashLemmas.hash_upTo_eq] at h
  rw [C93_code_hash.1 sha256 hs limit' words' hl', HashLemmas.hash_upTo_eq] at h'
  split at h
  · split at h'
    · rename_i c c'
      have e := Except.ok.inj (h.trans h'.symm)
      have hw : (words.flatMap Vector.toList).length < 2 ^ 61 := by rw [flat_length]; omega
      have hw' : (words'.flatMap Vector.toList).length < 2 ^ 61 := by rw [flat_length]; omega
      obtain ⟨q, hq, d1, d2⟩ := hs _ hw
      obtain ⟨q', hq', d1', d2'⟩ := hs _ hw'
      cases padded_unique hp hq
      cases padded_unique hp' hq'
      have hd : (sha256 (words.flatMap Vector.toList)).toList.drop 4 = (sha256 (words'.flatMap Vector.toList)).toList.drop 4 :=
        List.ext_getElem (by simp) fun i h1 h2 => by
          simp only [List.length_drop, Vector.length_toList] at h1
          have a1 := HashLemmas.layout_tail 1 0 (BitVec.ofNat 16 words.length)
            (Vector.ofFn fun (i : Fin 28) => (sha256 (words.flatMap Vector.toList))[4 + i.val]) i h1
          have a2 := HashLemmas.layout_tail 1 0 (BitVec.ofNat 16 words'.length)
            (Vector.ofFn fun (i : Fin 28) => (sha256 (words'.flatMap Vector.toList))[4 + i.val]) i h1
          simp only [e] at a1
          have := a1.symm.trans a2
          simp only [Vector.getElem_ofFn] at this
          simpa using this
      obtain ⟨i, j, hi, hj, hn, ho⟩ := C93_reduction compression INITIAL (fun s => (stateWords s).drop 1) _ _ p p' hw hw' hp hp'
        (fun hc => hne (flat_inj _ _ hc)) (last_words _ _ _ _ hd d2 d2')
      refine ⟨i, j, hi, hj, hn, ?_⟩
      rcases ho with ho | ⟨_, _, ho⟩
      · rw [ho]
      · exact ho
    · cases h'
  · cases h

/-- with a compression function that ignores its block any two messages collide, and so do inputs that occur -/
example : ∃ p p', Padded [1] p ∧ Padded [2] p' ∧ ∃ i j, block p i ≠ block p' j := by
  obtain ⟨p, hp⟩ := padded_exists [1]
  obtain ⟨p', hp'⟩ := padded_exists [2]
  have hc : ∀ q n, chain (fun (s : Nat) _ => s) 0 q n = 0 := by
    intro q n
    induction n with
    | zero => rfl
    | succ n ih => exact ih
  obtain ⟨i, j, _, _, hn, _⟩ := C93_reduction (fun (s : Nat) _ => s) 0 id [1] [2] p p' (by decide) (by decide) hp hp'
    (by decide) (by rw [hc, hc])
  rw [hc, hc] at hn
  exact ⟨p, p', hp, hp', i, j, fun he => hn (by rw [he])⟩

/-! ## C94 -/

/-- C94: the price per word pays for the rounds of hashing a bytecode exactly from five words on; payment for one more word
always does. -/
theorem C94_rounds_paid (words : List (Vector Byte 32)) (hodd : words.length % 2 = 1) (p : List Byte)
    (hp : Padded (words.flatMap Vector.toList) p) :
    (p.length / 64 * ERGS_PER_CIRCUIT ≤
      words.length * ERGS_PER_CODE_WORD_DECOMMITTMENT * PriceGenerator.CYCLES_PER_CODE_DECOMMITTER ↔ 5 ≤ words.length) ∧
    p.length / 64 * ERGS_PER_CIRCUIT ≤
      (words.length + 1) * ERGS_PER_CODE_WORD_DECOMMITTMENT * PriceGenerator.CYCLES_PER_CODE_DECOMMITTER := by
  rw [(C93_rounds words hodd p hp).1, show ERGS_PER_CIRCUIT = 80000 from rfl,
    show ERGS_PER_CODE_WORD_DECOMMITTMENT = 4 from rfl, show PriceGenerator.CYCLES_PER_CODE_DECOMMITTER = 12100 from rfl]
  omega

/-- C94: the rounds of three words are not paid for. -/
example : ∃ p, Padded ((List.replicate 3 (Vector.replicate 32 7)).flatMap Vector.toList) p ∧
    ¬ p.length / 64 * ERGS_PER_CIRCUIT ≤
      3 * ERGS_PER_CODE_WORD_DECOMMITTMENT * PriceGenerator.CYCLES_PER_CODE_DECOMMITTER := by
  obtain ⟨p, hp⟩ := padded_exists ((List.replicate 3 (Vector.replicate 32 7)).flatMap Vector.toList)
  have h := (C94_rounds_paid (List.replicate 3 (Vector.replicate 32 7)) (by decide) p hp).1
  rw [List.length_replicate] at h
  exact ⟨p, hp, fun h' => absurd (h.1 h') (by decide)⟩

/-- C94 (finding): there are bytecodes production hashing accepts whose words do not pay for the rounds. -/
theorem C94_short_codes (sha256 : Digest) : ∃ (words : List (Vector Byte 32)) (b : Vector Byte 32) (p : List Byte),
    bytecodeToCodeHash sha256 words = .ok b ∧ Padded (words.flatMap Vector.toList) p ∧
    words.length * ERGS_PER_CODE_WORD_DECOMMITTMENT * PriceGenerator.CYCLES_PER_CODE_DECOMMITTER <
      p.length / 64 * ERGS_PER_CIRCUIT := by
  obtain ⟨b, hb⟩ := (C55_production_ok sha256 [Vector.replicate 32 0, Vector.replicate 32 0, Vector.replicate 32 0]).2
    ⟨by decide, by decide⟩
  obtain ⟨p, hp⟩ := padded_exists ([Vector.replicate 32 0, Vector.replicate 32 0, Vector.replicate 32 0].flatMap Vector.toList)
  refine ⟨_, b, p, hb, hp, Nat.lt_of_not_le fun hle => ?_⟩
  exact absurd ((C94_rounds_paid _ (by decide) p hp).1.1 hle) (by decide)

private theorem far_paid (o : Opcode) : (usage o).cycles * VM_CYCLE_COST_IN_ERGS + (usage o).ram * RAM_PERMUTATION_COST_IN_ERGS
    + (usage o).logs * LOG_DEMUXER_COST_IN_ERGS + (usage o).storage * STORAGE_SORTER_COST_IN_ERGS
    + (usage o).events * EVENTS_OR_L1_MESSAGES_SORTER_COST_IN_ERGS
    + (usage o).code * CODE_DECOMMITMENT_SORTER_COST_IN_ERGS
    + (match o with | .farCall _ => 4 | _ => 0) ≤ priceOf o := by
  have := Enum.forall_opcode (p := fun o => decide ((usage o).cycles * VM_CYCLE_COST_IN_ERGS
    + (usage o).ram * RAM_PERMUTATION_COST_IN_ERGS
    + (usage o).logs * LOG_DEMUXER_COST_IN_ERGS + (usage o).storage * STORAGE_SORTER_COST_IN_ERGS
    + (usage o).events * EVENTS_OR_L1_MESSAGES_SORTER_COST_IN_ERGS
    + (usage o).code * CODE_DECOMMITMENT_SORTER_COST_IN_ERGS
    + (match o with | .farCall _ => 4 | _ => 0) ≤ priceOf o)) (by decide +kernel) o
  exact of_decide_eq_true this

private theorem add_paid (n k w c s : Nat) (h1 : n * 80000 ≤ (w + 1) * 4 * 12100) (h2 : k * 80000 ≤ (s + c) * 4 * 12100) :
    (n + k) * 80000 ≤ (w + s + (c + 1)) * 4 * 12100 := by
  have : (w + s + (c + 1)) * 4 * 12100 = (w + 1) * 4 * 12100 + (s + c) * 4 * 12100 := by
    rw [← Nat.add_mul, ← Nat.add_mul]; congr 2; omega
  rw [this, Nat.add_mul]
  exact Nat.add_le_add h1 h2

private theorem div_paid (r s c : Nat) (h : r * 80000 ≤ (s + c) * 4 * 12100) : r / 12100 * 80000 ≤ s * 4 + c * 4 := by
  refine Nat.le_of_mul_le_mul_right (c := 12100) ?_ (by decide)
  rw [← Nat.add_mul]
  refine Nat.le_trans ?_ h
  rw [Nat.mul_right_comm]
  exact Nat.mul_le_mul_right _ (Nat.div_mul_le_self r 12100)

private theorem decommits_paid {codes : List (List (Vector Byte 32))} {n : Nat} (h : Decommits codes n) :
    n * 80000 ≤ ((codes.map List.length).sum + codes.length) * 4 * 12100 := by
  induction h with
  | none => exact Nat.zero_le _
  | more hodd hr _ ih =>
    obtain ⟨p, hp, hl⟩ := hr
    have := (C94_rounds_paid _ hodd p hp).2
    rw [hl, Nat.mul_div_cancel_left _ (by decide : 0 < 64), show ERGS_PER_CIRCUIT = 80000 from rfl,
      show ERGS_PER_CODE_WORD_DECOMMITTMENT = 4 from rfl, show PriceGenerator.CYCLES_PER_CODE_DECOMMITTER = 12100 from rfl] at this
    rename_i words codes n k _
    simp only [List.map_cons, List.sum_cons, List.length_cons]
    exact add_paid n k words.length codes.length _ this ih

/-- C94: together with the far calls that load the codes, the payments do cover the rounds: for every execution that loads
at most one code per far call and pays per word for it, all circuits it fills, those of the decommitter included, times
`ERGS_PER_CIRCUIT` are at most the ergs spent. -/
theorem C94_loaded_codes (m : Mode) (prices : List Nat) (hprices : OPCODES_PRICES = .ok prices) (e e' : Nat)
    (ws : List (BitVec m.bits)) (h : Executes prices e ws e') (codes : List (List (Vector Byte 32))) (rounds : Nat)
    (hr : Decommits codes rounds) (hc : codes.length ≤ farCalls m ws) :
    (filledCircuits m ws + rounds / PriceGenerator.CYCLES_PER_CODE_DECOMMITTER) * ERGS_PER_CIRCUIT ≤
      e - e' + (codes.map List.length).sum * ERGS_PER_CODE_WORD_DECOMMITTMENT := by
  have hs := PriceLemmas.executes_sum hprices h
  have hsum : (ws.map fun w => (usageOf m w).cycles).sum * VM_CYCLE_COST_IN_ERGS
      + (ws.map fun w => (usageOf m w).ram).sum * RAM_PERMUTATION_COST_IN_ERGS
      + (ws.map fun w => (usageOf m w).logs).sum * LOG_DEMUXER_COST_IN_ERGS
      + (ws.map fun w => (usageOf m w).storage).sum * STORAGE_SORTER_COST_IN_ERGS
      + (ws.map fun w => (usageOf m w).events).sum * EVENTS_OR_L1_MESSAGES_SORTER_COST_IN_ERGS
      + (ws.map fun w => (usageOf m w).code).sum * CODE_DECOMMITMENT_SORTER_COST_IN_ERGS
      + farCalls m ws * 4 ≤ (ws.map PriceLemmas.wordPrice).sum := by
    clear h hs hc
    unfold farCalls
    induction ws with
    | nil => simp only [List.map_nil, List.sum_nil, List.countP_nil]; decide
    | cons w ws ih =>
      simp only [List.map_cons, List.sum_cons, List.countP_cons]
      have hu : usageOf m w = usage (entry (w.toNat % 2048)).opcode := by
        unfold usageOf; rw [PriceLemmas.opcodeOf_eq]; rfl
      have hw := far_paid (entry (w.toNat % 2048)).opcode
      rw [← hu] at hw
      have hpr : PriceLemmas.wordPrice w = priceOf (entry (w.toNat % 2048)).opcode := rfl
      rw [← hpr] at hw
      have hf : (if isFarCall (opcodeOf m w) = true then 1 else 0) * 4 =
          (match (entry (w.toNat % 2048)).opcode with | .farCall _ => 4 | _ => 0) := by
        rw [PriceLemmas.opcodeOf_eq]
        cases (entry (w.toNat % 2048)).opcode <;> rfl
      rw [← hf] at hw
      simp only [Nat.add_mul]
      omega
  have hE : ERGS_PER_CIRCUIT = 80000 := rfl
  unfold filledCircuits
  have hfit : ∀ c p u : Nat, 80000 ≤ c * p → u / c * 80000 ≤ u * p := by
    intro c p u hcp
    calc u / c * 80000 ≤ u / c * (c * p) := Nat.mul_le_mul_left _ hcp
      _ = u / c * c * p := by rw [Nat.mul_assoc]
      _ ≤ u * p := Nat.mul_le_mul_right _ (Nat.div_mul_le_self u c)
  have h1 := hfit PriceGenerator.CYCLES_PER_VM_SNAPSHOT VM_CYCLE_COST_IN_ERGS (ws.map fun w => (usageOf m w).cycles).sum
    (by decide)
  have h2 := hfit PriceGenerator.CYCLES_PER_RAM_PERMUTATION RAM_PERMUTATION_COST_IN_ERGS
    (ws.map fun w => (usageOf m w).ram).sum (by decide)
  have h3 := hfit PriceGenerator.CYCLES_FOR_LOG_DEMUXER LOG_DEMUXER_COST_IN_ERGS (ws.map fun w => (usageOf m w).logs).sum
    (by decide)
  have h4 := hfit PriceGenerator.CYCLES_FOR_STORAGE_SORTER STORAGE_SORTER_COST_IN_ERGS
    (ws.map fun w => (usageOf m w).storage).sum (by decide)
  have h5 := hfit PriceGenerator.CYCLES_FOR_EVENTS_OR_L1_MESSAGES_SORTER EVENTS_OR_L1_MESSAGES_SORTER_COST_IN_ERGS
    (ws.map fun w => (usageOf m w).events).sum (by decide)
  have h6 := hfit PriceGenerator.CYCLES_FOR_CODE_DECOMMITTER_SORTER CODE_DECOMMITMENT_SORTER_COST_IN_ERGS
    (ws.map fun w => (usageOf m w).code).sum (by decide)
  have h7 : rounds / 12100 * 80000 ≤ (codes.map List.length).sum * 4 + codes.length * 4 := by
    exact div_paid _ _ _ (decommits_paid hr)
  rw [hE, show PriceGenerator.CYCLES_PER_CODE_DECOMMITTER = 12100 from rfl, show ERGS_PER_CODE_WORD_DECOMMITTMENT = 4 from rfl]
  simp only [Nat.add_mul]
  have h8 := Nat.le_trans (Nat.add_le_add (Nat.add_le_add (Nat.add_le_add (Nat.add_le_add (Nat.add_le_add
    (Nat.add_le_add h1 h2) h3) h4) h5) h6) (Nat.mul_le_mul_right 4 hc)) hsum
  rw [← hs, Nat.add_sub_cancel]
  refine Nat.le_trans (Nat.add_le_add_left h7 _) ?_
  rw [Nat.add_comm _ (codes.length * 4), ← Nat.add_assoc]
  exact Nat.add_le_add_right h8 _

/-- a code of one word takes one round -/
example (w : Vector Byte 32) : IsRounds [w] 1 ∧ Decommits [[w], [w, w, w]] (1 + (2 + 0)) := by
  obtain ⟨p, hp⟩ := padded_exists ([w].flatMap Vector.toList)
  obtain ⟨q, hq⟩ := padded_exists ([w, w, w].flatMap Vector.toList)
  have h1 := (C93_rounds [w] (by simp) p hp).1
  have h2 := (C93_rounds [w, w, w] (by simp) q hq).1
  have r1 : IsRounds [w] 1 := ⟨p, hp, by simpa using h1⟩
  have r2 : IsRounds [w, w, w] 2 := ⟨q, hq, by simpa using h2⟩
  exact ⟨r1, .more (by simp) r1 (.more (by simp) r2 .none)⟩

end ZkEvm.Props
