import Verif.Lemmas.PriceParams
/-! C88: the price generator for arbitrary capacities and limits. Vocabulary in `Verif/Spec/PriceParams.lean`. -/
namespace ZkEvm.Props
open Spec PriceGenerator GeneratorLemmas PriceLemmas

/-! ## C88 -/

/-- C88: whatever the capacities and limits, a file written by a build with overflow checks is well formed and declares
the crate's constants with the right prices. -/
theorem C88_generated (p : Params) (hs : Small p) (text : String) (h : fileContent .debug p = .ok text) :
    ∃ l, readPrices (asBytes text) = some l ∧ FairPrices p l := by
  obtain ⟨i, r, v1, v2, w, v3, v4, v5, v6, v7, v8, v9, v10, v11, v12, v13, v14, v15, hi, hr, h1, h2, hw, h3, h4, h5, h6,
      h7, h8, h9, h10, h11, h12, h13, h14, h15, ht⟩ := fileContent_ok.1 h
  rw [Nat.mod_eq_of_lt hs.1] at hi
  rw [Nat.mod_eq_of_lt hs.2] at hr
  obtain ⟨_, hw⟩ := mulU32_ok.1 hw
  subst hw
  refine ⟨_, reads ht, rfl, fun name c hc => ?_, ⟨v12, by simp [constsOf], ceil h12⟩,
    ⟨i, r, max i r, by simp [constsOf], by simp [constsOf], by simp [constsOf], minimal hi, minimal hr,
      Nat.le_max_left _ _, Nat.le_max_right _ _, by omega⟩⟩
  simp only [capacitiesOf, List.mem_cons, Prod.mk.injEq, List.not_mem_nil, or_false] at hc
  rcases hc with ⟨rfl, rfl⟩ | ⟨rfl, rfl⟩ | ⟨rfl, rfl⟩ | ⟨rfl, rfl⟩ | ⟨rfl, rfl⟩ | ⟨rfl, rfl⟩ | ⟨rfl, rfl⟩ | ⟨rfl, rfl⟩ |
    ⟨rfl, rfl⟩ | ⟨rfl, rfl⟩ | ⟨rfl, rfl⟩ | ⟨rfl, rfl⟩ | ⟨rfl, rfl⟩ | ⟨rfl, rfl⟩
  · exact ⟨v1, by simp [constsOf], ceil h1⟩
  · exact ⟨v2, by simp [constsOf], ceil h2⟩
  · exact ⟨v3, by simp [constsOf], ceil h3⟩
  · exact ⟨v4, by simp [constsOf], ceil h4⟩
  · exact ⟨v5, by simp [constsOf], ceil h5⟩
  · exact ⟨v6, by simp [constsOf], ceil h6⟩
  · exact ⟨v7, by simp [constsOf], ceil h7⟩
  · exact ⟨v8, by simp [constsOf], ceil h8⟩
  · exact ⟨v9, by simp [constsOf], ceil h9⟩
  · exact ⟨v10, by simp [constsOf], ceil h10⟩
  · exact ⟨v11, by simp [constsOf], ceil h11⟩
  · exact ⟨v13, by simp [constsOf], ceil h13⟩
  · exact ⟨v14, by simp [constsOf], ceil h14⟩
  · exact ⟨v15, by simp [constsOf], ceil h15⟩

/-- C88: the present parameters with a smaller hasher circuit, for which the minimal price of writes is not zero. -/
example : ∃ text l, fileContent .debug { current with limitForInitialWritesPubdataHasher := 1000 } = .ok text ∧
    readPrices (asBytes text) = some l ∧ FairPrices { current with limitForInitialWritesPubdataHasher := 1000 } l := by
  have h : fileContent .debug { current with limitForInitialWritesPubdataHasher := 1000 } = .ok _ :=
    fileContent_ok.2 ⟨80000, 0, 4, 1, 24200, 4, 678, 1, 1, 2, 1, 80, 11, 1, 156250, 40, 7, 1112, by decide, by decide,
      by decide, by decide, by decide, by decide, by decide, by decide, by decide, by decide, by decide, by decide, by decide,
      by decide, by decide, by decide, by decide, by decide, rfl⟩
  obtain ⟨l, h1, h2⟩ := C88_generated _ ⟨by decide, by decide⟩ _ h
  exact ⟨_, l, h, h1, h2⟩

/-- C88: the generator with overflow checks panics exactly when something is divided by zero or exceeds 32 bits. -/
theorem C88_panics (p : Params) (hs : Small p) : (∃ text, fileContent .debug p = .ok text) ↔ Computable p := by
  constructor
  · rintro ⟨text, h⟩
    obtain ⟨i, r, v1, v2, w, v3, v4, v5, v6, v7, v8, v9, v10, v11, v12, v13, v14, v15, hi, hr, h1, h2, hw, h3, h4, h5, h6,
      h7, h8, h9, h10, h11, h12, h13, h14, h15, ht⟩ := fileContent_ok.1 h
    rw [Nat.mod_eq_of_lt hs.1] at hi
    rw [Nat.mod_eq_of_lt hs.2] at hr
    obtain ⟨hw', hw⟩ := mulU32_ok.1 hw
    subst hw
    have c : ∀ {a b q}, ceilDiv a b .debug = .ok q → 0 < b ∧ a + b < 2 ^ 32 := fun h =>
      ⟨(ceilDiv_ok.1 h).1, (ceilDiv_ok.1 h).2.1⟩
    have m : ∀ {limit bytes q}, minPrice .debug p.maxPubdataPerBlock p.maxTxErgsLimit limit bytes = .ok q →
        limit * bytes < 2 ^ 32 ∧ (limit * bytes < p.maxPubdataPerBlock → p.maxTxErgsLimit + limit < 2 ^ 32) := by
      intro limit bytes q h
      obtain ⟨a, b⟩ := minPrice_ok.1 h
      exact ⟨a, fun hlt => by omega⟩
    refine ⟨fun name cap hc => ?_, hw', c h12, m hi, m hr⟩
    simp only [capacitiesOf, List.mem_cons, Prod.mk.injEq, List.not_mem_nil, or_false] at hc
    rcases hc with ⟨rfl, rfl⟩ | ⟨rfl, rfl⟩ | ⟨rfl, rfl⟩ | ⟨rfl, rfl⟩ | ⟨rfl, rfl⟩ | ⟨rfl, rfl⟩ | ⟨rfl, rfl⟩ | ⟨rfl, rfl⟩ |
      ⟨rfl, rfl⟩ | ⟨rfl, rfl⟩ | ⟨rfl, rfl⟩ | ⟨rfl, rfl⟩ | ⟨rfl, rfl⟩ | ⟨rfl, rfl⟩
    · exact c h1
    · exact c h2
    · exact c h3
    · exact c h4
    · exact c h5
    · exact c h6
    · exact c h7
    · exact c h8
    · exact c h9
    · exact c h10
    · exact c h11
    · exact c h13
    · exact c h14
    · exact c h15
  · intro h
    have c : ∀ name b, (name, b) ∈ capacitiesOf p → ceilDiv p.ergsPerCircuit b .debug = .ok ((p.ergsPerCircuit + b - 1) / b) :=
      fun name b hb => ceilDiv_ok.2 ⟨(h.circuits name b hb).1, (h.circuits name b hb).2, rfl⟩
    have m : ∀ {limit bytes}, 0 < limit → limit * bytes < 2 ^ 32 ∧
        (limit * bytes < p.maxPubdataPerBlock → p.maxTxErgsLimit + limit < 2 ^ 32) →
        ∃ q, minPrice .debug p.maxPubdataPerBlock p.maxTxErgsLimit limit bytes = .ok q := by
      intro limit bytes h0 hb
      by_cases hle : p.maxPubdataPerBlock ≤ limit * bytes
      · exact ⟨0, minPrice_ok.2 ⟨hb.1, .inl ⟨hle, rfl⟩⟩⟩
      · exact ⟨_, minPrice_ok.2 ⟨hb.1, .inr ⟨by omega, h0, hb.2 (by omega), rfl⟩⟩⟩
    obtain ⟨i, hi⟩ := m (h.circuits "INITIAL_WRITES_PUBDATA_HASHER_COST_IN_ERGS" _ (by simp [capacitiesOf])).1 h.initial
    obtain ⟨r, hr⟩ := m (h.circuits "REPEATED_WRITES_PUBDATA_HASHER_COST_IN_ERGS" _ (by simp [capacitiesOf])).1 h.repeated
    rw [← Nat.mod_eq_of_lt hs.1] at hi
    rw [← Nat.mod_eq_of_lt hs.2] at hr
    exact ⟨_, fileContent_ok.2 ⟨i, r, _, _, _, _, _, _, _, _, _, _, _, _, _, _, _, _, hi, hr,
      c "VM_CYCLE_COST_IN_ERGS" _ (by simp [capacitiesOf]),
      c "RAM_PERMUTATION_COST_IN_ERGS" _ (by simp [capacitiesOf]), mulU32_ok.2 ⟨h.decommitter, rfl⟩,
      c "CODE_DECOMMITMENT_COST_PER_WORD_IN_ERGS" _ (by simp [capacitiesOf]),
      c "STORAGE_APPLICATION_COST_IN_ERGS" _ (by simp [capacitiesOf]),
      c "CODE_DECOMMITTER_SORTER_COST_IN_ERGS" _ (by simp [capacitiesOf]),
      c "LOG_DEMUXER_COST_IN_ERGS" _ (by simp [capacitiesOf]),
      c "STORAGE_SORTER_COST_IN_ERGS" _ (by simp [capacitiesOf]),
      c "EVENTS_OR_L1_MESSAGES_SORTER_COST_IN_ERGS" _ (by simp [capacitiesOf]),
      c "INITIAL_WRITES_PUBDATA_HASHER_COST_IN_ERGS" _ (by simp [capacitiesOf]),
      c "REPEATED_WRITES_PUBDATA_HASHER_COST_IN_ERGS" _ (by simp [capacitiesOf]),
      c "CODE_DECOMMITMENT_SORTER_COST_IN_ERGS" _ (by simp [capacitiesOf]),
      ceilDiv_ok.2 ⟨h.messages.1, h.messages.2, rfl⟩,
      c "KECCAK256_CIRCUIT_COST_IN_ERGS" _ (by simp [capacitiesOf]),
      c "SHA256_CIRCUIT_COST_IN_ERGS" _ (by simp [capacitiesOf]),
      c "ECRECOVER_CIRCUIT_COST_IN_ERGS" _ (by simp [capacitiesOf]), rfl⟩⟩

/-- C88: right prices bound the work of a transaction: writes of either kind cannot outnumber the capacity of their
single-instance circuit, and neither can L1 messages. -/
theorem C88_bounded (p : Params) (l : List (String × Nat)) (h : FairPrices p l)
    (htx : 0 < p.maxTxErgsLimit) (hi : 0 < p.initialStorageWritePubdataBytes) (hr : 0 < p.repeatedStorageWritePubdataBytes) :
    (∀ v, ("INITIAL_WRITES_PUBDATA_HASHER_MIN_COST_IN_ERGS", v) ∈ l →
      Bounded p p.limitForInitialWritesPubdataHasher p.initialStorageWritePubdataBytes v) ∧
    (∀ v, ("REPEATED_WRITES_PUBDATA_HASHER_MIN_COST_IN_ERGS", v) ∈ l →
      Bounded p p.limitForRepeatedWritesPubdataHasher p.repeatedStorageWritePubdataBytes v) ∧
    (∀ v, ("L1_MESSAGE_MIN_COST_IN_ERGS", v) ∈ l →
      ∀ messages, messages * v ≤ p.maxTxErgsLimit → messages ≤ p.limitForL1MessagesMerklizer) := by
  have hn : (l.map Prod.fst).Nodup := by rw [h.names]; decide +kernel
  have uniq : ∀ {n : String} {v w : Nat}, (n, v) ∈ l → (n, w) ∈ l → v = w := by
    clear h
    induction l with
    | nil => exact fun h => (nomatch h)
    | cons a l ih =>
      intro n v w hv hw
      rw [List.map_cons, List.nodup_cons] at hn
      rcases List.mem_cons.1 hv with ha | hv' <;> rcases List.mem_cons.1 hw with hb | hw'
      · exact (Prod.mk.inj (ha.trans hb.symm)).2
      · subst ha; exact absurd (List.mem_map.2 ⟨(n, w), hw', rfl⟩) hn.1
      · subst hb; exact absurd (List.mem_map.2 ⟨(n, v), hv', rfl⟩) hn.1
      · exact ih hn.2 hv' hw'
  have price : ∀ {n limit v : Nat}, IsCeilDiv p.maxTxErgsLimit limit v → n * v ≤ p.maxTxErgsLimit → n ≤ limit := by
    intro n limit v hc hle
    have hv : 0 < v := by
      rcases Nat.eq_zero_or_pos v with h | h
      · have := hc.1; rw [h, Nat.mul_zero] at this; omega
      · exact h
    exact Nat.le_of_mul_le_mul_right (Nat.le_trans hle hc.1) hv
  have bound : ∀ {limit bytes v}, 0 < bytes → MinimalPrice p limit bytes v → Bounded p limit bytes v := by
    intro limit bytes v hb hm n h1 h2
    by_cases h : p.maxPubdataPerBlock ≤ limit * bytes
    · exact Nat.le_of_mul_le_mul_right (Nat.le_trans h1 h) hb
    · exact price (hm.2 (by omega)) h2
  obtain ⟨i, r, s, mi, mr, _, fi, fr, _⟩ := h.writes
  obtain ⟨m, mm, fm⟩ := h.messages
  refine ⟨fun v hv => ?_, fun v hv => ?_, fun v hv n hle => ?_⟩
  · rw [uniq hv mi]; exact bound hi fi
  · rw [uniq hv mr]; exact bound hr fr
  · rw [uniq hv mm] at hle; exact price fm hle

/-- C88: with the present parameters, read back from the text. -/
example : ∃ l, FairPrices current l ∧ ∀ v, ("L1_MESSAGE_MIN_COST_IN_ERGS", v) ∈ l →
    ∀ messages, messages * v ≤ current.maxTxErgsLimit → messages ≤ 512 := by
  have hs : Small current := ⟨by decide, by decide⟩
  obtain ⟨text, h⟩ := (C88_panics current hs).2 ⟨fun name c hc => (by decide : ∀ x ∈ capacitiesOf current,
    0 < x.2 ∧ current.ergsPerCircuit + x.2 < 2 ^ 32) (name, c) hc, by decide, by decide, by decide, by decide⟩
  obtain ⟨l, _, hl⟩ := C88_generated current hs text h
  exact ⟨l, hl, (C88_bounded current l hl (by decide) (by decide) (by decide)).2.2⟩

/-- C88: a build without overflow checks writes the same file whenever the one with checks does not panic. -/
theorem C88_release (p : Params) (text : String) (h : fileContent .debug p = .ok text) :
    fileContent .release p = .ok text := by
  obtain ⟨i, r, v1, v2, w, v3, v4, v5, v6, v7, v8, v9, v10, v11, v12, v13, v14, v15, hi, hr, h1, h2, hw, h3, h4, h5, h6,
      h7, h8, h9, h10, h11, h12, h13, h14, h15, ht⟩ := fileContent_ok.1 h
  exact fileContent_ok.2 ⟨i, r, v1, v2, w, v3, v4, v5, v6, v7, v8, v9, v10, v11, v12, v13, v14, v15,
    minPrice_release hi, minPrice_release hr, ceilDiv_release h1, ceilDiv_release h2, mulU32_release hw,
    ceilDiv_release h3, ceilDiv_release h4, ceilDiv_release h5, ceilDiv_release h6, ceilDiv_release h7,
    ceilDiv_release h8, ceilDiv_release h9, ceilDiv_release h10, ceilDiv_release h11, ceilDiv_release h12,
    ceilDiv_release h13, ceilDiv_release h14, ceilDiv_release h15, ht⟩

/-- C88: with the present parameters. -/
example : ∃ text, fileContent .debug current = .ok text ∧ fileContent .release current = .ok text := by
  obtain ⟨text, h⟩ := (C88_panics current ⟨by decide, by decide⟩).2 ⟨fun name c hc => (by decide : ∀ x ∈ capacitiesOf current,
    0 < x.2 ∧ current.ergsPerCircuit + x.2 < 2 ^ 32) (name, c) hc, by decide, by decide, by decide, by decide⟩
  exact ⟨text, h, C88_release current text h⟩

/-- C88 (finding): without overflow checks a larger transaction limit makes the generator write, without any sign of
trouble, a file in which L1 messages are free. -/
theorem C88_release_wrong : ∃ p text l, fileContent .release p = .ok text ∧ readPrices (asBytes text) = some l ∧
    ("L1_MESSAGE_MIN_COST_IN_ERGS", 0) ∈ l ∧ ¬ FairPrices p l ∧
    p = { current with maxTxErgsLimit := 2 ^ 32 - 1 } := by
  refine ⟨_, _, _, fileContent_ok.2 ⟨0, 0, 4, 1, 24200, 4, 678, 1, 1, 2, 1, 18, 11, 1, 0, 40, 7, 1112, by decide, by decide,
    by decide, by decide, by decide, by decide, by decide, by decide, by decide, by decide, by decide, by decide, by decide,
    by decide, by decide, by decide, by decide, by decide, rfl⟩, reads rfl,
    by simp [constsOf], fun h => ?_, rfl⟩
  obtain ⟨v, hv, hc⟩ := h.messages
  simp [constsOf] at hv
  subst hv
  have := hc.1
  rw [Nat.mul_zero] at this
  exact absurd this (by decide)

/-- C88: of the two numbers of pubdata bytes the generator sees the low 32 bits only, in every build. -/
theorem C88_cast (build : Build) (p : Params) (a b : Nat) :
    fileContent build { p with initialStorageWritePubdataBytes := a, repeatedStorageWritePubdataBytes := b } =
    fileContent build { p with initialStorageWritePubdataBytes := a % 2 ^ 32,
                               repeatedStorageWritePubdataBytes := b % 2 ^ 32 } := by
  simp only [fileContent, circuitPrices, minPriceForInitialPubdataWrite, minPriceForRepeatedPubdataWrite, Nat.mod_mod]

/-- C88 (finding): a number of pubdata bytes beyond 32 bits is therefore cut off without a panic even in a build with
overflow checks: the file charges for writes that the pubdata of a block bounds already. -/
theorem C88_cast_wrong : ∃ p text l, fileContent .debug p = .ok text ∧ readPrices (asBytes text) = some l ∧
    ("INITIAL_WRITES_PUBDATA_HASHER_MIN_COST_IN_ERGS", 17392) ∈ l ∧ ¬ FairPrices p l ∧
    p = { current with initialStorageWritePubdataBytes := 2 ^ 32 } := by
  refine ⟨_, _, _, fileContent_ok.2 ⟨17392, 0, 4, 1, 24200, 4, 678, 1, 1, 2, 1, 18, 11, 1, 156250, 40, 7, 1112, by decide,
    by decide, by decide, by decide, by decide, by decide, by decide, by decide, by decide, by decide, by decide, by decide,
    by decide, by decide, by decide, by decide, by decide, by decide, rfl⟩, reads rfl,
    by simp [constsOf], fun h => ?_, rfl⟩
  obtain ⟨i, r, s, hi, _, _, fi, _⟩ := h.writes
  simp [constsOf] at hi
  subst hi
  exact absurd (fi.1 (by decide)) (by decide)

/-- The present parameters are computable, and so are ones for which the minimal price of writes is not zero: a smaller
hasher circuit. -/
example : (∃ text, fileContent .debug current = .ok text) ∧
    (∃ text, fileContent .debug { current with limitForInitialWritesPubdataHasher := 1000 } = .ok text) ∧
    MinimalPrice { current with limitForInitialWritesPubdataHasher := 1000 } 1000 64 80000 := by
  refine ⟨(C88_panics _ ⟨by decide, by decide⟩).2 ?_, (C88_panics _ ⟨by decide, by decide⟩).2 ?_, ?_, fun _ => ?_⟩
  · exact ⟨fun name c hc => (by decide : ∀ x ∈ capacitiesOf current,
      0 < x.2 ∧ current.ergsPerCircuit + x.2 < 2 ^ 32) (name, c) hc, by decide, by decide, by decide, by decide⟩
  · exact ⟨fun name c hc => (by decide : ∀ x ∈ capacitiesOf { current with limitForInitialWritesPubdataHasher := 1000 },
      0 < x.2 ∧ current.ergsPerCircuit + x.2 < 2 ^ 32) (name, c) hc, by decide, by decide, by decide, by decide⟩
  · decide
  · exact isCeilDiv_div 80000000 1000 (by decide)

end ZkEvm.Props
