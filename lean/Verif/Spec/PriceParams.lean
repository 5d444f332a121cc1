import Verif.Model.PriceGenerator
import Verif.Spec.PriceFile
import Verif.Spec.History
/-! What a file of circuit prices has to say, for arbitrary capacities of circuits and limits of blocks and
transactions. -/
namespace ZkEvm.Spec
open PriceGenerator

/-- Units of work one circuit takes, for each price computed from a circuit's capacity. A round of the decommitter
outputs two words, and words are charged for. -/
def capacitiesOf (p : Params) : List (String × Nat) := [
  ("VM_CYCLE_COST_IN_ERGS", p.cyclesPerVmSnapshot),
  ("RAM_PERMUTATION_COST_IN_ERGS", p.cyclesPerRamPermutation),
  ("CODE_DECOMMITMENT_COST_PER_WORD_IN_ERGS", 2 * p.cyclesPerCodeDecommitter),
  ("STORAGE_APPLICATION_COST_IN_ERGS", p.cyclesPerStorageApplication),
  ("CODE_DECOMMITTER_SORTER_COST_IN_ERGS", p.cyclesForCodeDecommitterSorter),
  ("LOG_DEMUXER_COST_IN_ERGS", p.cyclesForLogDemuxer),
  ("STORAGE_SORTER_COST_IN_ERGS", p.cyclesForStorageSorter),
  ("EVENTS_OR_L1_MESSAGES_SORTER_COST_IN_ERGS", p.cyclesForEventsOrL1MessagesSorter),
  ("INITIAL_WRITES_PUBDATA_HASHER_COST_IN_ERGS", p.limitForInitialWritesPubdataHasher),
  ("REPEATED_WRITES_PUBDATA_HASHER_COST_IN_ERGS", p.limitForRepeatedWritesPubdataHasher),
  ("CODE_DECOMMITMENT_SORTER_COST_IN_ERGS", p.cyclesForCodeDecommitterSorter),
  ("KECCAK256_CIRCUIT_COST_IN_ERGS", p.cyclesPerKeccak256Circuit),
  ("SHA256_CIRCUIT_COST_IN_ERGS", p.cyclesPerSha256Circuit),
  ("ECRECOVER_CIRCUIT_COST_IN_ERGS", p.cyclesPerEcrecoverCircuit)]

/-- Writes that publish `bytes` each and cost at least `price` each cannot outnumber `limit`: neither the pubdata of a
block nor the ergs of a transaction allow it. -/
def Bounded (p : Params) (limit bytes price : Nat) : Prop :=
  ∀ writes, writes * bytes ≤ p.maxPubdataPerBlock → writes * price ≤ p.maxTxErgsLimit → writes ≤ limit

/-- A minimal price of writes: free if the pubdata of a block bounds their number already, otherwise the least price
at which `limit` of them take all ergs of a transaction. -/
def MinimalPrice (p : Params) (limit bytes price : Nat) : Prop :=
  (p.maxPubdataPerBlock ≤ limit * bytes → price = 0) ∧
  (limit * bytes < p.maxPubdataPerBlock → IsCeilDiv p.maxTxErgsLimit limit price)

/-- The prices `l`, as pairs of name and value, are right for the parameters. -/
structure FairPrices (p : Params) (l : List (String × Nat)) : Prop where
  /-- the names are those of the crate, in the order of the file -/
  names : l.map Prod.fst = priceConstants.map Prod.fst
  /-- each price per unit is the least one at which a full circuit is paid for -/
  circuits : ∀ name c, (name, c) ∈ capacitiesOf p → ∃ v, (name, v) ∈ l ∧ IsCeilDiv p.ergsPerCircuit c v
  /-- the least price at which the messages of one circuit take all ergs of a transaction -/
  messages : ∃ v, ("L1_MESSAGE_MIN_COST_IN_ERGS", v) ∈ l ∧
    IsCeilDiv p.maxTxErgsLimit p.limitForL1MessagesMerklizer v
  /-- minimal prices of writes, and the larger of them -/
  writes : ∃ i r s, ("INITIAL_WRITES_PUBDATA_HASHER_MIN_COST_IN_ERGS", i) ∈ l ∧
    ("REPEATED_WRITES_PUBDATA_HASHER_MIN_COST_IN_ERGS", r) ∈ l ∧ ("STORAGE_WRITE_HASHER_MIN_COST_IN_ERGS", s) ∈ l ∧
    MinimalPrice p p.limitForInitialWritesPubdataHasher p.initialStorageWritePubdataBytes i ∧
    MinimalPrice p p.limitForRepeatedWritesPubdataHasher p.repeatedStorageWritePubdataBytes r ∧
    i ≤ s ∧ r ≤ s ∧ (s = i ∨ s = r)

/-- The two numbers of pubdata bytes, machine words in the crate, fit the 32 bits the generator casts them to. The other
parameters are 32-bit numbers. -/
def Small (p : Params) : Prop :=
  p.initialStorageWritePubdataBytes < 2 ^ 32 ∧ p.repeatedStorageWritePubdataBytes < 2 ^ 32

/-- The generator's arithmetic stays within 32 bits, and nothing is divided by zero. -/
structure Computable (p : Params) : Prop where
  circuits : ∀ name c, (name, c) ∈ capacitiesOf p → 0 < c ∧ p.ergsPerCircuit + c < 2 ^ 32
  decommitter : 2 * p.cyclesPerCodeDecommitter < 2 ^ 32
  messages : 0 < p.limitForL1MessagesMerklizer ∧ p.maxTxErgsLimit + p.limitForL1MessagesMerklizer < 2 ^ 32
  initial : p.limitForInitialWritesPubdataHasher * p.initialStorageWritePubdataBytes < 2 ^ 32 ∧
    (p.limitForInitialWritesPubdataHasher * p.initialStorageWritePubdataBytes < p.maxPubdataPerBlock →
      p.maxTxErgsLimit + p.limitForInitialWritesPubdataHasher < 2 ^ 32)
  repeated : p.limitForRepeatedWritesPubdataHasher * p.repeatedStorageWritePubdataBytes < 2 ^ 32 ∧
    (p.limitForRepeatedWritesPubdataHasher * p.repeatedStorageWritePubdataBytes < p.maxPubdataPerBlock →
      p.maxTxErgsLimit + p.limitForRepeatedWritesPubdataHasher < 2 ^ 32)

end ZkEvm.Spec
