import Verif.Model.Lib
/-! Model of the code that fills and reads `std::collections::HashMap`/`HashSet`, over any implementation of maps
(`MapOps`), and of two implementations: hash tables with chaining, and open-addressed tables with tags and groups of
slots, as in the current standard library. Both take an arbitrary hash function (the randomly seeded one of `RandomState`)
and an arbitrary growth policy; the second also arbitrary tags and probe sequences. No entry is ever removed by the
crate, so removal is not modelled. -/
namespace ZkEvm.HashTable

variable {K V : Type} [BEq K]

/-- The buckets; `src/lib.rs:137,151` -/
structure Table (K V : Type) where
  buckets : List (List (K × V))

/-- When to grow: from the number of entries and of buckets, perhaps a new number of buckets (less one),
inside `insert`, `src/lib.rs:143,156` -/
abbrev Policy := Nat → Nat → Option Nat

/-- `HashMap::new()`, `src/lib.rs:137,151` -/
def new : Table K V := ⟨[[]]⟩

/-- `HashMap::get`, `HashSet::contains`, `src/lib.rs:139,153` -/
def get (hash : K → Nat) (t : Table K V) (k : K) : Option V :=
  match t.buckets[hash k % t.buckets.length]? with
  | some b => b.lookup k
  | none => none

/-- Insertion into one bucket: an existing entry of the key is replaced, inside `insert`, `src/lib.rs:143,156` -/
def put (k : K) (v : V) : List (K × V) → List (K × V)
  | [] => [(k, v)]
  | (k', v') :: rest => if k == k' then (k, v) :: rest else (k', v') :: put k v rest

/-- Insertion without growing, inside `insert`, `src/lib.rs:143,156` -/
def place (hash : K → Nat) (t : Table K V) (k : K) (v : V) : Table K V :=
  ⟨t.buckets.modify (hash k % t.buckets.length) (put k v)⟩

/-- Move all entries to `n + 1` new buckets, inside `insert`, `src/lib.rs:143,156` -/
def rehash (hash : K → Nat) (t : Table K V) (n : Nat) : Table K V :=
  t.buckets.flatten.foldl (fun t e => place hash t e.1 e.2) ⟨List.replicate (n + 1) []⟩

/-- `HashMap::insert`, `HashSet::insert`, `src/lib.rs:143,156`, `src/definitions/mod.rs:201,249,444,729` -/
def insert (hash : K → Nat) (policy : Policy) (t : Table K V) (k : K) (v : V) : Table K V :=
  match policy t.buckets.flatten.length t.buckets.length with
  | some n => place hash (rehash hash t n) k v
  | none => place hash t k v

/-- What the crate uses of a map or set: `new`, `insert` and `get` (`contains`), `src/lib.rs:137-156`,
`src/definitions/mod.rs:199-201,852-854` -/
structure MapOps (K V : Type) where
  State : Type
  new : State
  insert : State → K → V → State
  get : State → K → Option V

/-- Hash tables with chaining as an implementation of maps, `src/lib.rs:137-156` -/
def chaining (hash : K → Nat) (policy : Policy) : MapOps K V := ⟨Table K V, new, insert hash policy, get hash⟩

/-! Open addressing, as in the standard library: each slot is free or holds the tag of a key's hash, the key and the
value. The slots are visited in groups, in an order that depends on the hash and on the number of slots. -/

/-- The slots of a table; `src/lib.rs:137,151` -/
abbrev Slots (K V : Type) := List (Option (Nat × K × V))

/-- What the standard library leaves open: the hash function, the tags, and the groups of slots visited for a hash in a
table with that many slots (in `get` and `insert`, `src/lib.rs:139-156`) -/
structure Probing (K : Type) where
  hash : K → Nat
  tag : Nat → Nat
  groups : Nat → Nat → List (List Nat)

/-- Groups of `2 ^ w` neighbouring slots, at distances that grow by one group each time, in tables
with a power of two slots: the standard library's probe sequence, for `2 ^ w` its group width (in `get` and `insert`,
`src/lib.rs:139-156`; the library is not in the repository) -/
def triangular (hash : K → Nat) (tag : Nat → Nat) (w : Nat) : Probing K where
  hash := hash
  tag := tag
  groups h n :=
    if n = 2 ^ n.log2 then
      (List.range n).map fun k => (List.range (2 ^ w)).map fun j => (h + 2 ^ w * (k * (k + 1) / 2) + j) % n
    else [List.range n]

/-- The slot holds this key, under this tag (inside `get`, `src/lib.rs:139,153`) -/
def holds (slots : Slots K V) (tag : Nat) (k : K) (i : Nat) : Bool :=
  match slots[i]? with
  | some (some (tag', k', _)) => tag' == tag && k' == k
  | _ => false

/-- The slot is free (inside `get` and `insert`, `src/lib.rs:139-156`) -/
def free (slots : Slots K V) (i : Nat) : Bool :=
  match slots[i]? with
  | some none => true
  | _ => false

/-- Search for a key, group by group, up to the first group with a free slot (inside `get` and `insert`,
`src/lib.rs:139-156`) -/
def search (slots : Slots K V) (tag : Nat) (k : K) : List (List Nat) → Option Nat
  | [] => none
  | g :: rest =>
    match g.find? (holds slots tag k) with
    | some i => some i
    | none => if g.any (free slots) then none else search slots tag k rest

/-- Search along the key's own probe sequence (inside `get` and `insert`, `src/lib.rs:139-156`) -/
def Probing.find (p : Probing K) (slots : Slots K V) (k : K) : Option Nat :=
  search slots (p.tag (p.hash k)) k (p.groups (p.hash k) slots.length)

/-- `HashMap::get`, `HashSet::contains`, `src/lib.rs:139,153` -/
def openGet (p : Probing K) (slots : Slots K V) (k : K) : Option V :=
  match p.find slots k with
  | none => none
  | some i =>
    match slots[i]? with
    | some (some e) => some e.2.2
    | _ => none

/-- Insertion without growing: into the slot of the key, or else the first free slot on its way (inside `insert`,
`src/lib.rs:143,156`) -/
def openPlace (p : Probing K) (slots : Slots K V) (k : K) (v : V) : Slots K V :=
  match p.find slots k with
  | some i => slots.set i (some (p.tag (p.hash k), k, v))
  | none =>
    match (p.groups (p.hash k) slots.length).flatten.find? (free slots) with
    | some i => slots.set i (some (p.tag (p.hash k), k, v))
    | none => slots

/-- The entries of a table (inside `insert`, `src/lib.rs:143,156`) -/
def entries (slots : Slots K V) : List (K × V) := slots.filterMap (·.map Prod.snd)

/-- Move all entries to a table with `n` slots more than are needed for them and one more entry (inside `insert`,
`src/lib.rs:143,156`) -/
def openRehash (p : Probing K) (slots : Slots K V) (n : Nat) : Slots K V :=
  (entries slots).foldl (fun t e => openPlace p t e.1 e.2) (List.replicate ((entries slots).length + 1 + n) none)

/-- `HashMap::insert`, `HashSet::insert`: the table grows when the policy says so, and when there is no free slot;
`src/lib.rs:143,156`, `src/definitions/mod.rs:201,249,444,729` -/
def openInsert (p : Probing K) (policy : Policy) (slots : Slots K V) (k : K) (v : V) : Slots K V :=
  match policy (entries slots).length slots.length with
  | some n => openPlace p (openRehash p slots n) k v
  | none => openPlace p (if slots.any (·.isNone) then slots else openRehash p slots 0) k v

/-- Open-addressed tables as an implementation of maps; a new one has no slots; `src/lib.rs:137-156` -/
def openAddressing (p : Probing K) (policy : Policy) : MapOps K V := ⟨Slots K V, [], openInsert p policy, openGet p⟩

/-- The loop of `OPCODE_TO_CANONICAL_INDEX_LOOKUP_MAP` over a map, `src/lib.rs:150-161` (`value` is the
identity) and of `OPCODE_TO_MONOTONIC_INDEX_NUMBER_MAP`, `src/lib.rs:136-148` (`value` and `number` are `from_usize` and
`into_usize`) -/
def mapLoop (M : MapOps OpcodeVariant V) (value : Nat → V) (number : V → Nat)
    (table : List OpcodeVariant) (result : M.State) (idx : Nat) : List OpcodeVariant → Res M.State
  | [] => .ok result
  | el :: rest =>
    match M.get result el with
    | some existing => do
      rassert ((← index table (number existing)) == INVALID_OPCODE_VARIANT)
      mapLoop M value number table result (idx + 1) rest
    | none => mapLoop M value number table (M.insert result el (value idx)) (idx + 1) rest

/-- The duplicate name checks with a `HashSet<&'static str>`, `src/definitions/mod.rs:199-209` (the same code at 247-257,
442-452, 727-737) -/
def namesLoop (M : MapOps String Unit) (seen : M.State) : List DynOpcode → Res Unit
  | [] => .ok ()
  | o :: os =>
    match M.get seen o.name with
    | some _ => .error .explicitPanic
    | none => namesLoop M (M.insert seen o.name ()) os

/-- `HashSet::from_iter`, `src/definitions/mod.rs:852` -/
def setOf (M : MapOps K Unit) (l : List K) : M.State := l.foldl (fun t k => M.insert t k ()) M.new

/-- The sanity check of `find_new_opcodes` with its `HashSet`, `src/definitions/mod.rs:851-868` -/
def sanityLoop (M : MapOps OpcodeVariant Unit) (set : M.State) (new : List OpcodeVariant) :
    List OpcodeVariant → Res Unit
  | [] => .ok ()
  | el :: rest =>
    if (M.get set el).isNone && !new.any (fun n => semanticallyEqual n el) then .error .assertFailed
    else sanityLoop M set new rest

end ZkEvm.HashTable
