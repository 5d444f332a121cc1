import Verif.Model.Prices
import Verif.Model.Basic
/-! What is published of a block, byte by byte. Nothing in this file is a function of the crate; `src/system_params.rs:26-28`
only has the sizes. -/
namespace ZkEvm.Spec.Pubdata

/-- What can be published: a message to L1 with shard, service flag, number of its transaction, sender, key and value; the
first write of a storage slot, with the slot's key; a later one, with the number the slot was given. -/
inductive Published where
  | message (shard service : Byte) (tx : Vector Byte 2) (sender : Vector Byte 20) (key value : Vector Byte 32)
  | initial (key value : Vector Byte 32)
  | repeated (slot : Vector Byte 8) (value : Vector Byte 32)

/-- The bytes of it -/
def Published.bytes : Published → List Byte
  | .message shard service tx sender key value =>
    [shard, service] ++ tx.toList ++ sender.toList ++ key.toList ++ value.toList
  | .initial key value => key.toList ++ value.toList
  | .repeated slot value => slot.toList ++ value.toList

def Published.isMessage : Published → Bool
  | .message .. => true
  | _ => false

def Published.isInitial : Published → Bool
  | .initial .. => true
  | _ => false

def Published.isRepeated : Published → Bool
  | .repeated .. => true
  | _ => false

/-- Everything published of a block, one after the other -/
def published (ps : List Published) : List Byte := ps.flatMap Published.bytes

end ZkEvm.Spec.Pubdata
