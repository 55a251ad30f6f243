import Verif.Model.DhtPacket
import Verif.Spec.DhtStore
import Verif.Spec.DhtBuckets

/-!
# How a member of a directory handles packets
-/

namespace Ouro.DhtPacket

/-- What a member sends: its id, a key in questions, one contact in what is to be stored, all of the length of the directory. -/
structure Complete (b : Nat) (m : Msg) : Prop where
  id : ∃ id, m.sId = some id ∧ id.length = b
  key : ∀ k, m.key = some k → k.length = b
  find : m.code = FIND_NODE ∨ m.code = FIND_VALUE → m.key ≠ none
  store : m.code = STORE → ∃ c, m.contacts = [c] ∧ c.1.length = b

/-- What a message stores. -/
def stores (x : Int × Msg) : Option DhtStore.Op :=
  if x.2.code = STORE then match x.2.contacts, x.2.tExpire with
    | [c], some t => some (.store x.1 t c.1 c.2)
    | _, _ => none
  else none

/-- The address `a` is stored for the key `k` by some message, until `t`. -/
def Stored (b addr : Nat) (ms : List (Int × Msg)) (k : List UInt8) (a : Nat) (t : Int) : Prop :=
  DhtStore.spec b addr (ms.filterMap stores) k a = some t

/-- The id with which the member with the address `a` was last heard of, by a member with the address `addr` and the id `me`. -/
def lastId (addr : Nat) (me : List UInt8) (ms : List (Int × Msg)) (a : Nat) : Option (List UInt8) :=
  match ms.reverse.find? (fun x => x.2.code ≠ JOIN ∧ x.2.sAddr = a) with
  | some x => x.2.sId
  | none => if a = addr then some me else none

/-- The messages of a directory of at most eight members. -/
structure Small (b addr : Nat) (A : List Nat) (ms : List (Int × Msg)) : Prop where
  nodup : A.Nodup
  few : A.length ≤ 8
  self : addr ∈ A
  from_ : ∀ x ∈ ms, x.2.sAddr ∈ A
  complete : ∀ x ∈ ms, Complete b x.2

/-- The directory has the members `M` (ids and addresses), at most eight; each was started, got messages of members only, and has last heard of all of them with their ids. -/
structure Meshed (b : Nat) (M : List (List UInt8 × Nat)) (net : Net) : Prop where
  few : M.length ≤ 8
  ids : (M.map (·.1)).Nodup
  addrs : (M.map (·.2)).Nodup
  len : ∀ c ∈ M, c.1.length = b
  pos : ∀ c ∈ M, c.2 ≠ 0
  node : ∀ c ∈ M, ∃ n0 ms, boot b c.2 c.1 = .ok n0 ∧ Small b c.2 (M.map (·.2)) ms ∧ run n0 ms = .ok (net c.2) ∧ ∀ d ∈ M, lastId c.2 c.1 ms d.2 = some d.1

/-- The responses a lookup gets are lists of members. -/
def FromMembers (M : List (List UInt8 × Nat)) (ops : List DhtLookup.Op) : Prop :=
  ∀ m, DhtLookup.Op.resp m ∈ ops → m.addrs = [] ∧ ∀ c ∈ m.contacts, c ∈ M

end Ouro.DhtPacket
