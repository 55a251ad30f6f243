import Verif.Model.Base

/-!
# Model of a lookup in the directory (src/ipcpd/unicast/dir/dht.c)

The contacts of a lookup: how responses are merged and which contacts are asked next, and what `dht_query` makes of the answer. Every function is called with the lock of the lookup and is one step; a response
that waits until the lookup has sent its first requests is a step that is not enabled. Memory allocation does not fail.
-/

namespace Ouro.DhtLookup

/-- A contact in a lookup (`struct contact`, src/ipcpd/unicast/dir/dht.c:182-190): `fails` says if it has been asked. -/
structure Contact where
  id : List UInt8
  addr : Nat
  asked : Bool
deriving DecidableEq

/-- `KAD_ALPHA` (src/ipcpd/unicast/dir/dht.c:69). -/
def alpha : Nat := 3

/-- `KAD_K` (src/ipcpd/unicast/dir/dht.c:70). -/
def kadK : Nat := 8

/-- The number of a sequence of bytes, the first one the most significant (`betoh64`). [include/ouroboros/endian.h:63] -/
def be (l : List UInt8) : Nat := l.foldl (fun n x => n * 256 + x.toNat) 0

/-- `dist` (src/ipcpd/unicast/dir/dht.c:594-598): the first 64 bits of both ids. -/
def dist (src dst : List UInt8) : Nat := be (List.zipWith (· ^^^ ·) (src.take 8) (dst.take 8))

/-- `list_add_sorted` (src/ipcpd/unicast/dir/dht.c:600-620). -/
def addSorted (key : List UInt8) (c : Contact) : List Contact → List Contact
  | [] => [c]
  | e :: es => if dist c.id key > dist e.id key then c :: e :: es else e :: addSorted key c es

/-- The states of a lookup (`enum lookup_state`, src/ipcpd/unicast/dir/dht.c:109-116). -/
inductive LState where
  | init | pending | update | complete | destroy | null
deriving DecidableEq

/-- `struct lookup` (src/ipcpd/unicast/dir/dht.c:138-155). -/
structure Lookup where
  key : List UInt8
  contacts : List Contact
  n : Nat
  cookies : List Nat
  addrs : Option (List Nat)
  state : LState
deriving DecidableEq

/-- A response (`dht_msg_t`, src/ipcpd/unicast/dir/dht.c:61) of one of the requests of the lookup. -/
structure Msg where
  cookie : Nat
  addrs : List Nat
  contacts : List (List UInt8 × Nat)
deriving DecidableEq

/-- The search for the place of a contact (src/ipcpd/unicast/dir/dht.c:859-874): nothing if a contact with the same id is met before it. -/
def scan (key : List UInt8) (c : Contact) : List Contact → Option Nat
  | [] => some 0
  | e :: es => if e.id = c.id then none else if dist c.id key > dist e.id key then some 0 else (scan key c es).map (· + 1)

/-- One contact of a response (src/ipcpd/unicast/dir/dht.c:853-895). -/
def mergeOne (k : Nat) (lu : Lookup) (c : Contact) : Lookup × Bool := match scan lu.key c lu.contacts with
  | none => (lu, false)
  | some pos =>
    if lu.n < k then ({ lu with contacts := lu.contacts.insertIdx pos c, n := lu.n + 1 }, true)
    else if pos = k then (lu, false)
    else ({ lu with contacts := (lu.contacts.insertIdx pos c).dropLast }, true)

/-- The loop over the contacts of a response (src/ipcpd/unicast/dir/dht.c:853-895): the id is copied without looking at its length. -/
def merge (b k : Nat) : Lookup → List (List UInt8 × Nat) → Outcome (Lookup × Bool)
  | lu, [] => .ok (lu, false)
  | lu, (id, addr) :: cs =>
    if id.length < b then .ub
    else
      let r := mergeOne k lu ⟨id.take b, addr, false⟩
      match merge b k r.1 cs with
      | .ub => .ub
      | .ok r' => .ok (r'.1, r.2 || r'.2)

/-- `lookup_update` (src/ipcpd/unicast/dir/dht.c:796-905); nothing: it waits. -/
def lookupUpdate (b k : Nat) (lu : Lookup) (msg : Msg) : Option (Outcome Lookup) :=
  let lu := { lu with cookies := lu.cookies.erase msg.cookie }
  if lu.state = .complete then some (.ok lu)
  else if msg.addrs ≠ [] then some (.ok { lu with addrs := (match lu.addrs with | none => some msg.addrs | some a => some a), state := .complete })
  else if lu.state = .init then none
  else match merge b k lu msg.contacts with
    | .ub => some .ub
    | .ok (lu', mod) => some (.ok { lu' with state := if lu'.cookies = [] ∧ mod = false then .complete else .update })

/-- `lookup_get_addrs` (src/ipcpd/unicast/dir/dht.c:907-924) with the array of `KAD_K` addresses of `dht_query` (src/ipcpd/unicast/dir/dht.c:2393): the addresses in the array. -/
def getAddrs (lu : Lookup) : Outcome (List Nat) :=
  let l := lu.addrs.getD []
  if l.length ≤ kadK then .ok l else .ub

/-- `lookup_contact_addrs` (src/ipcpd/unicast/dir/dht.c:926-946). -/
def contactAddrs (lu : Lookup) : List Nat := lu.contacts.map (·.addr)

/-- The loop of `lookup_new_addrs` (src/ipcpd/unicast/dir/dht.c:960-970): `n` addresses can still be taken. -/
def takeNew : Nat → List Contact → List Nat × List Contact
  | _, [] => ([], [])
  | n, c :: cs =>
    if n = 0 then ([], c :: cs)
    else if c.asked = false then
      let r := takeNew (n - 1) cs
      (c.addr :: r.1, { c with asked := true } :: r.2)
    else
      let r := takeNew n cs
      (r.1, c :: r.2)

/-- `lookup_new_addrs` (src/ipcpd/unicast/dir/dht.c:948-977): the addresses up to the terminating 0. -/
def newAddrs (lu : Lookup) : List Nat × Lookup :=
  let r := takeNew alpha lu.contacts
  (r.1, { lu with contacts := r.2 })

/-- `kad_find` (src/ipcpd/unicast/dir/dht.c:1650-1697): the addresses that are sent a message, those up to the first that is 0, but for the own address. -/
def kadFind (self : Nat) (addrs : List Nat) : List Nat := (addrs.takeWhile (· ≠ 0)).filter (· ≠ self)

/-- `lookup_create` (src/ipcpd/unicast/dir/dht.c:675-730): the contacts in the order of `dht_contact_list` (src/ipcpd/unicast/dir/dht.c:646-668), the first `k` of those in the buckets. -/
def lookupCreate (k : Nat) (key : List UInt8) (found : List Contact) : Lookup :=
  let l := (found.take k).foldl (fun l c => addSorted key { c with asked := false } l) []
  ⟨key, l, l.length, [], none, .init⟩

/-- The end of `dht_query` (src/ipcpd/unicast/dir/dht.c:2420-2435), `self` is the address of the node. -/
def queryEnd (self : Nat) (lu : Lookup) : Outcome Nat := match getAddrs lu with
  | .ub => .ub
  | .ok [] => .ok 0
  | .ok (a :: as) => .ok (if a ≠ self then a else match as with | a' :: _ => a' | [] => 0)

/-- What can happen to a lookup. [src/ipcpd/unicast/dir/dht.c:1709-1757] -/
inductive Op where
  /-- requests are sent to new contacts, with these cookies -/
  | ask (cookies : List Nat)
  /-- a response arrives -/
  | resp (m : Msg)
  /-- the lookup waits -/
  | wait
  /-- and has waited long enough -/
  | timeout
deriving DecidableEq

/-- A lookup with the log of the contacts that were asked and of those that were seen. [src/ipcpd/unicast/dir/dht.c:138-155] -/
structure Sys where
  lu : Lookup
  asked : List Contact
  seen : List (List UInt8)
deriving DecidableEq

/-- The contacts that a call of `lookup_new_addrs` takes. [src/ipcpd/unicast/dir/dht.c:960-970] -/
def taken : Nat → List Contact → List Contact
  | _, [] => []
  | n, c :: cs => if n = 0 then [] else if c.asked = false then c :: taken (n - 1) cs else taken n cs

/-- One step. [src/ipcpd/unicast/dir/dht.c:796-1029] -/
def step (b k : Nat) (s : Sys) : Op → Option (Outcome Sys)
  /- src/ipcpd/unicast/dir/dht.c:1721-1741, 1650-1697 -/
  | .ask cookies => some (.ok { s with lu := { (newAddrs s.lu).2 with cookies := s.lu.cookies ++ cookies }, asked := s.asked ++ taken alpha s.lu.contacts })
  /- src/ipcpd/unicast/dir/dht.c:796-905 -/
  | .resp m => match lookupUpdate b k s.lu m with
    | none => none
    | some .ub => some .ub
    | some (.ok lu) => some (.ok { s with lu := lu, seen := s.seen ++ (if s.lu.state = .complete ∨ m.addrs ≠ [] then [] else m.contacts.map (fun c => c.1.take b)) })
  /- src/ipcpd/unicast/dir/dht.c:1011-1012 -/
  | .wait => some (.ok { s with lu := { s.lu with state := if s.lu.state = .init ∨ s.lu.state = .update then .pending else s.lu.state } })
  /- src/ipcpd/unicast/dir/dht.c:1021-1022 -/
  | .timeout => if s.lu.state = .pending then some (.ok { s with lu := { s.lu with state := .complete } }) else none

/-- A history. [src/ipcpd/unicast/dir/dht.c:1709-1757] -/
def run (b k : Nat) (s : Sys) : List Op → Option (Outcome Sys)
  | [] => some (.ok s)
  | op :: ops => match step b k s op with
    | none => none
    | some .ub => some .ub
    | some (.ok s') => run b k s' ops

/-- The start: the lookup as created. [src/ipcpd/unicast/dir/dht.c:1717] -/
def start (k : Nat) (key : List UInt8) (found : List Contact) : Sys := ⟨lookupCreate k key found, [], (found.take k).map (·.id)⟩

end Ouro.DhtLookup
