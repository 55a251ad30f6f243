import Verif.Model.DhtStore
import Verif.Model.DhtBuckets

/-!
# Model of how a member of a directory handles packets, src/ipcpd/unicast/dir/dht.c

`dht_handle_packet` for one unpacked message, on the storage of `DhtStore` and the buckets of `DhtBuckets`. What a response does to requests and lookups is in
`DhtReq` and `DhtJoin`; here it is a message from a member like others. Memory allocation does not fail; sending does not fail (`DhtReq` has the other case).
-/

namespace Ouro.DhtPacket

/-- `dht_msg_t` (src/ipcpd/unicast/dir/dht.proto:30-45). -/
structure Msg where
  code : Nat
  cookie : Nat
  sAddr : Nat
  sId : Option (List UInt8) := none
  key : Option (List UInt8) := none
  addrs : List Nat := []
  contacts : List (List UInt8 × Nat) := []
  alpha : Option Nat := none
  b : Option Nat := none
  k : Option Nat := none
  tExpire : Option Nat := none
  tRefresh : Option Nat := none
  tReplicate : Option Nat := none
  deriving DecidableEq

/-- `enum kad_code` (src/ipcpd/unicast/dir/dht.c:91-98). -/
def JOIN : Nat := 0
/-- `enum kad_code` (src/ipcpd/unicast/dir/dht.c:91-98). -/
def FIND_NODE : Nat := 1
/-- `enum kad_code` (src/ipcpd/unicast/dir/dht.c:91-98). -/
def FIND_VALUE : Nat := 2
/-- `enum kad_code` (src/ipcpd/unicast/dir/dht.c:91-98). -/
def STORE : Nat := 3
/-- `enum kad_code` (src/ipcpd/unicast/dir/dht.c:91-98). -/
def RESPONSE : Nat := 4

/-- `KAD_T_REFR` (src/ipcpd/unicast/dir/dht.c:72). -/
def tRefr : Nat := 900

/-- `KAD_T_REPL` (src/ipcpd/unicast/dir/dht.c:71). -/
def tRepl : Nat := 900

/-- A member: the members of `struct dht` (src/ipcpd/unicast/dir/dht.c:224-260) that are used here. `running` is what `dht_wait_running` finds in the end. The buckets
are made when the member is accepted. -/
structure Node where
  running : Bool
  b : Nat
  addr : Nat
  tExpire : Nat
  store : DhtStore.St
  bkts : Option DhtBuckets.St

/-- `dht_retrieve` (src/ipcpd/unicast/dir/dht.c:1904-1945) with the key of the message; without one, `NULL` is compared with the entries. -/
def retrieve (n : Node) : Option (List UInt8) → Outcome (List Nat)
  | some k => DhtStore.retrieve n.store k
  | none => if n.store.entries = [] then .ok [] else .ub

/-- `dht_get_contacts` (src/ipcpd/unicast/dir/dht.c:1947-1995): the contacts in the order of `list_add_sorted`; without a key, `NULL` is used to go down in the
tree and to compare two contacts. -/
def getContacts (s : DhtBuckets.St) : Option (List UInt8) → Outcome (List (List UInt8 × Nat))
  | some k => match DhtBuckets.contactList s k with
    | .ok l => .ok ((DhtLookup.lookupCreate s.k k (l.map fun c => ⟨c.id, c.addr, false⟩)).contacts.map fun c => (c.id, c.addr))
    | .ub => .ub
  | none => if s.split [] = true ∨ 2 ≤ ((s.bkt []).contacts.take s.k).length then .ub else .ok (((s.bkt []).contacts.take s.k).map fun c => (c.id, c.addr))

/-- The response to `KAD_JOIN` (src/ipcpd/unicast/dir/dht.c:2514-2547). -/
def joinResp (n : Node) (m r : Msg) : Msg :=
  if m.alpha.getD 0 ≠ DhtLookup.alpha ∨ m.k.getD 0 ≠ DhtLookup.kadK then r
  else if m.tReplicate.getD 0 ≠ tRepl then r
  else if m.tRefresh.getD 0 ≠ tRefr then r
  else { r with alpha := some DhtLookup.alpha, b := some n.b, k := some DhtLookup.kadK, tExpire := some n.tExpire, tRefresh := some tRefr, tReplicate := some tRepl }

/-- The `switch` of `dht_handle_packet` (src/ipcpd/unicast/dir/dht.c:2513-2582): the member and the response so far. -/
def switch (now : Int) (n : Node) (m r : Msg) : Outcome (Node × Msg) :=
  let find := match n.bkts with
    | some s => match getContacts s m.key with
      | .ok l => .ok (n, { r with contacts := l })
      | .ub => .ub
    | none => .ub
  if m.code = JOIN then .ok (n, joinResp n m r)
  else if m.code = FIND_VALUE then match retrieve n m.key with
    | .ok [] => find
    | .ok l => .ok (n, { r with addrs := l })
    | .ub => .ub
  else if m.code = FIND_NODE then find
  else if m.code = STORE then match DhtStore.storeMsg now n.store m.contacts (m.tExpire.map Int.ofNat) with
    | .ok s => .ok ({ n with store := s }, r)
    | .ub => .ub
  else .ok (n, r)

/-- `dht_update_bucket` with the sender (src/ipcpd/unicast/dir/dht.c:2584-2595); without an id, `NULL` is copied. The result says whether the handling goes on. -/
def learn (n : Node) (m : Msg) : Outcome (Node × Bool) :=
  if m.code = JOIN then .ok (n, true)
  else match n.bkts with
    | none => .ok (n, false)
    | some s => match m.sId with
      | none => .ub
      | some id => match DhtBuckets.updateBucket s id m.sAddr with
        | .ok s' => .ok ({ n with bkts := some s' }, true)
        | .ub => .ub

/-- The test of the key (src/ipcpd/unicast/dir/dht.c:2493-2497). -/
def badKey (n : Node) (m : Msg) : Bool := match m.key with
  | some k => k.length ≠ n.b
  | none => false

/-- The test of the id (src/ipcpd/unicast/dir/dht.c:2499-2504): not if the message has a `b`. -/
def badId (n : Node) (m : Msg) : Bool := match m.sId with
  | some id => m.b = none ∧ id.length ≠ n.b
  | none => false

/-- The body of the loop of `dht_handle_packet` (src/ipcpd/unicast/dir/dht.c:2479-2598) and what `send_msg` adds to the response (src/ipcpd/unicast/dir/dht.c:1482-1488):
the member afterwards and the response, which goes to the address in the message. -/
def handle (now : Int) (n : Node) (m : Msg) : Outcome (Node × Option Msg) :=
  if m.code ≠ RESPONSE ∧ n.running = false then .ok (n, none)
  else if badKey n m then .ok (n, none)
  else if badId n m then .ok (n, none)
  else match switch now n m { code := RESPONSE, cookie := m.cookie, sAddr := n.addr, sId := n.bkts.map (·.id) } with
    | .ub => .ub
    | .ok (n', r) => match learn n' m with
      | .ub => .ub
      | .ok (n'', go) => .ok (n'', if go = true ∧ m.code < STORE then some r else none)

/-- Messages one after the other. [src/ipcpd/unicast/dir/dht.c:2445-2620] -/
def run (n : Node) : List (Int × Msg) → Outcome Node
  | [] => .ok n
  | (now, m) :: ms => match handle now n m with
    | .ok (n', _) => run n' ms
    | .ub => .ub

/-- `dht_bootstrap` (src/ipcpd/unicast/dir/dht.c:2245-2296): a running member that knows itself. -/
def boot (b addr : Nat) (id : List UInt8) : Outcome Node :=
  match DhtBuckets.updateBucket (DhtBuckets.init b DhtLookup.kadK id) id addr with
  | .ok s => .ok ⟨true, b, addr, 86400, DhtStore.init b addr 0, some s⟩
  | .ub => .ub

/-- The members of a directory, by their addresses. [src/ipcpd/unicast/dir/dht.c:224-260] -/
abbrev Net := Nat → Node

/-- What `kad_store` (src/ipcpd/unicast/dir/dht.c:1616-1648) sends. -/
def storeMsgOf (n : Node) (key : List UInt8) (addr : Nat) : Msg :=
  { code := STORE, cookie := 0, sAddr := n.addr, sId := n.bkts.map (·.id), contacts := [(key, addr)], tExpire := some n.tExpire }

/-- The end of `kad_publish` (src/ipcpd/unicast/dir/dht.c:1790-1804): the member `a` publishes its address at the members with the addresses `l` (given last first);
each handles the message when it comes. -/
def publish (now : Int) (a : Nat) (key : List UInt8) (net : Net) : List Nat → Outcome Net
  | [] => .ok net
  | x :: l =>
    if x = a then match DhtStore.kadAdd now (net a).tExpire (net a).store [(key, a)] with
      | .ok s => publish now a key (fun y => if y = a then { net a with store := s } else net y) l
      | .ub => .ub
    else match handle now (net x) (storeMsgOf (net a) key a) with
      | .ok (n', _) => publish now a key (fun y => if y = x then n' else net y) l
      | .ub => .ub

/-- `dht_reg` (src/ipcpd/unicast/dir/dht.c:2312-2353) at the member `a`: a lookup with the contacts of the buckets, with any history `ops`, and the publication at the contacts it ends with. -/
def register (now : Int) (a : Nat) (key : List UInt8) (net : Net) (ops : List DhtLookup.Op) : Option (Outcome Net) := match (net a).bkts with
  | none => some .ub
  | some s => match DhtBuckets.contactList s key with
    | .ub => some .ub
    | .ok found => match DhtLookup.run s.b s.k (DhtLookup.start s.k key (found.map fun c => ⟨c.id, c.addr, false⟩)) ops with
      | none => none
      | some .ub => some .ub
      | some (.ok l) => some (publish now a key net (DhtLookup.contactAddrs l.lu).reverse)

end Ouro.DhtPacket
