import Verif.Model.Base

/-!
# Model of the storage of the directory (src/ipcpd/unicast/dir/dht.c)

The entries of a node: `kad_add`, `dht_del`, `dht_retrieve`, the part of `dht_query` that looks in the own entries, and the pass of the worker over the entries. Times are integers. Memory allocation
does not fail. The worker releases the lock to publish a value; here a pass is one step, and what is published is an output (a value that is published to the node itself is a later `store`).
A message with contacts is the contacts as they are unpacked. `assert` does nothing.
-/

namespace Ouro.DhtStore

/-- A key, of `dht->b` bytes (`key` of `struct dht_entry`, src/ipcpd/unicast/dir/dht.c:177). -/
abbrev Key := List UInt8

/-- `struct val` (src/ipcpd/unicast/dir/dht.c:157-164). -/
structure Val where
  addr : Nat
  exp : Int
  rep : Int
deriving DecidableEq

/-- `struct dht_entry` (src/ipcpd/unicast/dir/dht.c:174-180). -/
structure Entry where
  key : Key
  n : Nat
  vals : List Val
deriving DecidableEq

/-- The members of `struct dht` (src/ipcpd/unicast/dir/dht.c:224-260) that are used here. `replic` is never assigned in the code. -/
structure St where
  b : Nat
  self : Nat
  tExpire : Int
  replic : Int
  entries : List Entry
deriving DecidableEq

/-- `KAD_T_REPL` (src/ipcpd/unicast/dir/dht.c:71). -/
def tRepl : Int := 900

/-- `dht_find_entry` (src/ipcpd/unicast/dir/dht.c:1542-1554). -/
def findEntry (es : List Entry) (k : Key) : Option Entry := es.find? (fun e => e.key = k)

/-- Replace or remove the first entry with a key. [src/ipcpd/unicast/dir/dht.c:1547-1551] -/
def onFirst (k : Key) (f : Entry → Option Entry) : List Entry → List Entry
  | [] => []
  | e :: es => if e.key = k then (match f e with | some e' => e' :: es | none => es) else e :: onFirst k f es

/-- The loop of `dht_entry_add_addr` (src/ipcpd/unicast/dir/dht.c:1191-1201): the first value with the address, if it would expire earlier. -/
def bump (now exp : Int) (a : Nat) : List Val → List Val
  | [] => []
  | v :: vs => if v.addr = a then (if v.exp < now + exp then { v with exp := now + exp, rep := now + tRepl } else v) :: vs else v :: bump now exp a vs

/-- `dht_entry_add_addr` (src/ipcpd/unicast/dir/dht.c:1181-1211). -/
def addAddr (now exp : Int) (a : Nat) (e : Entry) : Entry :=
  if e.vals.any (fun v => v.addr = a) then { e with vals := bump now exp a e.vals }
  else { e with n := e.n + 1, vals := ⟨a, now + exp, now + tRepl⟩ :: e.vals }

/-- The body of the loop of `kad_add` (src/ipcpd/unicast/dir/dht.c:1565-1585): a key that is shorter than `b` is only logged, and read past its end. -/
def addOne (now exp : Int) (s : St) (c : List UInt8 × Nat) : Outcome St :=
  if c.1.length < s.b then .ub
  else
    let k := c.1.take s.b
    match findEntry s.entries k with
    | some _ => .ok { s with entries := onFirst k (fun e => some (addAddr now exp c.2 e)) s.entries }
    | none => .ok { s with entries := addAddr now exp c.2 ⟨k, 0, []⟩ :: s.entries }

/-- `kad_add` (src/ipcpd/unicast/dir/dht.c:1556-1593): from the last contact to the first. -/
def kadAdd (now exp : Int) (s : St) (cs : List (List UInt8 × Nat)) : Outcome St := cs.reverse.foldlM (addOne now exp) s

/-- A `KAD_STORE` message (src/ipcpd/unicast/dir/dht.c:2562-2575): `kad_add` is given the first contact as if it were an array, but the contacts are behind an array of pointers. -/
def storeMsg (now : Int) (s : St) (cs : List (List UInt8 × Nat)) (exp : Option Int) : Outcome St := match cs, exp with
  | [], _ => .ok s
  | _, none => .ok s
  | [c], some e => kadAdd now e s [c]
  | _ :: _ :: _, some _ => .ub

/-- `dht_entry_del_addr` (src/ipcpd/unicast/dir/dht.c:1214-1235). -/
def delAddr (a : Nat) (e : Entry) : Option Entry :=
  let vals := e.vals.filter (fun v => v.addr ≠ a)
  let n := e.n - (e.vals.length - vals.length)
  if n = 0 then none else some { e with n := n, vals := vals }

/-- `dht_del` (src/ipcpd/unicast/dir/dht.c:1888-1902), and what `dht_unreg` (src/ipcpd/unicast/dir/dht.c:2355-2385) does to the entries. -/
def del (s : St) (k : Key) (a : Nat) : St := { s with entries := onFirst k (delAddr a) s.entries }

/-- The values of an entry in a pass of the worker (src/ipcpd/unicast/dir/dht.c:2065-2085). -/
def passVals (now replic : Int) (vs : List Val) : List Val :=
  (vs.filter (fun v => ¬ now > v.exp)).map (fun v => if now > v.rep then { v with rep := now + replic } else v)

/-- What a pass publishes (src/ipcpd/unicast/dir/dht.c:2075-2084): key, address and time to live. -/
def passOut (now : Int) (es : List Entry) : List (Key × Nat × Int) :=
  es.flatMap (fun e => ((e.vals.filter (fun v => ¬ now > v.exp)).filter (fun v => now > v.rep)).map (fun v => (e.key, v.addr, now)))

/-- The pass of `work` over the entries (src/ipcpd/unicast/dir/dht.c:2057-2086). -/
def pass (now : Int) (s : St) : St × List (Key × Nat × Int) :=
  ({ s with entries := s.entries.map (fun e => { e with vals := passVals now s.replic e.vals }), tExpire := if passOut now s.entries = [] then s.tExpire else now }, passOut now s.entries)

/-- `dht_retrieve` (src/ipcpd/unicast/dir/dht.c:1904-1945): `DHT_RETR_ADDR` is 1; if there is a value by the count and none in the list, the address is memory that was not initialised. -/
def retrieve (s : St) (k : Key) : Outcome (List Nat) := match findEntry s.entries k with
  | none => .ok []
  | some e => if e.n = 0 then .ok [] else match e.vals with
    | [] => .ub
    | v :: _ => .ok [v.addr]

/-- `dht_entry_get_addr` (src/ipcpd/unicast/dir/dht.c:1237-1252) in `dht_query` (src/ipcpd/unicast/dir/dht.c:2405-2412): 0 is no address. -/
def getAddr (s : St) (k : Key) : Nat := match findEntry s.entries k with
  | none => 0
  | some e => match e.vals.find? (fun v => v.addr ≠ s.self) with
    | some v => v.addr
    | none => 0

/-- Operations. [src/ipcpd/unicast/dir/dht.c:2557-2575] -/
inductive Op where
  /-- `kad_add` with one contact, from a message or from `kad_publish` -/
  | store (now exp : Int) (id : List UInt8) (addr : Nat)
  /-- `dht_unreg` -/
  | unreg (k : Key)
  /-- a pass of the worker -/
  | pass (now : Int)
deriving DecidableEq

/-- One operation. [src/ipcpd/unicast/dir/dht.c:1556-2086] -/
def step (s : St) : Op → Outcome St
  /- src/ipcpd/unicast/dir/dht.c:1556-1593 -/
  | .store now exp id addr => kadAdd now exp s [(id, addr)]
  /- src/ipcpd/unicast/dir/dht.c:2355-2385 -/
  | .unreg k => .ok (del s k s.self)
  /- src/ipcpd/unicast/dir/dht.c:2057-2086 -/
  | .pass now => .ok (pass now s).1

/-- `dht_create` and `dht_bootstrap` (src/ipcpd/unicast/dir/dht.c:2811-2883, 2245-2296). -/
def init (b self : Nat) (replic : Int) : St := ⟨b, self, 86400, replic, []⟩

/-- A history. [src/ipcpd/unicast/dir/dht.c:2009] -/
def run (s : St) (ops : List Op) : Outcome St := ops.foldlM step s

end Ouro.DhtStore
