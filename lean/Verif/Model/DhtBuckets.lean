import Verif.Model.DhtLookup

/-!
# Model of the buckets of the directory (src/ipcpd/unicast/dir/dht.c)

The tree of buckets. A bucket is named by the bytes that lead to it from the root (`children[m]` of a bucket adds the byte `m`); `split` says which buckets have children. `n_contacts` and `n_alts` are the
lengths of the lists. Memory allocation does not fail. `KAD_BETA` is 8, so that the shifts in `iter_bucket` and `bucket_has_id` are by 0 and the masks are 0xFF. Times are left out.
-/

namespace Ouro.DhtBuckets

/-- `struct contact` (src/ipcpd/unicast/dir/dht.c:182-190). -/
structure Contact where
  id : List UInt8
  addr : Nat
  fails : Nat
deriving DecidableEq

/-- The name of a bucket. [src/ipcpd/unicast/dir/dht.c:204-205] -/
abbrev Path := List UInt8

/-- The lists of a `struct bucket` (src/ipcpd/unicast/dir/dht.c:192-206). -/
structure Bucket where
  contacts : List Contact
  alts : List Contact
deriving DecidableEq

/-- The members of `struct dht` (src/ipcpd/unicast/dir/dht.c:224-260) that are used here. -/
structure St where
  b : Nat
  k : Nat
  id : List UInt8
  split : Path → Bool
  bkt : Path → Bucket

/-- `iter_bucket` (src/ipcpd/unicast/dir/dht.c:561-580). -/
def walk (s : St) (id : List UInt8) (p : Path) : Outcome Path :=
  if s.split p = false then .ok p
  else if h : p.length < id.length then walk s id (p ++ [id[p.length]])
  else .ub
termination_by id.length - p.length
decreasing_by simp; omega

/-- `dht_get_bucket` (src/ipcpd/unicast/dir/dht.c:582-588). -/
def getBucket (s : St) (id : List UInt8) : Outcome Path := walk s id []

/-- `bucket_has_id` (src/ipcpd/unicast/dir/dht.c:1344-1361): the byte at the depth of the bucket is compared with `mask`, the last byte of its name. -/
def hasId (p : Path) (id : List UInt8) : Outcome Bool := match p.getLast? with
  | none => .ok true
  | some m => match id[p.length]? with
    | none => .ub
    | some x => .ok (x = m)

/-- The bucket `p` is replaced. [src/ipcpd/unicast/dir/dht.c:192-206] -/
def setBkt (s : St) (p : Path) (x : Bucket) : St := { s with bkt := fun q => if q = p then x else s.bkt q }

/-- The contacts of a bucket moved to its children (src/ipcpd/unicast/dir/dht.c:1378-1403): every child gets those with its byte after the depth of the bucket, the last one first. -/
def spread (s : St) (p : Path) : St :=
  { s with
    split := fun q => if q = p then true else if q.dropLast = p ∧ q ≠ [] then false else s.split q
    bkt := fun q => if q = p then ⟨[], (s.bkt p).alts⟩ else if q.dropLast = p ∧ q ≠ [] then ⟨((s.bkt p).contacts.filter (fun c => c.id[q.length]? = q.getLast?)).reverse, []⟩ else s.bkt q }

/-- `split_bucket` (src/ipcpd/unicast/dir/dht.c:1363-1410): the child that got all of the contacts is split again. There is a contact in the bucket, so that its byte is read. -/
def splitBucket (s : St) (p : Path) : Outcome St :=
  if p.length + 1 < s.b then
    match (s.bkt p).contacts with
    | [] => .ok (spread s p)
    | c :: cs => match c.id[p.length + 1]? with
      | none => .ub
      | some m => if cs.all (fun d => d.id[p.length + 1]? = some m) then splitBucket (spread s p) (p ++ [m]) else .ok (spread s p)
  else .ub
termination_by s.b - p.length
decreasing_by simp [spread]; omega

/-- `dht_update_bucket` (src/ipcpd/unicast/dir/dht.c:1413-1466): the id is copied without looking at its length. -/
def updateBucket (s : St) (id : List UInt8) (addr : Nat) : Outcome St := match getBucket s id with
  | .ub => .ub
  | .ok p =>
    if id.length < s.b then .ub
    else
      let c : Contact := ⟨id.take s.b, addr, 0⟩
      let cs := (s.bkt p).contacts.filter (fun d => d.addr ≠ addr)
      let alts := (s.bkt p).alts
      if cs.length = s.k then
        match hasId p s.id with
        | .ub => .ub
        | .ok true => splitBucket (setBkt s p ⟨cs ++ [c], alts⟩) p
        | .ok false =>
          if alts.length = s.k then .ok (setBkt s p ⟨cs, alts.tail ++ [c]⟩)
          else .ok (setBkt s p ⟨cs, alts ++ [c]⟩)
      else .ok (setBkt s p ⟨cs ++ [c], alts⟩)

/-- The alternatives that take the places in a bucket (src/ipcpd/unicast/dir/dht.c:1878-1885), each in front of the others. -/
def promote (k : Nat) : List Contact → List Contact → Bucket
  | cs, [] => ⟨cs, []⟩
  | cs, a :: as => if cs.length < k then promote k (a :: cs) as else ⟨cs, a :: as⟩

/-- `dht_dead_peer` (src/ipcpd/unicast/dir/dht.c:1853-1886): `key` is the key of the request, nothing for one that has no key (`NULL`). -/
def deadPeer (s : St) (key : Option (List UInt8)) (addr : Nat) : Outcome St :=
  match (match key with | some key => getBucket s key | none => if s.split [] then .ub else .ok []) with
  | .ub => .ub
  | .ok p =>
    let x := s.bkt p
    match x.contacts with
    | [] => .ok (setBkt s p (promote s.k [] x.alts))
    | c :: cs =>
      if (c :: cs).length + x.alts.length ≤ s.k then .ok (setBkt s p ⟨{ c with fails := c.fails + 1 } :: cs, x.alts⟩)
      else .ok (setBkt s p (promote s.k ((c :: cs).eraseP (fun d => d.addr = addr)) x.alts))

/-- The contacts that `dht_contact_list` (src/ipcpd/unicast/dir/dht.c:622-673) goes over: those of the bucket of the key if it is full or the root, else those of its siblings and itself. At most `k` of them are taken. -/
def contactList (s : St) (key : List UInt8) : Outcome (List Contact) := match getBucket s key with
  | .ub => .ub
  | .ok p =>
    if (s.bkt p).contacts.length = s.k ∨ p = [] then .ok ((s.bkt p).contacts.take s.k)
    else .ok (((List.range 256).flatMap (fun i => (s.bkt (p.dropLast ++ [UInt8.ofNat i])).contacts)).take s.k)

/-- What changes the buckets. [src/ipcpd/unicast/dir/dht.c:2556-2601] -/
inductive Op where
  /-- a message or a response from a node -/
  | update (id : List UInt8) (addr : Nat)
  /-- a node did not respond in time -/
  | dead (key : Option (List UInt8)) (addr : Nat)

/-- One step. [src/ipcpd/unicast/dir/dht.c:1413-1886] -/
def step (s : St) : Op → Outcome St
  /- src/ipcpd/unicast/dir/dht.c:1413-1466 -/
  | .update id addr => updateBucket s id addr
  /- src/ipcpd/unicast/dir/dht.c:1853-1886 -/
  | .dead key addr => deadPeer s key addr

/-- A history. [src/ipcpd/unicast/dir/dht.c:2438] -/
def run (s : St) : List Op → Outcome St
  | [] => .ok s
  | op :: ops => match step s op with
    | .ub => .ub
    | .ok s' => run s' ops

/-- The buckets at the start: an empty root (`bucket_create`, src/ipcpd/unicast/dir/dht.c:1287-1313). -/
def init (b k : Nat) (id : List UInt8) : St := ⟨b, k, id, fun _ => false, fun _ => ⟨[], []⟩⟩

end Ouro.DhtBuckets
