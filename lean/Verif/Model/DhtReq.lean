import Verif.Model.Base

/-!
# Model of the requests of src/ipcpd/unicast/dir/dht.c

Questions to other members, the cookies that identify them, the list of requests waiting for a response, and the lookups the responses are for. The
threads of lookups, of the packet handler and the worker interleave between the regions protected by `dht->lock`; every operation is one such region.
A member that is running is assumed, and that memory does not run out. What a lookup does with contacts is in `Model/DhtLookup.lean`.
-/

namespace Ouro.DhtReq

/-- `DHT_MAX_REQS`, src/ipcpd/unicast/dir/dht.c:68. -/
def maxReqs : Nat := 2048

/-- How far a question is: cookie allocated, request listed, cookie known to the lookup, not sent
(src/ipcpd/unicast/dir/dht.c:1467-1540, 1675-1690). -/
inductive Stage where
  | allocated | listed | recorded | failed
  deriving DecidableEq, Repr

/-- A question: the lookup it is for, the address asked, its cookie (src/ipcpd/unicast/dir/dht.c:118-131, 1675-1684). -/
structure Q where
  lk : Nat
  addr : Nat
  cookie : Nat
  stage : Stage
  deriving DecidableEq, Repr

/-- `struct lookup`, src/ipcpd/unicast/dir/dht.c:139-155: key, cookies, addresses, and whether the state is `LU_COMPLETE`. -/
structure Lk where
  key : Nat
  cookies : List Nat
  addrs : List Nat
  complete : Bool
  deriving DecidableEq, Repr

/-- A response (src/ipcpd/unicast/dir/dht.c:1031-1046, 829-841). `ans` is not in the message: it is the number of the question the sender answers. -/
structure Resp where
  cookie : Nat
  addrs : List Nat
  ans : Nat
  deriving DecidableEq, Repr

/-- `struct dht`, src/ipcpd/unicast/dir/dht.c:224-259, as far as requests are concerned. `qs`: all questions so far; `reqs`: `dht->requests`, newest
first; `used`: `dht->cookies`; `lks`: `dht->lookups`, newest first; `lk`: the lookups by number; `hands`: responses whose request was found and
taken off the list and whose lookup is not yet sought; `given`: to which lookup which response was given. -/
structure St where
  qs : List Q
  reqs : List Nat
  used : Nat → Bool
  lks : List Nat
  lk : Nat → Lk
  n : Nat
  hands : List (Nat × Resp)
  given : List (Nat × Resp)

/-- A member without requests, src/ipcpd/unicast/dir/dht.c:2815-2838. -/
def init : St := ⟨[], [], fun _ => false, [], fun _ => ⟨0, [], [], false⟩, 0, [], []⟩

/-- The lowest free cookie: `bmp_allocate` on a bitmap made with `bmp_create(DHT_MAX_REQS, 1)`,
src/ipcpd/unicast/dir/dht.c:1492, 2836, src/lib/bitmap.c:141-154 (`C01`). -/
def freeCookie (used : Nat → Bool) : Option Nat := ((List.range maxReqs).map (· + 1)).find? (fun c => !used c)

/-- `bmp_release`, src/lib/bitmap.c:184-195: numbers outside are ignored, except that the one after the last clears a bit behind the array
(`C01`). -/
def release (used : Nat → Bool) (c : Nat) : Outcome (Nat → Bool) :=
  if c < 1 ∨ 1 + maxReqs < c then .ok used
  else if c = 1 + maxReqs then .ub
  else .ok fun x => if x = c then false else used x

/-- The cookie of question `q`, src/ipcpd/unicast/dir/dht.c:379, 1031-1046. -/
def St.cookie (s : St) (q : Nat) : Nat := match s.qs[q]? with
  | some x => x.cookie
  | none => 0

/-- `dht_find_lookup`, src/ipcpd/unicast/dir/dht.c:1048-1077: the first lookup of the list with that cookie. -/
def findLookup (s : St) (c : Nat) : Option Nat := s.lks.find? (fun l => c ∈ (s.lk l).cookies)

/-- `dht_find_lookup` takes the cookie off (1064-1068) and `lookup_update` does it again (815-822), then takes the addresses unless the lookup is
complete (824-841), src/ipcpd/unicast/dir/dht.c. The two are one region here; contacts are in `Model/DhtLookup.lean`. -/
def update (l : Lk) (m : Resp) : Lk :=
  let l := { l with cookies := (l.cookies.erase m.cookie).erase m.cookie }
  if l.complete then l
  else if m.addrs = [] then l
  else { l with addrs := if l.addrs = [] then m.addrs else l.addrs, complete := true }

/-- What threads do (src/ipcpd/unicast/dir/dht.c:405-524, 711-717, 1467-1540; the lines of each are at `step`). -/
inductive Op where
  /-- A lookup begins. -/
  | start (key : Nat)
  /-- A lookup asks an address: a cookie is allocated, the message goes out. -/
  | ask (l addr : Nat)
  /-- The message of question `q` could not be sent. -/
  | fail (q : Nat)
  /-- The request of `q` is put on the list. -/
  | list (q : Nat)
  /-- The cookie of `q` is put on the list of its lookup. -/
  | record (q : Nat)
  /-- A response arrives; its request is sought and taken off. -/
  | reply (m : Resp)
  /-- The lookup for the `i`-th response in hand is sought and updated. -/
  | deliver (i : Nat)
  /-- The worker gives up on the request of `q`. -/
  | expire (q : Nat)
  /-- The lookup has waited long enough or knows nobody else to ask. -/
  | close (l : Nat)
  /-- The lookup is taken off the list. -/
  | finish (l : Nat)
  /-- A response to somebody else, with their cookie, could not be sent. -/
  | respFail (cookie : Nat)
  deriving Repr

/-- Question `q` goes to stage `t`, src/ipcpd/unicast/dir/dht.c:1467-1540. -/
def setStage (s : St) (q : Nat) (t : Stage) : St := match s.qs[q]? with
  | some x => { s with qs := s.qs.set q { x with stage := t } }
  | none => s

/-- Lookup `l` becomes `v`, src/ipcpd/unicast/dir/dht.c:139-155. -/
def setLk (s : St) (l : Nat) (v : Lk) : St := { s with lk := fun x => if x = l then v else s.lk x }

/-- One region of one thread (src/ipcpd/unicast/dir/dht.c, lines at each case). Operations that are not possible in the state change nothing. -/
def step (s : St) : Op → Outcome St
  | .start key => /- src/ipcpd/unicast/dir/dht.c:711-717 -/
    .ok { setLk s s.n ⟨key, [], [], false⟩ with lks := s.n :: s.lks, n := s.n + 1 }
  | .ask l addr => /- src/ipcpd/unicast/dir/dht.c:1481-1499, 1675 -/
    if l ∈ s.lks then
      match freeCookie s.used with
      | none => .ok s
      | some c => .ok { s with qs := s.qs ++ [⟨l, addr, c, .allocated⟩], used := fun x => if x = c then true else s.used x }
    else .ok s
  | .fail q => /- src/ipcpd/unicast/dir/dht.c:1532-1537 -/
    match s.qs[q]? with
    | some x =>
      if x.stage = .allocated then do
        let u ← release s.used x.cookie
        .ok { setStage s q .failed with used := u }
      else .ok s
    | none => .ok s
  | .list q => /- src/ipcpd/unicast/dir/dht.c:1528-1529, 405-409 -/
    match s.qs[q]? with
    | some x => if x.stage = .allocated then .ok { setStage s q .listed with reqs := q :: s.reqs } else .ok s
    | none => .ok s
  | .record q => /- src/ipcpd/unicast/dir/dht.c:1684-1690 -/
    match s.qs[q]? with
    | some x =>
      if x.stage = .listed ∧ x.lk ∈ s.lks then
        let v := s.lk x.lk
        .ok (setLk (setStage s q .recorded) x.lk { v with cookies := v.cookies ++ [x.cookie] })
      else .ok s
    | none => .ok s
  | .reply m => /- src/ipcpd/unicast/dir/dht.c:2214-2225, 1031-1046 -/
    match s.reqs.find? (fun q => s.cookie q = m.cookie) with
    | none => .ok s
    | some q => do
      let u ← release s.used (s.cookie q)
      .ok { s with used := u, reqs := s.reqs.erase q, hands := (q, m) :: s.hands }
  | .deliver i => /- src/ipcpd/unicast/dir/dht.c:2181-2204, 2232-2237 -/
    match s.hands[i]? with
    | none => .ok s
    | some (_, m) =>
      let s := { s with hands := s.hands.eraseIdx i }
      match findLookup s m.cookie with
      | none => .ok s
      | some l => .ok { setLk s l (update (s.lk l) m) with given := s.given ++ [(l, m)] }
  | .expire q => /- src/ipcpd/unicast/dir/dht.c:2088-2098 -/
    if q ∈ s.reqs then do
      let u ← release s.used (s.cookie q)
      .ok { s with used := u, reqs := s.reqs.erase q }
    else .ok s
  | .close l => /- src/ipcpd/unicast/dir/dht.c:1021-1022, 897-898 -/
    .ok (setLk s l { s.lk l with complete := true })
  | .finish l => /- src/ipcpd/unicast/dir/dht.c:1699-1707 -/
    .ok { s with lks := s.lks.erase l }
  | .respFail c => /- src/ipcpd/unicast/dir/dht.c:1532-1537 -/ do
    let u ← release s.used c
    .ok { s with used := u }

/-- A run, src/ipcpd/unicast/dir/dht.c:1709-1757, 2206-2243. -/
def run (s : St) : List Op → Outcome St
  | [] => .ok s
  | op :: ops => do
    let s ← step s op
    run s ops

end Ouro.DhtReq
