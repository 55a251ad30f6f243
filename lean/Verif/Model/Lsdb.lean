import Verif.Model.Graph
import Verif.Model.FaMsg

/-!
# The link-state database (src/ipcpd/unicast/routing/link-state.c)

Every operation below runs under `ls.db_lock` in the code, so operations are atomic; a history is the order in which the lock was
taken. A received announcement and its forwarding are one operation (there is one reader thread; the set of neighbours may change
between the two critical sections, which changes only to whom the announcement goes). Writes on management flows are recorded as a list
of (flow, message). Allocation failure is not modelled. `set_pff_modified` is recorded as a counter of recalculation requests.
-/

namespace Ouro.Lsdb

open Ouro.Graph (Graph updateEdge delEdge)

/-- `struct adjacency` (src/ipcpd/unicast/routing/link-state.c:84-93). -/
structure Adj where
  dst : Nat
  src : Nat
  seqno : Nat
  stamp : Int
  deriving DecidableEq, Repr

/-- `struct nb` (src/ipcpd/unicast/routing/link-state.c:100-106). -/
structure Nb where
  addr : Nat
  fd : Int
  mgmt : Bool
  deriving DecidableEq, Repr

/-- `struct lsa` (src/ipcpd/unicast/routing/link-state.c:67-71). -/
structure Lsa where
  dst : Nat
  src : Nat
  seqno : Nat
  deriving DecidableEq, Repr

/-- The state `ls` (src/ipcpd/unicast/routing/link-state.c:108-128) with the address of the IPCP, the messages written so far and the
number of times the forwarding tables were marked for recalculation. -/
structure Ls where
  self : Nat
  nbs : List Nb
  nbsLen : Nat
  db : List Adj
  dbLen : Nat
  graph : Graph
  sent : List (Int × Lsa)
  dirty : Nat
  deriving DecidableEq, Repr

/-- LS_TIMEO (src/ipcpd/unicast/routing/link-state.c:59). -/
def timeo : Int := 60

/-- `link_state_init` (src/ipcpd/unicast/routing/link-state.c:953-990). -/
def init (self : Nat) : Ls :=
  { self := self, nbs := [], nbsLen := 0, db := [], dbLen := 0, graph := Graph.create, sent := [], dirty := 0 }

/-- An announcement on the wire (src/ipcpd/unicast/routing/link-state.c:586-588, 632-634). -/
def encode (m : Lsa) : List Byte := FaMsg.beBytes 8 m.dst ++ FaMsg.beBytes 8 m.src ++ FaMsg.beBytes 8 m.seqno

/-- An announcement read from the wire (src/ipcpd/unicast/routing/link-state.c:761-770): packets of another length are ignored. -/
def decode (b : List Byte) : Option Lsa :=
  if b.length ≠ 24 then none
  else some { dst := FaMsg.beVal (b.take 8), src := FaMsg.beVal ((b.drop 8).take 8), seqno := FaMsg.beVal (b.drop 16) }

/-- `lsdb_add_nb` (src/ipcpd/unicast/routing/link-state.c:324-351): the loop and the insertion; new list, result. -/
def addNbLoop (x : Nb) : List Nb → List Nb × Int
  | [] => ([x], 0)
  | el :: l =>
    if el.addr = x.addr ∧ el.mgmt = x.mgmt then ({ el with fd := x.fd } :: l, -EPERM)
    else if x.addr > el.addr then (x :: el :: l, 0)
    else (el :: (addNbLoop x l).1, (addNbLoop x l).2)

/-- `lsdb_add_nb` (src/ipcpd/unicast/routing/link-state.c:315-361). -/
def addNb (ls : Ls) (x : Nb) : Ls × Int :=
  ({ ls with nbs := (addNbLoop x ls.nbs).1, nbsLen := if (addNbLoop x ls.nbs).2 = 0 then ls.nbsLen + 1 else ls.nbsLen },
   (addNbLoop x ls.nbs).2)

/-- `lsdb_del_nb` (src/ipcpd/unicast/routing/link-state.c:363-387): the first entry with this address and flow is removed. -/
def delNb (ls : Ls) (addr : Nat) (fd : Int) : Ls × Int :=
  if ls.nbs.any (fun nb => nb.addr = addr ∧ nb.fd = fd) then
    ({ ls with nbs := ls.nbs.eraseP (fun nb => nb.addr = addr ∧ nb.fd = fd), nbsLen := ls.nbsLen - 1 }, 0)
  else (ls, -EPERM)

/-- `nbr_to_fd` (src/ipcpd/unicast/routing/link-state.c:389-408). -/
def nbrToFd (ls : Ls) (addr : Nat) : Int :=
  match ls.nbs.find? (fun nb => nb.addr = addr ∧ nb.mgmt = false) with
  | some nb => nb.fd
  | none => -1

/-- The loop of `lsdb_add_link` and the insertion (src/ipcpd/unicast/routing/link-state.c:485-512): new list, result, and whether an
entry was inserted. -/
def addAdj (x : Adj) : List Adj → List Adj × Int × Bool
  | [] => ([x], 0, true)
  | a :: l =>
    if a.dst = x.dst ∧ a.src = x.src then
      if a.seqno < x.seqno then ({ a with stamp := x.stamp, seqno := x.seqno } :: l, 0, false) else (a :: l, -1, false)
    else if a.dst > x.dst ∨ (a.dst = x.dst ∧ a.src > x.src) then (x :: a :: l, 0, true)
    else (a :: (addAdj x l).1, (addAdj x l).2)

/-- `lsdb_add_link` (src/ipcpd/unicast/routing/link-state.c:469-524). -/
def addLink (ls : Ls) (src dst seqno : Nat) (now : Int) : Ls × Int :=
  let r := addAdj { dst := dst, src := src, seqno := seqno, stamp := now } ls.db
  if r.2.2 then
    ({ ls with db := r.1, dbLen := ls.dbLen + 1, graph := updateEdge ls.graph src dst, dirty := ls.dirty + 1 }, 0)
  else ({ ls with db := r.1 }, r.2.1)

/-- `lsdb_del_link` (src/ipcpd/unicast/routing/link-state.c:526-553). -/
def delLink (ls : Ls) (src dst : Nat) : Outcome (Ls × Int) :=
  if ls.db.any (fun a => a.dst = dst ∧ a.src = src) then do
    let g ← delEdge ls.graph src dst
    return ({ ls with db := ls.db.eraseP (fun a => a.dst = dst ∧ a.src = src), dbLen := ls.dbLen - 1, graph := g.1,
                      dirty := ls.dirty + 1 }, 0)
  else .ok (ls, -EPERM)

/-- `send_lsm` (src/ipcpd/unicast/routing/link-state.c:579-595): to every management neighbour. -/
def sendLsm (nbs : List Nb) (m : Lsa) : List (Int × Lsa) := (nbs.filter (fun nb => nb.mgmt)).map (fun nb => (nb.fd, m))

/-- The loop of `lsupdate` (src/ipcpd/unicast/routing/link-state.c:656-675): remaining database, graph, messages. -/
def tickLoop (self : Nat) (nbs : List Nb) (now : Int) : List Adj → Graph → Outcome (List Adj × Graph × List (Int × Lsa))
  | [], g => .ok ([], g, [])
  | a :: l, g =>
    if now - a.stamp > timeo then do
      let r ← delEdge g a.src a.dst
      tickLoop self nbs now l r.1
    else if a.src = self then do
      let a' := { a with seqno := (a.seqno + 1) % 2 ^ 64, stamp := now }
      let r ← tickLoop self nbs now l g
      return (a' :: r.1, r.2.1, sendLsm nbs { dst := a'.dst, src := a'.src, seqno := a'.seqno } ++ r.2.2)
    else do
      let r ← tickLoop self nbs now l g
      return (a :: r.1, r.2.1, r.2.2)

/-- One round of `lsupdate` (src/ipcpd/unicast/routing/link-state.c:650-677). `db_len` stays as it is. -/
def tick (ls : Ls) (now : Int) : Outcome Ls := do
  let r ← tickLoop ls.self ls.nbs now ls.db ls.graph
  return { ls with db := r.1, graph := r.2.1, sent := ls.sent ++ r.2.2 }

/-- `forward_lsm` (src/ipcpd/unicast/routing/link-state.c:706-723): to every management neighbour but the one it came from. -/
def forward (nbs : List Nb) (m : Lsa) (inFd : Int) : List (Int × Lsa) :=
  (nbs.filter (fun nb => nb.mgmt ∧ nb.fd ≠ inFd)).map (fun nb => (nb.fd, m))

/-- One announcement handled by `lsreader` (src/ipcpd/unicast/routing/link-state.c:767-773). -/
def recv (ls : Ls) (fd : Int) (m : Lsa) (now : Int) : Ls :=
  let r := addLink ls m.src m.dst m.seqno now
  if r.2 ≠ 0 then r.1 else { r.1 with sent := r.1.sent ++ forward r.1.nbs m fd }

/-- One packet handled by `lsreader` (src/ipcpd/unicast/routing/link-state.c:761-773). -/
def recvPkt (ls : Ls) (fd : Int) (b : List Byte) (now : Int) : Ls :=
  match decode b with
  | some m => recv ls fd m now
  | none => ls

/-- `handle_event` with NOTIFY_DT_CONN_ADD (src/ipcpd/unicast/routing/link-state.c:818-831). -/
def dtAdd (ls : Ls) (addr : Nat) (fd now : Int) : Ls :=
  let ls := { ls with sent := ls.sent ++ sendLsm ls.nbs { dst := addr, src := ls.self, seqno := 0 } }
  let ls := (addNb ls { addr := addr, fd := fd, mgmt := false }).1
  (addLink ls ls.self addr 0 now).1

/-- `handle_event` with NOTIFY_DT_CONN_DEL (src/ipcpd/unicast/routing/link-state.c:832-840). -/
def dtDel (ls : Ls) (addr : Nat) (fd : Int) : Outcome Ls := do
  let ls := (delNb ls addr fd).1
  let r ← delLink ls ls.self addr
  return r.1

/-- `lsdb_replicate` (src/ipcpd/unicast/routing/link-state.c:598-639). -/
def replicate (ls : Ls) (fd : Int) : Ls :=
  { ls with sent := ls.sent ++ ls.db.map (fun a => (fd, { dst := a.dst, src := a.src, seqno := a.seqno })) }

/-- `handle_event` with NOTIFY_MGMT_CONN_ADD (src/ipcpd/unicast/routing/link-state.c:850-858). -/
def mgmtAdd (ls : Ls) (addr : Nat) (fd : Int) : Ls := replicate (addNb ls { addr := addr, fd := fd, mgmt := true }).1 fd

/-- `handle_event` with NOTIFY_MGMT_CONN_DEL (src/ipcpd/unicast/routing/link-state.c:859-863). -/
def mgmtDel (ls : Ls) (addr : Nat) (fd : Int) : Ls := (delNb ls addr fd).1

/-- What can happen to the database (src/ipcpd/unicast/routing/link-state.c:641-683, 730-780, 800-867). -/
inductive Op where
  | recv (fd : Int) (m : Lsa) (now : Int)
  | dtAdd (addr : Nat) (fd now : Int)
  | dtDel (addr : Nat) (fd : Int)
  | mgmtAdd (addr : Nat) (fd : Int)
  | mgmtDel (addr : Nat) (fd : Int)
  | tick (now : Int)
  deriving DecidableEq, Repr

/-- One operation (src/ipcpd/unicast/routing/link-state.c:641-683, 730-780, 800-867). -/
def step (ls : Ls) : Op → Outcome Ls
  | .recv fd m now => .ok (recv ls fd m now)
  | .dtAdd addr fd now => .ok (dtAdd ls addr fd now)
  | .dtDel addr fd => dtDel ls addr fd
  | .mgmtAdd addr fd => .ok (mgmtAdd ls addr fd)
  | .mgmtDel addr fd => .ok (mgmtDel ls addr fd)
  | .tick now => tick ls now

/-- A history (src/ipcpd/unicast/routing/link-state.c:641-683, 730-780, 800-867). -/
def run (ls : Ls) : List Op → Outcome Ls
  | [] => .ok ls
  | o :: os => do
    let ls ← step ls o
    run ls os

/-- The number of names `lsdb_rib_readdir` writes into its buffer, and the room it has
(src/ipcpd/unicast/routing/link-state.c:257-302). -/
def readdirNames (ls : Ls) : Nat × Nat := (ls.nbs.length + ls.db.length, ls.dbLen + ls.nbsLen)

end Ouro.Lsdb
