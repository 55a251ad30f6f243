import Verif.Model.Base
import Verif.Model.Errno
import Verif.Model.Utils
import Verif.Model.Bitmap

/-!
# Model of the registry of the IRM daemon, `src/irmd/reg/`

One definition per function of `reg.c`, `flow.c`, `name.c`, `proc.c`, `prog.c` and `ipcp.c`. Every public function of
`reg.c` runs under the mutex `reg.mtx`, so a call is one atomic step; the functions that wait on the condition variable
are split at the wait: `...Start` is the part before the first wait, `...Wake` is one turn of the loop after a wake-up
(the caller says whether the timed wait returned `ETIMEDOUT`; spurious wake-ups are allowed).

A failing `assert`, and the use of a flow that was freed, are `Outcome.ub`.

Simplified throughout: memory allocation and the creation of shared memory objects succeed; time stamps (`t0`) are left
out; process ids are natural numbers; the counters `n_procs`, `n_progs`, `n_active` of a name and `n_names` of a
process or program are left out (each is incremented and decremented together with its list); `pthread_cond_broadcast`
has no effect of its own because a waiter may wake at any time.
-/

namespace Ouro.Registry

/-- A C string (its characters up to the NUL), as the `char` arrays of include/ouroboros/name.h:36-39. -/
abbrev Str := List Char

/-- `assert`, as used throughout src/irmd/reg/reg.c:80. -/
def assert (b : Bool) : Outcome Unit := if b then .ok () else .ub

/-- `EEXIST` (errno.h), returned at src/irmd/reg/reg.c:945. -/
def EEXIST : Int := 17

/-- `strcmp(a, b) > 0` for C strings: lexicographic order, used at src/irmd/reg/reg.c:243, 425. -/
def strGt : Str → Str → Bool
  | [], _ => false
  | _ :: _, [] => true
  | a :: as, b :: bs => if a = b then strGt as bs else decide (b.toNat < a.toNat)

/-- `list_add(&x, p)` where `p` is the first entry with `gt`, or the list head if there is none
(src/irmd/reg/reg.c:108-122 and the like): insertion just after that entry, or at the front. -/
def addAfter {α : Type} (gt : α → Bool) (x : α) (l : List α) : List α :=
  if l.any gt then l.takeWhile (fun e => !gt e) ++ (l.dropWhile (fun e => !gt e)).take 1 ++ [x] ++
    (l.dropWhile (fun e => !gt e)).drop 1
  else x :: l

/-- `enum flow_state`, include/ouroboros/flow.h:30-39 (without the two values the registry never stores). -/
inductive FState where
  | init | allocPending | acceptPending | allocated | deallocPending | deallocated
  deriving Repr, DecidableEq

/-- `struct flow_info`, include/ouroboros/flow.h:41-52. `cypher` is `qs.cypher_s`, `qs` stands for the rest of the QoS spec. -/
structure FlowInfo where
  id : Int
  npid : Nat
  n1pid : Nat
  mpl : Nat
  qs : Nat
  cypher : Nat
  state : FState
  deriving Repr, DecidableEq

/-- `struct reg_flow`, src/irmd/reg/flow.h:36-46. `ptr` stands for the address of the structure (never reused in the
model, so a stale pointer is recognised); `nRb`/`n1Rb` say whether the two packet rings exist; `data` is `none` for `{NULL, 0}`. -/
structure Flow where
  ptr : Nat
  info : FlowInfo
  nRb : Bool
  n1Rb : Bool
  data : Option Nat
  deriving Repr, DecidableEq

/-- `enum pol_balance`, include/ouroboros/name.h:29-33. -/
inductive Pol where
  | rr | spill | invalid
  deriving Repr, DecidableEq

/-- `struct reg_name`, src/irmd/reg/name.h:31-44. `progs` holds the argument vectors of `struct prog_entry`. -/
structure Name where
  name : Str
  pol : Pol
  progs : List (List Str)
  procs : List Nat
  active : List Nat
  deriving Repr, DecidableEq

/-- `struct reg_proc`, src/irmd/reg/proc.h:30-39. -/
structure Proc where
  pid : Nat
  prog : Str
  names : List Str
  deriving Repr, DecidableEq

/-- `struct reg_prog`, src/irmd/reg/prog.h:31-38. -/
structure Prog where
  name : Str
  path : Str
  names : List Str
  deriving Repr, DecidableEq

/-- `enum ipcp_state`, include/ouroboros/ipcp.h:35-43. -/
inductive IState where
  | init | boot | operational | bootstrapped | enrolled | shutdown | null
  deriving Repr, DecidableEq

/-- `struct ipcp_info`, include/ouroboros/ipcp.h:55-60. -/
structure IpcpInfo where
  type : Nat
  pid : Nat
  name : Str
  state : IState
  deriving Repr, DecidableEq

/-- `struct layer_info` with the fields the registry uses, include/ouroboros/ipcp.h:119-122. -/
structure Layer where
  name : Str
  algo : Nat
  deriving Repr, DecidableEq

/-- `struct reg_ipcp`, src/irmd/reg/ipcp.h:29-35. -/
structure Ipcp where
  info : IpcpInfo
  layer : Layer
  deriving Repr, DecidableEq

/-- `reg`, src/irmd/reg/reg.c:47-69, and `fresh`, the next unused address for a flow. -/
structure Reg where
  ids : Bitmap.Bmp
  flows : List Flow
  nFlows : Nat
  ipcps : List Ipcp
  nIpcps : Nat
  names : List Name
  nNames : Nat
  procs : List Proc
  nProcs : Nat
  progs : List Prog
  nProgs : Nat
  spawned : List Nat
  nSpawned : Nat
  fresh : Nat
  deriving Repr, DecidableEq

/-- `SYS_MAX_FLOWS`, src/lib/CMakeLists.txt:156 (default of the build). -/
def SYS_MAX_FLOWS : Nat := 10240

/-- `reg_init`, src/irmd/reg/reg.c:535-582. -/
def init : Outcome Reg := do
  let b ← Bitmap.create (SYS_MAX_FLOWS - 1) 1
  return { ids := b, flows := [], nFlows := 0, ipcps := [], nIpcps := 0, names := [], nNames := 0, procs := [],
           nProcs := 0, progs := [], nProgs := 0, spawned := [], nSpawned := 0, fresh := 0 }

/-! ## `flow.c` -/

/-- `reg_flow_create`, src/irmd/reg/flow.c:36-64. -/
def flowCreate (ptr : Nat) (info : FlowInfo) : Outcome Flow := do
  assert (0 < info.id)
  assert (info.npid != 0)
  assert (info.n1pid == 0)
  assert (info.mpl == 0)
  assert (info.state == .init)
  return { ptr, info, nRb := false, n1Rb := false, data := none }

/-- `destroy_rbuffs`, src/irmd/reg/flow.c:66-75. -/
def destroyRbuffs (f : Flow) : Flow := { f with nRb := false, n1Rb := false }

/-- `reg_flow_destroy`, src/irmd/reg/flow.c:77-98 (the flow is freed afterwards). -/
def flowDestroy (f : Flow) : Outcome Unit := do
  let f1 := if f.info.state == .acceptPending then { f with data := none } else f
  let f2 := destroyRbuffs f1
  assert (!f2.nRb)
  assert (!f2.n1Rb)
  assert (f2.data == none)

/-- `create_rbuffs`, src/irmd/reg/flow.c:100-124. -/
def createRbuffs (f : Flow) (info : FlowInfo) : Outcome Flow := do
  let f1 := { f with nRb := true }
  assert (f1.info.n1pid == 0)
  assert (!f1.n1Rb)
  return { f1 with info := { f1.info with n1pid := info.n1pid }, n1Rb := true }

/-- `reg_flow_update`, src/irmd/reg/flow.c:126-181: the new flow (whose `info` is copied to the caller). -/
def flowUpdate (f : Flow) (info : FlowInfo) : Outcome Flow := do
  assert (f.info.id == info.id)
  let g ← (match info.state with
    | .acceptPending => do
      assert (f.info.state == .init)
      return { f with info := { f.info with npid := info.npid } }
    | .allocPending => do
      assert (f.info.state == .init)
      assert (info.n1pid != 0)
      createRbuffs f info
    | .allocated => do
      assert (info.n1pid != 0)
      assert (f.info.state == .allocPending || f.info.state == .acceptPending)
      assert (f.info.npid != 0)
      assert (info.mpl != 0)
      let f1 := { f with info := { f.info with mpl := info.mpl } }
      if f1.info.state == .allocPending then return f1
      else
        let f2 := { f1 with info := { f1.info with qs := info.qs, cypher := info.cypher } }
        createRbuffs f2 info
    | .deallocated => return destroyRbuffs f
    | .deallocPending => return f
    | .init => .ub)
  return { g with info := { g.info with state := info.state } }

/-- `reg_flow_set_data`, src/irmd/reg/flow.c:183-192. -/
def flowSetData (f : Flow) (buf : Option Nat) : Outcome Flow := do
  assert (f.data == none)
  return { f with data := buf }

/-- `reg_flow_get_data`, src/irmd/reg/flow.c:194-203. -/
def flowGetData (f : Flow) : Flow × Option Nat := ({ f with data := none }, f.data)

/-! ## `name.c` -/

/-- `reg_name_create`, src/irmd/reg/name.c:57-83. -/
def nameCreate (name : Str) (pol : Pol) : Name := { name, pol, progs := [], procs := [], active := [] }

/-- `reg_name_destroy`, src/irmd/reg/name.c:85-100. -/
def nameDestroy (n : Name) : Outcome Unit := do
  assert n.progs.isEmpty
  assert n.procs.isEmpty
  assert n.active.isEmpty

/-- `reg_name_has_proc`, src/irmd/reg/name.c:137-153, 295-299. -/
def nameHasProc (n : Name) (pid : Nat) : Outcome Bool := do
  assert (0 < pid)
  return n.procs.any (· == pid)

/-- `reg_name_add_active`, src/irmd/reg/name.c:173-216. -/
def nameAddActive (n : Name) (pid : Nat) : Outcome Name := do
  assert (0 < pid)
  let b ← nameHasProc n pid
  assert b
  match n.pol with
  | .rr => return { n with active := n.active ++ [pid] }
  | .spill => return { n with active := pid :: n.active }
  | .invalid => .ub

/-- `reg_name_del_active`, src/irmd/reg/name.c:218-232: the first entry with this pid is removed. -/
def nameDelActive (n : Name) (pid : Nat) : Outcome Name := do
  assert (0 < pid)
  return { n with active := n.active.erase pid }

/-- `reg_name_get_active`, src/irmd/reg/name.c:234-242. -/
def nameGetActive (n : Name) : Int :=
  match n.active with
  | [] => -1
  | p :: _ => p

/-- `reg_name_add_proc`, src/irmd/reg/name.c:244-270. -/
def nameAddProc (n : Name) (pid : Nat) : Outcome Name := do
  let b ← nameHasProc n pid
  assert (!b)
  return { n with procs := pid :: n.procs }

/-- `reg_name_del_proc`, src/irmd/reg/name.c:272-293: all active entries go first (`__reg_name_del_all_active`, 120-135). -/
def nameDelProc (n : Name) (pid : Nat) : Outcome Name := do
  let b ← nameHasProc n pid
  if !b then return n
  else
    let m := { n with active := n.active.filter (· != pid), procs := n.procs.erase pid }
    let b' ← nameHasProc m pid
    assert (!b')
    return m

/-- `__reg_name_get_prog`, src/irmd/reg/name.c:155-171, as a test on `exec[0]` of an entry. -/
def execIs (prog : Str) (e : List Str) : Bool := e.head? == some prog

/-- `reg_name_has_prog`, src/irmd/reg/name.c:360-367. -/
def nameHasProg (n : Name) (prog : Str) : Bool := n.progs.any (execIs prog)

/-- `reg_name_add_prog`, src/irmd/reg/name.c:302-337. -/
def nameAddProg (n : Name) (exec : List Str) : Outcome Name := do
  assert (!(nameHasProg n (exec.headD [])))
  return { n with progs := exec :: n.progs }

/-- `reg_name_del_prog`, src/irmd/reg/name.c:339-358. -/
def nameDelProg (n : Name) (prog : Str) : Outcome Name := do
  if !nameHasProg n prog then return n
  else
    let m := { n with progs := n.progs.eraseP (execIs prog) }
    assert (!nameHasProg m prog)
    return m

/-- `reg_name_get_exec`, src/irmd/reg/name.c:369-375. -/
def nameGetExec (n : Name) : Option (List Str) := n.progs.head?

/-! ## `proc.c` and `prog.c` -/

/-- `reg_proc_has_name`, src/irmd/reg/proc.c:115-128, 179-183. -/
def procHasName (p : Proc) (name : Str) : Bool := p.names.any (· == name)

/-- `reg_proc_add_name`, src/irmd/reg/proc.c:130-159. -/
def procAddName (p : Proc) (name : Str) : Outcome Proc := do
  assert (!procHasName p name)
  return { p with names := name :: p.names }

/-- `reg_proc_del_name`, src/irmd/reg/proc.c:161-177. -/
def procDelName (p : Proc) (name : Str) : Outcome Proc := do
  if !procHasName p name then return p
  else
    let q := { p with names := p.names.erase name }
    assert (!procHasName q name)
    return q

/-- `reg_prog_has_name`, src/irmd/reg/prog.c:106-119, 170-174. -/
def progHasName (p : Prog) (name : Str) : Bool := p.names.any (· == name)

/-- `reg_prog_add_name`, src/irmd/reg/prog.c:121-150. -/
def progAddName (p : Prog) (name : Str) : Outcome Prog := do
  assert (!progHasName p name)
  return { p with names := name :: p.names }

/-- `reg_prog_del_name`, src/irmd/reg/prog.c:152-168. -/
def progDelName (p : Prog) (name : Str) : Outcome Prog := do
  if !progHasName p name then return p
  else
    let q := { p with names := p.names.erase name }
    assert (!progHasName q name)
    return q

/-! ## Lookups of `reg.c` -/

/-- `__reg_get_flow`, src/irmd/reg/reg.c:76-90. -/
def getFlow (s : Reg) (id : Int) : Outcome (Option Flow) := do
  assert (1 ≤ id)
  return s.flows.find? (fun f => f.info.id == id)

/-- `__reg_get_accept_flow`, src/irmd/reg/reg.c:92-106. -/
def getAcceptFlow (s : Reg) (pid : Nat) : Option Flow :=
  s.flows.find? (fun f => f.info.state == .acceptPending && f.info.npid == pid)

/-- `__reg_get_ipcp`, src/irmd/reg/reg.c:124-138. -/
def getIpcp (s : Reg) (pid : Nat) : Outcome (Option Ipcp) := do
  assert (0 < pid)
  return s.ipcps.find? (fun i => i.info.pid == pid)

/-- `__reg_get_ipcp_by_layer`, src/irmd/reg/reg.c:140-152. -/
def getIpcpByLayer (s : Reg) (layer : Str) : Option Ipcp := s.ipcps.find? (fun i => i.layer.name == layer)

/-- `__reg_get_name`, src/irmd/reg/reg.c:170-184. -/
def getName (s : Reg) (name : Str) : Option Name := s.names.find? (fun n => n.name == name)

/-- `__reg_get_name_by_hash`, src/irmd/reg/reg.c:186-211. `hash` is `str_hash` for the algorithm of the caller. -/
def getNameByHash (s : Reg) (hash : Str → Nat) (h : Nat) : Option Name := s.names.find? (fun n => hash n.name == h)

/-- `__reg_get_pending_flow_id_for_hash`, src/irmd/reg/reg.c:213-232. -/
def pendingFor (s : Reg) (hash : Str → Nat) (h : Nat) : Outcome Int :=
  match getNameByHash s hash h with
  | none => .ok (-ENAME)
  | some n =>
    let pid := nameGetActive n
    if pid < 0 then .ok (-EAGAIN)
    else
      match getAcceptFlow s pid.toNat with
      | none => .ub
      | some f => .ok f.info.id

/-- `__reg_get_proc`, src/irmd/reg/reg.c:250-262. -/
def getProc (s : Reg) (pid : Nat) : Option Proc := s.procs.find? (fun p => p.pid == pid)

/-- `__reg_get_spawned`, src/irmd/reg/reg.c:330-342. -/
def getSpawned (s : Reg) (pid : Nat) : Option Nat := s.spawned.find? (· == pid)

/-- `__reg_get_prog`, src/irmd/reg/reg.c:377-389. -/
def getProg (s : Reg) (name : Str) : Option Prog := s.progs.find? (fun p => p.name == name)

/-! ## Updates in place

The C code changes the entry it has found; the model replaces the entries with the same key. -/

/-- Store of a changed flow; the C code writes through the pointer, e.g. src/irmd/reg/reg.c:1653. -/
def setFlow (s : Reg) (f : Flow) : Reg := { s with flows := s.flows.map (fun g => if g.ptr = f.ptr then f else g) }

/-- Store of a changed name, e.g. src/irmd/reg/reg.c:1269. -/
def setName (s : Reg) (n : Name) : Reg := { s with names := s.names.map (fun m => if m.name = n.name then n else m) }

/-- Store of a changed process, e.g. src/irmd/reg/reg.c:1274. -/
def setProc (s : Reg) (p : Proc) : Reg := { s with procs := s.procs.map (fun q => if q.pid = p.pid then p else q) }

/-- Store of a changed program, e.g. src/irmd/reg/reg.c:1497. -/
def setProg (s : Reg) (p : Prog) : Reg := { s with progs := s.progs.map (fun q => if q.name = p.name then p else q) }

/-- Store of a changed IPCP, e.g. src/irmd/reg/reg.c:1571. -/
def setIpcp (s : Reg) (i : Ipcp) : Reg :=
  { s with ipcps := s.ipcps.map (fun j => if j.info.pid = i.info.pid then i else j) }

/-- `list_for_each` with a body that changes each entry and may fail an assertion, e.g. src/irmd/reg/reg.c:436-440. -/
def mapM' {α : Type} (f : α → Outcome α) : List α → Outcome (List α)
  | [] => .ok []
  | a :: l => do
    let b ← f a
    let m ← mapM' f l
    return b :: m

/-- `__reg_del_name_from_procs`, src/irmd/reg/reg.c:432-441. -/
def delNameFromProcs (s : Reg) (name : Str) : Outcome Reg := do
  let l ← mapM' (fun p => procDelName p name) s.procs
  return { s with procs := l }

/-- `__reg_del_name_from_progs`, src/irmd/reg/reg.c:443-452. -/
def delNameFromProgs (s : Reg) (name : Str) : Outcome Reg := do
  let l ← mapM' (fun p => progDelName p name) s.progs
  return { s with progs := l }

/-- The loop of `__reg_proc_update_names`, src/irmd/reg/reg.c:465-473: the new names and the new process entry. -/
def updateNames (prog : Prog) : Proc → List Name → Outcome (Proc × List Name)
  | p, [] => .ok (p, [])
  | p, n :: l => do
    let b ← nameHasProc n p.pid
    assert (!b)
    if progHasName prog n.name then
      let p' ← procAddName p n.name
      let n' ← nameAddProc n p.pid
      let (q, m) ← updateNames prog p' l
      return (q, n' :: m)
    else
      let (q, m) ← updateNames prog p l
      return (q, n :: m)

/-- `__reg_proc_update_names`, src/irmd/reg/reg.c:454-474. -/
def procUpdateNames (s : Reg) (p : Proc) : Outcome (Proc × Reg) := do
  assert p.names.isEmpty
  match getProg s p.prog with
  | none => return (p, s)
  | some prog =>
    let (q, l) ← updateNames prog p s.names
    return (q, { s with names := l })

/-- `__reg_del_proc_from_names`, src/irmd/reg/reg.c:476-485. -/
def delProcFromNames (s : Reg) (pid : Nat) : Outcome Reg := do
  let l ← mapM' (fun n => nameDelProc n pid) s.names
  return { s with names := l }

/-- `__reg_del_prog_from_names`, src/irmd/reg/reg.c:487-496. -/
def delProgFromNames (s : Reg) (prog : Str) : Outcome Reg := do
  let l ← mapM' (fun n => nameDelProg n prog) s.names
  return { s with names := l }

/-- `__reg_add_active_proc`, src/irmd/reg/reg.c:498-520 (`reg_name_add_active` fails only without memory). -/
def addActiveProc (s : Reg) (pid : Nat) : Outcome Reg := do
  assert (0 < pid)
  let l ← mapM' (fun n => do
    let b ← nameHasProc n pid
    if b then nameAddActive n pid else return n) s.names
  return { s with names := l }

/-- `__reg_del_active_proc`, src/irmd/reg/reg.c:522-533. -/
def delActiveProc (s : Reg) (pid : Nat) : Outcome Reg := do
  assert (0 < pid)
  let l ← mapM' (fun n => nameDelActive n pid) s.names
  return { s with names := l }

/-- `__reg_cancel_flows_for_proc`, src/irmd/reg/reg.c:303-328: only the state is changed. -/
def cancelFlows (s : Reg) (pid : Nat) : Reg :=
  { s with flows := s.flows.map (fun f =>
      if f.info.npid = pid ∧ (f.info.state = .allocPending ∨ f.info.state = .acceptPending)
      then { f with info := { f.info with state := .deallocated } } else f) }

/-! ## Public functions -/

/-- What a call gives back to its caller (the return value and the output parameters of the functions of
src/irmd/reg/reg.h:34-146). -/
inductive Out where
  | int (r : Int)
  | bool (b : Bool)
  /-- the caller stays blocked on the condition variable -/
  | waiting
  /-- the flow structure a waiter holds a pointer to -/
  | ptr (p : Nat)
  | flow (r : Int) (info : FlowInfo) (data : Option Nat)
  | ipcp (r : Int) (i : Option Ipcp)
  | exec (r : Int) (e : Option (List Str))
  | names (l : List (Str × Pol))
  | ipcps (l : List Ipcp)
  deriving Repr, DecidableEq

/-- `reg_create_flow`, src/irmd/reg/reg.c:669-706. -/
def createFlow (s : Reg) (info : FlowInfo) : Outcome (Reg × Out) := do
  assert (info.id == 0)
  assert (info.npid != 0)
  assert (info.state == .init)
  let (b, id) ← Bitmap.allocate s.ids
  if !Bitmap.isIdValid b id then
    return ({ s with ids := b }, .flow (-1) { info with id := id } none)
  else
    let info' := { info with id := id }
    let f ← flowCreate s.fresh info'
    return ({ s with ids := b, flows := addAfter (fun g => decide (g.info.id > id)) f s.flows, nFlows := s.nFlows + 1,
                     fresh := s.fresh + 1 }, .flow 0 info' none)

/-- `reg_destroy_flow`, src/irmd/reg/reg.c:708-738. -/
def destroyFlow (s : Reg) (id : Int) : Outcome (Reg × Out) := do
  match ← getFlow s id with
  | none => return (s, .int (-1))
  | some f =>
    let (b, _) ← Bitmap.release s.ids id
    flowDestroy f
    return ({ s with flows := s.flows.filter (fun g => g.ptr != f.ptr), nFlows := s.nFlows - 1, ids := b }, .int 0)

/-- `reg_has_flow`, src/irmd/reg/reg.c:740-751. -/
def hasFlow (s : Reg) (id : Int) : Outcome (Reg × Out) := do
  let f ← getFlow s id
  return (s, .bool f.isSome)

/-- `reg_create_ipcp`, src/irmd/reg/reg.c:753-799 with `reg_ipcp_create`, src/irmd/reg/ipcp.c:38-65. -/
def createIpcp (s : Reg) (info : IpcpInfo) : Outcome (Reg × Out) := do
  assert (info.pid != 0)
  assert (info.state == .boot)
  match ← getIpcp s info.pid with
  | some _ => return (s, .int (-1))
  | none =>
    let i : Ipcp := { info, layer := { name := "Not enrolled.".toList, algo := 0 } }
    return ({ s with ipcps := addAfter (fun j => decide (j.info.pid > info.pid)) i s.ipcps,
                     spawned := addAfter (fun p => decide (p > info.pid)) info.pid s.spawned,
                     nIpcps := s.nIpcps + 1, nSpawned := s.nSpawned + 1 }, .int 0)

/-- `reg_update_ipcp`, src/irmd/reg/reg.c:801-825: the entry is destroyed while it is still in the list, which fails
the assertion of `reg_ipcp_destroy` (src/irmd/reg/ipcp.c:71). -/
def updateIpcp (s : Reg) (info : IpcpInfo) : Outcome (Reg × Out) := do
  match ← getIpcp s info.pid with
  | none => return (s, .int (-1))
  | some _ => .ub

/-- `reg_has_ipcp`, src/irmd/reg/reg.c:827-838. -/
def hasIpcp (s : Reg) (pid : Nat) : Outcome (Reg × Out) := do
  let i ← getIpcp s pid
  return (s, .bool i.isSome)

/-- `reg_list_ipcps`, src/irmd/reg/reg.c:872-916. The array has `n_ipcps` cells. -/
def listIpcps (s : Reg) : Outcome (Reg × Out) := do
  if s.nIpcps = 0 then return (s, .ipcps [])
  else
    assert (s.ipcps.length == s.nIpcps)
    return (s, .ipcps s.ipcps)

/-- `reg_create_name`, src/irmd/reg/reg.c:918-951. -/
def createName (s : Reg) (name : Str) (pol : Pol) : Outcome (Reg × Out) :=
  match getName s name with
  | some _ => .ok (s, .int (-EEXIST))
  | none => .ok ({ s with names := addAfter (fun n => strGt n.name name) (nameCreate name pol) s.names,
                          nNames := s.nNames + 1 }, .int 0)

/-- `reg_destroy_name`, src/irmd/reg/reg.c:953-981. -/
def destroyName (s : Reg) (name : Str) : Outcome (Reg × Out) :=
  match getName s name with
  | none => .ok (s, .int (-1))
  | some n => do
    let s1 ← delNameFromProcs s name
    let s2 ← delNameFromProgs s1 name
    nameDestroy n
    return ({ s2 with names := s2.names.filter (fun m => m.name != n.name), nNames := s2.nNames - 1 }, .int 0)

/-- `reg_has_name`, src/irmd/reg/reg.c:983-994. -/
def hasName (s : Reg) (name : Str) : Outcome (Reg × Out) := .ok (s, .bool (getName s name).isSome)

/-- `reg_list_names`, src/irmd/reg/reg.c:1020-1062 (the unset output pointer of an empty registry is read as empty). -/
def listNames (s : Reg) : Outcome (Reg × Out) := do
  if s.nNames = 0 then return (s, .names [])
  else
    assert (s.names.length == s.nNames)
    return (s, .names (s.names.map (fun n => (n.name, n.pol))))

/-- `reg_create_proc`, src/irmd/reg/reg.c:1064-1098. -/
def createProc (s : Reg) (pid : Nat) (prog : Str) : Outcome (Reg × Out) :=
  match getProc s pid with
  | some _ => .ok (s, .int (-1))
  | none => do
    let (p, s') ← procUpdateNames s { pid, prog, names := [] }
    return ({ s' with procs := addAfter (fun q => decide (q.pid > pid)) p s'.procs, nProcs := s'.nProcs + 1 }, .int 0)

/-- The first part of `reg_destroy_proc`, src/irmd/reg/reg.c:1108-1115. -/
def destroyProcEntry (s : Reg) (pid : Nat) : Outcome Reg :=
  match getProc s pid with
  | none => .ok s
  | some p => do
    let s1 : Reg := { s with procs := s.procs.filter (fun q => q.pid != p.pid), nProcs := s.nProcs - 1 }
    let s2 ← delProcFromNames s1 pid
    return cancelFlows s2 pid

/-- The second part of `reg_destroy_proc`, src/irmd/reg/reg.c:1117-1122: the first entry is removed. -/
def destroySpawned (s : Reg) (pid : Nat) : Reg :=
  match getSpawned s pid with
  | none => s
  | some _ => { s with spawned := s.spawned.erase pid, nSpawned := s.nSpawned - 1 }

/-- `reg_destroy_proc`, src/irmd/reg/reg.c:1100-1134. -/
def destroyProc (s : Reg) (pid : Nat) : Outcome (Reg × Out) := do
  let s1 ← destroyProcEntry s pid
  let s2 := destroySpawned s1 pid
  match ← getIpcp s2 pid with
  | none => return (s2, .int 0)
  | some i => return ({ s2 with ipcps := s2.ipcps.filter (fun j => j.info.pid != i.info.pid), nIpcps := s2.nIpcps - 1 },
                      .int 0)

/-- `reg_has_proc`, src/irmd/reg/reg.c:1136-1147. -/
def hasProc (s : Reg) (pid : Nat) : Outcome (Reg × Out) := .ok (s, .bool (getProc s pid).isSome)

/-- `reg_create_spawned`, src/irmd/reg/reg.c:1171-1200. -/
def createSpawned (s : Reg) (pid : Nat) : Outcome (Reg × Out) :=
  match getSpawned s pid with
  | some _ => .ok (s, .int (-1))
  | none => .ok ({ s with spawned := addAfter (fun p => decide (p > pid)) pid s.spawned, nSpawned := s.nSpawned + 1 },
                 .int 0)

/-- `reg_has_spawned`, src/irmd/reg/reg.c:1202-1213. -/
def hasSpawned (s : Reg) (pid : Nat) : Outcome (Reg × Out) := .ok (s, .bool (getSpawned s pid).isSome)

/-- `reg_bind_proc`, src/irmd/reg/reg.c:1237-1295. -/
def bindProc (s : Reg) (name : Str) (pid : Nat) : Outcome (Reg × Out) := do
  assert (0 < pid)
  match getName s name, getProc s pid with
  | none, _ => return (s, .int (-1))
  | _, none => return (s, .int (-1))
  | some n, some p =>
    let b ← nameHasProc n pid
    if b then return (s, .int (-1))
    else
      let n1 ← nameAddProc n pid
      let p1 ← procAddName p name
      let n2 ← (match getAcceptFlow s pid with
        | some _ => nameAddActive n1 pid
        | none => return n1)
      return (setProc (setName s n2) p1, .int 0)

/-- `reg_unbind_proc`, src/irmd/reg/reg.c:1297-1341. -/
def unbindProc (s : Reg) (name : Str) (pid : Nat) : Outcome (Reg × Out) := do
  assert (0 < pid)
  match getName s name, getProc s pid with
  | none, _ => return (s, .int (-1))
  | _, none => return (s, .int (-1))
  | some n, some p =>
    let b ← nameHasProc n pid
    if !b then return (s, .int (-1))
    else if !procHasName p name then return (s, .int (-1))
    else
      let n1 ← nameDelProc n pid
      let p1 ← procDelName p name
      return (setProc (setName s n1) p1, .int 0)

/-- `reg_create_prog`, src/irmd/reg/reg.c:1343-1374. -/
def createProg (s : Reg) (name path : Str) : Outcome (Reg × Out) :=
  match getProg s name with
  | some _ => .ok (s, .int 0)
  | none => .ok ({ s with progs := addAfter (fun p => strGt p.name name) { name, path, names := [] } s.progs,
                          nProgs := s.nProgs + 1 }, .int 0)

/-- `reg_destroy_prog`, src/irmd/reg/reg.c:1376-1405. -/
def destroyProg (s : Reg) (name : Str) : Outcome (Reg × Out) :=
  match getProg s name with
  | none => .ok (s, .int (-1))
  | some p => do
    let s1 ← delProgFromNames s p.path
    return ({ s1 with progs := s1.progs.filter (fun q => q.name != p.name), nProgs := s1.nProgs - 1 }, .int 0)

/-- `reg_has_prog`, src/irmd/reg/reg.c:1407-1420. -/
def hasProg (s : Reg) (name : Str) : Outcome (Reg × Out) := .ok (s, .bool (getProg s name).isSome)

/-- `reg_get_exec`, src/irmd/reg/reg.c:1422-1454 with `__reg_get_exec`, 391-416. -/
def getExec (s : Reg) (hash : Str → Nat) (h : Nat) : Outcome (Reg × Out) :=
  match (getNameByHash s hash h).bind nameGetExec with
  | none => .ok (s, .exec (-EPERM) none)
  | some e => .ok (s, .exec 0 (some e))

/-- `path_strip(exec[0])`, src/irmd/reg/reg.c:1475. -/
def strip (s : Str) : Str := s.drop (Utils.stripOffset s)

/-- `reg_bind_prog`, src/irmd/reg/reg.c:1456-1511. `auto` is `flags & BIND_AUTO`. -/
def bindProg (s : Reg) (name : Str) (exec : List Str) (auto : Bool) : Outcome (Reg × Out) := do
  match exec with
  | [] => .ub
  | e0 :: _ =>
    match getName s name, getProg s (strip e0) with
    | none, _ => return (s, .int (-1))
    | _, none => return (s, .int (-1))
    | some n, some p =>
      if nameHasProg n e0 then return (s, .int (-1))
      else if progHasName p name then return (s, .int (-1))
      else
        let n1 ← (if auto then nameAddProg n exec else .ok n)
        let p1 ← progAddName p name
        return (setProg (setName s n1) p1, .int 0)

/-- `reg_unbind_prog`, src/irmd/reg/reg.c:1513-1552. -/
def unbindProg (s : Reg) (name prog : Str) : Outcome (Reg × Out) := do
  match getName s name, getProg s prog with
  | none, _ => return (s, .int (-1))
  | _, none => return (s, .int (-1))
  | some n, some p =>
    if !progHasName p name then return (s, .int (-1))
    else
      let n1 ← nameDelProg n prog
      let p1 ← progDelName p name
      return (setProg (setName s n1) p1, .int 0)

/-- `reg_set_layer_for_ipcp`, src/irmd/reg/reg.c:1554-1581 with `reg_ipcp_set_layer`, src/irmd/reg/ipcp.c:85-92. -/
def setLayer (s : Reg) (info : IpcpInfo) (layer : Layer) : Outcome (Reg × Out) := do
  assert (info.state != .init && info.state != .boot && info.state != .shutdown && info.state != .null)
  match ← getIpcp s info.pid with
  | none => return (s, .int (-1))
  | some i =>
    assert (i.info.state == .operational)
    return (setIpcp s { info := { i.info with state := info.state }, layer }, .int 0)

/-- `reg_get_ipcp`, src/irmd/reg/reg.c:1583-1608. -/
def findIpcp (s : Reg) (pid : Nat) : Outcome (Reg × Out) := do
  match ← getIpcp s pid with
  | none => return (s, .ipcp (-1) none)
  | some i => return (s, .ipcp 0 (some i))

/-- `reg_get_ipcp_by_layer`, src/irmd/reg/reg.c:1610-1635. -/
def findIpcpByLayer (s : Reg) (layer : Str) : Outcome (Reg × Out) :=
  match getIpcpByLayer s layer with
  | none => .ok (s, .ipcp (-1) none)
  | some i => .ok (s, .ipcp 0 (some i))

/-- `reg_prepare_flow_alloc`, src/irmd/reg/reg.c:1637-1658. -/
def prepareAlloc (s : Reg) (info : FlowInfo) : Outcome (Reg × Out) := do
  match ← getFlow s info.id with
  | none => .ub
  | some f =>
    assert (f.info.state == .init)
    let g ← flowUpdate f { info with state := .allocPending }
    return (setFlow s g, .flow 0 g.info none)

/-- `reg_wait_flow_allocated` up to the loop, src/irmd/reg/reg.c:1660-1681. -/
def waitAllocatedStart (s : Reg) (info : FlowInfo) : Outcome (Reg × Out) := do
  assert (1 ≤ info.id)
  match ← getFlow s info.id with
  | none => .ub
  | some f =>
    assert (info.npid == f.info.npid)
    assert (info.state == .allocPending)
    return (s, .ptr f.ptr)

/-- The loop of `reg_wait_flow_allocated` from a return of `__timedwait` to the next wait or to the end,
src/irmd/reg/reg.c:1683-1722. `ptr` is the local `flow`; `timeo`: the wait returned `ETIMEDOUT`. -/
def waitAllocatedWake (s : Reg) (ptr : Nat) (info : FlowInfo) (timeo : Bool) : Outcome (Reg × Out) := do
  match s.flows.find? (fun f => f.ptr == ptr) with
  | none => .ub
  | some f0 =>
    match ← getFlow s f0.info.id with
    | none => return (s, .flow (-1) { info with state := .deallocated } none)
    | some f =>
      if timeo then
        let g ← flowUpdate f { info with state := .deallocated }
        let (g', d) := flowGetData g
        return (setFlow s g', .flow (-ETIMEDOUT) g'.info d)
      else
        match f.info.state with
        | .allocPending => return (s, .waiting)
        | .allocated =>
          let (g, d) := flowGetData f
          return (setFlow s g, .flow 0 g.info d)
        | .deallocated =>
          let (g, d) := flowGetData f
          return (setFlow s g, .flow (-1) g.info d)
        | _ => .ub

/-- `reg_respond_alloc`, src/irmd/reg/reg.c:1724-1772. -/
def respondAlloc (s : Reg) (info : FlowInfo) (buf : Option Nat) : Outcome (Reg × Out) := do
  assert (info.state == .allocated || info.state == .deallocated)
  assert (!(info.state == .deallocated && buf.isSome))
  match ← getFlow s info.id with
  | none => return (s, .int (-1))
  | some f =>
    if f.info.state == .deallocated then return (s, .int (-1))
    else
      assert (f.info.state == .allocPending)
      assert (f.data == none)
      let info' := { info with npid := f.info.npid, n1pid := f.info.npid }
      let g ← flowUpdate f info'
      let g' ← (if g.info.state == .allocated then flowSetData g buf else .ok g)
      return (setFlow s g', .int 0)

/-- `reg_prepare_flow_accept`, src/irmd/reg/reg.c:1774-1798. -/
def prepareAccept (s : Reg) (info : FlowInfo) (buf : Option Nat) : Outcome (Reg × Out) := do
  match ← getFlow s info.id with
  | none => .ub
  | some f =>
    assert (info.npid != 0)
    let g ← flowUpdate f { info with state := .acceptPending }
    let g' ← flowSetData g buf
    return (setFlow s g', .flow 0 g'.info none)

/-- `reg_wait_flow_accepted` up to the loop, src/irmd/reg/reg.c:1809-1838. -/
def waitAcceptedStart (s : Reg) (info : FlowInfo) : Outcome (Reg × Out) := do
  assert (1 ≤ info.id)
  match ← getFlow s info.id with
  | none => .ub
  | some f =>
    assert (info.npid == f.info.npid)
    assert (info.state == f.info.state)
    assert (f.info.state == .acceptPending)
    let s' ← addActiveProc s info.npid
    return (s', .ptr f.ptr)

/-- The loop of `reg_wait_flow_accepted` from a return of `__timedwait` to the next wait or to the end,
src/irmd/reg/reg.c:1840-1880, with `__cleanup_wait_accept`, 1800-1807, which reads the flow through the pointer. -/
def waitAcceptedWake (s : Reg) (ptr : Nat) (info : FlowInfo) (timeo : Bool) : Outcome (Reg × Out) := do
  match s.flows.find? (fun f => f.ptr == ptr) with
  | none => .ub
  | some f0 =>
    match ← getFlow s f0.info.id with
    | none => .ub
    | some f =>
      if timeo then
        let g ← flowUpdate f { info with state := .deallocated }
        let s1 ← delActiveProc (setFlow s g) g.info.npid
        let (g', d) := flowGetData g
        return (setFlow s1 g', .flow (-ETIMEDOUT) g'.info d)
      else
        match f.info.state with
        | .acceptPending => return (s, .waiting)
        | .allocated =>
          let s1 ← delActiveProc s f.info.npid
          let (g, d) := flowGetData f
          return (setFlow s1 g, .flow 0 g.info d)
        | .deallocated =>
          let s1 ← delActiveProc s f.info.npid
          let (g, d) := flowGetData f
          return (setFlow s1 g, .flow (-1) g.info d)
        | _ => .ub

/-- One evaluation of the condition in `reg_wait_flow_accepting`, src/irmd/reg/reg.c:1899-1902. -/
def pollAccepting (s : Reg) (hash : Str → Nat) (h : Nat) : Outcome (Reg × Out) := do
  let r ← pendingFor s hash h
  return (s, .int r)

/-- `reg_respond_accept`, src/irmd/reg/reg.c:1914-1956. The second component of the result is what is left in `*pbuf`. -/
def respondAccept (s : Reg) (info : FlowInfo) (buf : Option Nat) : Outcome (Reg × Out) := do
  assert (info.state == .allocated)
  match ← getFlow s info.id with
  | none => return (s, .flow (-1) info buf)
  | some f =>
    assert (f.info.state == .acceptPending)
    let info' := { info with npid := f.info.npid }
    let (f1, buf') ← (if 0 < info.cypher then do
        let (f1, tmp) := flowGetData f
        let f2 ← flowSetData f1 buf
        return (f2, tmp)
      else .ok (f, buf))
    let g ← flowUpdate f1 info'
    return (setFlow s g, .flow 0 g.info buf')

/-- `reg_dealloc_flow`, src/irmd/reg/reg.c:1958-1982. -/
def deallocFlow (s : Reg) (info : FlowInfo) : Outcome (Reg × Out) := do
  assert (info.id != 0)
  assert (info.npid != 0)
  match ← getFlow s info.id with
  | none => .ub
  | some f =>
    assert (f.data == none)
    assert (f.info.state == .allocated)
    let f1 := { f with info := { f.info with state := .deallocPending } }
    let g ← flowUpdate f1 { info with state := .deallocPending, n1pid := f.info.n1pid }
    return (setFlow s g, .flow 0 g.info none)

/-- `reg_dealloc_flow_resp`, src/irmd/reg/reg.c:1984-2007. -/
def deallocFlowResp (s : Reg) (info : FlowInfo) : Outcome (Reg × Out) := do
  assert (info.id != 0)
  assert (info.n1pid != 0)
  match ← getFlow s info.id with
  | none => .ub
  | some f =>
    assert (f.data == none)
    assert (f.info.state == .deallocPending)
    let f1 := { f with info := { f.info with state := .deallocated } }
    let g ← flowUpdate f1 { info with state := .deallocated }
    return (setFlow s g, .flow 0 g.info none)

/-- `reg_respond_ipcp`, src/irmd/reg/reg.c:2092-2120 with `reg_ipcp_update`, src/irmd/reg/ipcp.c:76-83. -/
def respondIpcp (s : Reg) (info : IpcpInfo) : Outcome (Reg × Out) := do
  match ← getIpcp s info.pid with
  | none => return (s, .int (-EIPCP))
  | some i =>
    assert (info.name == i.info.name)
    assert (info.type == i.info.type)
    assert (info.state != .init)
    return (setIpcp s { i with info := info }, .int 0)

/-! ## Histories -/

/-- A call on the registry (src/irmd/reg/reg.h:34-146); an argument of type `Str → Nat` is the hash function in use. -/
inductive Op where
  | createFlow (info : FlowInfo)
  | destroyFlow (id : Int)
  | hasFlow (id : Int)
  | createIpcp (info : IpcpInfo)
  | updateIpcp (info : IpcpInfo)
  | hasIpcp (pid : Nat)
  | listIpcps
  | createName (name : Str) (pol : Pol)
  | destroyName (name : Str)
  | hasName (name : Str)
  | listNames
  | createProc (pid : Nat) (prog : Str)
  | destroyProc (pid : Nat)
  | hasProc (pid : Nat)
  | createSpawned (pid : Nat)
  | hasSpawned (pid : Nat)
  | bindProc (name : Str) (pid : Nat)
  | unbindProc (name : Str) (pid : Nat)
  | createProg (name path : Str)
  | destroyProg (name : Str)
  | hasProg (name : Str)
  | getExec (hash : Str → Nat) (h : Nat)
  | bindProg (name : Str) (exec : List Str) (auto : Bool)
  | unbindProg (name prog : Str)
  | setLayer (info : IpcpInfo) (layer : Layer)
  | findIpcp (pid : Nat)
  | findIpcpByLayer (layer : Str)
  | prepareAlloc (info : FlowInfo)
  | waitAllocatedStart (info : FlowInfo)
  | waitAllocatedWake (ptr : Nat) (info : FlowInfo) (timeo : Bool)
  | respondAlloc (info : FlowInfo) (buf : Option Nat)
  | prepareAccept (info : FlowInfo) (buf : Option Nat)
  | waitAcceptedStart (info : FlowInfo)
  | waitAcceptedWake (ptr : Nat) (info : FlowInfo) (timeo : Bool)
  | pollAccepting (hash : Str → Nat) (h : Nat)
  | respondAccept (info : FlowInfo) (buf : Option Nat)
  | deallocFlow (info : FlowInfo)
  | deallocFlowResp (info : FlowInfo)
  | respondIpcp (info : IpcpInfo)

/-- Dispatch of a call (src/irmd/reg/reg.h:34-146). -/
def step (s : Reg) : Op → Outcome (Reg × Out)
  | .createFlow i => createFlow s i
  | .destroyFlow i => destroyFlow s i
  | .hasFlow i => hasFlow s i
  | .createIpcp i => createIpcp s i
  | .updateIpcp i => updateIpcp s i
  | .hasIpcp p => hasIpcp s p
  | .listIpcps => listIpcps s
  | .createName n p => createName s n p
  | .destroyName n => destroyName s n
  | .hasName n => hasName s n
  | .listNames => listNames s
  | .createProc p g => createProc s p g
  | .destroyProc p => destroyProc s p
  | .hasProc p => hasProc s p
  | .createSpawned p => createSpawned s p
  | .hasSpawned p => hasSpawned s p
  | .bindProc n p => bindProc s n p
  | .unbindProc n p => unbindProc s n p
  | .createProg n p => createProg s n p
  | .destroyProg n => destroyProg s n
  | .hasProg n => hasProg s n
  | .getExec f h => getExec s f h
  | .bindProg n e a => bindProg s n e a
  | .unbindProg n p => unbindProg s n p
  | .setLayer i l => setLayer s i l
  | .findIpcp p => findIpcp s p
  | .findIpcpByLayer l => findIpcpByLayer s l
  | .prepareAlloc i => prepareAlloc s i
  | .waitAllocatedStart i => waitAllocatedStart s i
  | .waitAllocatedWake p i t => waitAllocatedWake s p i t
  | .respondAlloc i b => respondAlloc s i b
  | .prepareAccept i b => prepareAccept s i b
  | .waitAcceptedStart i => waitAcceptedStart s i
  | .waitAcceptedWake p i t => waitAcceptedWake s p i t
  | .pollAccepting f h => pollAccepting s f h
  | .respondAccept i b => respondAccept s i b
  | .deallocFlow i => deallocFlow s i
  | .deallocFlowResp i => deallocFlowResp s i
  | .respondIpcp i => respondIpcp s i

/-- A history: calls of any number of threads in the order in which they got the mutex (src/irmd/reg/reg.c:67), with their results. -/
def runFrom (s : Reg) : List Op → Outcome (Reg × List (Op × Out))
  | [] => .ok (s, [])
  | op :: ops => do
    let (s', o) ← step s op
    let (s'', l) ← runFrom s' ops
    return (s'', (op, o) :: l)

/-- A history from `reg_init` (src/irmd/reg/reg.c:535-582). -/
def run (ops : List Op) : Outcome (Reg × List (Op × Out)) := do
  let s ← init
  runFrom s ops

end Ouro.Registry
