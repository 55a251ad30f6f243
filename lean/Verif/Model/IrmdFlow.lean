import Verif.Model.Registry

/-!
# Model of the flow commands of the IRM daemon, `src/irmd/main.c`

Every command is carried out by a thread of its own. A thread is stopped before each call on the registry and before each
answer of an IPCP, so an execution is any interleaving of these pieces of any number of commands; the registry is the
model of `Verif/Model/Registry.lean`. Request `t` is carried out by thread `t`, numbers are not used twice.

The log records what can be seen from outside the daemon: which requests were made, what the processes were told, which
messages the IPCPs were sent.

Simplified: memory is always available; public keys, secrets and derived keys are numbers; the hash of a destination
is kept as the pair of the algorithm and the name; cancellation of a thread (shutdown of the daemon) is left out; time
is not modelled, a wait that has a time limit may end with a timeout at any time.
-/

namespace Ouro.IrmdFlow

open Ouro.Registry

/-- include/ouroboros/errno.h:35 -/
def ECRYPT : Int := 1007

/-- `EPIPE` (errno.h), used at src/irmd/main.c:832 -/
def EPIPE : Int := 32

/-- What the daemon computes with: the public key of a secret (`crypt_dh_pkp_create`), the key derived from a secret and the
public key of the other side (`crypt_dh_derive`, `none` if that fails), and `str_hash` for each algorithm
(src/irmd/main.c:791, 839, 993). -/
structure Env where
  pub : Nat → Nat
  derive : Nat → Option Nat → Option Nat
  hash : Nat → Str → Nat

/-- The messages to an IPCP (src/irmd/ipcp.c:375-545). -/
inductive Msg where
  | alloc (id : Int) (npid : Nat) (algo : Nat) (dst : Str) (cypher : Nat) (pk : Option Nat)
  | join (id : Int) (npid : Nat) (algo : Nat)
  | allocResp (id : Int) (npid : Nat) (response : Int) (pk : Option Nat)
  | dealloc (id : Int)
  deriving Repr, DecidableEq

/-- The commands about flows (src/irmd/main.c:1425-1490). `timed`: the message has a time limit (1335-1342). -/
inductive Cmd where
  | accept (info : FlowInfo) (timed : Bool)
  | alloc (info : FlowInfo) (dst : Str) (timed : Bool)
  | join (info : FlowInfo) (dst : Str) (timed : Bool)
  | reqArr (info : FlowInfo) (hash : Nat) (pk : Option Nat)
  | allocReply (info : FlowInfo) (response : Int) (pk : Option Nat)
  | dealloc (info : FlowInfo)
  | deallocResp (info : FlowInfo)
  deriving Repr, DecidableEq

/-- What happened, as seen from outside (src/irmd/main.c:1316-1570). -/
inductive Ev where
  /-- request `t` came in -/
  | started (t : Nat) (c : Cmd)
  /-- request `t` was answered with a flow, and a key if the flow is encrypted (src/irmd/main.c:1432-1437, 1447-1452, 1459-1460) -/
  | granted (t : Nat) (info : FlowInfo) (key : Option Nat)
  /-- request `t` was answered with this result and nothing else -/
  | result (t : Nat) (r : Int)
  /-- the connection on which request `t` came in was closed without an answer (src/irmd/main.c:1558-1561) -/
  | closed (t : Nat)
  /-- IPCP `pid` was sent a message -/
  | toIpcp (pid : Nat) (m : Msg)
  /-- request `t` of an IPCP was answered with the flow of a process that is accepting (src/irmd/main.c:1479-1480) -/
  | handed (t : Nat) (info : FlowInfo) (pk : Option Nat)
  /-- reply `t` of an IPCP was accepted for flow `id` -/
  | answered (t : Nat) (id : Int) (response : Int) (pk : Option Nat)
  /-- the deallocation of flow `id` was completed (src/irmd/main.c:1254-1259) -/
  | released (t : Nat) (id : Int)
  deriving Repr, DecidableEq

/-- Where a thread is. `info` is the local `flow`, `sk` the key pair, `ptr` the flow the registry function holds while it waits.
[src/irmd/main.c:763-1260, the lines of each are at `go`] -/
inductive Pc where
  | idle
  | accCreate (info : FlowInfo) (timed : Bool)
  | accPrepare (info : FlowInfo) (sk : Nat) (timed : Bool)
  | accStart (info : FlowInfo) (sk : Nat) (timed : Bool)
  | accWait (ptr : Nat) (info : FlowInfo) (sk : Nat) (timed : Bool)
  | accRespond (info : FlowInfo) (sk : Nat) (rpk : Option Nat) (timed : Bool)
  | accSent (info : FlowInfo) (key : Option Nat) (timed : Bool)
  | allocFind (info : FlowInfo) (dst : Str) (sk : Option Nat) (timed : Bool)
  | allocPrepare (info : FlowInfo) (algo : Nat) (dst : Str) (sk : Option Nat) (timed : Bool)
  | joinFind (info : FlowInfo) (dst : Str) (timed : Bool)
  | joinPrepare (info : FlowInfo) (algo : Nat) (timed : Bool)
  | allocSent (info : FlowInfo) (join : Bool) (sk : Option Nat) (timed : Bool)
  | allocStart (info : FlowInfo) (join : Bool) (sk : Option Nat) (timed : Bool)
  | allocWait (ptr : Nat) (info : FlowInfo) (join : Bool) (sk : Option Nat) (timed : Bool)
  /-- about to destroy the flow and return an error -/
  | drop (id : Int) (err : Int) (timed : Bool)
  | reqWait (info : FlowInfo) (algo h : Nat) (pk : Option Nat) (second : Bool)
  | reqExec (info : FlowInfo) (algo h : Nat) (pk : Option Nat)
  | reqRespond (info : FlowInfo) (pk : Option Nat)
  | deallocSent
  | freeing (id : Int)
  | done
  deriving Repr, DecidableEq

/-- The daemon: the registry, the threads and what was seen so far, oldest first (src/irmd/main.c:91-112). -/
structure Sys where
  reg : Reg
  pc : Nat → Pc
  log : List Ev

/-- What the environment decides in one piece: whether a key pair can be made (or a program started), the secret, the answer
of an IPCP, whether a wait timed out, and which IPCPs know the destination (src/irmd/main.c:791, 852, 995, 1065, 1151). -/
structure Choice where
  ok : Bool := true
  sk : Nat := 0
  res : Int := 0
  timeo : Bool := false
  query : Nat → Bool := fun _ => true

/-- Store of the next place of thread `t` (src/irmd/main.c:1508-1611). -/
def goto (s : Sys) (t : Nat) (p : Pc) : Sys := { s with pc := fun u => if u = t then p else s.pc u }

/-- An event is recorded (src/irmd/main.c:1508-1611). -/
def note (s : Sys) (e : Ev) : Sys := { s with log := s.log ++ [e] }

/-- The end of `do_command_msg` and of `mainloop` for a result, src/irmd/main.c:1499-1503, 1558-1596. `deflt`: `abstime == &max`. -/
def finish (s : Sys) (t : Nat) (deflt : Bool) (r : Int) : Sys :=
  let r' := if deflt && r == -ETIMEDOUT then -EPERM else r
  goto (note s (if r' = -EPIPE || r' = -EIRMD then .closed t else .result t r')) t .done

/-- `IPCP_BROADCAST`, include/ouroboros/ipcp.h:45-53. -/
def IPCP_BROADCAST : Nat := 2

/-- The loop of `get_ipcp_by_dst`, src/irmd/main.c:953-1008: the first IPCP in the list that is not a broadcast IPCP, is in a
layer and knows the destination. -/
def ipcpByDst (query : Nat → Bool) : List Ipcp → Option Ipcp
  | [] => none
  | i :: l =>
    if i.info.type = IPCP_BROADCAST then ipcpByDst query l
    else if i.layer.name = "Not enrolled.".toList then ipcpByDst query l
    else if query i.info.pid then some i
    else ipcpByDst query l

/-- The first piece of a command: from `do_command_msg` (src/irmd/main.c:1316-1490) to just before the second call. -/
def start (e : Env) (s0 : Sys) (t : Nat) (cmd : Cmd) (c : Choice) : Outcome Sys := do
  let s := note s0 (.started t cmd)
  match cmd with
  /- `flow_accept`, src/irmd/main.c:778-782 -/
  | .accept info timed =>
    match ← hasProc s.reg info.npid with
    | (r, .bool true) => return goto { s with reg := r } t (.accCreate info timed)
    | (r, _) => return finish { s with reg := r } t false (-EINVAL)
  /- `flow_alloc`, src/irmd/main.c:1028-1055 -/
  | .alloc info dst timed =>
    if 0 < info.cypher && !c.ok then return finish s t (!timed) (-ECRYPT)
    else
      let sk := if 0 < info.cypher then some c.sk else none
      match ← createFlow s.reg info with
      | (r, .flow 0 info' _) => return goto { s with reg := r } t (.allocFind info' dst sk timed)
      | (r, _) => return finish { s with reg := r } t (!timed) (-EBADF)
  /- `flow_join`, src/irmd/main.c:891-895 -/
  | .join info dst timed =>
    match ← createFlow s.reg info with
    | (r, .flow 0 info' _) => return goto { s with reg := r } t (.joinFind info' dst timed)
    | (r, _) => return finish { s with reg := r } t (!timed) (-EBADF)
  /- `flow_req_arr`, src/irmd/main.c:1188-1194 -/
  | .reqArr info h pk =>
    match ← findIpcp s.reg info.n1pid with
    | (r, .ipcp _ (some i)) => return goto { s with reg := r } t (.reqWait info i.layer.algo h pk false)
    | (r, _) => return finish { s with reg := r } t false (-EIPCP)
  /- `flow_alloc_reply`, src/irmd/main.c:1217-1230 -/
  | .allocReply info response pk =>
    match ← respondAlloc s.reg { info with state := if response ≠ 0 then .deallocated else .allocated } pk with
    | (r, .int 0) => return finish (note { s with reg := r } (.answered t info.id response pk)) t false 0
    | (r, _) => return finish { s with reg := r } t false (-EBADF)
  /- `flow_dealloc`, src/irmd/main.c:1238-1240 -/
  | .dealloc info =>
    match ← deallocFlow s.reg info with
    | (r, .flow _ g _) => return goto (note { s with reg := r } (.toIpcp g.n1pid (.dealloc g.id))) t .deallocSent
    | (r, _) => return finish { s with reg := r } t false 0
  /- `flow_dealloc_resp`, src/irmd/main.c:1250 -/
  | .deallocResp info =>
    match ← deallocFlowResp s.reg info with
    | (r, .flow _ g _) => return goto { s with reg := r } t (.freeing g.id)
    | (r, _) => return finish { s with reg := r } t false 0

/-- The next piece of a thread (src/irmd/main.c:763-1260, lines at each case). -/
def go (e : Env) (s : Sys) (t : Nat) (c : Choice) : Outcome Sys := do
  match s.pc t with
  | .idle => .ub
  | .done => .ub
  /- `flow_accept`, src/irmd/main.c:791-807 -/
  | .accCreate info timed =>
    if !c.ok then return finish s t false (-ECRYPT)
    else
      match ← createFlow s.reg info with
      | (r, .flow 0 info' _) => return goto { s with reg := r } t (.accPrepare info' c.sk timed)
      | (r, _) => return finish { s with reg := r } t false (-EBADF)
  /- src/irmd/main.c:809-813 -/
  | .accPrepare info sk timed =>
    match ← prepareAccept s.reg info (some (e.pub sk)) with
    | (r, .flow _ g _) => return goto { s with reg := r } t (.accStart g sk timed)
    | (r, _) => return goto { s with reg := r } t (.drop info.id (-EBADF) timed)
  /- src/irmd/main.c:819 with src/irmd/reg/reg.c:1809-1838 -/
  | .accStart info sk timed =>
    match ← waitAcceptedStart s.reg info with
    | (r, .ptr p) => return goto { s with reg := r } t (.accWait p info sk timed)
    | (r, _) => return goto { s with reg := r } t (.drop info.id (-EPIPE) timed)
  /- src/irmd/main.c:819-836 with src/irmd/reg/reg.c:1840-1880; without a time limit there is no timeout -/
  | .accWait p info sk timed =>
    match ← waitAcceptedWake s.reg p info (timed && c.timeo) with
    | (r, .waiting) => return { s with reg := r }
    | (r, .flow x info' d) =>
      if x = -ETIMEDOUT then return goto { s with reg := r } t (.drop info'.id (-ETIMEDOUT) timed)
      else if x = -1 then return goto { s with reg := r } t (.drop info'.id (-EPIPE) timed)
      else return goto { s with reg := r } t (.accRespond info' sk d timed)
    | (_, _) => .ub
  /- src/irmd/main.c:838-852, 863-866: the key, and the message to the IPCP -/
  | .accRespond info sk rpk timed =>
    if info.cypher ≠ 0 then
      match e.derive sk rpk with
      | none => return goto (note s (.toIpcp info.n1pid (.allocResp info.id info.npid (-ECRYPT) none))) t (.drop info.id (-ECRYPT) timed)
      | some k => return goto (note s (.toIpcp info.n1pid (.allocResp info.id info.npid 0 (some (e.pub sk))))) t (.accSent info (some k) timed)
    else return goto (note s (.toIpcp info.n1pid (.allocResp info.id info.npid 0 none))) t (.accSent info none timed)
  /- src/irmd/main.c:852-861, 867-868 and 1432-1437: the answer of the IPCP -/
  | .accSent info key timed =>
    if c.res < 0 then return goto s t (.drop info.id (-EIPCP) timed)
    else return goto (note s (.granted t info key)) t .done
  /- `flow_alloc`, src/irmd/main.c:1057-1061 -/
  | .allocFind info dst sk timed =>
    match ← listIpcps s.reg with
    | (r, .ipcps l) =>
      match ipcpByDst c.query l with
      | some i => return goto { s with reg := r } t (.allocPrepare { info with n1pid := i.info.pid } i.layer.algo dst sk timed)
      | none => return goto { s with reg := r } t (.drop info.id (-EIPCP) timed)
    | (_, _) => .ub
  /- src/irmd/main.c:1063-1065 -/
  | .allocPrepare info algo dst sk timed =>
    match ← prepareAlloc s.reg info with
    | (r, .flow _ g _) => return goto (note { s with reg := r } (.toIpcp g.n1pid (.alloc g.id g.npid algo dst g.cypher (sk.map e.pub)))) t (.allocSent g false sk timed)
    | (_, _) => .ub
  /- `flow_join`, src/irmd/main.c:897-902: the IPCP found is not stored in `flow` -/
  | .joinFind info dst timed =>
    match ← findIpcpByLayer s.reg dst with
    | (r, .ipcp _ (some i)) => return goto { s with reg := r } t (.joinPrepare info i.layer.algo timed)
    | (r, _) => return goto { s with reg := r } t (.drop info.id (-EIPCP) timed)
  /- src/irmd/main.c:912-914 -/
  | .joinPrepare info algo timed =>
    match ← prepareAlloc s.reg info with
    | (r, .flow _ g _) => return goto (note { s with reg := r } (.toIpcp g.n1pid (.join g.id g.npid algo))) t (.allocSent g true none timed)
    | (_, _) => .ub
  /- src/irmd/main.c:1065-1069, 914-918: the answer of the IPCP -/
  | .allocSent info join sk timed =>
    if c.res ≠ 0 then return goto s t (.drop info.id (-ENOTALLOC) timed)
    else return goto s t (.allocStart info join sk timed)
  /- src/irmd/main.c:1076, 923 with src/irmd/reg/reg.c:1660-1681 -/
  | .allocStart info join sk timed =>
    match ← waitAllocatedStart s.reg info with
    | (r, .ptr p) => return goto { s with reg := r } t (.allocWait p info join sk timed)
    | (_, _) => .ub
  /- src/irmd/main.c:1076-1112, 923-943 with src/irmd/reg/reg.c:1683-1722, and 1447-1452 -/
  | .allocWait p info join sk timed =>
    match ← waitAllocatedWake s.reg p info c.timeo with
    | (r, .waiting) => return { s with reg := r }
    | (r, .flow x info' d) =>
      if x = -ETIMEDOUT then return goto { s with reg := r } t (.drop info'.id (-ETIMEDOUT) timed)
      else if x = -1 then return goto { s with reg := r } t (.drop info'.id (-EPIPE) timed)
      else if info'.cypher ≠ 0 && !join then
        match sk.bind (fun k => e.derive k d) with
        | none => return goto { s with reg := r } t (.drop info'.id (-ECRYPT) timed)
        | some k => return goto (note { s with reg := r } (.granted t info' (some k))) t .done
      else return goto (note { s with reg := r } (.granted t info' none)) t .done
    | (_, _) => .ub
  /- `reg_destroy_flow` on the way out, src/irmd/main.c:870-876, 948-950, 1120-1127; only `flow_alloc` and `flow_join` have the default limit -/
  | .drop id err timed =>
    let (r, _) ← destroyFlow s.reg id
    return finish { s with reg := r } t (!timed) err
  /- `wait_for_accept`, src/irmd/main.c:1141-1142, 1159-1166, with src/irmd/reg/reg.c:1898-1907 -/
  | .reqWait info algo h pk second =>
    match ← pollAccepting s.reg (e.hash algo) h with
    | (r, .int x) =>
      if x = -EAGAIN then
        if c.timeo then
          if second then return finish { s with reg := r } t false (-1)
          else return goto { s with reg := r } t (.reqExec info algo h pk)
        else return { s with reg := r }
      else if x < 0 then return finish { s with reg := r } t false x
      else return goto { s with reg := r } t (.reqRespond { info with id := x, state := .allocated } pk)
    | (_, _) => .ub
  /- src/irmd/main.c:1143-1157, 1168-1171 -/
  | .reqExec info algo h pk =>
    match ← getExec s.reg (e.hash algo) h with
    | (r, .exec 0 (some _)) =>
      if c.ok then return goto { s with reg := r } t (.reqWait info algo h pk true)
      else return finish { s with reg := r } t false (-1)
    | (r, _) => return finish { s with reg := r } t false (-1)
  /- `flow_req_arr`, src/irmd/main.c:1203-1214, and 1479-1480 -/
  | .reqRespond info pk =>
    match ← respondAccept s.reg info pk with
    | (r, .flow 0 g _) => return goto (note { s with reg := r } (.handed t g pk)) t .done
    | (r, _) => return finish { s with reg := r } t false (-1)
  /- `flow_dealloc`, src/irmd/main.c:1240-1245 -/
  | .deallocSent => return finish s t false (if c.res < 0 then -EIPCP else 0)
  /- `flow_dealloc_resp`, src/irmd/main.c:1254-1259 -/
  | .freeing id =>
    let (r, _) ← destroyFlow s.reg id
    return finish (note { s with reg := r } (.released t id)) t false 0

/-- Calls on the registry made by the other commands and by `irm_sanitize` (src/irmd/main.c:1357-1424, 1703-1716): processes, programs, names, IPCPs. -/
def isTable : Op → Bool
  | .createIpcp _ | .updateIpcp _ | .hasIpcp _ | .listIpcps | .createName _ _ | .destroyName _ | .hasName _ | .listNames
  | .createProc _ _ | .destroyProc _ | .hasProc _ | .createSpawned _ | .hasSpawned _ | .bindProc _ _ | .unbindProc _ _
  | .createProg _ _ | .destroyProg _ | .hasProg _ | .getExec _ _ | .bindProg _ _ _ | .unbindProg _ _ | .setLayer _ _
  | .findIpcp _ | .findIpcpByLayer _ | .respondIpcp _ => true
  | _ => false

/-- What can happen next: a command comes in, a thread runs its next piece, or another command calls the registry (src/irmd/main.c:1508-1611). -/
inductive Act where
  | start (t : Nat) (cmd : Cmd) (c : Choice)
  | go (t : Nat) (c : Choice)
  | table (op : Op)

/-- One piece of an execution (src/irmd/main.c:1508-1611). -/
def act (e : Env) (s : Sys) : Act → Outcome Sys
  | .start t cmd c => if s.pc t = .idle then start e s t cmd c else .ub
  | .go t c => go e s t c
  | .table op => if isTable op then do
      let (r, _) ← step s.reg op
      return { s with reg := r }
    else .ub

/-- The daemon after `reg_init` (src/irmd/main.c:2065-2068). -/
def init : Outcome Sys := do
  let r ← Registry.init
  return { reg := r, pc := fun _ => .idle, log := [] }

/-- An execution from a state; `allowed` says which actions the environment takes (src/irmd/main.c:1508-1611). -/
def runFrom (e : Env) (allowed : Sys → Act → Bool) (s : Sys) : List Act → Outcome Sys
  | [] => .ok s
  | a :: l => if allowed s a then do
      let s' ← act e s a
      runFrom e allowed s' l
    else .ub

/-- An execution from the start of the daemon (src/irmd/main.c:2031-2109). -/
def run (e : Env) (allowed : Sys → Act → Bool) (l : List Act) : Outcome Sys := do
  let s ← init
  runFrom e allowed s l

end Ouro.IrmdFlow
