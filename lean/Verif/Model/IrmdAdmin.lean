import Verif.Model.Registry
import Verif.Model.Errno

/-!
# Model of the administrative commands of the IRM daemon

Each command of src/irmd/main.c:160-740 is a program that calls the registry (each call holds the mutex of the registry, so it is one step), sends a message to an
IPCP and waits for its reply (src/irmd/ipcp.c), or uses a process of the operating system. Between two steps of a command, other threads of the daemon can call the registry.

Not modelled: failing allocations and the copies of strings.
-/

namespace Ouro.IrmdAdmin

open Registry

/-- What the reply of an IPCP has of `ipcp_msg_t` (src/lib/pb/ipcp.proto:44-60). -/
structure Reply where
  result : Option Int
  layer : Option Layer := none
  deriving DecidableEq

/-- `IPCP_UNICAST` (include/ouroboros/ipcp.h:45-53). -/
def IPCP_UNICAST : Nat := 1
/-- `IPCP_BROADCAST` (include/ouroboros/ipcp.h:45-53). -/
def IPCP_BROADCAST : Nat := 2
/-- `IPCP_UDP` (include/ouroboros/ipcp.h:45-53). -/
def IPCP_UDP : Nat := 5
/-- `HASH_MD5` (include/ouroboros/hash.h:40). -/
def HASH_MD5 : Nat := 5

/-- `struct ipcp_config` (include/ouroboros/ipcp.h:124-144) with the members the daemon looks at; `rest` stands for the others. -/
structure Conf where
  type : Nat
  layer : Layer
  rest : Nat := 0
  deriving DecidableEq

/-- What the daemon asks an IPCP (src/irmd/ipcp.c:179-395). A hash is given by the algorithm and the name. -/
inductive Ask where
  | bootstrap (conf : Conf)
  | enroll (dst : Str)
  | connect (dst comp : Str)
  | disconnect (dst comp : Str)
  | reg (algo : Nat) (name : Str)
  | unreg (algo : Nat) (name : Str)
  deriving DecidableEq

/-- What the daemon does with processes: `posix_spawn`, `kill` with `SIGTERM` and `waitpid` (src/irmd/main.c:143-231). -/
inductive Os where
  | spawn (type : Nat) (name : Str)
  | term (pid : Nat)
  | waitpid (pid : Nat)
  deriving DecidableEq

/-- The programs of threads that carry out commands (src/irmd/main.c:160-740). -/
inductive Prg where
  | ret (r : Int)
  | reg (op : Op) (k : Out → Prg)
  | ask (pid : Nat) (m : Ask) (k : Option Reply → Prg)
  | os (c : Os) (k : Int → Prg)
  | sleep (k : Bool → Prg)
  | crash

/-- Is a result of the registry negative? [src/irmd/main.c:170-740] -/
def neg : Out → Bool
  | .int r => r < 0
  | .ipcp r _ => r < 0
  | _ => false

/-- The result the functions of src/irmd/ipcp.c:267-520 return: `-EIPCP` if no reply came or it has no result. (If the request cannot be written, it is
taken for the reply, src/irmd/ipcp.c:158-167; it has no result.) -/
def resultOf : Option Reply → Int
  | none => -EIPCP
  | some r => match r.result with
    | none => -EIPCP
    | some x => x

/-- `ipcp_bootstrap` and `ipcp_enroll` (src/irmd/ipcp.c:179-265): the result, and the layer if it was written. -/
def layerOf (a : Option Reply) : Int × Option Layer := match a with
  | none => (-EIPCP, none)
  | some r => match r.result with
    | none => (-EIPCP, none)
    | some x => if x ≠ 0 then (x, none) else match r.layer with
      | none => (-EIPCP, none)
      | some l => (0, some l)

/-- The cases of the state in `reg_wait_ipcp_boot` (src/irmd/reg/reg.c:2060-2075). -/
def bootLook (wait : Prg) (done : Int → Prg) (i : Ipcp) : Prg := match i.info.state with
  | .null => done (-1)
  | .operational => done 0
  | .boot => wait
  | _ => .crash

/-- The waits in `reg_wait_ipcp_boot` (src/irmd/reg/reg.c:2056-2089): the entry is looked up again after each wait; if the time is over, its state does not matter.
After the given number of waits that do not end with the time, the next one does. -/
def bootWait (pid : Nat) (done : Int → Prg) : Nat → Prg
  | 0 => .sleep fun _ => .reg (.findIpcp pid) fun o => match o with
    | .ipcp _ (some _) => done (-ETIMEDOUT)
    | _ => done (-EIPCP)
  | n + 1 => .sleep fun timeo => .reg (.findIpcp pid) fun o => match o with
    | .ipcp _ (some i) => if timeo then done (-ETIMEDOUT) else bootLook (bootWait pid done n) done i
    | _ => done (-EIPCP)

/-- The part of `create_ipcp` after `reg_wait_ipcp_boot` (src/irmd/main.c:254-267). -/
def bootDone (pid : Nat) (r : Int) : Prg :=
  if r ≠ 0 then .os (.waitpid pid) fun _ => .reg (.destroyProc pid) fun _ => .ret (-1) else .ret 0

/-- `create_ipcp` (src/irmd/main.c:233-274) with `spawn_ipcp` (160-217), `kill_ipcp` (219-231) and `reg_wait_ipcp_boot` (src/irmd/reg/reg.c:2038-2090), which uses the
entry without a test at first. `n` bounds the number of waits that end before the time, see `bootWait`. -/
def createIpcp (n : Nat) (type : Nat) (name : Str) : Prg :=
  .os (.spawn type name) fun pid =>
    if pid < 0 then .ret (-1)
    else
      let pid := pid.toNat
      .reg (.createIpcp ⟨type, pid, name, .boot⟩) fun o =>
        if neg o then .os (.term pid) fun x => if x < 0 then .ret (-1) else .os (.waitpid pid) fun _ => .ret (-1)
        else .reg (.findIpcp pid) fun o => match o with
          | .ipcp _ (some i) => bootLook (bootWait pid (bootDone pid) n) (bootDone pid) i
          | _ => .crash

/-- `create_ipcp_r` (src/irmd/main.c:276-279). -/
def createIpcpR (info : IpcpInfo) : Prg := .reg (.respondIpcp info) fun o => match o with
  | .int r => .ret r
  | _ => .ret 0

/-- `destroy_ipcp` (src/irmd/main.c:281-297): no test whether the process is an IPCP. -/
def destroyIpcp (pid : Nat) : Prg :=
  .os (.term pid) fun x =>
    if x < 0 then .ret (-1)
    else .os (.waitpid pid) fun _ => .reg (.destroyProc pid) fun o => if neg o then .ret (-1) else .ret 0

/-- `bootstrap_ipcp` (src/irmd/main.c:299-333). -/
def bootstrapIpcp (pid : Nat) (conf : Conf) : Prg :=
  .reg (.findIpcp pid) fun o => match o with
    | .ipcp _ (some i) =>
      let conf := if conf.type = IPCP_UDP then { conf with layer := { conf.layer with algo := HASH_MD5 } } else conf
      .ask pid (.bootstrap conf) fun a => match layerOf a with
        | (0, some l) => .reg (.setLayer { i.info with state := .bootstrapped } l) fun o => if neg o then .ret (-1) else .ret 0
        | _ => .ret (-1)
    | _ => .ret (-1)

/-- `enroll_ipcp` (src/irmd/main.c:335-364): a positive result counts as success, with a layer that was not written. The state of the IPCP stays the same. -/
def enrollIpcp (pid : Nat) (dst : Str) : Prg :=
  .reg (.findIpcp pid) fun o => match o with
    | .ipcp _ (some i) => .ask pid (.enroll dst) fun a =>
      if (layerOf a).1 < 0 then .ret (-1)
      else match (layerOf a).2 with
        | none => .crash
        | some l => .reg (.setLayer i.info l) fun o => if neg o then .ret (-1) else .ret 0
    | _ => .ret (-1)

/-- What `connect_ipcp` and `disconnect_ipcp` share (src/irmd/main.c:366-424). -/
def onIpcp (pid : Nat) (m : Ask) : Prg :=
  .reg (.findIpcp pid) fun o => match o with
    | .ipcp _ (some i) =>
      if i.info.type ≠ IPCP_UNICAST ∧ i.info.type ≠ IPCP_BROADCAST then .ret (-EIPCP)
      else .ask pid m fun a => if resultOf a ≠ 0 then .ret (-EPERM) else .ret 0
    | _ => .ret (-EIPCP)

/-- `connect_ipcp` (src/irmd/main.c:366-396). -/
def connectIpcp (pid : Nat) (dst comp : Str) : Prg := onIpcp pid (.connect dst comp)

/-- `disconnect_ipcp` (src/irmd/main.c:398-424). -/
def disconnectIpcp (pid : Nat) (dst comp : Str) : Prg := onIpcp pid (.disconnect dst comp)

/-- `bind_program` (src/irmd/main.c:426-472). The programs in the registry are known by the last part of their paths. -/
def bindProgram (exec : List Str) (name : Str) (auto : Bool) : Prg := match exec with
  | [] => .ret (-EINVAL)
  | e0 :: _ =>
    let undoProg (new : Bool) : Prg := if new && !(strip e0).isEmpty then .reg (.destroyProg e0) fun _ => .ret (-1) else .ret (-1)
    let undoName (newName newProg : Bool) : Prg := if newName && !name.isEmpty then .reg (.destroyName name) fun _ => undoProg newProg else undoProg newProg
    let bind (newName newProg : Bool) : Prg := .reg (.bindProg name exec auto) fun o => if neg o then undoName newName newProg else .ret 0
    let withName (newProg : Bool) : Prg := .reg (.hasName name) fun o =>
      if o = .bool true then bind false newProg
      else .reg (.createName name .spill) fun o => if neg o then undoProg newProg else bind true newProg
    .reg (.hasProg e0) fun o =>
      if o = .bool true then withName false
      else .reg (.createProg (strip e0) e0) fun o => if neg o then .ret (-1) else withName true

/-- `bind_process` (src/irmd/main.c:474-519) with `reg_wait_proc` (src/irmd/reg/reg.c:2009-2037), of which only the last look counts. -/
def bindProcess (pid : Nat) (name : Str) : Prg :=
  .reg (.hasProc pid) fun o =>
    if o ≠ .bool true then .ret (-1)
    else
      let bind (newName : Bool) : Prg := .reg (.bindProc name pid) fun o =>
        if neg o then if newName && !name.isEmpty then .reg (.destroyName name) fun _ => .ret (-1) else .ret (-1)
        else .ret 0
      .reg (.hasName name) fun o =>
        if o = .bool true then bind false
        else .reg (.createName name .spill) fun o => if neg o then .ret (-1) else bind true

/-- `unbind_program` (src/irmd/main.c:521-543). -/
def unbindProgram (prog : Str) : Option Str → Prg
  | none => .reg (.destroyProg prog) fun o => if neg o then .ret (-1) else .ret 0
  | some name => .reg (.unbindProg name prog) fun o => if neg o then .ret (-1) else .ret 0

/-- `unbind_process` (src/irmd/main.c:545-564). -/
def unbindProcess (pid : Nat) : Option Str → Prg
  | none => .reg (.destroyProc pid) fun o => if neg o then .ret (-1) else .ret 0
  | some name => .reg (.unbindProc name pid) fun o => if neg o then .ret (-1) else .ret 0

/-- `name_create` (src/irmd/main.c:584-604). -/
def nameCreate (name : Str) (pol : Pol) : Prg := .reg (.createName name pol) fun o =>
  if o = .int (-EEXIST) then .ret 0 else if neg o then .ret (-1) else .ret 0

/-- `name_destroy` (src/irmd/main.c:606-619). -/
def nameDestroy (name : Str) : Prg := .reg (.destroyName name) fun o => if neg o then .ret (-1) else .ret 0

/-- What `name_reg` and `name_unreg` share (src/irmd/main.c:640-722): the hash is that of the layer of the IPCP. -/
def onName (name : Str) (pid : Nat) (m : Nat → Ask) : Prg :=
  .reg (.hasName name) fun o =>
    if o ≠ .bool true then .ret (-ENAME)
    else .reg (.findIpcp pid) fun o => match o with
      | .ipcp _ (some i) => .ask pid (m i.layer.algo) fun a => if resultOf a ≠ 0 then .ret (-1) else .ret 0
      | _ => .ret (-EIPCP)

/-- `name_reg` (src/irmd/main.c:640-681). -/
def nameReg (name : Str) (pid : Nat) : Prg := onName name pid fun a => .reg a name

/-- `name_unreg` (src/irmd/main.c:683-722). -/
def nameUnreg (name : Str) (pid : Nat) : Prg := onName name pid fun a => .unreg a name

/-! ## Executions -/

/-- What happens in an execution: calls of the registry (src/irmd/reg/reg.c), of IPCPs (src/irmd/ipcp.c:81-177) and of the system. -/
inductive Ev where
  /-- a call of another thread -/
  | other (op : Op) (o : Out)
  /-- a call of the command -/
  | mine (op : Op) (o : Out)
  | asked (pid : Nat) (m : Ask) (a : Option Reply)
  | did (c : Os) (r : Int)
  | slept (timeo : Bool)

/-- What the world decides when the command goes on. [src/irmd/ipcp.c:81-177] -/
structure Choice where
  reply : Option Reply := none
  res : Int := 0
  timeo : Bool := false

/-- Who goes on. [src/irmd/reg/reg.c:67] -/
inductive Act where
  | other (op : Op)
  | go (c : Choice)

/-- One step of a command that runs while other threads call the registry; `none` if it is over. [src/irmd/main.c:1350-1500] -/
def act (s : Reg) (p : Prg) : Act → Option (Outcome (Reg × Prg × Ev))
  | .other op => match Registry.step s op with
    | .ok (s', o) => some (.ok (s', p, .other op o))
    | .ub => some .ub
  | .go c => match p with
    | .ret _ => none
    | .crash => some .ub
    | .reg op k => match Registry.step s op with
      | .ok (s', o) => some (.ok (s', k o, .mine op o))
      | .ub => some .ub
    | .ask pid m k => some (.ok (s, k c.reply, .asked pid m c.reply))
    | .os x k => some (.ok (s, k c.res, .did x c.res))
    | .sleep k => some (.ok (s, k c.timeo, .slept c.timeo))

/-- An execution. [src/irmd/main.c:1350-1500] -/
def run (s : Reg) (p : Prg) : List Act → Option (Outcome (Reg × Prg × List Ev))
  | [] => some (.ok (s, p, []))
  | a :: as => match act s p a with
    | none => none
    | some .ub => some .ub
    | some (.ok (s', p', e)) => match run s' p' as with
      | some (.ok (s'', p'', l)) => some (.ok (s'', p'', e :: l))
      | x => x

/-- Two commands at the same time, each in a thread of the daemon; `true` if the first one goes on. [src/irmd/main.c:1350-1500] -/
def duo (s : Reg) (p q : Prg) : List (Bool × Choice) → Option (Outcome (Reg × Prg × Prg))
  | [] => some (.ok (s, p, q))
  | (b, c) :: as => match act s (if b then p else q) (.go c) with
    | none => none
    | some .ub => some .ub
    | some (.ok (s', k, _)) => if b then duo s' k q as else duo s' p k as

/-- The replies of IPCPs and the results of the operating system as functions of the request. [src/irmd/ipcp.c:81-177] -/
structure World where
  reply : Nat → Ask → Option Reply
  res : Os → Int
  timeo : Bool

/-- A command that nobody interferes with. [src/irmd/main.c:1350-1500] -/
def alone (w : World) (s : Reg) : Prg → Outcome (Reg × Int × List Ev)
  | .ret r => .ok (s, r, [])
  | .crash => .ub
  | .reg op k => match Registry.step s op with
    | .ok (s', o) => match alone w s' (k o) with
      | .ok (s'', r, l) => .ok (s'', r, .mine op o :: l)
      | .ub => .ub
    | .ub => .ub
  | .ask pid m k => match alone w s (k (w.reply pid m)) with
    | .ok (s'', r, l) => .ok (s'', r, .asked pid m (w.reply pid m) :: l)
    | .ub => .ub
  | .os x k => match alone w s (k (w.res x)) with
    | .ok (s'', r, l) => .ok (s'', r, .did x (w.res x) :: l)
    | .ub => .ub
  | .sleep k => match alone w s (k w.timeo) with
    | .ok (s'', r, l) => .ok (s'', r, .slept w.timeo :: l)
    | .ub => .ub

/-- What the functions of src/lib/irm.c:40-701 return: the result in the reply, or an error if none came (the daemon sends none if the command ended with `-EPIPE` or
`-EIRMD`, src/irmd/main.c:1554-1562). -/
def client (deflt : Int) : Option (Option Int) → Int
  | none => -EIRMD
  | some none => deflt
  | some (some r) => r

/-- What the daemon sends back (src/irmd/main.c:1486-1490, 1554-1562). -/
def reply (r : Int) : Option (Option Int) := if r = -32 ∨ r = -EIRMD then none else some (some r)

end Ouro.IrmdAdmin
