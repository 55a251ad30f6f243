import Verif.Model.IrmTool

/-!
# Model of `irm ipcp enroll` and `irm ipcp bootstrap` (src/tools/irm/irm_ipcp_enroll.c, src/tools/irm/irm_ipcp_bootstrap.c)

The commands after their options are read, with the part of the daemon they see: its IPCPs with name, type and layer, and the names bound to processes.
Simplifications: the daemon can be reached and its lists fit; what is printed and the configuration of an IPCP apart from the name of its layer are left out; an
IPCP that is created is listed last.
-/

namespace Ouro.IrmEnroll

open IrmTool (Str wild)

/-- `struct ipcp_list_info` (include/ouroboros/irm.h:33-38). -/
structure Proc where
  pid : Nat
  name : Str
  type : Nat
  layer : Str
  deriving DecidableEq, Repr

/-- What the daemon keeps (src/irmd/reg/reg.c:46-68): its IPCPs, and which processes are bound to which names. -/
structure World where
  ipcps : List Proc
  binds : List (Nat × Str)
  deriving DecidableEq, Repr

/-- The calls of the library (include/ouroboros/irm.h:42-90). -/
inductive Call where
  | create (name : Str) (type : Nat)
  | enroll (pid : Nat) (dst : Str)
  | bootstrap (pid : Nat) (layer : Str)
  | bind (pid : Nat) (name : Str)
  | unbind (pid : Nat) (name : Str)
  deriving DecidableEq, Repr

/-- How the daemon answers: the pid of a new IPCP, the layer an IPCP is enrolled in, and whether other calls succeed (src/lib/irm.c:41-77, 107-136, 248-276). -/
structure Env where
  create : Option Nat
  enroll : Nat → Option Str
  bootstrap : Nat → Bool
  bind : Nat → Str → Bool

/-- An IPCP is created (src/irmd/main.c:239-278). -/
def World.add (w : World) (pid : Nat) (name : Str) (type : Nat) : World := { w with ipcps := w.ipcps ++ [⟨pid, name, type, []⟩] }

/-- An IPCP is in a layer (src/irmd/main.c:302-365). -/
def World.join (w : World) (pid : Nat) (layer : Str) : World := { w with ipcps := w.ipcps.map fun p => if p.pid = pid then { p with layer := layer } else p }

/-- A process is bound (src/irmd/reg/reg.c:1237-1295). -/
def World.bind (w : World) (pid : Nat) (name : Str) : World := { w with binds := (pid, name) :: w.binds }

/-- A process is unbound (src/irmd/reg/reg.c:1297-1343). -/
def World.unbind (w : World) (pid : Nat) (name : Str) : World := { w with binds := w.binds.filter (· ≠ (pid, name)) }

/-- `get_layer_name` (src/tools/irm/irm_ipcp_enroll.c:63-81): of the first IPCP of that name. -/
def layerName (w : World) (name : Str) : Option Str := (w.ipcps.find? fun p => p.name = name).map Proc.layer

/-- The calls made, whether the command goes on, and the daemon after it (src/tools/irm/irm_ipcp_enroll.c:148-192). -/
abbrev Res := List Call × Bool × World

/-- The two calls with `autobind` (src/tools/irm/irm_ipcp_enroll.c:174-182). -/
def autoBind (e : Env) (w : World) (pid : Nat) (a b : Str) : Res :=
  if e.bind pid a then
    if e.bind pid b then ([.bind pid a, .bind pid b], true, (w.bind pid a).bind pid b)
    else ([.bind pid a, .bind pid b], false, w.bind pid a)
  else ([.bind pid a], false, w)

/-- One pass of the loop for an IPCP that matches (src/tools/irm/irm_ipcp_enroll.c:156-182). -/
def enrollOne (e : Env) (w : World) (p : Proc) (ipcp : Str) (layer : Option Str) (dst : Str) (auto : Bool) : Res :=
  match e.enroll p.pid with
  | none => ([.enroll p.pid dst], false, w)
  | some l =>
    let w := w.join p.pid l
    match layerName w p.name with
    | none => ([.enroll p.pid dst], false, w)
    | some enr =>
      if layer.isSome ∧ layer ≠ some enr then ([.enroll p.pid dst], false, w)
      else if auto then
        let r := autoBind e w p.pid ipcp enr
        (.enroll p.pid dst :: r.1, r.2)
      else ([.enroll p.pid dst], true, w)

/-- `wildcard_match(ipcps[i].name, ipcp) == 0` and the type (src/tools/irm/irm_ipcp_enroll.c:136-137, 150-154). -/
def hit (ipcp : Str) (type : Nat) (p : Proc) : Bool := wild p.name ipcp && p.type == type

/-- The loop (src/tools/irm/irm_ipcp_enroll.c:148-183). -/
def enrollLoop (e : Env) (ipcp : Str) (layer : Option Str) (dst : Str) (type : Nat) (auto : Bool) : List Proc → World → Res
  | [], w => ([], true, w)
  | p :: l, w =>
    if hit ipcp type p then
      let r := enrollOne e w p ipcp layer dst auto
      if r.2.1 then
        let s := enrollLoop e ipcp layer dst type auto l r.2.2
        (r.1 ++ s.1, s.2)
      else r
    else enrollLoop e ipcp layer dst type auto l w

/-- `do_enroll_ipcp` (src/tools/irm/irm_ipcp_enroll.c:121-192). -/
def doEnroll (e : Env) (w : World) (ipcp : Str) (layer dst : Option Str) (type : Nat) (auto : Bool) : List Call × Int × World :=
  match (if dst.isSome then dst else layer) with
  | none => ([], -1, w)
  | some dst =>
    let out := fun (r : Res) => (r.1, if r.2.1 then (0 : Int) else -1, r.2.2)
    if w.ipcps.any (hit ipcp type) then out (enrollLoop e ipcp layer dst type auto w.ipcps w)
    else match e.create with
      | none => ([.create ipcp type], -1, w)
      | some pid =>
        let w := w.add pid ipcp type
        let r := enrollLoop e ipcp layer dst type auto w.ipcps w
        out (.create ipcp type :: r.1, r.2)

/-- IPCPs that can be bound: UNICAST and BROADCAST (src/tools/irm/irm_ipcp_bootstrap.c:298-303, include/ouroboros/ipcp.h:45-53). -/
def bindable (type : Nat) : Bool := type = 1 ∨ type = 2

/-- One pass of the loop for an IPCP that matches (src/tools/irm/irm_ipcp_bootstrap.c:289-370): binds, bootstraps, and unbinds if that fails. -/
def bootOne (e : Env) (w : World) (p : Proc) (ipcp layer : Str) (auto : Bool) : Res :=
  if auto && bindable p.type then
    if e.bind p.pid ipcp then
      if e.bind p.pid layer then
        if e.bootstrap p.pid then ([.bind p.pid ipcp, .bind p.pid layer, .bootstrap p.pid layer], true, ((w.bind p.pid ipcp).bind p.pid layer).join p.pid layer)
        else ([.bind p.pid ipcp, .bind p.pid layer, .bootstrap p.pid layer, .unbind p.pid ipcp, .unbind p.pid layer], false,
          (((w.bind p.pid ipcp).bind p.pid layer).unbind p.pid ipcp).unbind p.pid layer)
      else ([.bind p.pid ipcp, .bind p.pid layer, .unbind p.pid ipcp], false, (w.bind p.pid ipcp).unbind p.pid ipcp)
    else ([.bind p.pid ipcp], false, w)
  else if e.bootstrap p.pid then ([.bootstrap p.pid layer], true, w.join p.pid layer)
  else ([.bootstrap p.pid layer], false, w)

end Ouro.IrmEnroll
