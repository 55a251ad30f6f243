import Verif.Model.Base
import Verif.Model.Errno

/-!
# Model of the `irm` tool (src/tools/irm)

A command line is a list of words; the word after the last is the null pointer, as in C.  A command asks the daemon for lists, then makes calls of the
library one after the other.  The environment decides what the lists are and which calls succeed.

Simplifications: what is printed is left out; a string is a list of characters without the final zero; memory does not run out.
-/

namespace Ouro.IrmTool

/-- A C string without its final zero (src/tools/irm/irm_utils.c:84-93). -/
abbrev Str := List Char

/-- `matches(cmd, pattern) == 0` (src/tools/irm/irm_utils.c:84-93). -/
def matches_ (cmd pattern : Str) : Bool := if pattern.length < cmd.length then false else pattern.take cmd.length == cmd

/-- `wildcard_match(pattern, string) == 0` (src/tools/irm/irm_utils.c:95-125).  The loop over `*string != '\0'` tries the suffixes that are not empty. -/
def wild : Str → Str → Bool
  | [], s => s.isEmpty
  | c :: p, s =>
    if c = '*' then
      if p.isEmpty then true else (List.range s.length).any fun k => wild p (s.drop k)
    else match s with
      | [] => false
      | d :: s' => c = d && wild p s'

/-- `do_cmd`: the first command of the table that matches (src/tools/irm/irm.c:77-91, src/tools/irm/irm_ipcp.c:78-92, src/tools/irm/irm_name.c:75-89,
src/tools/irm/irm_bind.c:74-88, src/tools/irm/irm_unbind.c:74-87). -/
def resolve (table : List Str) (a : Str) : Option Str := table.find? fun k => matches_ a k

/-- `cmds` (src/tools/irm/irm.c:65-75). -/
def irmCmds : List Str := ["ipcp".toList, "bind".toList, "unbind".toList, "name".toList, "help".toList]

/-- `cmds` (src/tools/irm/irm_ipcp.c:63-76). -/
def ipcpCmds : List Str := ["create".toList, "destroy".toList, "bootstrap".toList, "enroll".toList, "connect".toList, "disconnect".toList, "list".toList,
  "help".toList]

/-- `cmds` (src/tools/irm/irm_name.c:62-73). -/
def nameCmds : List Str := ["create".toList, "destroy".toList, "register".toList, "unregister".toList, "list".toList, "help".toList]

/-- `cmds` (src/tools/irm/irm_bind.c:63-72, src/tools/irm/irm_unbind.c:63-72). -/
def bindCmds : List Str := ["program".toList, "process".toList, "ipcp".toList, "help".toList]

/-- The options of `do_bootstrap_ipcp` in the order they are tried (src/tools/irm/irm_ipcp_bootstrap.c:165-229). -/
def bootOpts : List Str := ["type".toList, "layer".toList, "name".toList, "hash".toList, "ip".toList, "dns".toList, "device".toList, "ethertype".toList,
  "addr".toList, "eid".toList, "ttl".toList, "port".toList, "autobind".toList, "addr_auth".toList, "routing".toList, "congestion".toList]

/-- `struct ipcp_list_info` (include/ouroboros/irm.h:33-38). -/
structure Ipcp where
  pid : Nat
  name : Str
  layer : Str
  deriving DecidableEq, Repr

/-- Calls of the library that change something (include/ouroboros/irm.h:42-90). -/
inductive Call where
  | createName (name : Str)
  | reg (name : Str) (pid : Nat)
  | unreg (name : Str) (pid : Nat)
  | destroyIpcp (pid : Nat)
  | bindProcess (pid : Nat) (name : Str)
  | connect (pid : Nat) (dst comp : Str)
  | disconnect (pid : Nat) (dst comp : Str)
  deriving DecidableEq, Repr

/-- What the daemon answers: its lists, or nothing, and whether the `n`-th call succeeds (src/lib/irm.c:201-246, 593-641). -/
structure Env where
  ipcps : Option (List Ipcp)
  names : Option (List Str)
  ok : Nat → Call → Bool

/-- `irm_list_ipcps`, the copies (src/lib/irm.c:236-241): the arrays have 255 bytes (include/ouroboros/irm.h:36-37). -/
def listIpcps (l : List Ipcp) : Outcome (List Ipcp) := if l.all fun i => i.name.length < 255 && i.layer.length < 255 then .ok l else .ub

/-- A step of a loop: a call of the library, or the use of a null pointer as a string (src/tools/irm/irm_name_reg.c:134-153). -/
inductive Step where
  | call (c : Call)
  | crash
  deriving DecidableEq, Repr

/-- The steps up to the first call that fails; the `n`-th call is next (src/tools/irm/irm_name_reg.c:138-142). -/
def exec (ok : Nat → Call → Bool) : Nat → List Step → Outcome (List Call × Bool)
  | _, [] => .ok ([], true)
  | _, .crash :: _ => .ub
  | n, .call c :: l =>
    if ok n c then match exec ok (n + 1) l with
      | .ub => .ub
      | .ok r => .ok (c :: r.1, r.2)
    else .ok ([c], false)

/-- The result of a command: the calls it made and what it returns (src/tools/irm/irm.c:93-113). -/
def finish : Outcome (List Call × Bool) → Outcome (List Call × Int)
  | .ub => .ub
  | .ok (c, r) => .ok (c, if r then 0 else -1)

/-- The options of `irm name register` and `unregister` (src/tools/irm/irm_name_reg.c:82-103, src/tools/irm/irm_name_unreg.c:78-99): a word is stored before the
number is compared with 128.  `none` is an unknown option. -/
def regArgs : List Str → List (Option Str) → List (Option Str) → Outcome (Option (List (Option Str) × List (Option Str)))
  | [], layers, ipcps => .ok (some (layers, ipcps))
  | [a], layers, ipcps =>
    if matches_ a "layer".toList then if layers.length < 128 then .ok (some (layers ++ [none], ipcps)) else .ub
    else if matches_ a "ipcp".toList then if ipcps.length < 128 then .ok (some (layers, ipcps ++ [none])) else .ub
    else .ok none
  | a :: v :: l, layers, ipcps =>
    if matches_ a "layer".toList then if layers.length < 128 then regArgs l (layers ++ [some v]) ipcps else .ub
    else if matches_ a "ipcp".toList then if ipcps.length < 128 then regArgs l layers (ipcps ++ [some v]) else .ub
    else .ok none

/-- One pass of a loop over patterns (src/tools/irm/irm_name_reg.c:136-144). -/
def regStep (c : Call) (s : Str) : Option Str → Option Step
  | none => some .crash
  | some p => if wild p s then some (.call c) else none

/-- The two loops over the patterns for one IPCP when registering (src/tools/irm/irm_name_reg.c:135-152). -/
def regSteps (name : Str) (layers ipcps : List (Option Str)) (i : Ipcp) : List Step :=
  layers.filterMap (regStep (.reg name i.pid) i.layer) ++ ipcps.filterMap (regStep (.reg name i.pid) i.name)

/-- `do_reg_name` (src/tools/irm/irm_name_reg.c:64-160).  When the name cannot be created, its argument is freed. -/
def doReg (e : Env) (args : List Str) : Outcome (List Call × Int) :=
  match args with
  | [] => .ok ([], -1)
  | name :: l => match regArgs l [] [] with
    | .ub => .ub
    | .ok none => .ok ([], -1)
    | .ok (some (layers, pats)) =>
      if layers.length < 1 ∧ pats.length < 1 then .ok ([], -1)
      else match e.ipcps with
        | none => .ok ([], -EIRMD)
        | some is => match listIpcps is with
          | .ub => .ub
          | .ok is => match e.names with
            | none => .ok ([], -EIRMD)
            | some ns =>
              if ns.contains name then finish (exec e.ok 0 (is.flatMap (regSteps name layers pats)))
              else if e.ok 0 (.createName name) then
                match exec e.ok 1 (is.flatMap (regSteps name layers pats)) with
                | .ub => .ub
                | .ok r => finish (.ok (.createName name :: r.1, r.2))
              else .ub

/-- The first match in a loop with `break` (src/tools/irm/irm_name_unreg.c:112-120): `s` is the pattern, the words are what is matched. -/
def unregFirst (c : Call) (s : Str) : List (Option Str) → List Step
  | [] => []
  | none :: _ => [.crash]
  | some w :: l => if wild s w then [.call c] else unregFirst c s l

/-- The two loops for one IPCP when unregistering (src/tools/irm/irm_name_unreg.c:111-129). -/
def unregSteps (name : Str) (layers ipcps : List (Option Str)) (i : Ipcp) : List Step :=
  unregFirst (.unreg name i.pid) i.layer layers ++ unregFirst (.unreg name i.pid) i.name ipcps

/-- `do_unreg_name` (src/tools/irm/irm_name_unreg.c:63-135). -/
def doUnreg (e : Env) (args : List Str) : Outcome (List Call × Int) :=
  match args with
  | [] => .ok ([], -1)
  | name :: l => match regArgs l [] [] with
    | .ub => .ub
    | .ok none => .ok ([], -1)
    | .ok (some (layers, pats)) =>
      if layers.length < 1 ∧ pats.length < 1 then .ok ([], -1)
      else match e.ipcps with
        | none => .ok ([], -1)
        | some is => match listIpcps is with
          | .ub => .ub
          | .ok is => finish (exec e.ok 0 (is.flatMap (unregSteps name layers pats)))

/-- A loop over options that all take a word (src/tools/irm/irm_ipcp_destroy.c:63-74, src/tools/irm/irm_ipcp_connect.c:78-95,
src/tools/irm/irm_ipcp_disconnect.c:72-86, src/tools/irm/irm_bind_ipcp.c:64-81, src/tools/irm/irm_name_create.c:68-79): the options found, with their word or
null; `none` is an unknown option. -/
def opts (table : List Str) : List Str → Option (List (Str × Option Str))
  | [] => some []
  | [a] => (resolve table a).map fun k => [(k, none)]
  | a :: v :: l => match resolve table a with
    | none => none
    | some k => (opts table l).map fun r => (k, some v) :: r

/-- The value of an option: the last one given (src/tools/irm/irm_ipcp_connect.c:79-86). -/
def value (o : List (Str × Option Str)) (k : Str) (dflt : Option Str) : Option Str := match (o.filter fun x => x.1 = k).getLast? with
  | none => dflt
  | some x => x.2

/-- `do_destroy_ipcp` (src/tools/irm/irm_ipcp_destroy.c:55-99). -/
def doDestroy (e : Env) (args : List Str) : Outcome (List Call × Int) :=
  match opts ["name".toList] args with
  | none => .ok ([], -1)
  | some o => match value o "name".toList none with
    | none => .ok ([], -1)
    | some n => match e.ipcps with
      | none => .ok ([], -1)
      | some is => match listIpcps is with
        | .ub => .ub
        | .ok is =>
          if is = [] then .ok ([], -1)
          else match is.find? fun i => i.name = n with
            | none => .ok ([], 0)
            | some i => finish (exec e.ok 0 [.call (.destroyIpcp i.pid)])

/-- `do_bind_ipcp` (src/tools/irm/irm_bind_ipcp.c:55-101). -/
def doBindIpcp (e : Env) (args : List Str) : Outcome (List Call × Int) :=
  match opts ["name".toList, "ipcp".toList] args with
  | none => .ok ([], -1)
  | some o => match value o "ipcp".toList none, value o "name".toList none with
    | some p, some n => match e.ipcps with
      | none => .ok ([], 0)
      | some is => match listIpcps is with
        | .ub => .ub
        | .ok is => match is.find? fun i => i.name = p with
          | none => .ok ([], 0)
          | some i => finish (exec e.ok 0 [.call (.bindProcess i.pid n)])
    | _, _ => .ok ([], -1)

/-- The components that `component` selects, in the order given (src/tools/irm/irm_ipcp_connect.c:127-138, src/tools/irm/irm_ipcp_disconnect.c:104-114,
include/ouroboros/ipcp.h:63-64). -/
def select (comp : Str) (order : List (Str × Str)) : List Str := (order.filter fun x => wild comp x.1).map fun x => x.2

/-- MGMT and its component (src/tools/irm/irm_ipcp_connect.c:50, include/ouroboros/ipcp.h:64). -/
def mgmt : Str × Str := ("mgmt".toList, "Management".toList)

/-- DT and its component (src/tools/irm/irm_ipcp_connect.c:49, include/ouroboros/ipcp.h:63). -/
def dt : Str × Str := ("dt".toList, "Data Transfer".toList)

/-- `do_connect_ipcp` (src/tools/irm/irm_ipcp_connect.c:64-141), without the QoS: the last IPCP of that name. -/
def doConnect (e : Env) (args : List Str) : Outcome (List Call × Int) :=
  match opts ["name".toList, "dst".toList, "component".toList, "qos".toList] args with
  | none => .ok ([], -1)
  | some o => match value o "name".toList none, value o "dst".toList none, value o "component".toList (some "*".toList) with
    | some n, some d, some c => match e.ipcps with
      | none => .ok ([], -1)
      | some is => match listIpcps is with
        | .ub => .ub
        | .ok is => match (is.filter fun i => i.name = n).getLast? with
          | none => .ok ([], -1)
          | some i => finish (exec e.ok 0 ((select c [mgmt, dt]).map fun k => .call (.connect i.pid d k)))
    | _, _, _ => .ok ([], -1)

/-- `do_disconnect_ipcp` (src/tools/irm/irm_ipcp_disconnect.c:60-117). -/
def doDisconnect (e : Env) (args : List Str) : Outcome (List Call × Int) :=
  match opts ["name".toList, "dst".toList, "component".toList] args with
  | none => .ok ([], -1)
  | some o => match value o "name".toList none, value o "dst".toList none, value o "component".toList (some "*".toList) with
    | some n, some d, some c => match e.ipcps with
      | none => .ok ([], -1)
      | some is => match listIpcps is with
        | .ub => .ub
        | .ok is => match (is.filter fun i => i.name = n).getLast? with
          | none => .ok ([], -1)
          | some i => finish (exec e.ok 0 ((select c [dt, mgmt]).map fun k => .call (.disconnect i.pid d k)))
    | _, _, _ => .ok ([], -1)

/-- `do_create_name` (src/tools/irm/irm_name_create.c:58-96): the policy is compared without a test for null. -/
def doCreateName (e : Env) (args : List Str) : Outcome (List Call × Int) :=
  match args with
  | [] => .ok ([], -1)
  | name :: l => match opts ["lb".toList] l with
    | none => .ok ([], -1)
    | some o => match value o "lb".toList (some "round-robin".toList) with
      | none => .ub
      | some p =>
        if p = "round-robin".toList ∨ p = "spillover".toList then finish (exec e.ok 0 [.call (.createName name)]) else .ok ([], -1)

/-- The names `do_list_name` prints (src/tools/irm/irm_name_list.c:102-109). -/
def shown (filter : Option Str) (names : List Str) : List Str := match filter with
  | none => names
  | some f => names.filter fun n => matches_ n f

end Ouro.IrmTool
