import Verif.Model.Base
import Verif.Model.Errno

/-!
# Model of the configuration file of the IRM daemon (src/irmd/configfile.c)

A file that the TOML library has read is a table.  Loading it is a list of steps, as every failure ends it with -1: a call of the daemon, a failure, or
undefined behaviour.  The environment decides which calls succeed, the pid of a new IPCP, the layer it enrols in, and what is an IPv4 address.

Simplifications: the parser is not modelled; a table lists its keys in the order `toml_key_in` gives them; memory does not run out.
-/

namespace Ouro.Config

/-- A C string without its final zero (src/irmd/configfile.c:575-577). -/
abbrev Str := List Char

/-- A value of the TOML library, which `toml_string_in`, `toml_int_in`, `toml_bool_in`, `toml_array_in` and `toml_table_in` read (src/irmd/configfile.c:46, 58,
130, 346, 373, 764). -/
inductive Val where
  | str (s : Str)
  | int (i : Int)
  | bool (b : Bool)
  | arr (l : List Val)
  | tab (l : List (Str × Val))

/-- A table (src/irmd/configfile.c:46). -/
abbrev Table := List (Str × Val)

/-- The value of a key (src/irmd/configfile.c:58). -/
def get (t : Table) (k : String) : Option Val := (t.find? fun x => x.1 = k.toList).map fun x => x.2

/-- `toml_string_in` (src/irmd/configfile.c:58). -/
def str (t : Table) (k : String) : Option Str := match get t k with
  | some (.str s) => some s
  | _ => none

/-- `toml_int_in`: a signed number of 64 bits (src/irmd/configfile.c:130). -/
def int (t : Table) (k : String) : Option Int := match get t k with
  | some (.int i) => some i
  | _ => none

/-- `toml_bool_in` (src/irmd/configfile.c:346). -/
def bool (t : Table) (k : String) : Option Bool := match get t k with
  | some (.bool b) => some b
  | _ => none

/-- `toml_array_in` (src/irmd/configfile.c:373). -/
def arr (t : Table) (k : String) : Option (List Val) := match get t k with
  | some (.arr l) => some l
  | _ => none

/-- `toml_table_in`, given the value of the key; `none` is the null pointer (src/irmd/configfile.c:569, 752, 764). -/
def table : Val → Option Table
  | .tab t => some t
  | _ => none

/-- A loop with `toml_string_at`: the strings of an array up to the first value that is none (src/irmd/configfile.c:377-382, 412-418, 665-670). -/
def strs : List Val → List Str
  | .str s :: l => s :: strs l
  | _ => []

/-- `enum pol_dir_hash` (include/ouroboros/ipcp.h:111-117). -/
inductive Hash where
  | sha224 | sha256 | sha384 | sha512
  deriving DecidableEq, Repr

/-- `enum pol_routing` (include/ouroboros/ipcp.h:72-77). -/
inductive Routing where
  | linkState | lfa | ecmp
  deriving DecidableEq, Repr

/-- `enum pol_cong_avoid` (include/ouroboros/ipcp.h:79-83). -/
inductive Ca where
  | none | mbEcn
  deriving DecidableEq, Repr

/-- `enum pol_balance` (include/ouroboros/name.h:29-33). -/
inductive Lb where
  | rr | spill
  deriving DecidableEq, Repr

/-- `enum ipcp_type` (include/ouroboros/ipcp.h:45-53). -/
inductive Ty where
  | local_ | unicast | broadcast | llc | dix | udp
  deriving DecidableEq, Repr

/-- The part of `struct ipcp_config` that depends on the type (include/ouroboros/ipcp.h:85-108, 128-132); the only address authority is flat. -/
inductive Sub where
  | none
  | uni (addrSize eidSize maxTtl : Nat) (routing : Routing) (ca : Ca)
  | eth (dev : Str) (ethertype : Nat)
  | udp (ip dns : Nat) (port : Nat)
  deriving DecidableEq, Repr

/-- `struct ipcp_config` (include/ouroboros/ipcp.h:124-133). -/
structure Conf where
  layer : Str
  hash : Hash
  type : Ty
  sub : Sub
  deriving DecidableEq, Repr

/-- The calls of the daemon (src/irmd/irmd.h:29-53). -/
inductive Call where
  | create (ty : Ty) (name : Str)
  | bootstrap (pid : Nat) (c : Conf)
  | enroll (pid : Nat) (dst : Str)
  | connect (pid : Nat) (dst comp : Str)
  | createName (name : Str) (lb : Lb)
  | reg (name : Str) (pid : Nat)
  | bindProcess (pid : Nat) (name : Str)
  | bindProgram (argv : List Str) (name : Str) (auto : Bool)
  deriving DecidableEq, Repr

/-- What the calls return, given those before; the pid of an IPCP; the layer an IPCP is in after it enrolled; `inet_pton` (src/irmd/configfile.c:175, 443,
466-474). -/
structure Env where
  res : List Call → Call → Int
  pid : Str → Nat
  layer : Nat → Option Str
  pton : Str → Option Nat

/-- A step: a call, and whether -ENAME is accepted; the end with -1; undefined behaviour (src/irmd/configfile.c:384-392). -/
inductive Step where
  | call (c : Call) (name : Bool)
  | fail
  | crash
  deriving DecidableEq, Repr

/-- The steps after the calls `h`: the calls made and the result (src/irmd/configfile.c:785-801). -/
def exec (e : Env) (h : List Call) : List Step → Outcome (List Call × Int)
  | [] => .ok (h, 0)
  | .fail :: _ => .ok (h, -1)
  | .crash :: _ => .ub
  | .call c name :: l =>
    if 0 ≤ e.res h c ∨ (name = true ∧ e.res h c = -ENAME) then exec e (h ++ [c]) l else .ok (h ++ [c], -1)

/-- The conversion of a number to `uint8_t` (src/irmd/configfile.c:291-301). -/
def u8 (i : Int) : Nat := (i % 256).toNat

/-- The conversion of a number to `uint16_t` (src/irmd/configfile.c:130-132, 180-182). -/
def u16 (i : Int) : Nat := (i % 65536).toNat

/-- `toml_hash` with the default (src/irmd/configfile.c:53-81). -/
def hashOf (d : Hash) : Option Str → Option Hash
  | none => some d
  | some s =>
    if s = "SHA3_224".toList then some .sha224
    else if s = "SHA3_256".toList then some .sha256
    else if s = "SHA3_384".toList then some .sha384
    else if s = "SHA3_512".toList then some .sha512
    else none

/-- `toml_eth_dev` (src/irmd/configfile.c:91-112). -/
def devOf : Option Str → Option Str
  | none => none
  | some s => if 255 < s.length then none else some s

/-- `toml_ethertype` with the default (src/irmd/configfile.c:126-140). -/
def ethertypeOf (o : Option Int) : Option Nat :=
  let v := match o with
    | none => 0xA000
    | some i => u16 i
  if v < 0x0600 ∨ v = 0xFFFF then none else some v

/-- `toml_udp`: the addresses and the port (src/irmd/configfile.c:160-204, include/ouroboros/ipcp.h:163-168).  `inet_pton` returns 0, not less, for a string that
is no address. -/
def udpOf (e : Env) (ip : Option Str) (port : Option Int) (dns : Option Str) : Option Sub :=
  match ip with
  | none => none
  | some ip => match e.pton ip with
    | none => none
    | some a => some (.udp a ((dns.bind e.pton).getD 0) (match port with
      | none => 3435
      | some p => u16 p))

/-- `toml_routing` (src/irmd/configfile.c:217-239). -/
def routingOf : Option Str → Option Routing
  | none => some .linkState
  | some s =>
    if s = "link-state".toList then some .linkState
    else if s = "lfa".toList then some .lfa
    else if s = "ecmp".toList then some .ecmp
    else none

/-- `toml_addr_auth` (src/irmd/configfile.c:241-259). -/
def authOf : Option Str → Option Unit
  | none => some ()
  | some s => if s = "flat".toList then some () else none

/-- `toml_congestion` (src/irmd/configfile.c:261-282). -/
def caOf : Option Str → Option Ca
  | none => some .mbEcn
  | some s =>
    if s = "none".toList then some .none
    else if s = "lfa".toList then some .mbEcn
    else none

/-- A number of `toml_dt` (src/irmd/configfile.c:284-302). -/
def numOf (d : Nat) : Option Int → Nat
  | none => d
  | some i => u8 i

/-- `toml_unicast` and `toml_dt` (src/irmd/configfile.c:284-337, include/ouroboros/ipcp.h:170-186). -/
def uniOf (t : Table) : Option Sub :=
  match routingOf (str t "routing") with
  | none => none
  | some r => match authOf (str t "addr-auth") with
    | none => none
    | some _ => match caOf (str t "congestion") with
      | none => none
      | some c => some (.uni (numOf 4 (int t "addr_size")) (numOf 8 (int t "eid_size")) (numOf 60 (int t "max_ttl")) r c)

/-- The configuration for bootstrapping: `toml_local`, `toml_eth_dix`, `toml_eth_llc`, `toml_udp`, `toml_broadcast`, `toml_unicast` and the name of the layer
(src/irmd/configfile.c:83-89, 114-123, 142-158, 160-215, 311-337, 497-526).  The default of udp and broadcast has the hash with number 0. -/
def confOf (e : Env) (ty : Ty) (t : Table) (layer : Str) : Option Conf :=
  match ty with
  | .local_ => (hashOf .sha256 (str t "hash")).map fun h => ⟨layer, h, .local_, .none⟩
  | .llc => match hashOf .sha256 (str t "hash"), devOf (str t "dev") with
    | some h, some d => some ⟨layer, h, .llc, .eth d 0⟩
    | _, _ => none
  | .dix => match hashOf .sha256 (str t "hash"), devOf (str t "dev"), ethertypeOf (int t "ethertype") with
    | some h, some d, some y => some ⟨layer, h, .dix, .eth d y⟩
    | _, _, _ => none
  | .udp => (udpOf e (str t "ip") (int t "port") (str t "dns")).map fun s => ⟨layer, .sha224, .udp, s⟩
  | .broadcast => some ⟨layer, .sha224, .broadcast, .none⟩
  | .unicast => match hashOf .sha256 (str t "hash"), uniOf t with
    | some h, some s => some ⟨layer, h, .unicast, s⟩
    | _, _ => none

/-- `toml_autobind`: whether there is a value is tested, not the value (src/irmd/configfile.c:339-362). -/
def autobind (t : Table) (pid : Nat) (name layer : Str) : List Step := match bool t "autobind" with
  | none => []
  | some _ => [.call (.bindProcess pid name) false, .call (.bindProcess pid layer) false]

/-- One pass of the loop in `toml_register`: the name is copied into an array of 256 bytes (src/irmd/configfile.c:377-396, include/ouroboros/name.h:26-38). -/
def regOne (pid : Nat) (n : Str) : List Step :=
  if 255 < n.length then [.crash] else [.call (.createName n .spill) true, .call (.reg n pid) false]

/-- `toml_register` (src/irmd/configfile.c:364-399). -/
def register (t : Table) (pid : Nat) : List Step := match arr t "reg" with
  | none => []
  | some l => (strs l).flatMap (regOne pid)

/-- `toml_connect` (src/irmd/configfile.c:401-430). -/
def connect (t : Table) (pid : Nat) : List Step := match arr t "conn" with
  | none => []
  | some l => (strs l).flatMap fun d => [.call (.connect pid d "Management".toList) false, .call (.connect pid d "Data Transfer".toList) false]

/-- `toml_ipcp` after the IPCP was created (src/irmd/configfile.c:448-539). -/
def ipcpBody (e : Env) (ty : Ty) (name : Str) (t : Table) : List Step :=
  match str t "enrol" with
  | some dst => .call (.enroll (e.pid name) dst) false :: (match e.layer (e.pid name) with
    | none => [.fail]
    | some layer => autobind t (e.pid name) name layer ++ register t (e.pid name) ++ connect t (e.pid name))
  | none => match str t "bootstrap" with
    | none => []
    | some layer =>
      if 255 < layer.length then [.fail]
      else match confOf e ty t layer with
        | none => [.fail]
        | some c => .call (.bootstrap (e.pid name) c) false :: (autobind t (e.pid name) name layer ++ register t (e.pid name))

/-- One pass of the loop in `toml_ipcp_list` with `toml_ipcp`; the table of the IPCP is read after it was created (src/irmd/configfile.c:432-450, 548-570). -/
def ipcp (e : Env) (ty : Ty) (x : Str × Val) : List Step :=
  if 255 < x.1.length then [.fail]
  else .call (.create ty x.1) false :: (match table x.2 with
    | none => [.crash]
    | some t => ipcpBody e ty x.1 t)

/-- `toml_ipcp_list` (src/irmd/configfile.c:542-573): the keys of a null table are read. -/
def ipcpList (e : Env) (ty : Ty) : Option Table → List Step
  | none => [.crash]
  | some t => t.flatMap (ipcp e ty)

/-- The first loop of `args_to_argv`: the number of words, with as many passes as the string is long (src/irmd/configfile.c:586-592). -/
def count : Nat → Str → Nat
  | 0, _ => 0
  | n + 1, s => match s.dropWhile (· = ' ') with
    | [] => 0
    | c :: l => count n ((c :: l).dropWhile (· ≠ ' ')) + 1

/-- The second loop of `args_to_argv`: each word is stored at `argc`; the zero pointer is stored after the last (src/irmd/configfile.c:608-622). -/
def fill : Nat → Str → Nat → List (Option Str) → Outcome (List (Option Str) × Nat)
  | 0, _, argc, a => match wr a argc none with
    | .ub => .ub
    | .ok a => .ok (a, argc)
  | n + 1, s, argc, a => match s.dropWhile (· = ' ') with
    | [] => match wr a argc none with
      | .ub => .ub
      | .ok a => .ok (a, argc)
    | c :: l => match wr a argc (some ((c :: l).takeWhile (· ≠ ' '))) with
      | .ub => .ub
      | .ok a => fill n ((c :: l).dropWhile (· ≠ ' ')) (argc + 1) a

/-- `args_to_argv` (src/irmd/configfile.c:575-629): the array and the number of words. -/
def argsToArgv (prog : Str) (args : Option Str) : Outcome (List (Option Str) × Nat) :=
  let s := args.getD []
  match wr (List.replicate (count (s.length + 1) s + 2) none) 0 (some prog) with
  | .ub => .ub
  | .ok a => fill (s.length + 1) s 1 a

/-- `toml_prog` (src/irmd/configfile.c:630-657): the daemon reads the array up to the zero pointer. -/
def prog (name : Str) (p : Str) (args : Option Str) : List Step := match argsToArgv p args with
  | .ub => [.crash]
  | .ok (a, _) => [.call (.bindProgram ((a.takeWhile fun x => x.isSome).filterMap id) name args.isSome) false]

/-- `toml_prog_list` (src/irmd/configfile.c:658-692): a program without a string at its place in `args`, and all after it, have none. -/
def progs (name : Str) : List Str → List Str → List Step
  | [], _ => []
  | p :: l, [] => prog name p none ++ progs name l []
  | p :: l, a :: as => prog name p (some a) ++ progs name l as

/-- The policy in `toml_name` (src/irmd/configfile.c:700-722). -/
def lbOf : Option Str → Option Lb
  | none => some .spill
  | some s =>
    if s = "spill".toList then some .spill
    else if s = "round-robin".toList then some .rr
    else none

/-- `toml_name` (src/irmd/configfile.c:694-738): the name is copied into an array of 256 bytes. -/
def name (x : Str × Val) : List Step := match table x.2 with
  | none => [.crash]
  | some t => match lbOf (str t "lb") with
    | none => [.fail]
    | some lb =>
      if 255 < x.1.length then [.crash]
      else .call (.createName x.1 lb) false :: (match arr t "prog" with
        | none => []
        | some l => progs x.1 (strs l) (strs ((arr t "args").getD [])))

/-- `toml_name_list` (src/irmd/configfile.c:740-757). -/
def nameList : Option Table → List Step
  | none => [.crash]
  | some t => t.flatMap name

/-- `toml_toplevel` (src/irmd/configfile.c:759-783). -/
def toplevel (e : Env) (x : Str × Val) : List Step :=
  if x.1 = "local".toList then ipcpList e .local_ (table x.2)
  else if x.1 = "eth-dix".toList then ipcpList e .dix (table x.2)
  else if x.1 = "eth-llc".toList then ipcpList e .llc (table x.2)
  else if x.1 = "udp".toList then ipcpList e .udp (table x.2)
  else if x.1 = "broadcast".toList then ipcpList e .broadcast (table x.2)
  else if x.1 = "unicast".toList then ipcpList e .unicast (table x.2)
  else if x.1 = "name".toList then nameList (table x.2)
  else [.fail]

/-- `toml_load` (src/irmd/configfile.c:785-801). -/
def load (e : Env) (t : Table) : Outcome (List Call × Int) := exec e [] (t.flatMap (toplevel e))

end Ouro.Config
