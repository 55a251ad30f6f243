import Verif.Model.Config
import Mathlib.Data.List.Forall2

/-!
# Specification for C80: the configuration file, as irmd.conf.in documents it
-/

namespace Ouro.Config

/-- An option that takes one of some words and has a default. -/
def reads {α : Type} (words : List (String × α)) (dflt : α) : Option Str → Option α
  | none => some dflt
  | some s => (words.find? fun x => x.1.toList = s).map fun x => x.2

/-- `hash` (irmd.conf.in). -/
def hashWords : List (String × Hash) := [("SHA3_224", .sha224), ("SHA3_256", .sha256), ("SHA3_384", .sha384), ("SHA3_512", .sha512)]

/-- `routing` (irmd.conf.in). -/
def routingWords : List (String × Routing) := [("link-state", .linkState), ("lfa", .lfa), ("ecmp", .ecmp)]

/-- `congestion` (irmd.conf.in). -/
def caWords : List (String × Ca) := [("none", .none), ("mb-ecn", .mbEcn)]

/-- `lb` (irmd.conf.in). -/
def lbWords : List (String × Lb) := [("spill", .spill), ("round-robin", .rr)]

/-- `s` consists of the words `ws`, with spaces around and between them. -/
inductive Split : Str → List Str → Prop where
  | nil : Split [] []
  | space (s : Str) (ws : List Str) : Split s ws → Split (' ' :: s) ws
  | word (w s : Str) (ws : List Str) : w ≠ [] → ' ' ∉ w → (s = [] ∨ ∃ s', s = ' ' :: s') → Split s ws → Split (w ++ s) (w :: ws)

/-- An IPCP of the file: what it does after it was created, whether it is bound to its name and layer, the names registered with it, its neighbours. -/
structure IpcpCfg where
  name : Str
  start : Option (Str ⊕ Conf)
  bind : Bool
  reg : List Str
  conn : List Str

/-- A name of the file: its policy and its programs, with the words after the program's name if it is to be started automatically. -/
structure NameCfg where
  name : Str
  lb : Lb
  progs : List (Str × Option (List Str))

/-- A section of the file. -/
inductive Section_ where
  | ipcps (ty : Ty) (l : List IpcpCfg)
  | names (l : List NameCfg)

/-- Key `k` has the strings `l`, or is missing if there are none. -/
def Lists (t : Table) (k : String) (l : List Str) : Prop := get t k = some (.arr (l.map .str)) ∨ l = [] ∧ get t k = none

/-- A table says what is to be done with an IPCP. -/
structure IpcpSays (e : Env) (ty : Ty) (x : Str × Val) (t : Table) (i : IpcpCfg) : Prop where
  val : x = (i.name, .tab t)
  len : i.name.length ≤ 255
  start : match i.start with
    | none => get t "enrol" = none ∧ get t "bootstrap" = none
    | some (.inl dst) => get t "enrol" = some (.str dst)
    | some (.inr c) => get t "enrol" = none ∧ get t "bootstrap" = some (.str c.layer) ∧ c.layer.length ≤ 255 ∧ confOf e ty t c.layer = some c ∧ i.conn = []
  bind : get t "autobind" = if i.bind then some (.bool true) else none
  reg : Lists t "reg" i.reg
  short : ∀ n ∈ i.reg, n.length ≤ 255
  conn : Lists t "conn" i.conn

/-- A table says what is to be done with a name: the programs that are started automatically come first. -/
structure NameSays (x : Str × Val) (t : Table) (n : NameCfg) : Prop where
  val : x = (n.name, .tab t)
  len : n.name.length ≤ 255
  lb : reads lbWords .spill (str t "lb") = some n.lb
  progs : ∃ (auto : List (Str × Str × List Str)) (other : List Str), (∀ a ∈ auto, Split a.2.1 a.2.2) ∧
    n.progs = (auto.map fun a => (a.1, some a.2.2)) ++ (other.map fun p => (p, none)) ∧
    Lists t "prog" (auto.map (fun a => a.1) ++ other) ∧ Lists t "args" (auto.map fun a => a.2.1)

/-- The names of the sections. -/
def key : Ty → String
  | .local_ => "local"
  | .dix => "eth-dix"
  | .llc => "eth-llc"
  | .udp => "udp"
  | .broadcast => "broadcast"
  | .unicast => "unicast"

/-- A section of the file says what is to be done. -/
inductive SectionSays (e : Env) : Str × Val → Section_ → Prop where
  | ipcps (ty : Ty) (l : List IpcpCfg) (t : Table) (h : List.Forall₂ (fun x i => ∃ t, IpcpSays e ty x t i) t l) :
      SectionSays e ((key ty).toList, .tab t) (.ipcps ty l)
  | names (l : List NameCfg) (t : Table) (h : List.Forall₂ (fun x n => ∃ t, NameSays x t n) t l) : SectionSays e ("name".toList, .tab t) (.names l)

/-- What is to be done with an IPCP, in this order. -/
def ipcpCalls (e : Env) (ty : Ty) (i : IpcpCfg) : List Call :=
  .create ty i.name :: (match i.start with
    | none => []
    | some (.inl dst) => .enroll (e.pid i.name) dst ::
        ((if i.bind then [.bindProcess (e.pid i.name) i.name, .bindProcess (e.pid i.name) ((e.layer (e.pid i.name)).getD [])] else []) ++
          (i.reg.flatMap fun n => [.createName n .spill, .reg n (e.pid i.name)]) ++
          i.conn.flatMap fun d => [.connect (e.pid i.name) d "Management".toList, .connect (e.pid i.name) d "Data Transfer".toList])
    | some (.inr c) => .bootstrap (e.pid i.name) c ::
        ((if i.bind then [.bindProcess (e.pid i.name) i.name, .bindProcess (e.pid i.name) c.layer] else []) ++
          i.reg.flatMap fun n => [.createName n .spill, .reg n (e.pid i.name)]))

/-- What is to be done with a name. -/
def nameCalls (n : NameCfg) : List Call :=
  .createName n.name n.lb :: n.progs.map fun p => .bindProgram (p.1 :: p.2.getD []) n.name p.2.isSome

/-- What is to be done for a section. -/
def sectionCalls (e : Env) : Section_ → List Call
  | .ipcps ty l => l.flatMap (ipcpCalls e ty)
  | .names l => l.flatMap nameCalls

/-- Sections are tables of tables, and the names in them have at most 255 characters. -/
def Shaped (t : Table) : Prop := ∀ x ∈ t, ∃ s, x.2 = .tab s ∧ ∀ y ∈ s, y.1.length ≤ 255 ∧ ∃ u, y.2 = .tab u ∧
  ∀ l, get u "reg" = some (.arr l) → ∀ n, .str n ∈ l → n.length ≤ 255

/-- The policy of a name after some calls: creating a name that exists does nothing (src/irmd/main.c:584-603). -/
def policy (calls : List Call) (n : Str) : Option Lb := calls.findSome? fun c => match c with
  | .createName m lb => if m = n then some lb else none
  | _ => none

end Ouro.Config
