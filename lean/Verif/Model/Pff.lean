import Verif.Model.Pft

/-!
# Model of the three forwarding policies (src/ipcpd/unicast/pff/simple.c, multipath.c, alternate.c)

Each policy is driven under its read/write lock, so calls are atomic. `malloc` is assumed to succeed. The tables are created with
`pft_create(PFT_SIZE, false)`; here the table is any well-formed one.
-/

namespace Ouro.Pff

open Ouro.Pft

/-- The policy-independent API (src/ipcpd/unicast/pff.h:38-67); `flow` is `pff_flow_state_change`. -/
inductive Op where
  | add (addr : BitVec 64) (fds : List Int)
  | update (addr : BitVec 64) (fds : List Int)
  | del (addr : BitVec 64)
  | flush
  | nhop (addr : BitVec 64)
  | flow (fd : Int) (up : Bool)
  deriving DecidableEq, Repr

namespace Simple

/-- `simple_pff_add` (src/ipcpd/unicast/pff/simple.c:96-121). -/
def add (p : Pft) (addr : BitVec 64) (fds : List Int) : Outcome (Pft × Int) :=
  match fds with
  | [] => .ub
  | fd :: _ => do
    let (p, r) ← insert p addr [fd] 1 true
    return (p, if r ≠ 0 then -1 else 0)

/-- `simple_pff_update` (src/ipcpd/unicast/pff/simple.c:123-153). -/
def update (p : Pft) (addr : BitVec 64) (fds : List Int) : Outcome (Pft × Int) :=
  match fds with
  | [] => .ub
  | fd :: _ => do
    let (p, r) ← delete p addr
    if r ≠ 0 then
      return (p, -1)
    else
      let (p, r) ← insert p addr [fd] 1 true
      return (p, if r ≠ 0 then -1 else 0)

/-- `simple_pff_del` (src/ipcpd/unicast/pff/simple.c:155-164), and the same code in
src/ipcpd/unicast/pff/multipath.c:155-164. -/
def del (p : Pft) (addr : BitVec 64) : Outcome (Pft × Int) := do
  let (p, r) ← delete p addr
  return (p, if r ≠ 0 then -1 else 0)

/-- `simple_pff_nhop` (src/ipcpd/unicast/pff/simple.c:173-190). -/
def nhop (p : Pft) (addr : BitVec 64) : Outcome Int := do
  match ← lookup p addr with
  | none => return -1
  | some e => rd e.fds 0

/-- Dispatch through `simple_pff_ops` (src/ipcpd/unicast/pff/simple.c:40-51); `flow_state_change` is NULL, for which
`pff_flow_state_change` returns 0 (src/ipcpd/unicast/pff.c:123-131). -/
def step (p : Pft) : Op → Outcome (Pft × Int)
  | .add a fds => add p a fds
  | .update a fds => update p a fds
  | .del a => del p a
  | .flush => .ok (flush p, 0)
  | .nhop a => do let r ← nhop p a; return (p, r)
  | .flow _ _ => .ok (p, 0)

end Simple

namespace Multipath

/-- `multipath_pff_add` (src/ipcpd/unicast/pff/multipath.c:100-123). -/
def add (p : Pft) (addr : BitVec 64) (fds : List Int) : Outcome (Pft × Int) :=
  match fds with
  | [] => .ub
  | _ :: _ => do
    let (p, r) ← insert p addr fds fds.length true
    return (p, if r ≠ 0 then -1 else 0)

/-- `multipath_pff_update` (src/ipcpd/unicast/pff/multipath.c:125-153). The buffer has room for one descriptor, but `len` are
copied into it (136, 140): undefined behaviour for more than one. -/
def update (p : Pft) (addr : BitVec 64) (fds : List Int) : Outcome (Pft × Int) :=
  match fds with
  | [fd] => do
    let (p, r) ← delete p addr
    if r ≠ 0 then
      return (p, -1)
    else
      let (p, r) ← insert p addr [fd] 1 true
      return (p, if r ≠ 0 then -1 else 0)
  | _ => .ub

/-- The rotation at src/ipcpd/unicast/pff/multipath.c:193-195 for an array of `len` cells. -/
def rotate : List Int → List Int
  | [] => []
  | fd :: fds => fds ++ [fd]

/-- `multipath_pff_nhop` (src/ipcpd/unicast/pff/multipath.c:173-200). -/
def nhop (p : Pft) (addr : BitVec 64) : Outcome (Pft × Int) := do
  match ← lookup p addr with
  | none => return (p, -1)
  | some e =>
    let fd ← rd e.fds 0
    let p ← modify p addr rotate
    return (p, fd)

/-- Dispatch through `multipath_pff_ops` (src/ipcpd/unicast/pff/multipath.c:42-53). -/
def step (p : Pft) : Op → Outcome (Pft × Int)
  | .add a fds => add p a fds
  | .update a fds => update p a fds
  | .del a => Simple.del p a
  | .flush => .ok (flush p, 0)
  | .nhop a => nhop p a
  | .flow _ _ => .ok (p, 0)

end Multipath

namespace Alternate

/-- `struct pff_i` (src/ipcpd/unicast/pff/alternate.c:47-55): table, known addresses, next hops that are down. -/
structure State where
  pft : Pft
  addrs : List (BitVec 64)
  down : List Int

/-- `add_to_pft` (src/ipcpd/unicast/pff/alternate.c:174-201): the primary is stored again behind the list. -/
def addToPft (p : Pft) (addr : BitVec 64) (fds : List Int) : Outcome (Pft × Int) :=
  match fds with
  | [] => .ub
  | fd :: _ => do
    let (p, r) ← insert p addr (fds ++ [fd]) fds.length true
    return (p, if r ≠ 0 then -1 else 0)

/-- `alternate_pff_add` (src/ipcpd/unicast/pff/alternate.c:252-269) with `add_addr` (70-84). -/
def add (s : State) (addr : BitVec 64) (fds : List Int) : Outcome (State × Int) := do
  let (p, r) ← addToPft s.pft addr fds
  if r ≠ 0 then
    return ({ s with pft := p }, -1)
  else
    return ({ s with pft := p, addrs := addr :: s.addrs }, 0)

/-- `alternate_pff_update` (src/ipcpd/unicast/pff/alternate.c:271-286). -/
def update (s : State) (addr : BitVec 64) (fds : List Int) : Outcome (State × Int) := do
  if fds = [] then .ub else
    let (p, r) ← delete s.pft addr
    if r ≠ 0 then
      return ({ s with pft := p }, -1)
    else
      let (p, r) ← addToPft p addr fds
      return ({ s with pft := p }, r)

/-- `alternate_pff_del` (src/ipcpd/unicast/pff/alternate.c:288-299) with `del_addr` (86-100). -/
def del (s : State) (addr : BitVec 64) : Outcome (State × Int) := do
  let (p, r) ← delete s.pft addr
  return ({ s with pft := p, addrs := s.addrs.erase addr }, if r ≠ 0 then -1 else 0)

/-- `alternate_pff_flush` (src/ipcpd/unicast/pff/alternate.c:301-310). -/
def flush (s : State) : State := { pft := Pft.flush s.pft, addrs := [], down := [] }

/-- `alternate_pff_nhop` (src/ipcpd/unicast/pff/alternate.c:312-333). -/
def nhop (s : State) (addr : BitVec 64) : Outcome Int := do
  match ← lookup s.pft addr with
  | none => return -1
  | some e => rd e.fds 0

/-- Exchange of cell 0 and cell `i` (src/ipcpd/unicast/pff/alternate.c:374-376, 387-389). -/
def swap0 (fds : List Int) (i : Nat) : List Int := (fds.set 0 (fds.getD i 0)).set i (fds.getD 0 0)

/-- The adjustment of one array when `fd` comes up (src/ipcpd/unicast/pff/alternate.c:368-380). All indices are at most `len`,
inside the array allocated at 184. -/
def onUp (len : Nat) (fd : Int) (fds : List Int) : List Int :=
  if fds.getD len 0 = fd ∧ fds.getD 0 0 ≠ fd then
    match (List.range len).find? (fun i => fds.getD i 0 == fd) with
    | some i => swap0 fds i
    | none => fds
  else fds

/-- The adjustment of one array when `fd` goes down (src/ipcpd/unicast/pff/alternate.c:381-394). -/
def onDown (down : List Int) (len : Nat) (fd : Int) (fds : List Int) : List Int :=
  if fds.getD 0 0 = fd then
    match (List.range' 1 (len - 1)).find? (fun i => !down.contains (fds.getD i 0)) with
    | some i => swap0 fds i
    | none => fds
  else fds

/-- The loop over all addresses (src/ipcpd/unicast/pff/alternate.c:361-395). -/
def loop (p : Pft) (down : List Int) (fd : Int) (up : Bool) : List (BitVec 64) → Outcome (Pft × Int)
  | [] => .ok (p, 0)
  | a :: as => do
    match ← lookup p a with
    | none => return (p, -1)
    | some e =>
      let p ← modify p a (if up then onUp e.len fd else onDown down e.len fd)
      loop p down fd up as

/-- `alternate_flow_state_change` (src/ipcpd/unicast/pff/alternate.c:335-400) with `del_nhop_down` (126-142) and
`add_nhop_down` (144-158). -/
def flow (s : State) (fd : Int) (up : Bool) : Outcome (State × Int) :=
  if up ∧ fd ∉ s.down then .ok (s, -1)
  else do
    let down := if up then s.down.erase fd else fd :: s.down
    let (p, r) ← loop s.pft down fd up s.addrs
    return ({ s with pft := p, down := down }, r)

/-- Dispatch through `alternate_pff_ops` (src/ipcpd/unicast/pff/alternate.c:57-68). -/
def step (s : State) : Op → Outcome (State × Int)
  | .add a fds => add s a fds
  | .update a fds => update s a fds
  | .del a => del s a
  | .flush => .ok (flush s, 0)
  | .nhop a => do let r ← nhop s a; return (s, r)
  | .flow fd up => flow s fd up

end Alternate

/-- A history of calls on any policy (src/ipcpd/unicast/pff.c:90-131). -/
def run {σ : Type} (step : σ → Op → Outcome (σ × Int)) (s : σ) : List Op → Outcome (σ × List Int)
  | [] => .ok (s, [])
  | op :: ops => do
    let (s, r) ← step s op
    let (s, rs) ← run step s ops
    return (s, r :: rs)

end Ouro.Pff
