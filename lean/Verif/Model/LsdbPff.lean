import Verif.Model.Lsdb
import Verif.Model.Pff

/-!
# From routing table to forwarding table (src/ipcpd/unicast/routing/link-state.c:410-450)

Parametrised by the policies: `step` performs a call of the forwarding policy, `table` is what `graph_routing_table` gives. Addresses
are 64 bits wide. The array `fds` has PROG_MAX_FLOWS places; more next hops than that for one destination are not modelled (with
ROUTING_SIMPLE there is one).
-/

namespace Ouro.Lsdb

/-- The flows of the next hops of an entry (src/ipcpd/unicast/routing/link-state.c:434-442). -/
def nhopFds (ls : Ls) (hs : List Nat) : List Int := (hs.map (nbrToFd ls)).filter (fun fd => fd ≠ -1)

/-- The loop over the routing table (src/ipcpd/unicast/routing/link-state.c:429-445). -/
def pffLoop {S : Type} (step : S → Pff.Op → Outcome (S × Int)) (ls : Ls) : List (Nat × List Nat) → S → Outcome S
  | [], s => .ok s
  | x :: t, s =>
    if nhopFds ls x.2 = [] then pffLoop step ls t s
    else do
      let r ← step s (.add (BitVec.ofNat 64 x.1) (nhopFds ls x.2))
      pffLoop step ls t r.1

/-- `calculate_pff` (src/ipcpd/unicast/routing/link-state.c:410-450). -/
def calculate {S : Type} (step : S → Pff.Op → Outcome (S × Int)) (table : Outcome (Option (List (Nat × List Nat)))) (ls : Ls) (s : S) : Outcome S := do
  let t ← table
  match t with
  | none => .ok s
  | some t =>
    let r ← step s .flush
    pffLoop step ls t r.1

/-- The routing table of the simple policy without the distances (src/ipcpd/unicast/routing/graph.c:804-836). -/
def simpleTable (ls : Ls) : Outcome (Option (List (Nat × List Nat))) := do
  let r ← Graph.simple ls.graph ls.self
  return r.map Prod.fst

end Ouro.Lsdb
