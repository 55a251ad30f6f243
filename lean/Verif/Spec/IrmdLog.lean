import Verif.Model.IrmdFlow
import Verif.Spec.IrmdFlow

/-!
# Specification: what the log of the daemon says about flows, keys and answers
-/

namespace Spec.IrmdFlow

open Spec.FiniteMap Ouro.IrmdFlow Ouro.Registry

/-- Giving out and giving back of flows. -/
def heldEv : Ev → Option HEv
  | .granted _ info _ => some (.grant info.id info.npid)
  | .released _ id => some (.release id)
  | _ => none

/-- The process that has a flow. -/
def holder (log : List Ev) : Map Int Nat := held (log.filterMap heldEv)

/-- The public key that came with the request of an IPCP matched to flow `id`. -/
def handedPk (id : Int) : Ev → Option (Option Nat)
  | .handed _ info pk => if info.id = id then some pk else none
  | _ => none

/-- The public key that came with a reply accepted for flow `id`. -/
def answeredPk (id : Int) : Ev → Option (Option Nat)
  | .answered _ i _ pk => if i = id then some pk else none
  | _ => none

/-- The public key sent to an IPCP for flow `id`. -/
def sentPk (id : Int) : Ev → Option (Option Nat)
  | .toIpcp _ (.alloc i _ _ _ _ pk) => if i = id then some pk else none
  | .toIpcp _ (.allocResp i _ _ pk) => if i = id then some pk else none
  | .toIpcp _ (.join i _ _) => if i = id then some none else none
  | _ => none

/-- The IPCP over which flow `id` was given to a process. -/
def grantN (id : Int) : Ev → Option Nat
  | .granted _ info _ => if info.id = id then some info.n1pid else none
  | _ => none

/-- An answer to request `t`. -/
def isReply (t : Nat) : Ev → Bool
  | .granted u _ _ | .result u _ | .closed u | .handed u _ _ => u == t
  | _ => false

/-- The process that asks for a flow. -/
def requester : Cmd → Option Nat
  | .accept info _ | .alloc info _ _ | .join info _ _ => some info.npid
  | _ => none

/-- A request for a flow without a time limit. -/
def untimed : Cmd → Bool
  | .accept _ timed | .alloc _ _ timed | .join _ _ timed => !timed
  | _ => false

/-- Processes deallocate only flows they hold. -/
def polite (s : Sys) : Act → Bool
  | .start _ (.dealloc info) _ => decide (holder s.log info.id = some info.npid)
  | _ => true

/-- As `polite`, and nobody sets a time limit when it accepts flows. -/
def patient (s : Sys) : Act → Bool
  | .start _ (.accept _ timed) _ => !timed
  | a => polite s a

/-- The key a process is given with a flow: none if the flow is not encrypted, otherwise the key derived from the secret
whose public key was last sent for the flow and from the public key that was last received for it. -/
def KeyFor (e : Env) (cypher : Nat) (sent received : Option (Option Nat)) (key : Option Nat) : Prop :=
  (cypher = 0 ∧ key = none) ∨
  (cypher ≠ 0 ∧ ∃ sk pk k, key = some k ∧ e.derive sk pk = some k ∧ sent = some (some (e.pub sk)) ∧ received = some pk)

/-- No request is being handled. -/
def Quiescent (s : Sys) : Prop := ∀ t, s.pc t = .idle ∨ s.pc t = .done

end Spec.IrmdFlow
