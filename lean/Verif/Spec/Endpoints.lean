import Verif.Spec.FiniteMap

/-!
# Specification: flow endpoints of one node

A map from flow descriptors to (own endpoint id, remote address, remote endpoint id). Packets for an endpoint id go to the descriptor
that has it.
-/

namespace Spec.Endpoints

open Spec.FiniteMap

/-- One live flow. -/
structure Ep where
  eid : BitVec 64
  raddr : BitVec 64
  reid : BitVec 64
  deriving DecidableEq, Repr

/-- What happens at a node. -/
inductive Event where
  /-- a local request for a flow to `raddr` is registered with own id `eid` -/
  | opened (fd : Nat) (eid raddr : BitVec 64)
  /-- a remote request from `raddr`, `reid` is given descriptor `fd` and id `eid` -/
  | requested (fd : Nat) (eid raddr reid : BitVec 64)
  /-- the remote answers the request of `eid` with its id `reid` -/
  | answered (eid reid : BitVec 64) (accept : Bool)
  /-- the descriptor is released or its request refused -/
  | closed (fd : Nat)
  /-- anything that does not concern endpoints -/
  | other

/-- Descriptors after an event. -/
def step (m : Map Nat Ep) : Event → Map Nat Ep
  | .opened fd eid raddr => put m fd ⟨eid, raddr, -1⟩
  | .requested fd eid raddr reid => put m fd ⟨eid, raddr, reid⟩
  | .answered eid reid accept => fun fd =>
    match m fd with
    | some ep => if ep.eid = eid then (if accept then some { ep with reid := reid } else none) else some ep
    | none => none
  | .closed fd => remove m fd
  | .other => m

end Spec.Endpoints
