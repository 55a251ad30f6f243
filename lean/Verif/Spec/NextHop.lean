import Verif.Spec.FiniteMap

/-!
# Specification: what next hops are configured, and how the three policies should pick among them
-/

namespace Spec.NextHop

open Spec.FiniteMap

/-- Requests to a forwarding function. -/
inductive Req where
  | add (addr : BitVec 64) (fds : List Int)
  | update (addr : BitVec 64) (fds : List Int)
  | del (addr : BitVec 64)
  | flush
  | nhop (addr : BitVec 64)
  | flow (fd : Int) (up : Bool)

/-- The configured next hops per destination. -/
abbrev Conf := Map (BitVec 64) (List Int)

/-- Adding needs an unconfigured destination, updating a configured one. -/
def confStep (c : Conf) : Req → Conf
  | .add a l => if (c a).isNone then put c a l else c
  | .update a l => if (c a).isSome then put c a l else c
  | .del a => remove c a
  | .flush => empty
  | _ => c

/-- Return value of the configuration requests: 0 for success, -1 for failure. -/
def confRet (c : Conf) : Req → Int
  | .add a _ => if (c a).isNone then 0 else -1
  | .update a _ => if (c a).isSome then 0 else -1
  | .del a => if (c a).isSome then 0 else -1
  | _ => 0

/-- Simple policy: the first configured next hop, -1 if there is none. -/
def simpleRet (c : Conf) : Req → Int
  | .nhop a => match c a with | some (fd :: _) => fd | _ => -1
  | r => confRet c r

/-- Outputs of a history under the simple policy. -/
def simpleRun (c : Conf) : List Req → List Int
  | [] => []
  | r :: rs => simpleRet c r :: simpleRun (confStep c r) rs

/-- Multipath policy: configured next hops and how often each destination was looked up since it was configured. -/
abbrev MConf := Map (BitVec 64) (List Int × Nat)

/-- The `n`-th lookup since configuration gets next hop number `n mod length`. -/
def multiStep (c : MConf) : Req → MConf × Int
  | .add a l => match c a with | none => (put c a (l, 0), 0) | some _ => (c, -1)
  | .update a l => match c a with | none => (c, -1) | some _ => (put c a (l, 0), 0)
  | .del a => match c a with | none => (c, -1) | some _ => (remove c a, 0)
  | .flush => (empty, 0)
  | .nhop a => match c a with
    | none => (c, -1)
    | some (l, n) => (put c a (l, n + 1), l.getD (n % l.length) (-1))
  | .flow _ _ => (c, 0)

/-- Outputs of a history under the multipath policy. -/
def multiRun (c : MConf) : List Req → List Int
  | [] => []
  | r :: rs => (multiStep c r).2 :: multiRun (multiStep c r).1 rs

/-- How often each descriptor is known to be down: reports of "down" minus reports of "up", forgotten on flush. -/
def downStep (d : Int → Nat) : Req → (Int → Nat)
  | .flow fd false => fun x => if x = fd then d fd + 1 else d x
  | .flow fd true => fun x => if x = fd then d fd - 1 else d x
  | .flush => fun _ => 0
  | _ => d

/-- Configuration after a history. -/
def confAfter (rs : List Req) : Conf := rs.foldl confStep empty

/-- Descriptors down after a history. -/
def downAfter (rs : List Req) : Int → Nat := rs.foldl downStep (fun _ => 0)

end Spec.NextHop
