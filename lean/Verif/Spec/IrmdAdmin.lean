import Verif.Model.IrmdAdmin

/-!
# What the registry shows, and the events of an execution
-/

namespace Ouro.IrmdAdmin

open Registry

/-- The process `p` is bound to the name `x`. -/
def bound (s : Reg) (x : Str) (p : Nat) : Prop := ∃ n ∈ s.names, n.name = x ∧ p ∈ n.procs

/-- The program `g` is bound to the name `x`. -/
def progBound (s : Reg) (x g : Str) : Prop := ∃ q ∈ s.progs, q.name = g ∧ x ∈ q.names

/-- The daemon starts `e` for a request for the name `x`. -/
def autoStart (s : Reg) (x : Str) (e : List Str) : Prop := ∃ n ∈ s.names, n.name = x ∧ e ∈ n.progs

/-- The policy of the name `x`, if it exists. -/
def policy (s : Reg) (x : Str) : Option Pol := (s.names.find? fun n => n.name == x).map (·.pol)

/-- The process `p` is known. -/
def known (s : Reg) (p : Nat) : Prop := ∃ q ∈ s.procs, q.pid = p

/-- What is known of the IPCP `p`. -/
def ipcpOf (s : Reg) (p : Nat) : Option Ipcp := s.ipcps.find? fun i => i.info.pid == p

/-- The events of the command itself. -/
def own (l : List Ev) : List Ev := l.filter fun
  | .other _ _ => false
  | _ => true

/-- All calls of the registry. -/
def calls (l : List Ev) : List (Op × Out) := l.filterMap fun
  | .other op o => some (op, o)
  | .mine op o => some (op, o)
  | _ => none

/-- The messages to IPCPs. -/
def sent (l : List Ev) : List (Nat × Ask) := l.filterMap fun
  | .asked p m _ => some (p, m)
  | _ => none

/-- The signals to processes. -/
def terms (l : List Ev) : List Nat := l.filterMap fun
  | .did (.term p) _ => some p
  | _ => none

/-- The IPCP answered with result 0. -/
def Fine (a : Option Reply) : Prop := ∃ r, a = some r ∧ r.result = some 0

/-- What the daemon sends to bootstrap an IPCP: IPCPs over UDP use MD5. -/
def confOf (conf : Conf) : Conf := if conf.type = IPCP_UDP then { conf with layer := { conf.layer with algo := HASH_MD5 } } else conf

end Ouro.IrmdAdmin
