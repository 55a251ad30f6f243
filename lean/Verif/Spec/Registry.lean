import Verif.Spec.FiniteMap

/-!
# Specification: what the registry of the IRM daemon has to remember

Everything here is defined from the log of what happened, oldest event first; nothing refers to the implementation.
-/

namespace Spec.Registry

open Spec.FiniteMap

/-! ## Tables (property C22) -/

/-- What can happen to a table: an entry is added under a key, added unless the key is taken, its contents are changed,
or the key is removed. -/
inductive Ev (κ ε : Type) where
  | add (k : κ) (e : ε)
  | ensure (k : κ) (e : ε)
  | change (k : κ) (f : ε → ε)
  | del (k : κ)

/-- Effect of one event on a finite map. -/
def Ev.apply {κ ε : Type} [DecidableEq κ] (m : Map κ ε) : Ev κ ε → Map κ ε
  | .add k e => put m k e
  | .ensure k e => if (m k).isSome then m else put m k e
  | .change k f => fun j => if j = k then (m k).map f else m j
  | .del k => remove m k

/-- The entries after the events of a log. -/
def live {κ ε : Type} [DecidableEq κ] (log : List (Ev κ ε)) : Map κ ε := log.foldl Ev.apply empty

/-- `l` lists the keys of a map, each once. -/
def Lists {κ ε : Type} (l : List κ) (m : Map κ ε) : Prop := l.Nodup ∧ ∀ k, k ∈ l ↔ (m k).isSome

/-! ## Bindings and load balancing (properties C23 and C24)

`ν` is the type of names, `γ` the type of programs; processes are numbers. -/

/-- What can happen to the bindings and to the processes that accept flows. -/
inductive BEv (ν γ : Type) where
  /-- process `p` of program `g` starts -/
  | start (p : Nat) (g : γ)
  /-- process `p` is gone -/
  | exit (p : Nat)
  | bind (n : ν) (p : Nat)
  | unbind (n : ν) (p : Nat)
  | progBind (n : ν) (g : γ)
  | progUnbind (n : ν) (g : γ)
  | progGone (g : γ)
  | nameGone (n : ν)
  /-- process `p` prepares to accept a flow -/
  | prepare (p : Nat)
  /-- process `p` starts to wait for a request, in wait number `w` -/
  | accept (p : Nat) (w : Nat)
  /-- wait number `w` of process `p` is over -/
  | done (p : Nat) (w : Nat)

/-- The bindings: `proc n p` if process `p` is bound to the name `n`, `prog n g` if program `g` is. -/
structure Bindings (ν γ : Type) where
  proc : ν → Nat → Prop
  prog : ν → γ → Prop

/-- Nothing is bound. -/
def Bindings.none (ν γ : Type) : Bindings ν γ := { proc := fun _ _ => False, prog := fun _ _ => False }

/-- Effect of an event on the bindings. A process that starts is bound to the names its program is bound to. -/
def BEv.bindings {ν γ : Type} (b : Bindings ν γ) : BEv ν γ → Bindings ν γ
  | .start p g => { b with proc := fun n q => if q = p then b.prog n g else b.proc n q }
  | .exit p => { b with proc := fun n q => b.proc n q ∧ q ≠ p }
  | .bind n p => { b with proc := fun m q => b.proc m q ∨ (m = n ∧ q = p) }
  | .unbind n p => { b with proc := fun m q => b.proc m q ∧ ¬ (m = n ∧ q = p) }
  | .progBind n g => { b with prog := fun m h => b.prog m h ∨ (m = n ∧ h = g) }
  | .progUnbind n g => { b with prog := fun m h => b.prog m h ∧ ¬ (m = n ∧ h = g) }
  | .progGone g => { b with prog := fun m h => b.prog m h ∧ h ≠ g }
  | .nameGone n => { proc := fun m q => b.proc m q ∧ m ≠ n, prog := fun m h => b.prog m h ∧ m ≠ n }
  | _ => b

/-- The bindings after a log. -/
def bindings {ν γ : Type} (log : List (BEv ν γ)) : Bindings ν γ := log.foldl BEv.bindings (Bindings.none ν γ)

/-- Which processes are available for which name, since when (position in the log). -/
abbrev Since (ν : Type) := ν → Nat → Option Nat

open Classical in
/-- Effect of the event at position `t`, when the bindings are `b`: a process becomes available for all the names it is
bound to when it starts to wait, and stops being available when its wait is over, it is unbound, it exits or the name goes. -/
noncomputable def BEv.since {ν γ : Type} (b : Bindings ν γ) (t : Nat) (f : Since ν) : BEv ν γ → Since ν
  | .accept p _ => fun n q => if q = p ∧ b.proc n p then some t else f n q
  | .done p _ => fun n q => if q = p then none else f n q
  | .exit p => fun n q => if q = p then none else f n q
  | .unbind n p => fun m q => if m = n ∧ q = p then none else f m q
  | .nameGone n => fun m q => if m = n then none else f m q
  | _ => f

/-- Availability after the events of a log, given the bindings and the position at which it starts. -/
noncomputable def sinceFrom {ν γ : Type} (b : Bindings ν γ) (t : Nat) (f : Since ν) : List (BEv ν γ) → Since ν
  | [] => f
  | e :: l => sinceFrom (e.bindings b) (t + 1) (e.since b t f) l

/-- Availability after a log. -/
noncomputable def since {ν γ : Type} (log : List (BEv ν γ)) : Since ν :=
  sinceFrom (Bindings.none ν γ) 0 (fun _ _ => none) log

/-- `p` is the process that has been available for `n` the longest. -/
def Earliest {ν : Type} (f : Since ν) (n : ν) (p : Nat) : Prop :=
  ∃ t, f n p = some t ∧ ∀ q u, f n q = some u → t ≤ u

/-- `p` is the process that became available for `n` last. -/
def Latest {ν : Type} (f : Since ν) (n : ν) (p : Nat) : Prop :=
  ∃ t, f n p = some t ∧ ∀ q u, f n q = some u → u ≤ t

/-- Where a process is in accepting a flow. -/
inductive Phase where
  | idle | prepared | waiting (w : Nat)
  deriving DecidableEq

/-- Effect of an event on the phases. -/
def BEv.phase {ν γ : Type} (f : Nat → Phase) : BEv ν γ → Nat → Phase
  | .prepare p => fun q => if q = p then .prepared else f q
  | .accept p w => fun q => if q = p then .waiting w else f q
  | .done p _ => fun q => if q = p then .idle else f q
  | _ => f

/-- One accept at a time: a process prepares when idle, waits after preparing, and only the wait in progress ends; no
process is bound to a name while it is accepting. -/
def OneAtATime {ν γ : Type} (f : Nat → Phase) : List (BEv ν γ) → Prop
  | [] => True
  | e :: l =>
    (match e with
      | .prepare p => f p = .idle
      | .accept p _ => f p = .prepared
      | .done p w => f p = .waiting w
      | .bind _ p => f p = .idle
      | _ => True) ∧ OneAtATime (e.phase f) l

/-! ## Life cycle of a flow (property C21) -/

/-- The stages of a flow. -/
inductive Stage where
  | created | allocPending | acceptPending | allocated | deallocPending | deallocated
  deriving DecidableEq

/-- The order of the stages. -/
def Stage.rank : Stage → Nat
  | .created => 0
  | .allocPending => 1
  | .acceptPending => 1
  | .allocated => 2
  | .deallocPending => 3
  | .deallocated => 4

/-- May a flow go from one stage to the other in one step? A flow under allocation or in use can be cancelled. -/
inductive Stage.Next : Stage → Stage → Prop
  | alloc : Next .created .allocPending
  | accept : Next .created .acceptPending
  | allocated : Next .allocPending .allocated
  | accepted : Next .acceptPending .allocated
  | release : Next .allocated .deallocPending
  | released : Next .deallocPending .deallocated
  | refused : Next .allocPending .deallocated
  | cancelled : Next .acceptPending .deallocated
  | late : Next .allocated .deallocated
  | abandoned : Next .created .deallocated

/-- The stages in which the packet rings are needed. -/
def Stage.needsRings : Stage → Bool
  | .allocPending | .allocated | .deallocPending => true
  | _ => false

end Spec.Registry
