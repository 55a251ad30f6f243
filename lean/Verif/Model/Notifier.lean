import Verif.Model.Base
import Verif.Model.Errno

/-!
# Model of the event notifier (src/lib/notifier.c)

Callbacks and their private objects are represented by numbers (their addresses). The list of listeners is a Lean list in list
order; `Verif/Props/LinkedList.lean` shows that the C list primitives implement exactly that. Every function holds the notifier's
lock from its first to its last step, so calls are atomic; a callback that calls `notifier_reg` or `notifier_unreg` itself is not modelled
(it would deadlock in the C code).
-/

namespace Ouro.Notifier

/-- `struct listener` (src/lib/notifier.c:33-37). -/
structure Listener where
  callback : Nat
  obj : Nat
  deriving DecidableEq, Repr

/-- The listeners, first to last (src/lib/notifier.c:39-42). -/
abbrev State := List Listener

/-- `notifier_init` (src/lib/notifier.c:44-52). -/
def init : State := []

/-- One invocation of a callback: which callback, with which object, event and argument. [src/lib/notifier.c:83] -/
structure Call where
  callback : Nat
  obj : Nat
  event : Int
  arg : Nat
  deriving DecidableEq, Repr

/-- `notifier_event` (src/lib/notifier.c:72-87): the calls made, in order. -/
def event (s : State) (ev : Int) (o : Nat) : List Call :=
  s.map (fun l => ⟨l.callback, l.obj, ev, o⟩)

/-- `notifier_reg` (src/lib/notifier.c:89-119). `mem` says whether `malloc` succeeds. -/
def reg (s : State) (cb obj : Nat) (mem : Bool) : State × Int :=
  if s.any (fun l => l.callback == cb) then (s, -EPERM)
  else if !mem then (s, -ENOMEM)
  else (s ++ [⟨cb, obj⟩], 0)

/-- `notifier_unreg` (src/lib/notifier.c:121-138): remove the first listener with this callback. -/
def unreg (s : State) (cb : Nat) : State := s.eraseP (fun l => l.callback == cb)

/-- The API calls (include/ouroboros/notifier.h:34-40). -/
inductive Op where
  | reg (cb obj : Nat) (mem : Bool)
  | unreg (cb : Nat)
  | event (ev : Int) (o : Nat)
  deriving DecidableEq, Repr

/-- What a call shows to the outside. [src/lib/notifier.c:72-138] -/
inductive Out where
  | ret (r : Int)
  | done
  | calls (l : List Call)
  deriving DecidableEq, Repr

/-- One API call. [src/lib/notifier.c:72-138] -/
def step (s : State) : Op → State × Out
  | .reg cb obj mem => let r := reg s cb obj mem; (r.1, .ret r.2)
  | .unreg cb => (unreg s cb, .done)
  | .event ev o => (s, .calls (event s ev o))

/-- A history of API calls. [src/lib/notifier.c:72-138] -/
def run (s : State) : List Op → State × List (Op × Out)
  | [] => (s, [])
  | op :: ops =>
    let r := step s op
    let r2 := run r.1 ops
    (r2.1, (op, r.2) :: r2.2)

end Ouro.Notifier
