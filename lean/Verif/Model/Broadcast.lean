import Verif.Model.Base
import Verif.Model.Errno

/-!
# Model of the data transfer component of the broadcast IPCP (src/ipcpd/broadcast/dt.c)

The neighbours are kept in a list of flow descriptors; `Verif/Props/LinkedList.lean` shows that the C list primitives implement Lean lists.
`dt_add_nb`, `dt_del_nb` and `dt_packet` hold the lock of that list from their first to their last step, so they are atomic. Applications that joined the layer
are neighbours too (src/ipcpd/broadcast/main.c:209-233 and 235-248 raise the same events as the connection manager).

Not modelled: the result of `flow_write` (it is ignored by the C code; a packet that cannot be written is lost), starting and stopping the threads.
-/

namespace Ouro.Broadcast

/-- The neighbours, first to last (src/ipcpd/broadcast/dt.c:52-69). -/
abbrev State := List Int

/-- `dt_init` (src/ipcpd/broadcast/dt.c:246-294): no neighbours. -/
def init : State := []

/-- `dt_add_nb` (src/ipcpd/broadcast/dt.c:71-105). `mem` says whether `malloc` succeeds. -/
def addNb (s : State) (fd : Int) (mem : Bool) : State × Int :=
  if s.any (· == fd) then (s, 0)
  else if !mem then (s, -ENOMEM)
  else (s ++ [fd], 0)

/-- `dt_del_nb` (src/ipcpd/broadcast/dt.c:107-131). -/
def delNb (s : State) (fd : Int) : State × Int :=
  if s.any (· == fd) then (s.eraseP (· == fd), 0) else (s, -EPERM)

/-- `dt_packet` (src/ipcpd/broadcast/dt.c:154-171): the flows the packet is written to, in order. -/
def packet (s : State) (inFd : Int) : List Int := s.filter (· != inFd)

/-- What happens to the component (src/ipcpd/broadcast/dt.c:178-244): events of the notifier, and packets read by `dt_reader`. -/
inductive Op where
  | connAdd (fd : Int) (mem : Bool)
  | connDel (fd : Int)
  | packet (inFd : Int)
  deriving DecidableEq, Repr

/-- What it shows to the outside: the flows that are written to. [src/ipcpd/broadcast/dt.c:154-171] -/
abbrev Out := List Int

/-- One event (src/ipcpd/broadcast/dt.c:219-244 and 198-208). -/
def step (s : State) : Op → State × Out
  | .connAdd fd mem => ((addNb s fd mem).1, [])
  | .connDel fd => ((delNb s fd).1, [])
  | .packet inFd => (s, packet s inFd)

/-- A history. [src/ipcpd/broadcast/dt.c:178-244] -/
def run (s : State) : List Op → State × List (Op × Out)
  | [] => (s, [])
  | op :: ops =>
    let r := step s op
    let r2 := run r.1 ops
    (r2.1, (op, r.2) :: r2.2)

/-! ## A layer of broadcast processes

`net v` are the neighbours of process `v`, and `link v fd` is the other end of its flow `fd`: the process there and its descriptor. -/

/-- A layer: the members, their neighbour lists and how their flows are connected. [src/ipcpd/broadcast/dt.c:52-69] -/
structure Layer (V : Type) where
  net : V → State
  link : V → Int → V × Int

/-- A packet on its way: the packets that were written and not read yet, by process and flow they will be read from, and the processes that
read it so far, latest first. [src/ipcpd/broadcast/dt.c:178-217] -/
structure Flood (V : Type) where
  inflight : List (V × Int)
  got : List V

/-- `s` sends a packet to all its neighbours. An application that joined writes to its only flow. [src/ipcpd/broadcast/main.c:209-233] -/
def originate {V : Type} (L : Layer V) (s : V) : Flood V := ⟨(L.net s).map (L.link s), []⟩

/-- A process reads one of the packets on their way and forwards it (src/ipcpd/broadcast/dt.c:198-209). Flows deliver what is written; which packet is read
next is arbitrary. -/
inductive Flood.Step {V : Type} (L : Layer V) : Flood V → Flood V → Prop
  | read (pre post : List (V × Int)) (v : V) (fd : Int) (got : List V) :
      Flood.Step L ⟨pre ++ (v, fd) :: post, got⟩ ⟨pre ++ post ++ (packet (L.net v) fd).map (L.link v), v :: got⟩

/-- Any number of reads. [src/ipcpd/broadcast/dt.c:198-209] -/
inductive Flood.Steps {V : Type} (L : Layer V) : Flood V → Flood V → Prop
  | refl (f : Flood V) : Flood.Steps L f f
  | tail {f g h : Flood V} : Flood.Steps L f g → Flood.Step L g h → Flood.Steps L f h

end Ouro.Broadcast
