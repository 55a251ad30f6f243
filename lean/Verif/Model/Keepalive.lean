import Verif.Model.Base

/-!
# Keepalives: finding out that the peer is gone

Model of the keepalive pass of the library's monitor thread (src/lib/dev.c:274-376) at the two ends of a
flow, with the places where the activity times of a flow are set.  Times are nanoseconds since the flow
was set up; the clock is the same at both ends, which only matters for the delays in the statements.
-/

namespace Ouro.Keepalive

/-- What a pass of the monitor does for a flow (src/lib/dev.c:294-330). -/
inductive Act | idle | dead | send
  deriving DecidableEq, Repr

/-- `_flow_keepalive` (src/lib/dev.c:294-330): `timeo` is the flow's timeout in milliseconds, `closed` says
that the incoming ring was already marked `ACL_FLOWPEER` or `ACL_FLOWDOWN`.  The product is taken in 64
bits there; a timeout is a 32-bit number, so it does not overflow. -/
def keepalive (timeo : Nat) (closed : Bool) (sndAct rcvAct now : Int) : Act :=
  if timeo = 0 ∨ closed = true then .idle                            -- 311-313
  else if now - rcvAct > (timeo : Int) * 1000000 then .dead          -- 317-321
  else if now - sndAct > (timeo : Int) * 250000 then .send           -- 323: MILLION >> 2
  else .idle

/-- One end of the flow: the activity times (src/lib/dev.c:104-105), whether the incoming ring is marked as
having lost its peer (318), the number of `FLOW_PEER` events raised (319), the packets from the peer that
are on their way or in the incoming ring (by the time they were sent), and the times at which this end put
a packet into its outgoing ring (newest first; ghost). -/
structure End where
  sndAct : Int
  rcvAct : Int
  closed : Bool
  events : Nat
  wire : List Int
  sends : List Int

/-- The state of the two ends of a flow (two times the fields of src/lib/dev.c:104-105). -/
structure St where
  a : End
  b : End

/-- Selects an end: `true` is `a` (notation for the two processes; no counterpart in src/lib/dev.c:294-330). -/
def St.at (s : St) (x : Bool) : End := if x then s.a else s.b

/-- Replaces an end (notation, as `St.at`; src/lib/dev.c:294-330). -/
def St.set (s : St) (x : Bool) (e : End) : St := if x then { s with a := e } else { s with b := e }

/-- `flow_init` (src/lib/dev.c:478-479) at time zero at both ends. -/
def start : St := ⟨⟨0, 0, false, 0, [], []⟩, ⟨0, 0, false, 0, [], []⟩⟩

/-- How the attempt to put a packet into the outgoing ring ends: it is there, the ring refuses it, or there
is no buffer for it (src/lib/dev.c:279-290). -/
inductive Room | ok | full | nobuf
  deriving DecidableEq, Repr

/-- What happens at the ends (and to a packet under way).  See `step` for the lines in src/lib/dev.c. -/
inductive Ev
  | tick (x : Bool) (r : Room)
  | write (x : Bool) (r : Room)
  | read (x : Bool)
  | lose (x : Bool)
  deriving DecidableEq, Repr

/-- A packet is put into the ring of end `x` at time `now`: `snd_act` is set before the attempt, also when
the ring refuses the packet (src/lib/dev.c:283-291 and 1189-1222). -/
def put (s : St) (x : Bool) (now : Int) (r : Room) : St :=
  match r with
  | .nobuf => s
  | .full => s.set x { s.at x with sndAct := now }
  | .ok =>
    let s := s.set x { s.at x with sndAct := now, sends := now :: (s.at x).sends }
    s.set (!x) { s.at (!x) with wire := (s.at (!x)).wire ++ [now] }

/-- One event at time `now` (src/lib/dev.c:294-345, 1176-1222, 1307-1338; per case below). -/
def step (timeo : Nat) (s : St) (now : Int) : Ev → St
  -- src/lib/dev.c:294-345: a pass of the monitor over this flow
  | .tick x r => match keepalive timeo (s.at x).closed (s.at x).sndAct (s.at x).rcvAct now with
    | .idle => s
    | .dead => s.set x { s.at x with closed := true, events := (s.at x).events + 1 }
    | .send => put s x now r
  -- src/lib/dev.c:1176-1222: `flow_tx_sdb`
  | .write x r => put s x now r
  -- src/lib/dev.c:1307-1338: `flow_rx_sdb` takes a packet out of the incoming ring
  | .read x => match (s.at x).wire with
    | [] => s
    | _ :: w => s.set x { s.at x with rcvAct := now, wire := w }
  -- a packet is lost under way (no counterpart in src/lib/dev.c)
  | .lose x => s.set x { s.at x with wire := (s.at x).wire.tail }

/-- The state after a history of events of src/lib/dev.c:294-345, 1176-1222, 1307-1338, newest event first. -/
def run (timeo : Nat) : List (Int × Ev) → St
  | [] => start
  | (now, e) :: h => step timeo (run timeo h) now e

/-- The result of `fevent` in the loop of the monitor (src/lib/dev.c:364-372). -/
inductive FEvent | timeout | events
  deriving DecidableEq, Repr

/-- `flow_rx` (src/lib/dev.c:353-376): the number of keepalive passes for a sequence of results of `fevent`. -/
def passes : List FEvent → Nat
  | [] => 0
  | .timeout :: l => passes l + 1                                    -- 365-368
  | .events :: l => passes l                                         -- 370-371

end Ouro.Keepalive
