import Verif.Model.Frct

/-!
# Two endpoints and the network between them

The two ends of a flow are named `true` and `false`. `net d` is every packet endpoint `d` ever put on the wire; the network may
deliver any of them to the other end, any number of times, in any order, or never. `dir d` is bookkeeping about the packets the
application at `d` writes for the application at `!d`; no function of `Verif/Model/Frct.lean` reads it. The tags of packets are
bookkeeping as well: the code's packets do not carry them.
-/

namespace Ouro.Frct

open Ouro Ouro.Seqno

/-- Bookkeeping about a packet: the run of its sender (how often the sender had chosen a new sequence number, src/lib/frct.c:725) and
    the place of its data among everything written; and, of the sender as a receiver, the run it follows and how much its application
    has read (`rRun`, `rIdx`), and the same for the right window edge it announces (`wRun`, `wIdx`): the two differ for a packet sent again,
    which keeps its window but gets a new acknowledgement (src/lib/timerwheel.c:235-245). -/
structure Tag where
  run : Nat
  idx : Nat
  rRun : Nat
  rIdx : Nat
  wRun : Nat
  wIdx : Nat
  deriving Repr, DecidableEq

/-- A packet on the wire, put there at time `at_` (src/lib/dev.c:1213, src/lib/frct.c:268, src/lib/timerwheel.c:247). -/
structure Sent where
  pkt : Pkt
  at_ : Int
  tag : Tag
  deriving Repr, DecidableEq

/-- A pending retransmission (src/lib/timerwheel.c:30-42) with the bookkeeping of its packet. -/
structure Entry where
  rxm : Rxm
  tag : Tag
  deriving Repr, DecidableEq

/-- Bookkeeping of one direction: everything accepted by `__frcti_snd` (src/lib/frct.c:685-765) and when, how much of it the sender
    considers acknowledged, its current run, the first packet of that run and the sequence number packet 0 would have in it, everything
    `__frcti_queued_pdu` (605-627) handed to the reader, the run the receiver follows, the packets whose timer could not be armed, and the
    right window edge of the sender as a packet number. -/
structure Dir where
  sent : List (List Byte)
  t0 : List Int
  acked : Nat
  run : Nat
  start : Nat
  base : W
  got : List (List Byte)
  rrun : Nat
  lost : List Nat
  wnd : Nat
  deriving Repr, DecidableEq

/-- The whole system: src/lib/frct.c:43-78 twice, the wires, src/lib/timerwheel.c:51-64 and `ACL_FLOWDOWN` (timerwheel.c:259). -/
structure Sys where
  now : Int
  ep : Bool → Ep
  net : Bool → List Sent
  rxm : Bool → List Entry
  dir : Bool → Dir
  down : Bool → Bool

/-- Writing one component of a pair indexed by `Bool` (auxiliary to src/lib/frct.c:685-934). -/
def upd {α : Type} (f : Bool → α) (d : Bool) (x : α) : Bool → α := fun b => if b = d then x else f b

/-- One step, at endpoint `d` (the functions of src/lib/frct.c:283-934 and src/lib/timerwheel.c:131-373). -/
inductive Op where
  /-- `__frcti_snd`; `rnd` = the random sequence number of src/lib/frct.c:725, `armed` = src/lib/timerwheel.c:307-373 succeeded,
      `out` = the packet reached the wire (src/lib/dev.c:1213). -/
  | write (d : Bool) (b : List Byte) (now : Int) (rnd : W) (armed out : Bool)
  /-- `__frcti_rcv` on the `k`-th packet of the other end. -/
  | recv (d : Bool) (k : Nat) (now : Int)
  /-- `__frcti_queued_pdu`, called by the reader. -/
  | read (d : Bool)
  /-- `send_frct_pkt`: a delayed acknowledgement (src/lib/timerwheel.c:296) or the one of src/lib/frct.c:932. -/
  | ack (d : Bool) (now : Int)
  /-- The `k`-th retransmission timer expires; `alloc` = src/lib/timerwheel.c:227 succeeds, `out` = line 247 succeeds. -/
  | expire (d : Bool) (k : Nat) (now : Int) (alloc out : Bool)
  /-- `__frcti_is_window_open`. -/
  | window (d : Bool) (now : Int)
  /-- `__frcti_dealloc`. -/
  | close (d : Bool) (now : Int)
  /-- `frcti_setflags`. -/
  | flags (d : Bool) (frtx rescntl linger : Bool)
  deriving Repr, DecidableEq

/-- The tag of a packet endpoint `d` sends now (bookkeeping of src/lib/frct.c:723-725, 605-627). -/
def tagNow (s : Sys) (d : Bool) (run idx : Nat) : Tag :=
  { run := run, idx := idx, rRun := (s.dir (!d)).rrun, rIdx := (s.dir (!d)).got.length,
    wRun := (s.dir (!d)).rrun, wIdx := (s.dir (!d)).got.length + 256 }

/-- Putting a control packet, if any, on the wire of `d` (src/lib/frct.c:235-281). -/
def emit (s : Sys) (d : Bool) (p : Option Pkt) (now : Int) : List Sent :=
  match p with
  | none => s.net d
  | some p => s.net d ++ [⟨p, now, tagNow s d (s.dir d).run 0⟩]

/-- The bookkeeping of a write (src/lib/frct.c:721-757). -/
def dirWrite (D : Dir) (fresh : Bool) (b : List Byte) (now : Int) (rnd : W) (armed : Bool) : Dir :=
  { D with
    sent := D.sent ++ [b]
    t0 := D.t0 ++ [now]
    run := D.run + fresh.toNat
    start := if fresh then D.sent.length else D.start
    base := if fresh then rnd - BitVec.ofNat 32 D.sent.length else D.base
    lost := if armed then D.lost else D.lost ++ [D.sent.length]
    wnd := if fresh then D.sent.length + 64 else D.wnd }

/-- src/lib/frct.c:685-765 and src/lib/timerwheel.c:307-373. -/
def stepWrite (s : Sys) (d : Bool) (b : List Byte) (now : Int) (rnd : W) (armed out : Bool) : Outcome Sys :=
  match snd (s.ep d) b now rnd with
  | .ub => .ub
  | .ok (e, p) =>
    let D := dirWrite (s.dir d) (inactive (s.ep d).snd now) b now rnd armed
    let t := tagNow s d D.run (s.dir d).sent.length
    .ok { s with
      now := now
      ep := upd s.ep d e
      net := if out then upd s.net d (s.net d ++ [⟨p, now, t⟩]) else s.net
      rxm := if e.snd.frtx && armed then upd s.rxm d (s.rxm d ++ [⟨⟨p.seqno, now, p⟩, t⟩]) else s.rxm
      dir := upd s.dir d D }

/-- The bookkeeping of the sender when a packet arrives (src/lib/frct.c:850-851). -/
def dirAcked (D : Dir) (lwe lwe' : W) (t : Tag) : Dir :=
  if lwe' = lwe then D else { D with acked := t.rIdx }

/-- The bookkeeping of the sender when a window arrives (src/lib/frct.c:863-873). -/
def dirWnd (D : Dir) (e : Ep) (p : Pkt) (now : Int) (t : Tag) : Dir :=
  if p.fc && !p.rdvs && (rcvRun e p now).isSome then { D with wnd := t.wIdx } else D

/-- The bookkeeping of the receiver when a packet arrives (src/lib/frct.c:824-828). -/
def dirRun (D : Dir) (e : Ep) (p : Pkt) (now : Int) (t : Tag) : Dir :=
  if inactive e.rcv now && p.drf then { D with rrun := t.run } else D

/-- src/lib/frct.c:795-934. -/
def stepRecv (s : Sys) (d : Bool) (q : Sent) (now : Int) : Sys :=
  let (e, _, out) := rcv (s.ep d) q.pkt now
  { s with
    now := now
    ep := upd s.ep d e
    net := upd s.net d (emit s d out now)
    dir := upd (upd s.dir d (dirWnd (dirAcked (s.dir d) (s.ep d).snd.lwe e.snd.lwe q.tag) (s.ep d) q.pkt now q.tag))
             (!d) (dirRun (s.dir (!d)) (s.ep d) q.pkt now q.tag) }

/-- src/lib/frct.c:605-627. -/
def stepRead (s : Sys) (d : Bool) : Sys :=
  match queuedPdu (s.ep d) with
  | (_, none) => s
  | (e, some b) =>
    { s with
      ep := upd s.ep d e
      dir := upd s.dir (!d) { s.dir (!d) with got := (s.dir (!d)).got ++ [b] } }

/-- src/lib/timerwheel.c:170-268; the order of the timers does not matter here (any of them may expire at any time). -/
def stepExpire (s : Sys) (d : Bool) (k : Nat) (x : Entry) (now : Int) (alloc out : Bool) : Sys :=
  match expire (s.ep d) x.rxm now with
  | (e, .cleanup) => { s with now := now, ep := upd s.ep d e, rxm := upd s.rxm d ((s.rxm d).eraseIdx k) }
  | (e, .down) =>
    { s with now := now, ep := upd s.ep d e, rxm := upd s.rxm d ((s.rxm d).eraseIdx k), down := upd s.down d true }
  | (e, .resend p) =>
    if !alloc then { s with now := now, ep := upd s.ep d e }
    else if !out then
      { s with now := now, ep := upd s.ep d e, rxm := upd s.rxm d ((s.rxm d).eraseIdx k), down := upd s.down d true }
    else
      { s with
        now := now
        ep := upd s.ep d e
        net := upd s.net d (s.net d ++ [⟨p, now, { tagNow s d x.tag.run x.tag.idx with wRun := x.tag.wRun, wIdx := x.tag.wIdx }⟩])
        rxm := upd s.rxm d ((s.rxm d).set k ⟨{ x.rxm with pkt := p }, x.tag⟩) }

/-- One step of the system (src/lib/frct.c:283-934, src/lib/timerwheel.c:131-373). An operation on a packet or timer that does not exist
    does nothing. -/
def step (s : Sys) : Op → Outcome Sys
  | .write d b now rnd armed out => stepWrite s d b now rnd armed out
  | .recv d k now =>
    match (s.net (!d))[k]? with
    | none => .ok s
    | some q => .ok (stepRecv s d q now)
  | .read d => .ok (stepRead s d)
  | .ack d now =>
    let (e, p) := sendAck (s.ep d) now
    .ok { s with now := now, ep := upd s.ep d e, net := upd s.net d (emit s d p now) }
  | .expire d k now alloc out =>
    match (s.rxm d)[k]? with
    | none => .ok s
    | some x => .ok (stepExpire s d k x now alloc out)
  | .window d now =>
    let (e, _, p) := isWindowOpen (s.ep d) now
    .ok { s with now := now, ep := upd s.ep d e, net := upd s.net d (emit s d p now) }
  | .close d now =>
    let (_, p) := dealloc (s.ep d) now
    .ok { s with now := now, net := upd s.net d (emit s d p now) }
  | .flags d f r l => .ok { s with ep := upd s.ep d (setflags (s.ep d) f r l) }

/-- The bookkeeping before anything was sent (src/lib/frct.c:350). -/
def Dir.init : Dir :=
  { sent := [], t0 := [], acked := 0, run := 0, start := 0, base := 0, got := [], rrun := 0, lost := [], wnd := 0 }

/-- Both ends have just been created (src/lib/dev.c:494) on a flow that must not lose packets; `a`, `r`, `mpl` in seconds. -/
def Sys.init (a r mpl : Nat) (now : Int) : Sys :=
  { now := now
    ep := fun _ => create a r mpl true now
    net := fun _ => []
    rxm := fun _ => []
    dir := fun _ => .init
    down := fun _ => false }

end Ouro.Frct
