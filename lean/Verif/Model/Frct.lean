import Verif.Model.Base
import Verif.Model.Bytes
import Verif.Model.FaMsg
import Verif.Model.Seqno

/-!
# Model of the flow and retransmission control task (`src/lib/frct.c`)

One endpoint is an `Ep` (`struct frcti`). Times are nanoseconds of the monotonic clock (`Int`), so `tv_sec` is the quotient by
10^9; fields documented in seconds are in seconds. The reorder queue holds payloads instead of buffer indices. Locks: every
function below is one critical section of `frcti->lock`. Build configuration: `RXM_BUFFER_ON_HEAP` off, `RXM_BLOCKING` on,
`FRCT_LINUX_RTT_ESTIMATOR` on, `PROC_FLOW_STATS` counters left out.
-/

namespace Ouro.Frct

open Ouro Ouro.Seqno

/-- A 32 bit sequence number, src/lib/frct.c:32-36. -/
abbrev W := BitVec 32

/-- include/ouroboros/time.h:35 -/ def BILLION : Int := 1000000000
/-- include/ouroboros/time.h:34 -/ def MILLION : Int := 1000000
/-- src/lib/frct.c:25 -/ def DELT_RDV : Int := 100 * MILLION
/-- src/lib/frct.c:26 -/ def MAX_RDV : Int := BILLION
/-- src/lib/config.h.in:77 with src/lib/CMakeLists.txt:201 -/ def RQ_SIZE : Nat := 256
/-- src/lib/config.h.in:78 with src/lib/CMakeLists.txt:203 -/ def START_WINDOW : W := 64#32
/-- src/lib/config.h.in:83 with src/lib/CMakeLists.txt:213 -/ def TICTIME : Int := 5000 * 1000
/-- src/lib/config.h.in:79 with src/lib/CMakeLists.txt:209 -/ def RTO_MIN : Int := 250 * 1000

/-- `tv_sec` of a time in nanoseconds (src/lib/frct.c:722, 733, 749, 824). -/
def tsec (t : Int) : Int := t / BILLION

/-- `struct frct_cr`, src/lib/frct.c:32-41; the bits of `cflags` are booleans (include/ouroboros/fccntl.h:49-51). -/
structure Cr where
  lwe : W
  rwe : W
  frtx : Bool
  rescntl : Bool
  linger : Bool
  seqno : W
  act : Int
  inact : Int
  deriving Repr, DecidableEq

/-- `struct frct_pci` and what follows it, src/lib/frct.c:80-99; `flags` as booleans, the 24 bit window as one number. -/
structure Pkt where
  data : Bool
  drf : Bool
  ack : Bool
  fc : Bool
  rdvs : Bool
  window : BitVec 24
  seqno : W
  ackno : W
  payload : List Byte
  deriving Repr, DecidableEq

/-- `struct frcti`, src/lib/frct.c:43-78 (without the statistics, the locks and the descriptor). -/
structure Ep where
  a : Int
  r : Int
  rdv : Int
  srtt : Int
  mdev : Int
  rto : Int
  rttseq : W
  tProbe : Int
  probe : Bool
  snd : Cr
  rcv : Cr
  rq : Nat → Option (List Byte)
  isOpen : Bool
  tWnd : Int
  tRdvs : Int

/-! ## The header on the wire -/

/-- `pci->flags`, src/lib/frct.c:80-88. -/
def flagsByte (p : Pkt) : Nat :=
  p.data.toNat + 2 * p.drf.toNat + 4 * p.ack.toNat + 8 * p.fc.toNat + 16 * p.rdvs.toNat

/-- The packet as written by `__send_frct_pkt` (src/lib/frct.c:254-260) and `__frcti_snd` (707-752): flags, the window in the
    three bytes behind them, sequence number and acknowledgement in network order, then the payload. -/
def encode (p : Pkt) : List Byte :=
  BitVec.ofNat 8 (flagsByte p) :: (FaMsg.beBytes 3 p.window.toNat ++ (FaMsg.beBytes 4 p.seqno.toNat ++
    (FaMsg.beBytes 4 p.ackno.toNat ++ p.payload)))

/-- How `__frcti_rcv` reads a packet, src/lib/frct.c:816-820, 825, 837, 848-849, 863-866, 883. A packet shorter than the header is
    undefined (`shm_du_buff_head_release` then moves the head beyond the tail). -/
def decode (b : List Byte) : Outcome Pkt :=
  match b with
  | [] => .ub
  | f :: rest =>
    if rest.length < 11 then .ub else
    .ok
      { data := f.toNat.testBit 0, drf := f.toNat.testBit 1, ack := f.toNat.testBit 2, fc := f.toNat.testBit 3,
        rdvs := f.toNat.testBit 4
        window := BitVec.ofNat 24 (FaMsg.beVal (rest.take 3))
        seqno := BitVec.ofNat 32 (FaMsg.beVal ((rest.drop 3).take 4))
        ackno := BitVec.ofNat 32 (FaMsg.beVal ((rest.drop 7).take 4))
        payload := rest.drop 11 }

/-! ## The endpoint -/

/-- `frcti_create`, src/lib/frct.c:330-416; `a`, `r`, `mpl` in seconds, `loss0` = the quality of service asks for no loss. -/
def create (a r mpl : Int) (loss0 : Bool) (now : Int) : Ep :=
  let sIn := (3 * (mpl * BILLION) + a * BILLION + r * BILLION) / BILLION + 1
  let rIn := (2 * (mpl * BILLION) + a * BILLION + r * BILLION) / BILLION + 1
  { a := a * BILLION, r := r * BILLION, rdv := DELT_RDV, srtt := 0, mdev := 10 * MILLION, rto := BILLION
    rttseq := 0, tProbe := 0, probe := false
    snd := { lwe := 0, rwe := START_WINDOW, frtx := loss0, rescntl := true, linger := loss0, seqno := 0
             act := (tsec now - (sIn + 1)) * BILLION, inact := sIn }
    rcv := { lwe := 0, rwe := 0, frtx := loss0, rescntl := false, linger := false, seqno := 0
             act := (tsec now - (rIn + 1)) * BILLION, inact := rIn }
    rq := fun _ => none, isOpen := false, tWnd := 0, tRdvs := 0 }

/-- The inactivity test of src/lib/frct.c:722 and 824. -/
def inactive (c : Cr) (now : Int) : Bool := decide (tsec now - tsec c.act > c.inact)

/-- `__send_frct_pkt`, src/lib/frct.c:235-260: a packet without data. Buffer allocation and the write to the ring are left to the
    caller (a failure loses the packet). -/
def ctrl (ack fc rdvs : Bool) (ackno rwe : W) : Pkt :=
  { data := false, drf := false, ack := ack, fc := fc, rdvs := rdvs, window := rwe.setWidth 24, seqno := 0, ackno := ackno,
    payload := [] }

/-- `send_frct_pkt`, src/lib/frct.c:283-323. -/
def sendAck (e : Ep) (now : Int) : Ep × Option Pkt :=
  if !after e.rcv.lwe e.rcv.seqno then (e, none)
  else if now - e.rcv.act > e.a then (e, none)
  else if now - e.snd.act < TICTIME then (e, none)
  else ({ e with rcv := { e.rcv with seqno := e.rcv.lwe } }, some (ctrl true true false e.rcv.lwe e.rcv.rwe))

/-- `frcti_setflags`, src/lib/frct.c:463-477. -/
def setflags (e : Ep) (frtx _rescntl _linger : Bool) : Ep :=
  { e with snd := { e.snd with frtx := e.snd.frtx && (frtx || true), rescntl := false, linger := false } }

/-- `__frcti_is_window_open`, src/lib/frct.c:498-544; the packet is the rendez-vous of line 530. -/
def isWindowOpen (e : Ep) (now : Int) : Ep × Bool × Option Pkt :=
  let ret := if e.snd.rescntl then before e.snd.seqno e.snd.rwe else true
  if !ret then
    if e.isOpen then ({ e with isOpen := false, tWnd := now, tRdvs := now }, false, none)
    else if now - e.tWnd > MAX_RDV then (e, false, none)
    else if now - e.tRdvs > e.rdv then ({ e with tRdvs := now }, false, some (ctrl false false true 0 0))
    else (e, false, none)
  else (e, true, none)

/-- What one pass of the loop of `__frcti_window_wait` decides, src/lib/frct.c:554-598. -/
inductive WaitRes where
  | done               -- 0: go on and send
  | reset (p : Option Pkt)  -- -ECONNRESET (586)
  | timedOut (p : Option Pkt) -- -ETIMEDOUT (559, 602), after the rendez-vous `p` of line 592
  | again              -- woken up: test again
  deriving Repr, DecidableEq

/-- One pass of the loop of `__frcti_window_wait`, src/lib/frct.c:546-603: `timeout` = the wait of line 574 returned `ETIMEDOUT` at
    time `now'`. -/
def windowWait (e : Ep) (now now' : Int) (timeout : Bool) : Ep × WaitRes :=
  if !e.snd.rescntl then (e, .done)
  else if e.snd.seqno != e.snd.rwe then (e, .done)
  else
    let e := if e.isOpen then { e with isOpen := false, tWnd := now, tRdvs := now } else e
    if timeout then
      if now' - e.tWnd > MAX_RDV then (e, .reset none)
      else if now' - e.tRdvs > e.rdv then ({ e with tRdvs := now' }, .timedOut (some (ctrl false false true 0 0)))
      else (e, .timedOut none)
    else (e, .again)

/-- The slot of the reorder queue of a sequence number, src/lib/frct.c:615, 639, 820. -/
def pos (s : W) : Nat := (s &&& 255#32).toNat

/-- `__frcti_queued_pdu`, src/lib/frct.c:605-627. -/
def queuedPdu (e : Ep) : Ep × Option (List Byte) :=
  let p := pos e.rcv.lwe
  match e.rq p with
  | none => (e, none)
  | some b =>
    ({ e with rcv := { e.rcv with lwe := e.rcv.lwe + 1#32, rwe := e.rcv.rwe + 1#32 },
              rq := fun i => if i = p then none else e.rq i }, some b)

/-- `__frcti_pdu_ready`, src/lib/frct.c:629-645. -/
def pduReady (e : Ep) : Option (List Byte) := e.rq (pos e.rcv.lwe)

/-- `__frcti_dealloc`, src/lib/frct.c:654-683: the time to wait, negative if the flow should linger, and the final acknowledgement. -/
def dealloc (e : Ep) (now : Int) : Int × Option Pkt :=
  let w := max (max (e.rcv.inact - tsec now + tsec e.rcv.act) (e.snd.inact - tsec now + tsec e.snd.act)) 0
  let w := if e.snd.linger && before e.snd.lwe e.snd.seqno then -w else w
  (w, if e.rcv.lwe != e.rcv.seqno then some (ctrl true false false e.rcv.lwe 0) else none)

/-- The choice of a new sequence number, src/lib/frct.c:721-728. The failing assertion is undefined. -/
def newRun (e : Ep) (now : Int) (rnd : W) : Outcome Ep :=
  if inactive e.snd now then
    if e.snd.seqno = e.snd.lwe then .ok { e with snd := { e.snd with seqno := rnd, lwe := rnd, rwe := rnd + START_WINDOW } }
    else .ub
  else .ok e

/-- Whether the packet sent now carries a window, src/lib/frct.c:733. -/
def sndFc (e : Ep) (now : Int) : Bool := decide (tsec now - tsec e.rcv.act < e.rcv.inact)

/-- Whether the packet sent now acknowledges, src/lib/frct.c:738-749. -/
def sndAck (e : Ep) (now : Int) : Bool := e.snd.frtx && decide ((tsec now - tsec e.rcv.act) * BILLION ≤ e.a)

/-- The packet `__frcti_snd` makes, src/lib/frct.c:715-752, `e` being the state after `newRun`. -/
def sndPkt (e : Ep) (drf : Bool) (payload : List Byte) (now : Int) : Pkt :=
  { data := true, drf := drf, ack := sndAck e now, fc := sndFc e now, rdvs := false
    window := if sndFc e now then e.rcv.rwe.setWidth 24 else 0
    seqno := e.snd.seqno
    ackno := if sndAck e now then e.rcv.lwe else 0
    payload := payload }

/-- The update of the endpoint by `__frcti_snd`, src/lib/frct.c:738-757, `e` being the state after `newRun`. -/
def sndEp (e : Ep) (now : Int) : Ep :=
  let start := e.snd.frtx && !e.probe
  { e with
    snd := { e.snd with lwe := if e.snd.frtx then e.snd.lwe else e.snd.lwe + 1#32, seqno := e.snd.seqno + 1#32, act := now }
    rcv := { e.rcv with seqno := if sndAck e now then e.rcv.lwe else e.rcv.seqno }
    rttseq := if start then e.snd.seqno else e.rttseq
    tProbe := if start then now else e.tProbe
    probe := e.probe || start }

/-- `__frcti_snd`, src/lib/frct.c:685-765, without the turn of the timer wheel (701) and the arming of the retransmission timer
    (761-762), which are separate operations of the system below. A failing head allocation (703-705) leaves everything as it is. -/
def snd (e : Ep) (payload : List Byte) (now : Int) (rnd : W) : Outcome (Ep × Pkt) :=
  let drf := e.snd.seqno == e.snd.lwe
  do let e ← newRun e now rnd
     pure (sndEp e now, sndPkt e drf payload now)

/-- `rtt_estimator`, src/lib/frct.c:767-792 (`>>` on `time_t` is an arithmetic shift: floor division). -/
def rttEstimator (e : Ep) (mrtt : Int) : Ep :=
  let (srtt, rttvar) :=
    if e.srtt = 0 then (mrtt, mrtt / 2)
    else
      let delta := mrtt - e.srtt
      let srtt := e.srtt + delta / 8
      let delta := ((delta.natAbs : Int) - e.mdev) / 4
      let delta := if delta < 0 then delta / 8 else delta
      (srtt, e.mdev + delta)
  let srtt := max 1000 srtt
  let mdev := max 100 rttvar
  { e with srtt := srtt, mdev := mdev, rto := max RTO_MIN (srtt + mdev * 4) }

/-- The new right window edge, src/lib/frct.c:866-871. -/
def recon (cur : W) (win : BitVec 24) : W :=
  let rwe := win.setWidth 32 ||| (cur &&& 0xFF000000#32)
  if before rwe cur && decide ((cur - rwe).toNat > 0x007FFFFF) then rwe + 0x01000000#32 else rwe

/-- What becomes of a received packet: kept on the reorder queue (src/lib/frct.c:920), or not (929). -/
inductive Fate where
  | queued | dropped
  deriving Repr, DecidableEq

/-- The run of a received packet, src/lib/frct.c:824-834: `none` = dropped at line 830. -/
def rcvRun (e : Ep) (p : Pkt) (now : Int) : Option Ep :=
  if inactive e.rcv now then
    if p.drf then
      some { e with rcv := { e.rcv with lwe := p.seqno, rwe := p.seqno + 256#32, seqno := p.seqno, act := now } }
    else if p.data then none
    else some { e with rcv := { e.rcv with act := now } }
  else some { e with rcv := { e.rcv with act := now } }

/-- The acknowledgement of a received packet, src/lib/frct.c:848-861. -/
def rcvAck (e : Ep) (p : Pkt) (now : Int) : Ep :=
  if p.ack then
    let e := if after p.ackno e.snd.lwe then { e with snd := { e.snd with lwe := p.ackno } } else e
    if e.probe && after p.ackno e.rttseq then { rttEstimator e (now - e.tProbe) with probe := false } else e
  else e

/-- The window of a received packet, src/lib/frct.c:863-881. -/
def rcvFc (e : Ep) (p : Pkt) : Ep :=
  if p.fc then { e with snd := { e.snd with rwe := recon e.snd.rwe p.window }, isOpen := true } else e

/-- The data of a received packet, src/lib/frct.c:883-920. -/
def rcvData (e : Ep) (p : Pkt) : Ep × Fate :=
  if !p.data then (e, .dropped)
  else if before p.seqno e.rcv.lwe then ({ e with rcv := { e.rcv with seqno := p.seqno } }, .dropped)
  else if e.rcv.frtx then
    if !before p.seqno e.rcv.rwe then (e, .dropped)
    else if !before p.seqno (e.rcv.lwe + 256#32) then (e, .dropped)
    else if (e.rq (pos p.seqno)).isSome then (e, .dropped)
    else ({ e with rq := fun i => if i = pos p.seqno then some p.payload else e.rq i }, .queued)
  else ({ e with rcv := { e.rcv with lwe := p.seqno }, rq := fun i => if i = pos p.seqno then some p.payload else e.rq i }, .queued)

/-- `__frcti_rcv`, src/lib/frct.c:795-934, up to the unlocking; the packet is the window update of line 842. The acknowledgement sent
    when a packet is dropped (932) is `sendAck`, a later step. Without retransmission a slot that is occupied is overwritten (and the
    buffer it held is lost). -/
def rcv (e : Ep) (p : Pkt) (now : Int) : Ep × Fate × Option Pkt :=
  match rcvRun e p now with
  | none => (e, .dropped, none)
  | some e =>
    if p.rdvs then (e, .dropped, some (ctrl false true false 0 e.rcv.rwe))
    else
      let (e, f) := rcvData (rcvFc (rcvAck e p now) p) p
      (e, f, none)

/-! ## A retransmission timer -/

/-- `struct rxm`, src/lib/timerwheel.c:30-42. -/
structure Rxm where
  seqno : W
  t0 : Int
  pkt : Pkt
  deriving Repr, DecidableEq

/-- What `timerwheel_move` does with an expired entry, src/lib/timerwheel.c:170-268. -/
inductive Expiry where
  | cleanup                 -- acknowledged (192-193)
  | down                    -- flow down (195-197, 222-223)
  | resend (p : Pkt)        -- 234-252
  deriving Repr, DecidableEq

/-- The backed-off timeout, src/lib/timerwheel.c:201-204 (`RTO_DIV` = 0). -/
def backoff (e : Ep) (r : Rxm) : Ep :=
  if r.seqno = e.rttseq then { e with rto := e.rto + e.rto, probe := false } else e

/-- Whether a timeout is beyond the last level of the wheel, src/lib/timerwheel.c:209, 216-223, 340, 348-354: three levels of 256 slots
    of 2^20 ns, each level 16 times coarser. -/
def tooLong (rto : Int) : Bool := decide (rto / 1048576 / 16 / 16 ≥ 256)

/-- `timerwheel_move`, src/lib/timerwheel.c:170-268, on the entry `r`. -/
def expire (e : Ep) (r : Rxm) (now : Int) : Ep × Expiry :=
  if before r.seqno e.snd.lwe then (e, .cleanup)
  else if now - r.t0 > e.r then (e, .down)
  else
    let e' := backoff e r
    if tooLong e'.rto then (e', .down)
    else (e', .resend { r.pkt with ackno := e.rcv.lwe })

end Ouro.Frct
