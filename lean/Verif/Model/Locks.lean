import Mathlib.Logic.Function.Basic

/-!
# The locks of the library

Every function of the library is modelled by what it does with locks: the sequence of locks it takes and gives back, and
the places where it waits for something that another process provides.  The branches a function takes are arguments, so
that a function stands for all its paths.  The values it computes are not modelled.
-/

namespace Ouro.Locks

/-- The locks: `ai.lock` (src/lib/dev.c:145), `rib.lock` (src/lib/rib.c:69), the thread `ai.tx` (src/lib/dev.c:140, see
`flowFini`), `rw.lock` (src/lib/timerwheel.c:63), the lock and the mutex of an FRCT instance (src/lib/frct.c:72, 78),
`ai.mtx` (src/lib/dev.c:137), and the mutexes of the packet buffer (src/lib/shm_rdrbuff.c:82), of the two ring buffers
of a flow (src/lib/shm_rbuff.c:65) and of the flow set (src/lib/shm_flow_set.c:72). -/
inductive Lock where
  | ai | rib | tx | rw
  | frcti (f : Nat)
  | mtx (f : Nat)
  | aiMtx | rdrb
  | rxRing (f : Nat)
  | txRing (f : Nat)
  | fset
  deriving DecidableEq

/-- For reading or for writing; a mutex is always taken for writing (src/lib/dev.c:150, 283, 337). -/
inductive Mode where
  | rd | wr
  deriving DecidableEq

/-- What a thread waits for besides locks: memory in the packet buffer (src/lib/shm_rdrbuff.c:360-450), room and packets
in the ring buffers of a flow, an empty ring buffer (src/lib/shm_rbuff_pthr.c:88-284), an open FRCT window
(src/lib/frct.c:558-598), and events (src/lib/shm_flow_set.c:326-371). -/
inductive Cond where
  | memory
  | room (f : Nat)
  | packet (f : Nat)
  | drained (f : Nat)
  | window (f : Nat)
  | event
  deriving DecidableEq

/-- A step of a thread: `pthread_rwlock_rdlock`, `pthread_rwlock_wrlock` and `pthread_mutex_lock`; their unlock; and a
wait (src/lib/dev.c:283-345). -/
inductive Act where
  | acq (l : Lock) (m : Mode)
  | rel (l : Lock)
  | wait (c : Cond)
  deriving DecidableEq

/-- A thread: what it still has to do and the locks it holds, last taken first (src/lib/dev.c:283-345). -/
structure Thread where
  prog : List Act
  held : List (Lock × Mode)

/-- All threads, and which conditions hold (src/lib/dev.c:118-146). -/
structure State where
  thr : Nat → Thread
  avail : Cond → Prop

/-- Whether a lock can be taken: for reading when nobody holds it for writing, which is how the C library does it unless
told otherwise; for writing when nobody holds it (src/lib/dev.c:283, 337). -/
def free (s : State) (l : Lock) : Mode → Prop
  | .rd => ∀ j, (l, Mode.wr) ∉ (s.thr j).held
  | .wr => ∀ j m, (l, m) ∉ (s.thr j).held

/-- A thread takes a step (src/lib/dev.c:283-345). -/
inductive Step (s : State) (i : Nat) : State → Prop
  | acq {l m p} (hp : (s.thr i).prog = .acq l m :: p) (hf : free s l m) :
      Step s i { s with thr := Function.update s.thr i ⟨p, (l, m) :: (s.thr i).held⟩ }
  | rel {l p} (hp : (s.thr i).prog = .rel l :: p) :
      Step s i { s with thr := Function.update s.thr i ⟨p, (s.thr i).held.eraseP (fun x => x.1 = l)⟩ }
  | wait {c p} (hp : (s.thr i).prog = .wait c :: p) (ha : s.avail c) :
      Step s i { s with thr := Function.update s.thr i ⟨p, (s.thr i).held⟩ }

/-- What can happen: a step of a thread, or other processes change the conditions
(src/lib/shm_rbuff_pthr.c:88-284). -/
inductive Next (s : State) : State → Prop
  | step {i t} (h : Step s i t) : Next s t
  | env (av : Cond → Prop) : Next s { s with avail := av }

/-! ## Lock and unlock -/

/-- A lock is taken for `m`, `p` is done, and it is given back (src/lib/dev.c:283-292). -/
def under (l : Lock) (m : Mode) (p : List Act) : List Act := .acq l m :: p ++ [.rel l]

/-- A function that does nothing else (src/lib/dev.c:1189-1193). -/
def touch (l : Lock) (m : Mode) : List Act := under l m []

/-! ## Packet buffer, ring buffers and flow sets -/

/-- `shm_rdrbuff_alloc` (src/lib/shm_rdrbuff.c:281-358). -/
def rdrbAlloc : List Act := touch .rdrb .wr
/-- `shm_rdrbuff_alloc_b` without a time limit (src/lib/shm_rdrbuff.c:360-450); the wait comes first. -/
def rdrbAllocB : List Act := .wait .memory :: touch .rdrb .wr
/-- `shm_rdrbuff_remove` (src/lib/shm_rdrbuff.c:477-504). -/
def rdrbRemove : List Act := touch .rdrb .wr
/-- `shm_rbuff_write` (src/lib/shm_rbuff_pthr.c:46-86). -/
def ringWrite (f : Nat) : List Act := touch (.txRing f) .wr
/-- `shm_rbuff_write_b` (src/lib/shm_rbuff_pthr.c:88-150); the wait comes first. -/
def ringWriteB (f : Nat) : List Act := .wait (.room f) :: touch (.txRing f) .wr
/-- `shm_rbuff_read` (src/lib/shm_rbuff_pthr.c:152-178), `shm_rbuff_set_acl` and others of the receiving ring. -/
def rxTouch (f : Nat) : List Act := touch (.rxRing f) .wr
/-- `shm_rbuff_read_b` (src/lib/shm_rbuff_pthr.c:180-224); the wait comes first. -/
def ringReadB (f : Nat) : List Act := .wait (.packet f) :: touch (.rxRing f) .wr
/-- `shm_rbuff_fini` of the sending ring (src/lib/shm_rbuff_pthr.c:264-284); the wait comes first. -/
def ringFini (f : Nat) : List Act := .wait (.drained f) :: touch (.txRing f) .wr
/-- `shm_flow_set_notify`, `shm_flow_set_add` and others (src/lib/shm_flow_set.c:218-324). -/
def fsetTouch : List Act := touch .fset .wr

/-! ## FRCT -/

/-- How sending an FRCT packet goes: no memory, not written, or sent (src/lib/frct.c:235-281). -/
inductive Sent where
  | noMemory | failed | sent

/-- `__send_frct_pkt` with `RXM_BLOCKING`, which is the default (src/lib/frct.c:235-281). -/
def sendPkt (f : Nat) : Sent → List Act
  | .noMemory => rdrbAllocB
  | .failed => rdrbAllocB ++ (ringWriteB f ++ rdrbRemove)
  | .sent => rdrbAllocB ++ (ringWriteB f ++ fsetTouch)

/-- An optional packet (src/lib/frct.c:318, 524-531). -/
def sendOpt (f : Nat) : Option Sent → List Act
  | none => []
  | some o => sendPkt f o

/-- `send_frct_pkt` (src/lib/frct.c:283-323). -/
def sendFrct (f : Nat) (o : Option Sent) : List Act := touch (.frcti f) .wr ++ sendOpt f o

/-- `__frcti_is_window_open` (src/lib/frct.c:498-544): `closed` is the rendez-vous sent when the window is closed. -/
def isWindowOpen (f : Nat) : Option (Option Sent) → List Act
  | none => touch (.frcti f) .rd
  | some o => under (.frcti f) .rd (under (.mtx f) .wr (sendOpt f o))

/-- `__frcti_window_wait` (src/lib/frct.c:546-603): one rendez-vous or none in every round; `fails` when the last round
gives up.  The wait gives back the mutex. -/
def windowWait (f : Nat) (rounds : List (Option Sent)) (fails : Bool) : List Act :=
  rounds.flatMap (fun o => touch (.frcti f) .rd ++ (touch (.mtx f) .wr ++
    (.wait (.window f) :: under (.mtx f) .wr (sendOpt f o)))) ++
  (if fails then [] else touch (.frcti f) .rd)

/-- `__frcti_queued_pdu` (src/lib/frct.c:605-627). -/
def queuedPdu (f : Nat) : List Act := touch (.frcti f) .wr
/-- `__frcti_pdu_ready` (src/lib/frct.c:629-645). -/
def pduReady (f : Nat) : List Act := touch (.frcti f) .rd
/-- `__frcti_dealloc` (src/lib/frct.c:654-683). -/
def frctiDealloc (f : Nat) (o : Option Sent) : List Act := touch (.frcti f) .rd ++ sendOpt f o

/-- What `timerwheel_move` does with an entry (src/lib/timerwheel.c:156-258, 271-289). -/
inductive Entry where
  | stale
  | acked (f : Nat)
  | expired (f : Nat)
  | rtx (f : Nat) (written : Bool)
  | staleAck
  | ack (f : Nat) (o : Option Sent)

/-- An entry of the timer wheel (src/lib/timerwheel.c:156-258, 271-289), with `RXM_BLOCKING` and without
`RXM_BUFFER_ON_HEAP`, which is the default. -/
def entry : Entry → List Act
  | .stale => rdrbRemove
  | .acked f => touch (.frcti f) .rd ++ rdrbRemove
  | .expired f => touch (.frcti f) .rd ++ (ringWrite f ++ (rxTouch f ++ rdrbRemove))
  | .rtx f true => touch (.frcti f) .rd ++ (touch (.frcti f) .wr ++ (rdrbAllocB ++ (rdrbRemove ++
      (ringWriteB f ++ fsetTouch))))
  | .rtx f false => touch (.frcti f) .rd ++ (touch (.frcti f) .wr ++ (rdrbAllocB ++ (rdrbRemove ++
      (ringWriteB f ++ (ringWrite f ++ (rxTouch f ++ rdrbRemove))))))
  | .staleAck => []
  | .ack f o => sendFrct f o

/-- `timerwheel_move` (src/lib/timerwheel.c:131-305). -/
def wheelMove (es : List Entry) : List Act := under .rw .wr (es.flatMap entry)
/-- `timerwheel_rxm` (src/lib/timerwheel.c:307-373). -/
def wheelRxm (f : Nat) : List Act := touch (.frcti f) .rd ++ touch .rw .wr
/-- `timerwheel_delayed_ack` (src/lib/timerwheel.c:375-414). -/
def wheelAck (f : Nat) : List Act := touch (.frcti f) .rd ++ touch .rw .wr

/-- `__frcti_snd` (src/lib/frct.c:685-765). -/
def frctiSnd (f : Nat) (es : List Entry) (rtx : Bool) : List Act :=
  wheelMove es ++ (touch (.frcti f) .wr ++ (if rtx then wheelRxm f else []))

/-- What becomes of a packet (src/lib/frct.c:822-933): answered, dropped or kept; `fc` when it has a window. -/
inductive Rcv where
  | rdv (o : Sent)
  | drop (fc : Bool) (o : Option Sent)
  | keep (fc rtx : Bool)

/-- `__frcti_rcv` (src/lib/frct.c:795-933). -/
def frctiRcv (f : Nat) : Rcv → List Act
  | .rdv o => touch (.frcti f) .wr ++ (sendPkt f o ++ rdrbRemove)
  | .drop fc o => under (.frcti f) .wr (if fc then touch (.mtx f) .wr else []) ++ (rdrbRemove ++ sendFrct f o)
  | .keep fc rtx => under (.frcti f) .wr (if fc then touch (.mtx f) .wr else []) ++ (if rtx then wheelAck f else [])

/-! ## Flows -/

/-- `flow_tx_sdb` (src/lib/dev.c:1178-1230): with FRCT the entries that are handled and whether the packet can be sent
again, `block`, and whether it is written. -/
def flowTx (f : Nat) (frct : Option (List Entry × Bool)) (block written : Bool) : List Act :=
  touch .ai .wr ++ under .ai .rd (
    (match frct with
     | none => []
     | some (es, rtx) => frctiSnd f es rtx) ++
    ((if block then ringWriteB f else ringWrite f) ++ (if written then fsetTouch else rdrbRemove)))

/-- `flow_rx_sdb` (src/lib/dev.c:1311-1339): nothing read, or read and valid or not. -/
def flowRx (f : Nat) (block : Bool) : Option Bool → List Act
  | none => if block then ringReadB f else rxTouch f
  | some valid => (if block then ringReadB f else rxTouch f) ++ (touch .ai .wr ++ (if valid then [] else rdrbRemove))

/-- How `flow_write` waits for the FRCT window (src/lib/dev.c:1276-1285). -/
inductive Window where
  | noFrct
  | test (closed : Option (Option Sent))
  | wait (rounds : List (Option Sent)) (fails : Bool)

/-- The FRCT window (src/lib/dev.c:1276-1285). -/
def window (f : Nat) : Window → List Act
  | .noFrct => []
  | .test c => isWindowOpen f c
  | .wait r b => windowWait f r b

/-- A round of the loop of a read (src/lib/dev.c:1385-1403): what was read, and what FRCT does with it. -/
structure Round where
  got : Option Bool
  rcv : Option Rcv

/-- One round: the queue is empty, a packet is read, FRCT gets it (src/lib/dev.c:1385-1403, 1880-1896). -/
def readRound (f : Nat) (frct block : Bool) (r : Round) : List Act :=
  under .ai .rd (if frct then queuedPdu f else []) ++ (flowRx f block r.got ++
    (match r.rcv with
     | none => []
     | some x => under .ai .rd (frctiRcv f x)))

/-- How a read ends (src/lib/dev.c:1365-1374, 1391-1394, 1413-1446, 1885-1898): nothing was read; the flow is not
allocated, or the last packet was read to its end; a packet is there, is given to an IPCP, read to its end, in part, or
does not fit. -/
inductive ReadEnd where
  | empty | nothing | found | whole | part | tooLong

/-- `flow_read` (src/lib/dev.c:1341-1446) and `ipcp_flow_read` (src/lib/dev.c:1869-1899): the rounds, then the end. -/
def flowRead (f : Nat) (frct block : Bool) (rounds : List Round) (e : ReadEnd) : List Act :=
  rounds.flatMap (readRound f frct block) ++
  (match e with
   | .empty => []
   | .nothing => touch .ai .rd
   | .found => under .ai .rd (if frct then queuedPdu f else [])
   | .whole => under .ai .rd (if frct then queuedPdu f else []) ++ (rdrbRemove ++ touch .ai .wr)
   | .part => under .ai .rd (if frct then queuedPdu f else []) ++ touch .ai .wr
   | .tooLong => under .ai .rd (if frct then queuedPdu f else []) ++ rdrbRemove)

/-- `rib_reg` and `rib_unreg` (src/lib/rib.c:404-477). -/
def ribReg : List Act := touch .rib .wr

/-- `flow_init` (src/lib/dev.c:442-534). -/
def flowInit (frct : Bool) : List Act :=
  under .ai .wr ((if frct then ribReg ++ fsetTouch else []) ++ touch .aiMtx .wr)

/-- `__flow_fini` under the lock (src/lib/dev.c:388-440).  Stopping the thread that moves the timer wheel waits until it
sleeps or waits: this is taken as its lock `tx`.  The wait in `flow_destroy` (src/lib/dev.c:148-174) is for a thread in
`flow_wait_assign`, which needs only the mutex. -/
def flowFini (f : Nat) (frct last : Bool) : List Act :=
  under .ai .wr (
    (if frct then (if last then touch .tx .wr else []) ++ (fsetTouch ++ ribReg) else []) ++
    (touch .aiMtx .wr ++ (rxTouch f ++ (ringWrite f ++ fsetTouch))))

/-- An entry of `fqueue_filter` (src/lib/dev.c:1599-1653). -/
inductive Filter where
  | gone
  | plain
  | ready (f : Nat)
  | none (f : Nat)
  | pkt (f : Nat) (valid : Bool) (r : Rcv)

/-- An entry of `fqueue_filter` (src/lib/dev.c:1599-1653). -/
def filter : Filter → List Act
  | .gone => touch .ai .rd
  | .plain => touch .ai .rd
  | .ready f => under .ai .rd (pduReady f)
  | .none f => under .ai .rd (pduReady f) ++ flowRx f false Option.none
  | .pkt f false _ => under .ai .rd (pduReady f) ++ flowRx f false (some false)
  | .pkt f true r => under .ai .rd (pduReady f) ++ (flowRx f false (some true) ++
      under .ai .rd (frctiRcv f r ++ pduReady f))

/-- What `_flow_keepalive` does (src/lib/dev.c:296-331). -/
inductive Keep where
  | nothing
  | down (f : Nat)
  | send (f : Nat) (ok written : Bool)

/-- `_flow_keepalive` of a flow, where the lock is held at the beginning and at the end; the lists of flows before and
after a keepalive are separate pieces under the lock (src/lib/dev.c:272-331). -/
def keep : Keep → List Act
  | .nothing => touch .ai .rd
  | .down f => under .ai .rd (rxTouch f ++ fsetTouch)
  | .send f false _ => under .ai .rd (rxTouch f) ++ rdrbAlloc
  | .send f true w => under .ai .rd (rxTouch f) ++ (rdrbAlloc ++
      under .ai .wr (ringWrite f ++ (if w then fsetTouch else rdrbRemove)))

/-! ## Calls -/

/-- What a thread calls, with the path it takes: the functions of the API (src/lib/dev.c), the work of the threads of
the library (src/lib/dev.c:257-270, 355-380), and what the file system thread calls (src/lib/rib.c:93-265). -/
inductive Call where
  /-- `flow_write` up to the test of the flags (src/lib/dev.c:1244-1274). -/
  | writeFails
  /-- `flow_write` (src/lib/dev.c:1232-1294): no packet, or one. -/
  | writeWait (f : Nat) (w : Window)
  | write (f : Nat) (w : Window) (frct : Option (List Entry × Bool)) (block written : Bool)
  /-- `flow_read` (src/lib/dev.c:1341-1446) and `ipcp_flow_read` (src/lib/dev.c:1869-1899). -/
  | read (f : Nat) (frct block : Bool) (rounds : List Round) (e : ReadEnd)
  /-- `ipcp_flow_write` (src/lib/dev.c:1901-1929). -/
  | ipcpWrite (f : Nat) (frct : Option (List Entry × Bool)) (written : Bool)
  /-- `np1_flow_write` (src/lib/dev.c:1959-1993). -/
  | np1Write (f : Nat) (written : Bool)
  /-- `local_flow_write` (src/lib/dev.c:2084-2110). -/
  | localWrite (f : Nat) (written : Bool)
  /-- `np1_flow_read`, `local_flow_read`, `ipcp_flow_queued` and others that look at a ring
  (src/lib/dev.c:1931-1957, 2053-2081). -/
  | look (f : Nat)
  /-- `flow_alloc`, `flow_accept`, `np1_flow_alloc` and others (src/lib/dev.c:442-534). -/
  | alloc (frct : Bool)
  /-- `flow_dealloc` (src/lib/dev.c:886-959), with FRCT the acknowledgements and reads, or `ipcp_flow_dealloc`
  (src/lib/dev.c:961-1000) when there is nothing to wait for. -/
  | dealloc (f : Nat) (frct last : Bool) (rounds : List (List Round × ReadEnd × Option Sent))
  | ipcpDealloc (f : Nat) (frct last : Bool)
  /-- `ipcp_flow_fini` (src/lib/dev.c:2007-2035); the wait for an empty ring is outside of the lock. -/
  | ipcpFini (f : Nat)
  /-- `fccntl` (src/lib/dev.c:1002-1153). -/
  | fcntl (f : Nat) (flags : Option Mode)
  /-- `fset_create` and `fset_destroy` (src/lib/dev.c:1449-1490). -/
  | fsetMake
  /-- `fset_add`, `fset_del` and `fset_has` (src/lib/dev.c:1518-1595). -/
  | fsetUse (f : Nat)
  /-- `fevent` and `fqueue_next` (src/lib/dev.c:1655-1680, 1693-1728). -/
  | event (waits : Bool) (es : List Filter)
  /-- A round of `flow_tx` (src/lib/dev.c:257-270). -/
  | tick (es : List Entry)
  /-- `handle_keepalives` in `flow_rx` (src/lib/dev.c:332-346). -/
  | keepalive (es : List Keep)
  /-- `rib_readdir` and `rib_getattr` of files whose handlers take no locks of the library (src/lib/rib.c:131-265). -/
  | ribList
  /-- `rib_read` of a file of an FRCT flow (src/lib/rib.c:93-129, src/lib/frct.c:103-182). -/
  | ribRead (f : Nat)

/-- The locks that a call takes, in the order of the sources at `Call` (src/lib/dev.c:137-2110). -/
def trace : Call → List Act
  | .writeFails => touch .ai .wr
  | .writeWait f w => touch .ai .wr ++ window f w
  | .write f w frct block written =>
    touch .ai .wr ++ (window f w ++ ((if block then rdrbAllocB else rdrbAlloc) ++ flowTx f frct block written))
  | .read f frct block rounds e => flowRead f frct block rounds e
  | .ipcpWrite f frct written => touch .ai .wr ++ flowTx f frct true written
  | .np1Write f written => touch .ai .rd ++ (ringWriteB f ++ (if written then fsetTouch else rdrbRemove))
  | .localWrite f written => under .ai .rd (ringWriteB f ++ (if written then fsetTouch else rdrbRemove))
  | .look f => under .ai .rd (rxTouch f)
  | .alloc frct => flowInit frct
  | .dealloc f frct last rounds =>
    touch .ai .rd ++ (rounds.flatMap (fun r => flowRead f frct true r.1 r.2.1 ++
      under .ai .rd (if frct then frctiDealloc f r.2.2 else [])) ++
      (under .ai .rd (ringFini f) ++ flowFini f frct last))
  | .ipcpDealloc f frct last => touch .ai .rd ++ flowFini f frct last
  | .ipcpFini f => under .ai .rd (rxTouch f ++ (ringWrite f ++ fsetTouch)) ++ (.wait (.drained f) :: rxTouch f)
  | .fcntl f flags => under .ai .wr (match flags with
      | none => rxTouch f ++ (fsetTouch ++ ringWrite f)
      | some m => touch (.frcti f) m)
  | .fsetMake => fsetTouch ++ touch .ai .wr
  | .fsetUse f => under .ai .rd (fsetTouch ++ (rxTouch f ++ fsetTouch))
  | .event waits es => (if waits then .wait .event :: fsetTouch else []) ++ (es.flatMap filter ++ touch .ai .rd)
  | .tick es => under .tx .wr (wheelMove es)
  | .keepalive es => es.flatMap keep ++ touch .ai .rd
  | .ribList => touch .rib .rd
  | .ribRead f => under .rib .wr (under .ai .rd (touch (.frcti f) .rd))

/-- A thread that makes these calls one after the other (src/lib/dev.c). -/
def thread (cs : List Call) : Thread := ⟨cs.flatMap trace, []⟩

/-- The process at the beginning (src/lib/dev.c:546-698). -/
def start (cs : Nat → List Call) : State := ⟨fun i => thread (cs i), fun _ => True⟩

end Ouro.Locks
