import Verif.Model.Base

/-!
# Model of the start-up and clean-up code (src/ipcpd, src/irmd, src/lib)

Every function that sets up a component is the tree of its possible executions: at each call that may fail there is a branch for the failure, which
goes to the label of the `goto`.  Labels are local definitions, in the order of the code from the last one up.  A function takes what follows
on failure and on success, so that a call is an application.

Simplifications.  An object is its resource: memory, a lock, a thread, a registration.  What components do once they are started, states and
log messages are left out.  Objects whose own functions are shown here to be all or nothing (thread pools, packet schedulers, forwarding functions,
graphs, bitmaps, flow sets, the components of the connection manager) are one resource in the functions that use them.
-/

namespace Ouro.Startup

/-- The kinds of resources: objects, threads, registrations; the lines are where they are acquired (src/ipcpd/unicast/dt.c:568-733 and the functions
below). -/
inductive Kind where
  | tpm | tpmMem | tpmLock | tpmCond | tpmThr | cattr
  | notLock | notif
  | psched | pschedMem | pschedInfo | pschedThr | fset
  | pff | pffMem | pffPol | pffLock | pft | pftMem | pftBuckets
  | graph | graphMem | graphLock | bmp | bmpMem | bmpBits
  | routing | routingMem | routingLock | routingThr
  | lsDbLock | lsLock | lsUpdate | lsReader | lsListener | rib
  | conn | connMtx | connCond | acceptor | enroller
  | dtLock | dtStat | dtThr | comp
  | faLock | faMtx | faCond | faThr
  | dhtMem | dhtLock | dhtMtx | dhtCond | dhtId | dhtBuckets | dhtWorker
  | fwdLock | fwdReader | fwdListener
  | sockPath | sockFd | sockFile | stateMtx | stateCond | allocLock | allocCond | cmdLock | cmdCond | ribMnt | ipcpAcceptor
  | lockfile | stateLock | rdrb | fusePrefix | sanitizer | irmAcceptor | regMtx | regCond
  | aiFlows | aiIds | aiMtx | aiCond | aiLock | fqset | wheel | aiRx
  | flowFd | rxRb | txRb | flowSet | crypt | frcti | frctMem | frctLock | frctMtx | frctCond | fqAdd | aiTx
  | flow
  deriving DecidableEq, Repr

/-- A resource: a kind and a number, as in `dt.pff[i]` (src/ipcpd/unicast/dt.c:613). -/
structure Res where
  kind : Kind
  idx : Nat
  deriving DecidableEq, Repr

/-- The executions of a function (src/ipcpd/unicast/fa.c:631-674 for an example). -/
inductive Cmd where
  /-- `return 0` -/
  | ok
  /-- `return -1` -/
  | fail
  /-- a call that may fail and gives `r`; giving it twice loses the first -/
  | acq (r : Res) (no yes : Cmd)
  /-- a registration that fails when `r` is registered already (src/lib/notifier.c:97-103, src/lib/rib.c:416-421) -/
  | reg (r : Res) (no yes : Cmd)
  /-- a table entry or file that is overwritten (src/ipcpd/unicast/dt.c:762-764) -/
  | put (r : Res) (no yes : Cmd)
  /-- a call that may fail and gives nothing -/
  | may (no yes : Cmd)
  /-- the end of `r`, which has to be there -/
  | rel (r : Res) (next : Cmd)
  /-- the end of `r` if it is there (src/lib/notifier.c:121-138, src/lib/rib.c:452-476) -/
  | unr (r : Res) (next : Cmd)
  /-- a test whether `r` is there (src/ipcpd/common/connmgr.c:310-311) -/
  | has (r : Res) (yes no : Cmd)

/-- The resources in use; `bad` when one was ended that was not there, or overwritten (src/ipcpd/unicast/fa.c:631-674). -/
structure St where
  held : Res → Bool
  bad : Bool

/-- A change of one resource (src/ipcpd/unicast/fa.c:635). -/
def St.set (s : St) (r : Res) (b : Bool) : St := { s with held := fun q => if q = r then b else s.held q }

/-- A run: `orc` says which of the calls that may fail succeed; those beyond its end do (src/ipcpd/unicast/fa.c:631-674). -/
def run : Cmd → List Bool → St → Bool × St
  | .ok, _, s => (true, s)
  | .fail, _, s => (false, s)
  | .acq r no yes, orc, s =>
    if orc.headD true then run yes orc.tail { s.set r true with bad := s.bad || s.held r } else run no orc.tail s
  | .reg r no yes, orc, s =>
    if orc.headD true && !s.held r then run yes orc.tail (s.set r true) else run no orc.tail s
  | .put r no yes, orc, s => if orc.headD true then run yes orc.tail (s.set r true) else run no orc.tail s
  | .may no yes, orc, s => if orc.headD true then run yes orc.tail s else run no orc.tail s
  | .rel r next, orc, s => run next orc { s.set r false with bad := s.bad || !s.held r }
  | .unr r next, orc, s => run next orc (s.set r false)
  | .has r yes no, orc, s => if s.held r then run yes orc s else run no orc s

/-- Release in a row (src/ipcpd/unicast/fa.c:663-670). -/
def rels (l : List Res) (next : Cmd) : Cmd := l.foldr .rel next

/-- `for (j = 0; j < n; ++j)` with a release (src/ipcpd/unicast/dt.c:616-617). -/
def relFrom (mk : Nat → Res) (next : Cmd) : Nat → Nat → Cmd
  | _, 0 => next
  | i, n + 1 => .rel (mk i) (relFrom mk next (i + 1) n)

/-- `for (i = 0; i < n; ++i)` with a call, undone up to `i` when it fails (src/ipcpd/unicast/dt.c:612-620, 641-647). -/
def acqFrom (mk : Nat → Res) (no yes : Cmd) : Nat → Nat → Cmd
  | _, 0 => yes
  | i, n + 1 => .acq (mk i) (relFrom mk no 0 i) (acqFrom mk no yes (i + 1) n)

/-- QOS_CUBE_MAX (include/ouroboros/qoscube.h:28-33). -/
def cubes : Nat := 3

/-- The threads of a scheduler: QOS_CUBE_MAX * IPCP_SCHED_THR_MUL (src/ipcpd/CMakeLists.txt:15, src/ipcpd/unicast/psched.c:58). -/
def readers : Nat := 6

/-- `tpm_create` (src/lib/tpm.c:170-216). -/
def tpmCreate (i : Nat) (no yes : Cmd) : Cmd :=
  let failLock := .rel ⟨.tpmMem, i⟩ no
  let failCattr := .rel ⟨.tpmLock, i⟩ failLock
  let failCond := .rel ⟨.cattr, 0⟩ failCattr
  .acq ⟨.tpmMem, i⟩ no <| .acq ⟨.tpmLock, i⟩ failLock <| .acq ⟨.cattr, 0⟩ failCattr <| .acq ⟨.tpmCond, i⟩ failCond <| .rel ⟨.cattr, 0⟩ yes

/-- `tpm_destroy` (src/lib/tpm.c:245-251). -/
def tpmDestroy (i : Nat) (next : Cmd) : Cmd := rels [⟨.tpmLock, i⟩, ⟨.tpmCond, i⟩, ⟨.tpmMem, i⟩] next

/-- `bmp_create` (src/lib/bitmap.c:100-122). -/
def bmpCreate (i : Nat) (no yes : Cmd) : Cmd := .acq ⟨.bmpMem, i⟩ no <| .acq ⟨.bmpBits, i⟩ (.rel ⟨.bmpMem, i⟩ no) yes

/-- `bmp_destroy` (src/lib/bitmap.c:124-132). -/
def bmpDestroy (i : Nat) (next : Cmd) : Cmd := rels [⟨.bmpBits, i⟩, ⟨.bmpMem, i⟩] next

/-- `graph_create` (src/ipcpd/unicast/routing/graph.c:193-210). -/
def graphCreate (no yes : Cmd) : Cmd := .acq ⟨.graphMem, 0⟩ no <| .acq ⟨.graphLock, 0⟩ (.rel ⟨.graphMem, 0⟩ no) yes

/-- `graph_destroy` (src/ipcpd/unicast/routing/graph.c:212-231). -/
def graphDestroy (next : Cmd) : Cmd := rels [⟨.graphLock, 0⟩, ⟨.graphMem, 0⟩] next

/-- `psched_create` (src/ipcpd/unicast/psched.c:121-203).  A reader frees its information first (src/ipcpd/unicast/psched.c:80). -/
def pschedCreate (no yes : Cmd) : Cmd :=
  let failFlowSet := .rel ⟨.pschedMem, 0⟩ no
  let failInfos := relFrom (Res.mk .fset) failFlowSet 0 cubes
  let failSched := relFrom (Res.mk .pschedThr) failInfos 0 readers
  let rec sched : Nat → Cmd
    | 0 => yes
    | n + 1 => .may failSched (sched n)
  let rec threads : Nat → Nat → Cmd
    | _, 0 => sched readers
    | i, n + 1 => .acq ⟨.pschedThr, i⟩ (relFrom (Res.mk .pschedThr) (relFrom (Res.mk .pschedInfo) failInfos i (n + 1)) 0 i)
        (.rel ⟨.pschedInfo, i⟩ (threads (i + 1) n))
  .acq ⟨.pschedMem, 0⟩ no <| acqFrom (Res.mk .fset) failFlowSet (acqFrom (Res.mk .pschedInfo) failInfos (threads 0 readers) 0 readers) 0 cubes

/-- `psched_destroy` (src/ipcpd/unicast/psched.c:205-220). -/
def pschedDestroy (next : Cmd) : Cmd :=
  relFrom (Res.mk .pschedThr) (relFrom (Res.mk .fset) (.rel ⟨.pschedMem, 0⟩ next) 0 cubes) 0 readers

/-- `pft_create` (src/ipcpd/unicast/pff/pft.c:50-85). -/
def pftCreate (no yes : Cmd) : Cmd := .acq ⟨.pftMem, 0⟩ no <| .acq ⟨.pftBuckets, 0⟩ (.rel ⟨.pftMem, 0⟩ no) yes

/-- `pft_destroy` (src/ipcpd/unicast/pff/pft.c:87-95). -/
def pftDestroy (next : Cmd) : Cmd := rels [⟨.pftBuckets, 0⟩, ⟨.pftMem, 0⟩] next

/-- `simple_pff_create`, `alternate_pff_create`, `multipath_pff_create` (src/ipcpd/unicast/pff/simple.c:53-74, src/ipcpd/unicast/pff/alternate.c:203-229,
src/ipcpd/unicast/pff/multipath.c:55-78). -/
def pffPolCreate (no yes : Cmd) : Cmd :=
  let failLock := .rel ⟨.pffPol, 0⟩ no
  let failPft := .rel ⟨.pffLock, 0⟩ failLock
  .acq ⟨.pffPol, 0⟩ no <| .acq ⟨.pffLock, 0⟩ failLock <| pftCreate failPft yes

/-- Their `destroy` (src/ipcpd/unicast/pff/simple.c:76-84, src/ipcpd/unicast/pff/alternate.c:231-240, src/ipcpd/unicast/pff/multipath.c:80-88). -/
def pffPolDestroy (next : Cmd) : Cmd := pftDestroy (rels [⟨.pffLock, 0⟩, ⟨.pffPol, 0⟩] next)

/-- `pff_create` (src/ipcpd/unicast/pff.c:36-71); the policy may be unknown. -/
def pffCreate (no yes : Cmd) : Cmd :=
  let err := .rel ⟨.pffMem, 0⟩ no
  .acq ⟨.pffMem, 0⟩ no <| .may err <| pffPolCreate err yes

/-- `pff_destroy` (src/ipcpd/unicast/pff.c:73-78). -/
def pffDestroy (next : Cmd) : Cmd := pffPolDestroy (.rel ⟨.pffMem, 0⟩ next)

/-- `link_state_routing_i_create` (src/ipcpd/unicast/routing/link-state.c:869-903). -/
def routingICreate (no yes : Cmd) : Cmd :=
  let failLock := .rel ⟨.routingMem, 0⟩ no
  let failThread := .rel ⟨.routingLock, 0⟩ failLock
  .acq ⟨.routingMem, 0⟩ no <| .acq ⟨.routingLock, 0⟩ failLock <| .acq ⟨.routingThr, 0⟩ failThread yes

/-- `link_state_routing_i_destroy` (src/ipcpd/unicast/routing/link-state.c:905-922). -/
def routingIDestroy (next : Cmd) : Cmd := rels [⟨.routingThr, 0⟩, ⟨.routingLock, 0⟩, ⟨.routingMem, 0⟩] next

/-- `connmgr_comp_init` (src/ipcpd/common/connmgr.c:270-300). -/
def compInit (i : Nat) (no yes : Cmd) : Cmd := .acq ⟨.connMtx, i⟩ no <| .acq ⟨.connCond, i⟩ (.rel ⟨.connMtx, i⟩ no) yes

/-- `connmgr_comp_fini` (src/ipcpd/common/connmgr.c:302-335); a component without name is not there. -/
def compFini (i : Nat) (next : Cmd) : Cmd := .has ⟨.connCond, i⟩ (rels [⟨.connCond, i⟩, ⟨.connMtx, i⟩] next) next

/-- COMPID_ENROLL (src/ipcpd/common/comp.h:32). -/
def idEnroll : Nat := 1

/-- COMPID_DT (src/ipcpd/common/comp.h:31). -/
def idDt : Nat := 0

/-- COMPID_MGMT (src/ipcpd/common/comp.h:33). -/
def idMgmt : Nat := 2

/-- The listeners of the notifier: `handle_event` of the connection manager, DT, link state, DHT and the broadcast layer
(src/ipcpd/common/connmgr.c:231, src/ipcpd/unicast/dt.c:715, src/ipcpd/unicast/routing/link-state.c:956, src/ipcpd/unicast/dir/dht.c:2854,
src/ipcpd/broadcast/dt.c:257). -/
def nConn : Nat := 0
/-- See `nConn` (src/ipcpd/unicast/dt.c:715). -/
def nDt : Nat := 1
/-- See `nConn` (src/ipcpd/unicast/routing/link-state.c:956). -/
def nLs : Nat := 2
/-- See `nConn` (src/ipcpd/unicast/dir/dht.c:2854). -/
def nDht : Nat := 3
/-- See `nConn` (src/ipcpd/broadcast/dt.c:257). -/
def nFwd : Nat := 4

/-- The paths in the RIB: IPCP_INFO, DT, FA, LSDB (src/ipcpd/ipcp.c:885, src/ipcpd/unicast/dt.c:652, src/ipcpd/unicast/fa.c:654,
src/ipcpd/unicast/routing/link-state.c:985). -/
def pInfo : Nat := 0
/-- See `pInfo` (src/ipcpd/unicast/dt.c:652). -/
def pDt : Nat := 1
/-- See `pInfo` (src/ipcpd/unicast/fa.c:654). -/
def pFa : Nat := 2
/-- See `pInfo` (src/ipcpd/unicast/routing/link-state.c:985). -/
def pLs : Nat := 3

/-- `link_state_init` (src/ipcpd/unicast/routing/link-state.c:924-1017). -/
def lsInit (no yes : Cmd) : Cmd :=
  let failNotifier := .rel ⟨.graph, 0⟩ no
  let failDbLock := .unr ⟨.notif, nLs⟩ failNotifier
  let failLock := .rel ⟨.lsDbLock, 0⟩ failDbLock
  let failComp := .rel ⟨.lsLock, 0⟩ failLock
  let failFset := compFini idMgmt failComp
  let failUpdate := .rel ⟨.fset, 10⟩ failFset
  let failReader := .rel ⟨.lsUpdate, 0⟩ failUpdate
  let failListener := .rel ⟨.lsReader, 0⟩ failReader
  let failRib := .rel ⟨.lsListener, 0⟩ failListener
  .may no <| .acq ⟨.graph, 0⟩ no <| .reg ⟨.notif, nLs⟩ failNotifier <| .acq ⟨.lsDbLock, 0⟩ failDbLock <| .acq ⟨.lsLock, 0⟩ failLock <|
    compInit idMgmt failComp <| .acq ⟨.fset, 10⟩ failFset <| .acq ⟨.lsUpdate, 0⟩ failUpdate <| .acq ⟨.lsReader, 0⟩ failReader <|
    .acq ⟨.lsListener, 0⟩ failListener <| .reg ⟨.rib, pLs⟩ failRib yes

/-- `link_state_fini` (src/ipcpd/unicast/routing/link-state.c:1019-1055). -/
def lsFini (next : Cmd) : Cmd :=
  .unr ⟨.rib, pLs⟩ <| .unr ⟨.notif, nLs⟩ <| rels [⟨.lsListener, 0⟩, ⟨.lsReader, 0⟩, ⟨.lsUpdate, 0⟩, ⟨.fset, 10⟩] <| compFini idMgmt <|
    rels [⟨.graph, 0⟩, ⟨.lsDbLock, 0⟩, ⟨.lsLock, 0⟩] next

/-- `dt_init` (src/ipcpd/unicast/dt.c:568-679), with `routing_init` (src/ipcpd/unicast/routing.c:31-58).  The locks of the statistics are one
resource. -/
def dtInit (no yes : Cmd) : Cmd :=
  let failRouting := compFini idDt no
  let failPff := lsFini failRouting
  let failRoutingI := relFrom (Res.mk .pff) failPff 0 cubes
  let failRwlock := relFrom (Res.mk .routing) failRoutingI 0 cubes
  let failResFds := .rel ⟨.dtLock, 0⟩ failRwlock
  let failStat := .rel ⟨.bmp, 0⟩ failResFds
  let failRib := .rel ⟨.dtStat, 0⟩ failStat
  compInit idDt no <| .may failRouting <| lsInit failRouting <| acqFrom (Res.mk .pff) failPff (acqFrom (Res.mk .routing) failRoutingI
    (.acq ⟨.dtLock, 0⟩ failRwlock <| .acq ⟨.bmp, 0⟩ failResFds <| .acq ⟨.dtStat, 0⟩ failStat <| .reg ⟨.rib, pDt⟩ failRib yes) 0 cubes) 0 cubes

/-- `dt_fini` (src/ipcpd/unicast/dt.c:681-705). -/
def dtFini (next : Cmd) : Cmd :=
  .unr ⟨.rib, pDt⟩ <| rels [⟨.dtStat, 0⟩, ⟨.bmp, 0⟩, ⟨.dtLock, 0⟩] <| relFrom (Res.mk .routing) (relFrom (Res.mk .pff) (lsFini (compFini idDt next)) 0 cubes)
    0 cubes

/-- `dt_start` (src/ipcpd/unicast/dt.c:707-733). -/
def dtStart (no yes : Cmd) : Cmd :=
  let failNotifier := .rel ⟨.psched, 0⟩ no
  .acq ⟨.psched, 0⟩ no <| .reg ⟨.notif, nDt⟩ failNotifier <| .acq ⟨.dtThr, 0⟩ (.rel ⟨.psched, 0⟩ no) yes

/-- `dt_stop` (src/ipcpd/unicast/dt.c:735-743). -/
def dtStop (next : Cmd) : Cmd := .rel ⟨.dtThr, 0⟩ <| .unr ⟨.notif, nDt⟩ <| .rel ⟨.psched, 0⟩ next

/-- `fa_init` (src/ipcpd/unicast/fa.c:631-674). -/
def faInit (no yes : Cmd) : Cmd :=
  let failMtx := .rel ⟨.faLock, 0⟩ no
  let failCattr := .rel ⟨.faMtx, 0⟩ failMtx
  let failCond := .rel ⟨.cattr, 0⟩ failCattr
  let failRib := .rel ⟨.faCond, 0⟩ failCond
  .acq ⟨.faLock, 0⟩ no <| .acq ⟨.faMtx, 0⟩ failMtx <| .acq ⟨.cattr, 0⟩ failCattr <| .acq ⟨.faCond, 0⟩ failCond <| .rel ⟨.cattr, 0⟩ <|
    .reg ⟨.rib, pFa⟩ failRib <| .put ⟨.comp, 0⟩ failRib yes

/-- `fa_fini` (src/ipcpd/unicast/fa.c:676-683). -/
def faFini (next : Cmd) : Cmd := .unr ⟨.rib, pFa⟩ <| rels [⟨.faCond, 0⟩, ⟨.faMtx, 0⟩, ⟨.faLock, 0⟩] next

/-- `fa_start` (src/ipcpd/unicast/fa.c:685-729). -/
def faStart (no yes : Cmd) : Cmd :=
  let failThread := .rel ⟨.psched, 1⟩ no
  let failSched := .rel ⟨.faThr, 0⟩ failThread
  .acq ⟨.psched, 1⟩ no <| .acq ⟨.faThr, 0⟩ failThread <| .may failSched <| .may failSched <| .may failSched yes

/-- `fa_stop` (src/ipcpd/unicast/fa.c:731-737). -/
def faStop (next : Cmd) : Cmd := rels [⟨.faThr, 0⟩, ⟨.psched, 1⟩] next

/-- `dht_create` (src/ipcpd/unicast/dir/dht.c:2811-2883), `dir_init` (src/ipcpd/unicast/dir.c:50-61). -/
def dirInit (no yes : Cmd) : Cmd :=
  let failRwlock := .rel ⟨.dhtMem, 0⟩ no
  let failMutex := .rel ⟨.dhtLock, 0⟩ failRwlock
  let failCond := .rel ⟨.dhtMtx, 0⟩ failMutex
  let failBmp := .rel ⟨.dhtCond, 0⟩ failCond
  let failTpmCreate := .rel ⟨.bmp, 1⟩ failBmp
  let failTpmStart := .rel ⟨.tpm, 1⟩ failTpmCreate
  let failNotifier := .rel ⟨.tpmThr, 1⟩ failTpmStart
  .acq ⟨.dhtMem, 0⟩ no <| .acq ⟨.dhtLock, 0⟩ failRwlock <| .acq ⟨.dhtMtx, 0⟩ failMutex <| .acq ⟨.dhtCond, 0⟩ failCond <| .acq ⟨.bmp, 1⟩ failBmp <|
    .acq ⟨.tpm, 1⟩ failTpmCreate <| .acq ⟨.tpmThr, 1⟩ failTpmStart <| .put ⟨.comp, 1⟩ failTpmStart <| .reg ⟨.notif, nDht⟩ failNotifier yes

/-- `dht_destroy` (src/ipcpd/unicast/dir/dht.c:2652-2722), `dir_fini` (src/ipcpd/unicast/dir.c:63-68). -/
def dirFini (next : Cmd) : Cmd :=
  let rest := rels [⟨.bmp, 1⟩, ⟨.dhtMtx, 0⟩, ⟨.dhtLock, 0⟩] <| .unr ⟨.dhtId, 0⟩ <| .rel ⟨.dhtMem, 0⟩ next
  rels [⟨.tpmThr, 1⟩, ⟨.tpm, 1⟩] <| .has ⟨.dhtWorker, 0⟩ (.rel ⟨.dhtWorker, 0⟩ (.unr ⟨.dhtBuckets, 0⟩ rest)) (.unr ⟨.dhtBuckets, 0⟩ rest)

/-- `dht_bootstrap` (src/ipcpd/unicast/dir/dht.c:2245-2296), `bootstrap_components` (src/ipcpd/unicast/main.c:178-186). -/
def dirBootstrap (no yes : Cmd) : Cmd :=
  let failBuckets := .rel ⟨.dhtId, 0⟩ no
  let failThread := .rel ⟨.dhtBuckets, 0⟩ failBuckets
  .acq ⟨.dhtId, 0⟩ no <| .acq ⟨.dhtBuckets, 0⟩ failBuckets <| .acq ⟨.dhtWorker, 0⟩ failThread yes

/-- `enroll_start` (src/ipcpd/common/enroll.c:323-331). -/
def enrollStart (no yes : Cmd) : Cmd := .acq ⟨.enroller, 0⟩ no yes

/-- `enroll_stop` (src/ipcpd/common/enroll.c:333-337): the thread is cancelled, `enroll_fini` joins it. -/
def enrollStop (next : Cmd) : Cmd := next

/-- `connmgr_start` (src/ipcpd/common/connmgr.c:252-262). -/
def connStart (no yes : Cmd) : Cmd := .acq ⟨.acceptor, 0⟩ no yes

/-- `connmgr_stop` (src/ipcpd/common/connmgr.c:264-268): the thread is cancelled, `connmgr_fini` joins it. -/
def connStop (next : Cmd) : Cmd := next

/-- `initialize_components` (src/ipcpd/unicast/main.c:60-115); the policies of addresses and congestion hold nothing. -/
def initComponents (no yes : Cmd) : Cmd :=
  let failFa := dtFini no
  let failDir := faFini failFa
  .may no <| .may no <| .may no <| dtInit no <| faInit failFa <| dirInit failDir yes

/-- `finalize_components` (src/ipcpd/unicast/main.c:117-128). -/
def finiComponents (next : Cmd) : Cmd := dirFini <| faFini <| dtFini next

/-- `start_components` (src/ipcpd/unicast/main.c:130-163). -/
def startComponents (no yes : Cmd) : Cmd :=
  let failFa := dtStop no
  let failEnroll := faStop failFa
  let failConn := enrollStop failEnroll
  dtStart no <| faStart failFa <| enrollStart failEnroll <| connStart failConn yes

/-- `stop_components` (src/ipcpd/unicast/main.c:165-176). -/
def stopComponents (next : Cmd) : Cmd := connStop <| enrollStop <| faStop <| dtStop next

/-- `unicast_ipcp_bootstrap` (src/ipcpd/unicast/main.c:243-273). -/
def bootstrap (no yes : Cmd) : Cmd :=
  let failStart := finiComponents no
  let failBootstrap := stopComponents failStart
  initComponents no <| startComponents failStart <| dirBootstrap failBootstrap yes

/-- `unicast_ipcp_enroll` (src/ipcpd/unicast/main.c:188-241). -/
def enroll (no yes : Cmd) : Cmd :=
  let failBoot := .rel ⟨.flow, 0⟩ no
  let failStart := finiComponents failBoot
  .may no <| .acq ⟨.flow, 0⟩ no <| .may failBoot <| initComponents failBoot <| startComponents failStart <| .rel ⟨.flow, 0⟩ yes

/-- `dt_init` of the broadcast layer (src/ipcpd/broadcast/dt.c:246-294). -/
def fwdInit (no yes : Cmd) : Cmd :=
  let failLock := .unr ⟨.notif, nFwd⟩ no
  let failFset := .rel ⟨.fwdLock, 0⟩ failLock
  let failReader := .rel ⟨.fset, 0⟩ failFset
  let failListener := .rel ⟨.fwdReader, 0⟩ failReader
  let failComp := .rel ⟨.fwdListener, 0⟩ failListener
  .reg ⟨.notif, nFwd⟩ no <| .acq ⟨.fwdLock, 0⟩ failLock <| .acq ⟨.fset, 0⟩ failFset <| .acq ⟨.fwdReader, 0⟩ failReader <|
    .acq ⟨.fwdListener, 0⟩ failListener <| compInit idDt failComp yes

/-- `dt_fini` of the broadcast layer (src/ipcpd/broadcast/dt.c:296-322). -/
def fwdFini (next : Cmd) : Cmd := .unr ⟨.notif, nFwd⟩ <| rels [⟨.fwdReader, 0⟩, ⟨.fwdListener, 0⟩, ⟨.fset, 0⟩, ⟨.fwdLock, 0⟩] next

/-- `start_components` of the broadcast layer (src/ipcpd/broadcast/main.c:79-98). -/
def bcStart (no yes : Cmd) : Cmd := enrollStart no <| connStart (enrollStop no) yes

/-- `broadcast_ipcp_bootstrap` (src/ipcpd/broadcast/main.c:162-187). -/
def bcBootstrap (no yes : Cmd) : Cmd := fwdInit no <| bcStart (fwdFini no) yes

/-- `notifier_init` (src/lib/notifier.c:44-52). -/
def notifierInit (no yes : Cmd) : Cmd := .acq ⟨.notLock, 0⟩ no yes

/-- `notifier_fini` (src/lib/notifier.c:54-70): frees all listeners. -/
def notifierFini (next : Cmd) : Cmd :=
  [nConn, nDt, nLs, nDht, nFwd].foldr (fun i k => .unr ⟨.notif, i⟩ k) (.rel ⟨.notLock, 0⟩ next)

/-- `connmgr_init` (src/ipcpd/common/connmgr.c:227-237). -/
def connInit (no yes : Cmd) : Cmd := .reg ⟨.notif, nConn⟩ no yes

/-- `connmgr_fini` (src/ipcpd/common/connmgr.c:239-250). -/
def connFini (next : Cmd) : Cmd :=
  let rest := compFini idDt <| compFini idEnroll <| compFini idMgmt next
  .unr ⟨.notif, nConn⟩ <| .has ⟨.acceptor, 0⟩ (.rel ⟨.acceptor, 0⟩ rest) rest

/-- `enroll_init` (src/ipcpd/common/enroll.c:293-313). -/
def enrollInit (no yes : Cmd) : Cmd := compInit idEnroll no yes

/-- `enroll_fini` (src/ipcpd/common/enroll.c:315-321). -/
def enrollFini (next : Cmd) : Cmd := .has ⟨.enroller, 0⟩ (.rel ⟨.enroller, 0⟩ (compFini idEnroll next)) (compFini idEnroll next)

/-- `server_socket_open` (src/lib/sockets.c:68-99): `bind` makes the file. -/
def sockOpen (i : Nat) (no yes : Cmd) : Cmd :=
  .may no <| .acq ⟨.sockFd, i⟩ no <| .put ⟨.sockFile, i⟩ (.rel ⟨.sockFd, i⟩ no) <| .may (.rel ⟨.sockFd, i⟩ no) yes

/-- `ipcp_init` (src/ipcpd/ipcp.c:809-931). -/
def ipcpInit (no yes : Cmd) : Cmd :=
  let failServSock := .rel ⟨.sockPath, 0⟩ no
  let failStateMtx := .rel ⟨.sockFd, 0⟩ failServSock
  let failCondAttr := .rel ⟨.stateMtx, 0⟩ failStateMtx
  let failStateCond := .rel ⟨.cattr, 1⟩ failCondAttr
  let failAllocLock := .rel ⟨.stateCond, 0⟩ failStateCond
  let failAllocCond := .rel ⟨.allocLock, 0⟩ failAllocLock
  let failCmdLock := .rel ⟨.allocCond, 0⟩ failAllocCond
  let failCmdCond := .rel ⟨.cmdLock, 0⟩ failCmdLock
  let failRibInit := .rel ⟨.cmdCond, 0⟩ failCmdCond
  let failRibReg := .rel ⟨.ribMnt, 0⟩ failRibInit
  let failTpm := .unr ⟨.rib, pInfo⟩ failRibReg
  .may no <| .acq ⟨.sockPath, 0⟩ no <| sockOpen 0 failServSock <| .acq ⟨.stateMtx, 0⟩ failStateMtx <| .acq ⟨.cattr, 1⟩ failCondAttr <|
    .acq ⟨.stateCond, 0⟩ failStateCond <| .acq ⟨.allocLock, 0⟩ failAllocLock <| .acq ⟨.allocCond, 0⟩ failAllocCond <| .acq ⟨.cmdLock, 0⟩ failCmdLock <|
    .acq ⟨.cmdCond, 0⟩ failCmdCond <| .acq ⟨.ribMnt, 0⟩ failRibInit <| .reg ⟨.rib, pInfo⟩ failRibReg <| .acq ⟨.tpm, 0⟩ failTpm <| .rel ⟨.cattr, 1⟩ yes

/-- `ipcp_fini` (src/ipcpd/ipcp.c:1047-1072); `rib_fini` frees all components (src/lib/rib.c:359-392). -/
def ipcpFini (next : Cmd) : Cmd :=
  .rel ⟨.tpm, 0⟩ <| .unr ⟨.rib, pInfo⟩ <| .rel ⟨.ribMnt, 0⟩ <| .unr ⟨.rib, pDt⟩ <| .unr ⟨.rib, pFa⟩ <| .unr ⟨.rib, pLs⟩ <| .rel ⟨.sockFd, 0⟩ <|
    .unr ⟨.sockFile, 0⟩ <| rels [⟨.sockPath, 0⟩, ⟨.stateCond, 0⟩, ⟨.stateMtx, 0⟩, ⟨.allocCond, 0⟩, ⟨.allocLock, 0⟩, ⟨.cmdCond, 0⟩, ⟨.cmdLock, 0⟩] next

/-- `ipcp_start` (src/ipcpd/ipcp.c:933-979). -/
def ipcpStart (no yes : Cmd) : Cmd :=
  let failTpmStart := .rel ⟨.tpm, 0⟩ no
  let failAcceptor := .rel ⟨.tpmThr, 0⟩ failTpmStart
  let failCreateR := .rel ⟨.ipcpAcceptor, 0⟩ failAcceptor
  .acq ⟨.tpmThr, 0⟩ failTpmStart <| .acq ⟨.ipcpAcceptor, 0⟩ failAcceptor <| .may failCreateR yes

/-- `ipcp_stop` (src/ipcpd/ipcp.c:1037-1045). -/
def ipcpStop (next : Cmd) : Cmd := rels [⟨.ipcpAcceptor, 0⟩, ⟨.tpmThr, 0⟩] next

/-- `main` of the unicast and broadcast IPCP up to `ipcp_sigwait` (src/ipcpd/unicast/main.c:297-320, 340-350, src/ipcpd/broadcast/main.c:255-310). -/
def ipcpMain (no yes : Cmd) : Cmd :=
  let failNotifier := ipcpFini no
  let failConn := notifierFini failNotifier
  let failEnroll := connFini failConn
  let failStart := enrollFini failEnroll
  ipcpInit no <| notifierInit failNotifier <| connInit failConn <| enrollInit failEnroll <| ipcpStart failStart yes

/-- The rest of `main` when nothing was bootstrapped (src/ipcpd/unicast/main.c:329-339). -/
def ipcpExit (next : Cmd) : Cmd := ipcpStop <| enrollFini <| connFini <| notifierFini <| ipcpFini next

/-- `main` from the end of `ipcp_sigwait` after a bootstrap (src/ipcpd/unicast/main.c:322-337). -/
def ipcpShutdown (next : Cmd) : Cmd := stopComponents <| finiComponents <| ipcpExit next

/-- `reg_init` (src/irmd/reg/reg.c:535-582). -/
def regInit (no yes : Cmd) : Cmd :=
  let failCattr := .rel ⟨.regMtx, 0⟩ no
  let failCond := .rel ⟨.cattr, 0⟩ failCattr
  let failIds := .rel ⟨.regCond, 0⟩ failCond
  .acq ⟨.regMtx, 0⟩ no <| .acq ⟨.cattr, 0⟩ failCattr <| .acq ⟨.regCond, 0⟩ failCond <| .acq ⟨.bmp, 2⟩ failIds <| .rel ⟨.cattr, 0⟩ yes

/-- `reg_fini` (src/irmd/reg/reg.c:644-667). -/
def regFini (next : Cmd) : Cmd := rels [⟨.bmp, 2⟩, ⟨.regCond, 0⟩, ⟨.regMtx, 0⟩] next

/-- `irm_init` (src/irmd/main.c:1723-1873).  The lock file is a resource (C72 has how it is taken). -/
def irmInit (no yes : Cmd) : Cmd :=
  let failStateLock := .rel ⟨.lockfile, 0⟩ no
  let failCmdLock := .rel ⟨.stateLock, 0⟩ failStateLock
  let failCmdCond := .rel ⟨.cmdLock, 1⟩ failCmdLock
  let failStat := .rel ⟨.cmdCond, 1⟩ failCmdCond
  let failSockPath := .unr ⟨.sockFile, 1⟩ failStat
  let failRdrbuff := .rel ⟨.sockFd, 1⟩ failSockPath
  let failTpm := .rel ⟨.rdrb, 0⟩ failRdrbuff
  let failGcry := .unr ⟨.fusePrefix, 0⟩ <| .rel ⟨.tpm, 2⟩ failTpm
  .acq ⟨.lockfile, 0⟩ no <| .acq ⟨.stateLock, 0⟩ failStateLock <| .acq ⟨.cmdLock, 1⟩ failCmdLock <| .acq ⟨.cattr, 0⟩ failCmdLock <|
    .acq ⟨.cmdCond, 1⟩ (.rel ⟨.cattr, 0⟩ failCmdCond) <| .rel ⟨.cattr, 0⟩ <| .may failStat <| sockOpen 1 failSockPath <| .may failSockPath <|
    .acq ⟨.rdrb, 0⟩ failRdrbuff <| .acq ⟨.tpm, 2⟩ failTpm <| .put ⟨.fusePrefix, 0⟩ (.may failGcry yes) <| .may failGcry yes

/-- `irm_fini` (src/irmd/main.c:1613-1645). -/
def irmFini (next : Cmd) : Cmd :=
  .rel ⟨.tpm, 2⟩ <| .rel ⟨.sockFd, 1⟩ <| .unr ⟨.sockFile, 1⟩ <| rels [⟨.rdrb, 0⟩, ⟨.lockfile, 0⟩, ⟨.cmdLock, 1⟩, ⟨.cmdCond, 1⟩, ⟨.stateLock, 0⟩] <|
    .unr ⟨.fusePrefix, 0⟩ next

/-- `irm_start` (src/irmd/main.c:1886-1911). -/
def irmStart (no yes : Cmd) : Cmd :=
  let failSanitize := .rel ⟨.tpmThr, 2⟩ no
  let failAcceptor := .rel ⟨.sanitizer, 0⟩ failSanitize
  .acq ⟨.tpmThr, 2⟩ no <| .acq ⟨.sanitizer, 0⟩ failSanitize <| .acq ⟨.irmAcceptor, 0⟩ failAcceptor yes

/-- `irm_stop` (src/irmd/main.c:1940-1951). -/
def irmStop (next : Cmd) : Cmd := rels [⟨.irmAcceptor, 0⟩, ⟨.sanitizer, 0⟩, ⟨.tpmThr, 2⟩] next

/-- `main` of the IRM daemon from `irm_init` on (src/irmd/main.c:2064-2108). -/
def irmMain (no yes : Cmd) : Cmd :=
  let failReg := irmFini no
  let failStart := regFini failReg
  irmInit no <| regInit failReg <| irmStart failStart yes

/-- The rest of `main` (src/irmd/main.c:2086-2098). -/
def irmExit (next : Cmd) : Cmd := irmStop <| regFini <| irmFini next

/-- `init` of the library (src/lib/dev.c:546-698).  Errors of `pthread_cond_init`, `pthread_rwlock_init` and `pthread_create` are positive: tests for
`< 0` do not see them. -/
def libInit (no yes : Cmd) : Cmd :=
  let failFqueues := .rel ⟨.bmp, 3⟩ no
  let failRdrb := .rel ⟨.bmp, 4⟩ failFqueues
  let failFlows := .rel ⟨.rdrb, 1⟩ failRdrb
  let failIds := .rel ⟨.aiFlows, 0⟩ failFlows
  let failMtx := .rel ⟨.aiIds, 0⟩ failIds
  let failCond := .rel ⟨.aiMtx, 0⟩ failMtx
  let failFlowLock := .rel ⟨.aiCond, 0⟩ failCond
  let failFqset := .rel ⟨.aiLock, 0⟩ failFlowLock
  let failFrctSet := .rel ⟨.fqset, 0⟩ failFqset
  let failWheel := .rel ⟨.fset, 11⟩ failFrctSet
  let failRib := .rel ⟨.wheel, 0⟩ failWheel
  let rx := .acq ⟨.aiRx, 0⟩ yes yes
  let rest := .acq ⟨.fqset, 0⟩ failFqset <| .acq ⟨.fset, 11⟩ failFrctSet <| .acq ⟨.wheel, 0⟩ failWheel <| .acq ⟨.ribMnt, 1⟩ failRib rx
  let lock := .acq ⟨.aiLock, 0⟩ rest rest
  .may no <| .may no <| .acq ⟨.bmp, 3⟩ no <| .acq ⟨.bmp, 4⟩ failFqueues <| .acq ⟨.rdrb, 1⟩ failRdrb <| .acq ⟨.aiFlows, 0⟩ failFlows <|
    .acq ⟨.aiIds, 0⟩ failIds <| .acq ⟨.aiMtx, 0⟩ failMtx <| .acq ⟨.aiCond, 0⟩ lock lock

/-- `fini` of the library (src/lib/dev.c:700-749). -/
def libFini (next : Cmd) : Cmd :=
  rels [⟨.aiRx, 0⟩, ⟨.aiCond, 0⟩, ⟨.aiMtx, 0⟩, ⟨.ribMnt, 1⟩, ⟨.wheel, 0⟩, ⟨.fset, 11⟩, ⟨.fqset, 0⟩, ⟨.aiLock, 0⟩, ⟨.aiFlows, 0⟩, ⟨.aiIds, 0⟩,
    ⟨.rdrb, 1⟩, ⟨.bmp, 3⟩, ⟨.bmp, 4⟩] next

/-- `frcti_create` (src/lib/frct.c:330-432). -/
def frctiCreate (no yes : Cmd) : Cmd :=
  let failLock := .rel ⟨.frctMem, 0⟩ no
  let failMutex := .rel ⟨.frctLock, 0⟩ failLock
  let failCattr := .rel ⟨.frctMtx, 0⟩ failMutex
  let failCond := .rel ⟨.cattr, 0⟩ failCattr
  let failRib := .rel ⟨.frctCond, 0⟩ failCond
  .acq ⟨.frctMem, 0⟩ no <| .acq ⟨.frctLock, 0⟩ failLock <| .acq ⟨.frctMtx, 0⟩ failMutex <| .acq ⟨.cattr, 0⟩ failCattr <| .acq ⟨.frctCond, 0⟩ failCond <|
    .reg ⟨.rib, 4⟩ failRib <| .rel ⟨.cattr, 0⟩ yes

/-- `frcti_destroy` (src/lib/frct.c:434-446). -/
def frctiDestroy (next : Cmd) : Cmd := .unr ⟨.rib, 4⟩ <| rels [⟨.frctCond, 0⟩, ⟨.frctMtx, 0⟩, ⟨.frctLock, 0⟩, ⟨.frctMem, 0⟩] next

/-- `flow_init` (src/lib/dev.c:442-534) without FRCT. -/
def rawFlowInit (no yes : Cmd) : Cmd :=
  let failRxRb := .rel ⟨.flowFd, 0⟩ no
  let failTxRb := .rel ⟨.rxRb, 0⟩ failRxRb
  let failSet := .rel ⟨.txRb, 0⟩ failTxRb
  let failCrypt := .rel ⟨.flowSet, 0⟩ failSet
  .acq ⟨.flowFd, 0⟩ no <| .acq ⟨.rxRb, 0⟩ failRxRb <| .acq ⟨.txRb, 0⟩ failTxRb <| .acq ⟨.flowSet, 0⟩ failSet <| .acq ⟨.crypt, 0⟩ failCrypt yes

/-- `__flow_fini` (src/lib/dev.c:388-431) of a flow without FRCT. -/
def rawFlowFini (next : Cmd) : Cmd := rels [⟨.flowFd, 0⟩, ⟨.rxRb, 0⟩, ⟨.txRb, 0⟩, ⟨.flowSet, 0⟩, ⟨.crypt, 0⟩] next

/-- `flow_init` (src/lib/dev.c:442-534) for the first flow with FRCT. -/
def frctFlowInit (no yes : Cmd) : Cmd :=
  let failFrcti := rawFlowFini no
  let failAdd := .rel ⟨.frcti, 0⟩ failFrcti
  rawFlowInit no <| .acq ⟨.frcti, 0⟩ failFrcti <| .acq ⟨.fqAdd, 0⟩ failAdd <| .acq ⟨.aiTx, 0⟩ yes yes

/-- `__flow_fini` (src/lib/dev.c:388-431) of the last flow with FRCT. -/
def frctFlowFini (next : Cmd) : Cmd := rels [⟨.aiTx, 0⟩, ⟨.fqAdd, 0⟩, ⟨.frcti, 0⟩] <| rawFlowFini next

end Ouro.Startup
