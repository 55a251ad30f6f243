import Verif.Model.Base

/-!
# The documents in the resource information base

Model of the `read`, `readdir` and `getattr` operations of the components: the data transfer component
(src/ipcpd/unicast/dt.c:179-392), the flow allocator (src/ipcpd/unicast/fa.c:128-299), the link-state database
(src/ipcpd/unicast/routing/link-state.c:137-313), the FRCT instances (src/lib/frct.c:103-219) and the general
information of an IPCP (src/ipcpd/ipcp.c:67-212).  Text is a list of characters without the terminating zero.  A call
that writes outside a buffer or uses memory that was never written gives `ub`.  `atoi` of the name of a file is its
result `fd`, any integer; times are formatted by a parameter.
-/

namespace Ouro.RibDocs

/-- Characters (a buffer of `char`, as in src/ipcpd/unicast/dt.c:180). -/
abbrev Text := List Char

/-- `%20s` and, after `dec`, `%20zu`: padding on the left (src/ipcpd/unicast/dt.c:223-226). -/
def pad (w : Nat) (t : Text) : Text := List.replicate (w - t.length) ' ' ++ t

/-- `%zu`, `%u`, `PRIu64` (src/ipcpd/unicast/dt.c:211). -/
def dec (n : Nat) : Text := Nat.toDigits 10 n

/-- One line of a document: a label, a text of width 20, the end of the line (src/ipcpd/unicast/dt.c:223). -/
def row (label : String) (t : Text) : Text := label.toList ++ pad 20 t ++ ['\n']

/-- `sprintf` and `strcpy` of `t` to a buffer of `cap` bytes: the text needs one more byte for the zero
(src/ipcpd/unicast/dt.c:209, 222, 261). -/
def put (cap : Nat) (t : Text) : Outcome Text := if t.length + 1 ≤ cap then .ok t else .ub

/-! ## Data transfer -/

/-- `PROG_MAX_FLOWS` (default of src/lib/CMakeLists.txt:158). -/
def PROG_MAX_FLOWS : Nat := 4096
/-- `PROG_RES_FDS` (default of src/lib/CMakeLists.txt:160). -/
def PROG_RES_FDS : Nat := 64
/-- `QOS_CUBE_MAX` (include/ouroboros/qoscube.h:28-33). -/
def QOS_CUBE_MAX : Nat := 3
/-- `QOS_BLOCK_LEN` (src/ipcpd/unicast/dt.c:61). -/
def QOS_BLOCK_LEN : Nat := 672
/-- `RIB_FILE_STRLEN` (src/ipcpd/unicast/dt.c:62). -/
def RIB_FILE_STRLEN : Nat := 189 + QOS_BLOCK_LEN * QOS_CUBE_MAX

/-- An element of `dt.stat` (src/ipcpd/unicast/dt.c:150-168). -/
structure Stat where
  stamp : Nat
  addr : Nat
  snd_pkt : Nat → Nat
  snd_bytes : Nat → Nat
  rcv_pkt : Nat → Nat
  rcv_bytes : Nat → Nat
  lcl_w_pkt : Nat → Nat
  lcl_w_bytes : Nat → Nat
  lcl_r_pkt : Nat → Nat
  lcl_r_bytes : Nat → Nat
  r_drp_pkt : Nat → Nat
  r_drp_bytes : Nat → Nat
  w_drp_pkt : Nat → Nat
  w_drp_bytes : Nat → Nat
  f_nhp_pkt : Nat → Nat
  f_nhp_bytes : Nat → Nat

/-- The header of the document (src/ipcpd/unicast/dt.c:222-227). -/
def dtHead (tmstr addrstr : Text) (rxq txq : Nat) : Text :=
  row "Flow established at:      " tmstr ++
  row "Endpoint address:         " addrstr ++
  row "Queued packets (rx):      " (dec rxq) ++
  row "Queued packets (tx):      " (dec txq) ++ ['\n']

/-- The block of a QoS cube (src/ipcpd/unicast/dt.c:229-260). -/
def dtBlock (s : Stat) (i : Nat) : Text :=
  "Qos cube ".toList ++ pad 3 (dec i) ++ [':', '\n'] ++
  row " sent (packets):          " (dec (s.snd_pkt i)) ++
  row " sent (bytes):            " (dec (s.snd_bytes i)) ++
  row " rcvd (packets):          " (dec (s.rcv_pkt i)) ++
  row " rcvd (bytes):            " (dec (s.rcv_bytes i)) ++
  row " local sent (packets):    " (dec (s.lcl_w_pkt i)) ++
  row " local sent (bytes):      " (dec (s.lcl_w_bytes i)) ++
  row " local rcvd (packets):    " (dec (s.lcl_r_pkt i)) ++
  row " local rcvd (bytes):      " (dec (s.lcl_r_bytes i)) ++
  row " dropped ttl (packets):   " (dec (s.r_drp_pkt i)) ++
  row " dropped ttl (bytes):     " (dec (s.r_drp_bytes i)) ++
  row " failed writes (packets): " (dec (s.w_drp_pkt i)) ++
  row " failed writes (bytes):   " (dec (s.w_drp_bytes i)) ++
  row " failed nhop (packets):   " (dec (s.f_nhp_pkt i)) ++
  row " failed nhop (bytes):     " (dec (s.f_nhp_bytes i))

/-- The loop over the QoS cubes: `sprintf` to `str`, then `strcat` to the buffer (src/ipcpd/unicast/dt.c:228-262). -/
def dtBlocks (s : Stat) (len : Nat) : List Nat → Text → Outcome Text
  | [], buf => .ok buf
  | i :: is, buf => do
    let str ← put (QOS_BLOCK_LEN + 1) (dtBlock s i)
    let buf ← put len (buf ++ str)
    dtBlocks s len is buf

/-- `dt_rib_read` (src/ipcpd/unicast/dt.c:179-274).  `own` is the address of this IPCP, `names` the names of the
components, `rxq` and `txq` the lengths of the queues of the flow. -/
def dtRead (tm : Nat → Text) (own : Nat) (names : Nat → Text) (stat : Nat → Stat) (rxq txq : Nat)
    (fd : Int) (len : Nat) : Outcome (Int × Text) :=
  if len < RIB_FILE_STRLEN then .ok (0, [])
  else if fd < 0 ∨ (PROG_MAX_FLOWS : Int) ≤ fd then .ub
  else
    let s := stat fd.toNat
    if s.stamp = 0 then .ok (0, [])
    else if s.addr = own ∧ PROG_RES_FDS ≤ fd.toNat then .ub
    else do
      let addrstr ← put 20 (if s.addr = own then names fd.toNat else dec s.addr)
      let buf ← put len (dtHead (tm s.stamp) addrstr rxq txq)
      let buf ← dtBlocks s len (List.range QOS_CUBE_MAX) buf
      .ok (RIB_FILE_STRLEN, buf)

/-- `dt_rib_getattr` (src/ipcpd/unicast/dt.c:335-364): the size; the time stamp is never -1. -/
def dtGetattr (fd : Int) : Outcome Nat :=
  if fd < 0 ∨ (PROG_MAX_FLOWS : Int) ≤ fd then .ub else .ok RIB_FILE_STRLEN

/-- The loop of `dt_rib_readdir` (src/ipcpd/unicast/dt.c:297-323) from `i` on; `fuel` bounds the iterations. -/
def dtScan (used : Nat → Bool) : Nat → Nat → List Nat
  | 0, _ => []
  | fuel + 1, i =>
    if PROG_MAX_FLOWS ≤ i then []
    else if used i = false then
      dtScan used fuel (if i < PROG_RES_FDS then PROG_RES_FDS + 1 else i + 1)
    else i :: dtScan used fuel (i + 1)

/-- `dt_rib_readdir` (src/ipcpd/unicast/dt.c:276-333): an array for `n` entries is filled. -/
def dtReaddir (used : Nat → Bool) (n : Nat) : Outcome (List Nat) :=
  if n < 1 then .ok []
  else
    let l := dtScan used PROG_MAX_FLOWS 0
    if l.length ≤ n then .ok l else .ub

/-- What `dt_rib_readdir` looks at: which time stamps are set, and `dt.n_flows` (src/ipcpd/unicast/dt.c:150-171). -/
structure DtFlows where
  used : Nat → Bool
  n : Nat

/-- The first half of `stat_used` (src/ipcpd/unicast/dt.c:380-387), under the lock of the element. -/
def DtFlows.mark (d : DtFlows) (fd : Nat) (u : Bool) : DtFlows :=
  { d with used := fun i => if i = fd then u else d.used i }

/-- The second half of `stat_used` (src/ipcpd/unicast/dt.c:389-393), under the lock of the component. -/
def DtFlows.count (d : DtFlows) (u : Bool) : DtFlows :=
  { d with n := if u then d.n + 1 else d.n - 1 }

/-! ## Flow allocator -/

/-- A flow of the flow allocator (src/ipcpd/unicast/fa.c:92-110). -/
structure FaFlow where
  stamp : Nat
  r_addr : Nat
  s_eid : Nat
  r_eid : Nat
  p_snd : Nat
  b_snd : Nat
  p_snd_f : Nat
  b_snd_f : Nat
  p_rcv : Nat
  b_rcv : Nat
  p_rcv_f : Nat
  b_rcv_f : Nat
  u_snd : Nat
  u_rcv : Nat

/-- The context of the multi-bit ECN congestion avoidance, as far as it is printed
(src/ipcpd/unicast/ca/mb-ecn.c:271-293). -/
structure MbStats where
  tx_cav : Bool
  tx_ece : Nat
  tx_ctr : Nat
  rx_ece : Nat
  rx_ctr : Nat
  tx_mul : Nat
  tx_wpc : Nat
  tx_wbc : Nat
  tx_wbl : Nat

/-- `mb_ecn_print_stats` (src/ipcpd/unicast/ca/mb-ecn.c:261-296); `1ULL << tx_mul` in 64 bits. -/
def mbText (c : MbStats) : Text :=
  row "Congestion avoidance algorithm:  " "Multi-bit ECN".toList ++
  row "Upstream congestion level:       " (dec c.tx_ece) ++
  row "Upstream packet counter:         " (dec c.tx_ctr) ++
  row "Downstream congestion level:     " (dec c.rx_ece) ++
  row "Downstream packet counter:       " (dec c.rx_ctr) ++
  row "Congestion window size (ns):     " (dec (2 ^ c.tx_mul % 2 ^ 64)) ++
  row "Packets in this window:          " (dec c.tx_wpc) ++
  row "Bytes in this window:            " (dec c.tx_wbc) ++
  row "Max bytes in this window:        " (dec c.tx_wbl) ++
  row "Current congestion regime:       "
    (if c.tx_cav = false then "Slow start".toList
     else if c.tx_ece ≠ 0 then "Multiplicative dec".toList else "Additive inc".toList)

/-- `ca_print_stats` to an array of 1024 bytes that was not initialised (src/ipcpd/unicast/fa.c:142, 172,
src/ipcpd/unicast/ca.c:101-109): without congestion avoidance nothing is written, and the array is then printed. -/
def caText : Option MbStats → Outcome Text
  | none => .ub
  | some c => put 1024 (mbText c)

/-- The document of a flow without the part of the congestion avoidance (src/ipcpd/unicast/fa.c:174-196). -/
def faHead (tmstr : Text) (f : FaFlow) : Text :=
  row "Flow established at:             " tmstr ++
  row "Remote address:                  " (dec f.r_addr) ++
  row "Local endpoint ID:               " (dec f.s_eid) ++
  row "Remote endpoint ID:              " (dec f.r_eid) ++
  row "Sent (packets):                  " (dec f.p_snd) ++
  row "Sent (bytes):                    " (dec f.b_snd) ++
  row "Send failed (packets):           " (dec f.p_snd_f) ++
  row "Send failed (bytes):             " (dec f.b_snd_f) ++
  row "Received (packets):              " (dec f.p_rcv) ++
  row "Received (bytes):                " (dec f.b_rcv) ++
  row "Receive failed (packets):        " (dec f.b_rcv_f) ++
  row "Receive failed (bytes):          " (dec f.b_rcv_f) ++
  row "Sent flow updates (packets):     " (dec f.u_snd) ++
  row "Received flow updates (packets): " (dec f.u_rcv)

/-- `fa_rib_read` (src/ipcpd/unicast/fa.c:128-208). -/
def faRead (tm : Nat → Text) (flows : Nat → FaFlow) (ca : Nat → Option MbStats) (fd : Int) (len : Nat) :
    Outcome (Int × Text) :=
  if fd < 0 ∨ (PROG_MAX_FLOWS : Int) ≤ fd then .ok (-1, [])
  else if len < 1536 then .ok (0, [])
  else
    let f := flows fd.toNat
    if f.stamp = 0 then .ok (0, [])
    else do
      let _ ← put 21 (dec f.r_addr)
      let _ ← put 21 (dec f.s_eid)
      let _ ← put 21 (dec f.r_eid)
      let castr ← caText (ca fd.toNat)
      let buf ← put len (faHead (tm f.stamp) f ++ castr)
      .ok (buf.length, buf)

/-- `fa_rib_getattr` (src/ipcpd/unicast/fa.c:261-293): the size. -/
def faGetattr (flows : Nat → FaFlow) (fd : Int) : Outcome Nat :=
  if fd < 0 ∨ (PROG_MAX_FLOWS : Int) ≤ fd then .ub
  else .ok (if (flows fd.toNat).stamp ≠ 0 then 1536 else 0)

/-! ## Link-state database -/

/-- `LS_ENTRY_SIZE` (src/ipcpd/unicast/routing/link-state.c:60). -/
def LS_ENTRY_SIZE : Nat := 104

/-- `struct adjacency` (src/ipcpd/unicast/routing/link-state.c:84-92). -/
structure Adj where
  src : Nat
  dst : Nat
  seqno : Nat
  stamp : Nat
  deriving DecidableEq

/-- A neighbour (src/ipcpd/unicast/routing/link-state.c:99-104): whether it is a data transfer neighbour, and its
address. -/
structure Nb where
  isDt : Bool
  addr : Nat
  deriving DecidableEq

/-- The text of an adjacency (src/ipcpd/unicast/routing/link-state.c:157-158). -/
def adjText (tm : Nat → Text) (a : Adj) : Text :=
  "src: ".toList ++ pad 20 (dec a.src) ++ ['\n'] ++
  ("dst: ".toList ++ pad 20 (dec a.dst) ++ ['\n']) ++
  ("seqno: ".toList ++ pad 18 (dec a.seqno) ++ ['\n']) ++
  ("upd: ".toList ++ pad 20 (tm a.stamp) ++ ['\n'])

/-- `str_adj` (src/ipcpd/unicast/routing/link-state.c:137-161). -/
def strAdj (tm : Nat → Text) (a : Adj) (len : Nat) : Outcome (Int × Text) :=
  if len < LS_ENTRY_SIZE then .ok (-1, [])
  else do
    let buf ← put len (adjText tm a)
    .ok (LS_ENTRY_SIZE, buf)

/-- The name of an adjacency (src/ipcpd/unicast/routing/link-state.c:174). -/
def adjName (a : Adj) : Text := dec a.src ++ '.' :: dec a.dst

/-- The name of a neighbour (src/ipcpd/unicast/routing/link-state.c:269-270). -/
def nbName (n : Nb) : Text := (if n.isDt then "dt." else "mgmt.").toList ++ dec n.addr

/-- `get_adj` (src/ipcpd/unicast/routing/link-state.c:163-180). -/
def getAdj (db : List Adj) (entry : Text) : Option Adj := db.find? (fun a => adjName a == entry)

/-- `lsdb_rib_read` (src/ipcpd/unicast/routing/link-state.c:213-246). -/
def lsRead (tm : Nat → Text) (db : List Adj) (nbs : List Nb) (entry : Text) (len : Nat) :
    Outcome (Int × Text) :=
  if db.length + nbs.length = 0 then .ok (-1, [])
  else match getAdj db entry with
    | none => .ok (-1, [])
    | some a => strAdj tm a len

/-- `lsdb_rib_getattr` (src/ipcpd/unicast/routing/link-state.c:182-211): the size. -/
def lsGetattr (db : List Adj) (entry : Text) : Nat :=
  match getAdj db entry with
  | none => 0
  | some _ => LS_ENTRY_SIZE

/-- `lsdb_rib_readdir` (src/ipcpd/unicast/routing/link-state.c:248-307), when memory does not run out. -/
def lsReaddir (db : List Adj) (nbs : List Nb) : List Text := nbs.map nbName ++ db.map adjName

/-! ## FRCT -/

/-- The values printed for an FRCT instance (src/lib/frct.c:154-175).  `snd_idle` and `rcv_idle` are the times since the
last activity, which are taken to be not negative. -/
structure FrctStats where
  mpl : Nat
  a : Nat
  r : Nat
  srtt : Nat
  mdev : Nat
  rto : Nat
  snd_lwe : Nat
  snd_rwe : Nat
  snd_idle : Nat
  snd_seqno : Nat
  rcv_lwe : Nat
  rcv_rwe : Nat
  rcv_idle : Nat
  rcv_seqno : Nat
  n_rtx : Nat
  n_prb : Nat
  n_rtt : Nat
  n_dup : Nat
  n_dak : Nat
  n_rdv : Nat
  n_out : Nat
  n_rqo : Nat

/-- The document of an FRCT instance (src/lib/frct.c:131-175). -/
def frctText (s : FrctStats) : Text :=
  row "Maximum packet lifetime (ns):    " (dec s.mpl) ++
  row "Max time to Ack (ns):            " (dec s.a) ++
  row "Max time to Retransmit (ns):     " (dec s.r) ++
  row "Smoothed rtt (ns):               " (dec s.srtt) ++
  row "RTT standard deviation (ns):     " (dec s.mdev) ++
  row "Retransmit timeout RTO (ns):     " (dec s.rto) ++
  row "Sender left window edge:         " (dec s.snd_lwe) ++
  row "Sender right window edge:        " (dec s.snd_rwe) ++
  row "Sender inactive (ns):            " (dec s.snd_idle) ++
  row "Sender current sequence number:  " (dec s.snd_seqno) ++
  row "Receiver left window edge:       " (dec s.rcv_lwe) ++
  row "Receiver right window edge:      " (dec s.rcv_rwe) ++
  row "Receiver inactive (ns):          " (dec s.rcv_idle) ++
  row "Receiver last ack:               " (dec s.rcv_seqno) ++
  row "Number of pkt retransmissions:   " (dec s.n_rtx) ++
  row "Number of rtt probes:            " (dec s.n_prb) ++
  row "Number of rtt estimates:         " (dec s.n_rtt) ++
  row "Number of duplicates received:   " (dec s.n_dup) ++
  row "Number of delayed acks received: " (dec s.n_dak) ++
  row "Number of rendez-vous sent:      " (dec s.n_rdv) ++
  row "Number of packets out of window: " (dec s.n_out) ++
  row "Number of packets out of rqueue: " (dec s.n_rqo)

/-- `frct_rib_read` (src/lib/frct.c:103-182): the size of the buffer is not looked at. -/
def frctRead (s : FrctStats) (len : Nat) : Outcome (Int × Text) := do
  let buf ← put len (frctText s)
  .ok (buf.length, buf)

/-- `frct_rib_getattr` (src/lib/frct.c:202-212). -/
def frctGetattr : Nat := 1189

/-! ## General information -/

/-- `LAYER_NAME_SIZE` (include/ouroboros/ipcp.h:32). -/
def LAYER_NAME_SIZE : Nat := 255

/-- The files of the general information (src/ipcpd/ipcp.c:67-72) and any other name. -/
inductive Entry
  | state
  | type
  | layer
  | unknown
  deriving DecidableEq, Repr

/-- `ipcp_rib_read` (src/ipcpd/ipcp.c:108-164).  `state` and `type` are the texts for the state and the type, and
`layer` the name of the layer or `(null)`.  For the layer the first 256 bytes are cleared, the name is copied and its
terminating zero becomes the end of the line, so that a name of 255 bytes has none left; for an unknown name the
length of a buffer that was not written is taken. -/
def infoRead (state type layer : Text) (e : Entry) (len : Nat) : Outcome (Int × Text) :=
  if len < LAYER_NAME_SIZE + 2 then .ok (0, [])
  else match e with
    | .state => do
      let buf ← put len state
      .ok (buf.length, buf)
    | .type => do
      let buf ← put len type
      .ok (buf.length, buf)
    | .layer => do
      let buf ← put len layer
      if buf.length + 1 < LAYER_NAME_SIZE + 1 then .ok (buf.length + 1, buf ++ ['\n']) else .ub
    | .unknown => .ub

end Ouro.RibDocs
