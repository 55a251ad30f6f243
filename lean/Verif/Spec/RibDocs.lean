import Verif.Model.RibDocs

/-!
# The documents in the resource information base: specification
-/

namespace Ouro.RibDocs

/-- The lines of a text. -/
def lines : Text → List Text
  | [] => [[]]
  | c :: cs =>
    if c = '\n' then [] :: lines cs
    else match lines cs with
      | [] => [[c]]
      | l :: ls => (c :: l) :: ls

/-- The number in a text, after spaces. -/
def number (t : Text) : Nat := Nat.ofDigitChars 10 (t.dropWhile (· = ' ')) 0

/-- Line `k` of a document has the given label, and the number after it is `n`. -/
def Shows (doc : Text) (k : Nat) (label : String) (n : Nat) : Prop :=
  ∃ line, (lines doc)[k]? = some line ∧ line.take label.length = label.toList ∧
    number (line.drop label.length) = n

/-- The labels of the counters of a QoS cube. -/
def dtLabels : List String :=
  [" sent (packets):          ", " sent (bytes):            ",
   " rcvd (packets):          ", " rcvd (bytes):            ",
   " local sent (packets):    ", " local sent (bytes):      ",
   " local rcvd (packets):    ", " local rcvd (bytes):      ",
   " dropped ttl (packets):   ", " dropped ttl (bytes):     ",
   " failed writes (packets): ", " failed writes (bytes):   ",
   " failed nhop (packets):   ", " failed nhop (bytes):     "]

/-- The counters of a QoS cube, in the order of their labels. -/
def dtValues (s : Stat) (i : Nat) : List Nat :=
  [s.snd_pkt i, s.snd_bytes i, s.rcv_pkt i, s.rcv_bytes i, s.lcl_w_pkt i, s.lcl_w_bytes i,
   s.lcl_r_pkt i, s.lcl_r_bytes i, s.r_drp_pkt i, s.r_drp_bytes i, s.w_drp_pkt i, s.w_drp_bytes i,
   s.f_nhp_pkt i, s.f_nhp_bytes i]

/-- The labels of the numbers of a flow of the flow allocator. -/
def faLabels : List String :=
  ["Remote address:                  ", "Local endpoint ID:               ",
   "Remote endpoint ID:              ", "Sent (packets):                  ",
   "Sent (bytes):                    ", "Send failed (packets):           ",
   "Send failed (bytes):             ", "Received (packets):              ",
   "Received (bytes):                ", "Receive failed (packets):        ",
   "Receive failed (bytes):          ", "Sent flow updates (packets):     ",
   "Received flow updates (packets): "]

/-- The numbers of a flow of the flow allocator, in the order of their labels. -/
def faValues (f : FaFlow) : List Nat :=
  [f.r_addr, f.s_eid, f.r_eid, f.p_snd, f.b_snd, f.p_snd_f, f.b_snd_f, f.p_rcv, f.b_rcv, f.p_rcv_f,
   f.b_rcv_f, f.u_snd, f.u_rcv]

/-- All numbers fit in 64 bits. -/
def Small (l : List Nat) : Prop := ∀ n ∈ l, n < 2 ^ 64

/-- The labels in the document of an FRCT instance. -/
def frctLabels : List String :=
  ["Maximum packet lifetime (ns):    ", "Max time to Ack (ns):            ",
   "Max time to Retransmit (ns):     ", "Smoothed rtt (ns):               ",
   "RTT standard deviation (ns):     ", "Retransmit timeout RTO (ns):     ",
   "Sender left window edge:         ", "Sender right window edge:        ",
   "Sender inactive (ns):            ", "Sender current sequence number:  ",
   "Receiver left window edge:       ", "Receiver right window edge:      ",
   "Receiver inactive (ns):          ", "Receiver last ack:               ",
   "Number of pkt retransmissions:   ", "Number of rtt probes:            ",
   "Number of rtt estimates:         ", "Number of duplicates received:   ",
   "Number of delayed acks received: ", "Number of rendez-vous sent:      ",
   "Number of packets out of window: ", "Number of packets out of rqueue: "]

/-- The values that belong to these labels. -/
def frctValues (s : FrctStats) : List Nat :=
  [s.mpl, s.a, s.r, s.srtt, s.mdev, s.rto, s.snd_lwe, s.snd_rwe, s.snd_idle, s.snd_seqno, s.rcv_lwe,
   s.rcv_rwe, s.rcv_idle, s.rcv_seqno, s.n_rtx, s.n_prb, s.n_rtt, s.n_dup, s.n_dak, s.n_rdv, s.n_out, s.n_rqo]

/-- Times are printed with 19 characters on one line. -/
def TimeFormat (tm : Nat → Text) : Prop := ∀ t, (tm t).length = 19 ∧ '\n' ∉ tm t

/-- How many flow descriptors are in use. -/
def usedCount (used : Nat → Bool) : Nat := (List.range 4096).countP used

/-- A complete `stat_used`: a flow descriptor is taken in use or given up. -/
def DtFlows.use (d : DtFlows) (fd : Nat) (u : Bool) : DtFlows := (d.mark fd u).count u

/-- A history in which unused descriptors are taken in use and used ones are given up. -/
def Uses : DtFlows → List (Nat × Bool) → Prop
  | _, [] => True
  | d, (fd, u) :: l => fd < 4096 ∧ d.used fd = !u ∧ Uses (d.use fd u) l

/-- The state after a history. -/
def useAll (d : DtFlows) (l : List (Nat × Bool)) : DtFlows := l.foldl (fun d p => d.use p.1 p.2) d

/-- No flow descriptor in use. -/
def noFlows : DtFlows := ⟨fun _ => false, 0⟩

end Ouro.RibDocs
