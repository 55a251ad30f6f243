import Verif.Proof.FrctSteady
import Verif.Proof.FrctWindow
import Verif.Proof.FaMsg

/-!
# C09, C11, C55, C56 — reliable flows, flow control, no silent loss, the FRCT header

C09, full property: on a flow with retransmission the sequence of packets handed to the reading application is always a prefix of
the sequence accepted from the writing application, whatever the network drops, duplicates or reorders within the packet lifetime.
The code violates it (`C09_reliable_violated`): an endpoint that keeps receiving acknowledgements but no data never becomes
inactive, while the other end's sender does; the sender then chooses a new sequence number the receiver does not expect.
`C09_reliable_partial` proves the property for all histories in which runs change only while the receiver is inactive and
acknowledgements reach the sender in the run they belong to, `C09_reliable_steady_partial` for all histories in which writers do
not pause beyond the inactivity time and the first packet an end receives carries data.

C11, full property: `is_window_open` is true exactly when the next sequence number lies before the right window edge or flow
control is off; the right edge announced by the receiver only moves forward while the connection lives, and a packet outside the
receive window is not queued.

C55, full property: a packet a writer handed to a reliable flow is read by the peer, or a timer is going to send it again, or the
writer is told that the flow is down.

C56: the header of an FRCT packet survives the wire.
-/

namespace Ouro.Frct

open Ouro Ouro.Seqno Spec.FrctHistory

/-! ## Concrete histories -/

instance decSome {α : Type} {P : α → Prop} [DecidablePred P] : (o : Option α) → Decidable (∀ q, o = some q → P q)
  | none => .isTrue (by intro q h; cases h)
  | some x => if h : P x then .isTrue (by intro q hq; cases hq; exact h) else .isFalse (fun hh => h (hh x rfl))

instance (mpl : Nat) (q : Sent) (now : Int) : Decidable (Alive mpl q now) := by unfold Alive; infer_instance

instance (mpl : Nat) (s : Sys) (op : Op) : Decidable (Ok mpl s op) := by
  unfold Ok; cases op <;> dsimp only <;> infer_instance

instance (mpl : Nat) (s : Sys) (op : Op) : Decidable (OkSteady mpl s op) := by
  unfold OkSteady; cases op <;> dsimp only <;> infer_instance

instance (s : Sys) (op : Op) : Decidable (OkWindow s op) := by
  unfold OkWindow; cases op <;> dsimp only <;> infer_instance

instance (mpl : Nat) (s : Sys) (op : Op) : Decidable (OkNet mpl s op) := by
  unfold OkNet; cases op <;> dsimp only <;> infer_instance

/-- Runs a list of operations as long as each satisfies `ok`. -/
def play (ok : Sys → Op → Bool) (s : Sys) : List Op → Option Sys
  | [] => some s
  | op :: ops =>
    if ok s op then
      match step s op with
      | .ub => none
      | .ok s' => play ok s' ops
    else none

theorem play_ind {ok : Sys → Op → Bool} {P : Sys → Prop} (hP : ∀ s s' op, P s → ok s op = true → step s op = .ok s' → P s') {ops : List Op} :
    ∀ {s s' : Sys}, P s → play ok s ops = some s' → P s' := by
  induction ops with
  | nil => intro s s' h1 h2; cases h2; exact h1
  | cons op ops ih =>
    intro s s' h1 h2
    unfold play at h2
    split at h2
    · rename_i hok
      split at h2
      · cases h2
      · rename_i s1 hs
        exact ih (hP s s1 op h1 hok hs) h2
    · cases h2

theorem play_net {a r mpl : Nat} {ops : List Op} {s s' : Sys} (h : ReachNet a r mpl s)
    (hp : play (fun s op => decide (OkNet mpl s op)) s ops = some s') : ReachNet a r mpl s' :=
  play_ind (fun _ _ _ h1 h2 h3 => .step h1 (of_decide_eq_true h2) h3) h hp

theorem play_ok {a r mpl : Nat} {ops : List Op} {s s' : Sys} (h : Reach a r mpl s)
    (hp : play (fun s op => decide (Ok mpl s op)) s ops = some s') : Reach a r mpl s' :=
  play_ind (fun _ _ _ h1 h2 h3 => .step h1 (of_decide_eq_true h2) h3) h hp

theorem play_steady {a r mpl : Nat} {ops : List Op} {s s' : Sys} (h : ReachSteady a r mpl s)
    (hp : play (fun s op => decide (OkSteady mpl s op)) s ops = some s') : ReachSteady a r mpl s' :=
  play_ind (fun _ _ _ h1 h2 h3 => .step h1 (of_decide_eq_true h2) h3) h hp

theorem play_window {a r mpl : Nat} {ops : List Op} {s s' : Sys} (h : ReachWindow a r mpl s)
    (hp : play (fun s op => decide (Ok mpl s op) && decide (OkWindow s op)) s ops = some s') : ReachWindow a r mpl s' :=
  play_ind (fun _ _ _ h1 h2 h3 => by
    rw [Bool.and_eq_true] at h2
    exact .step h1 (of_decide_eq_true h2.1) (of_decide_eq_true h2.2) h3) h hp

/-- What can be seen of a state in which a history ended: read and written at both ends. -/
def seen (o : Option Sys) : Option (List (List Byte) × List (List Byte) × List (List Byte) × List (List Byte)) :=
  o.map fun s => (readAtPeer s true, written s true, readAtPeer s false, written s false)

/-- The default parameters of the build (src/lib/CMakeLists.txt:195-199), time starting at 1000 s. -/
def s0 : Sys := Sys.init 10 120 60 (1000 * BILLION)

/-- `n` seconds after the start. -/
def at' (n : Int) : Int := (1000 + n) * BILLION

/-! ## C09 -/

/-- C09 (partial: for histories satisfying `Ok`, see `C09_reliable_violated`). Whatever is lost, duplicated, reordered, retransmitted,
    acknowledged, closed or reconfigured, on both directions at once, each reader has read a prefix of what was written. -/
theorem C09_reliable_partial {a r mpl : Nat} {s : Sys} (h : Reach a r mpl s) : InOrder s := by
  intro d
  have hv := inv_reach h d
  show (s.dir d).got <+: (s.dir d).sent
  rw [hv.got]
  exact List.take_prefix _ _

/-- C09 (partial: for writers that do not pause longer than the inactivity time, and ends whose first packet carries data). -/
theorem C09_reliable_steady_partial {a r mpl : Nat} {s : Sys} (h : ReachSteady a r mpl s) : InOrder s :=
  C09_reliable_partial (steady_reach h).1

/-- A history with a packet lost and sent again, one duplicated and two delivered in the wrong order, sequence numbers wrapping. -/
def lossy : List Op :=
  [.write true [1#8] (at' 0) 0xFFFFFFFF#32 true true,
   .write true [2#8] (at' 0) 7#32 true true,
   .write true [3#8] (at' 1) 7#32 true true,
   .recv false 0 (at' 1),
   .recv false 2 (at' 2),
   .recv false 2 (at' 2),
   .read false,
   .read false,
   .expire true 1 (at' 3) true true,
   .write false [9#8] (at' 3) 5#32 true true,
   .recv false 3 (at' 4),
   .read false, .read false,
   .recv false 1 (at' 5),
   .recv true 0 (at' 5),
   .read true,
   .ack false (at' 6),
   .recv true 1 (at' 6),
   .expire true 0 (at' 7) true true]

example : seen (play (fun s op => decide (Ok 60 s op)) s0 lossy) = some ([[1#8], [2#8], [3#8]], [[1#8], [2#8], [3#8]], [[9#8]], [[9#8]]) := by
  decide +kernel

example : seen (play (fun s op => decide (OkSteady 60 s op)) s0 lossy) = some ([[1#8], [2#8], [3#8]], [[1#8], [2#8], [3#8]], [[9#8]], [[9#8]]) := by
  decide +kernel

/-- A history with two runs: the writer pauses until both ends are inactive. -/
def pausing : List Op :=
  [.write true [1#8] (at' 0) 17#32 true true, .recv false 0 (at' 1), .read false, .ack false (at' 1), .recv true 0 (at' 2),
   .write true [2#8] (at' 400) 99#32 true true, .recv false 1 (at' 401), .read false]

example : seen (play (fun s op => decide (Ok 60 s op)) s0 pausing) = some ([[1#8], [2#8]], [[1#8], [2#8]], [], []) := by decide +kernel

/-- C09. Progress: in such a history, the next packet the reader needs is handed over as soon as it arrives (in the run the receiver
    follows), whatever arrived before it. -/
theorem C09_progress_partial {a r mpl : Nat} {s s' : Sys} {d : Bool} {k : Nat} {now : Int} {q : Sent} (h : Reach a r mpl s)
    (hk : (s.net d)[k]? = some q) (hd : q.pkt.data = true) (hv : q.pkt.rdvs = false)
    (hi : q.tag.idx = (readAtPeer s d).length) (hrun : q.tag.run = (s.dir d).run) (hrr : (s.dir d).rrun = (s.dir d).run)
    (hs : step s (.recv (!d) k now) = .ok s') (hact : inactive (s.ep (!d)).rcv now = false) :
    readAtPeer (stepRead s' (!d)) d = readAtPeer s d ++ [q.pkt.payload] := by
  have hvw := inv_reach h d
  have hq : q ∈ s.net d := List.mem_of_getElem? hk
  obtain ⟨hdo, _⟩ := hvw.data q hq hd
  have hpay := hdo.pl
  have hlt := hdo.lt
  have hidx : q.tag.idx = (s.dir d).got.length := hi
  have hseq : q.pkt.seqno = (s.dir d).base + BitVec.ofNat 32 (s.dir d).got.length := by
    rcases hdo.run with ⟨_, _, h3, _⟩ | ⟨h1, _⟩
    · rw [h3, hidx]
    · omega
  have hpos : 0 < (s.dir d).run := by
    by_contra h0
    have := hvw.run0 (by omega)
    omega
  have hlwe := hvw.cur1 hrr
  have hrwe := hvw.cur2 hrr hpos
  unfold step at hs
  simp only [Bool.not_not, hk] at hs
  cases Outcome.ok.inj hs
  have hrc : rcvRun (s.ep (!d)) q.pkt now = some { s.ep (!d) with rcv := { (s.ep (!d)).rcv with act := now } } := by
    unfold rcvRun; rw [hact]; rfl
  generalize he1 : rcvFc (rcvAck { s.ep (!d) with rcv := { (s.ep (!d)).rcv with act := now } } q.pkt now) q.pkt = e1
  have hr1 : e1.rcv = { (s.ep (!d)).rcv with act := now } ∧ e1.rq = (s.ep (!d)).rq := by
    rw [← he1]
    obtain ⟨f1, f2, _⟩ := rcvFc_frame (rcvAck { s.ep (!d) with rcv := { (s.ep (!d)).rcv with act := now } } q.pkt now) q.pkt
    obtain ⟨g1, g2, _⟩ := rcvAck_frame { s.ep (!d) with rcv := { (s.ep (!d)).rcv with act := now } } q.pkt now
    exact ⟨by rw [f1, g1], by rw [f2, g2]⟩
  have hR : rcv (s.ep (!d)) q.pkt now = ((rcvData e1 q.pkt).1, (rcvData e1 q.pkt).2, none) := by
    unfold rcv
    rw [hrc]
    simp only [hv, Bool.false_eq_true, if_false, he1]
  have hdat : (rcvData e1 q.pkt).1.rcv.lwe = (s.ep (!d)).rcv.lwe ∧
      (rcvData e1 q.pkt).1.rq (pos (s.ep (!d)).rcv.lwe) = some q.pkt.payload := by
    have hb1 : before q.pkt.seqno e1.rcv.lwe = false := by
      rw [hr1.1]; show before q.pkt.seqno (s.ep (!d)).rcv.lwe = false
      rw [hseq, hlwe]; exact C10_irreflexive _
    have hb2 : before q.pkt.seqno e1.rcv.rwe = true := by
      rw [hr1.1]; show before q.pkt.seqno (s.ep (!d)).rcv.rwe = true
      rw [hseq, hrwe, before_add _ _ _ (by omega) (by omega)]
      omega
    have hb3 : before q.pkt.seqno (e1.rcv.lwe + 256#32) = true := by
      rw [hr1.1]; show before q.pkt.seqno ((s.ep (!d)).rcv.lwe + 256#32) = true
      rw [hseq, hlwe, add_256, before_add _ _ _ (by omega) (by omega)]
      omega
    have hf : e1.rcv.frtx = true := by rw [hr1.1]; exact hvw.frtxR
    have hps : pos q.pkt.seqno = pos (s.ep (!d)).rcv.lwe := by rw [hseq, hlwe]
    unfold rcvData
    simp only [hd, hb1, hf, hb2, hb3, Bool.not_true, Bool.false_eq_true, if_false, if_true]
    cases hslot : e1.rq (pos q.pkt.seqno) with
    | none =>
      simp only [Option.isSome_none, Bool.false_eq_true, if_false]
      refine ⟨by rw [hr1.1], ?_⟩
      simp [hps]
    | some b =>
      simp only [Option.isSome_some, if_true]
      refine ⟨by rw [hr1.1], ?_⟩
      rw [← hps, hslot]
      rw [hr1.2] at hslot
      obtain ⟨g, g1, g2, g3, g4, g5, _⟩ := hvw.rq _ _ hslot
      rw [hseq] at g4
      have := pos_inj _ _ _ (s.dir d).got.length (le_refl _) (by omega) g1 g2 g4
      subst this
      rw [hidx] at hpay
      rw [hpay] at g5
      rw [g5]
  unfold stepRecv
  rw [hR]
  unfold stepRead queuedPdu
  simp only [Bool.not_not, upd_same, hdat.1, hdat.2]
  unfold readAtPeer
  dsimp only
  rw [upd_same]
  show (dirRun (s.dir d) (s.ep (!d)) q.pkt now q.tag).got ++ _ = _
  unfold dirRun
  rw [hact]
  rfl

/-- C09. The other endpoint stops sending data but keeps acknowledging: this end's receiver stays active, the sender's inactivity time
    passes, and its next packet starts at a random number the receiver takes for a duplicate; it is acknowledged and never delivered.
    Default timers, no packet delayed or lost. -/
def skipping : List Op :=
  [.write true [1#8] (at' 0) 5#32 true true, .recv false 0 (at' 0), .read false,
   .write false [9#8] (at' 1) 70#32 true true, .recv true 0 (at' 1), .read true, .ack true (at' 2), .recv false 1 (at' 2),
   .write false [8#8] (at' 200) 0#32 true true, .recv true 1 (at' 200), .read true, .ack true (at' 201), .recv false 2 (at' 201),
   .write true [2#8] (at' 313) 5#32 true true, .recv false 3 (at' 313), .ack false (at' 314), .recv true 2 (at' 314),
   .expire true 1 (at' 315) true true, .expire true 0 (at' 315) true true,
   .write true [3#8] (at' 800) 33#32 true true, .recv false 4 (at' 800), .read false]

theorem seen_some {o : Option Sys} {x : List (List Byte) × List (List Byte) × List (List Byte) × List (List Byte)} (h : seen o = some x) :
    ∃ s, o = some s ∧ readAtPeer s true = x.1 ∧ written s true = x.2.1 := by
  unfold seen at h
  cases o with
  | none => cases h
  | some s => cases h; exact ⟨s, rfl, rfl, rfl⟩

theorem C09_reliable_violated : ∃ s, ReachNet 10 120 60 s ∧ ¬ InOrder s := by
  obtain ⟨s, h1, h2, h3⟩ := seen_some (o := play (fun s op => decide (OkNet 60 s op)) s0 skipping)
    (x := ([[1#8], [3#8]], [[1#8], [2#8], [3#8]], [[9#8], [8#8]], [[9#8], [8#8]])) (by decide +kernel)
  refine ⟨s, play_net (.init _) h1, fun h => ?_⟩
  have := h true
  rw [h2, h3] at this
  exact absurd this (by decide)

/-- C09. An endpoint whose first packet carries no data (an acknowledgement of what it sent) afterwards refuses every packet with data
    until its inactivity time has passed without any packet: its window is `[0, 0)`. For all timers, packets and sequence numbers. -/
theorem C09_first_packet_violated (a r mpl now t t' : Int) (p q : Pkt) (hp : p.data = false) (hf : p.drf = false)
    (hq : q.rdvs = false) (ht : tsec t' - tsec t ≤ (create a r mpl true now).rcv.inact) :
    (rcv (rcv (create a r mpl true now) p t).1 q t').2.1 = .dropped := by
  have key : ∀ e : Ep, e.rcv.lwe = 0#32 → e.rcv.rwe = 0#32 → e.rcv.frtx = true → (rcvData e q).2 = .dropped := by
    intro e h1 h2 h3
    unfold rcvData
    cases hd : q.data
    · rfl
    · cases hb : before q.seqno 0#32
      · simp [h1, h2, h3, hb]
      · simp [h1, hb]
  have hrun : rcvRun (create a r mpl true now) p t =
      some { create a r mpl true now with rcv := { (create a r mpl true now).rcv with act := t } } := by
    unfold rcvRun
    rw [hf, hp]
    simp
  have hrcv : (rcv (create a r mpl true now) p t).1.rcv = { (create a r mpl true now).rcv with act := t } := by
    unfold rcv
    rw [hrun]
    dsimp only
    split
    · rfl
    · obtain ⟨f1, _⟩ := rcvFc_frame (rcvAck { create a r mpl true now with rcv := { (create a r mpl true now).rcv with act := t } } p t) p
      obtain ⟨g1, _⟩ := rcvAck_frame { create a r mpl true now with rcv := { (create a r mpl true now).rcv with act := t } } p t
      unfold rcvData
      simp only [hp, Bool.not_false, if_true]
      rw [f1, g1]
  generalize (rcv (create a r mpl true now) p t).1 = e at hrcv
  have hact : inactive e.rcv t' = false := by
    unfold inactive
    rw [hrcv]
    apply decide_eq_false
    show ¬ tsec t' - tsec t > (create a r mpl true now).rcv.inact
    omega
  unfold rcv
  have hrun' : rcvRun e q t' = some { e with rcv := { e.rcv with act := t' } } := by
    unfold rcvRun; rw [hact]; rfl
  rw [hrun']
  simp only [hq, Bool.false_eq_true, if_false]
  obtain ⟨f1, _⟩ := rcvFc_frame (rcvAck { e with rcv := { e.rcv with act := t' } } q t') q
  obtain ⟨g1, _⟩ := rcvAck_frame { e with rcv := { e.rcv with act := t' } } q t'
  apply key
  · rw [f1, g1, hrcv]; rfl
  · rw [f1, g1, hrcv]; rfl
  · rw [f1, g1, hrcv]; rfl

/-- Its hypotheses are met by an acknowledgement 1 s after the creation and the peer's first data 2 s later. -/
example : tsec (at' 3) - tsec (at' 1) ≤ (create 10 120 60 true (at' 0)).rcv.inact := by decide +kernel

/-- C09. The assertion that a sender that becomes active again has nothing unacknowledged (src/lib/frct.c:724) can fail: nothing is
    delivered, the flow goes down, and the application writes again after the inactivity time. -/
theorem C09_assertion_violated : ∃ s op, ReachNet 10 120 60 s ∧ OkNet 60 s op ∧ s.down true = true ∧ step s op = .ub := by
  have h : ((play (fun s op => decide (OkNet 60 s op)) s0
      [.write true [1#8] (at' 0) 5#32 true true, .expire true 0 (at' 1) true true, .expire true 0 (at' 121) true true]).map
        fun s => (s.down true, s.now, match step s (.write true [2#8] (at' 313) 9#32 true true) with | .ub => true | .ok _ => false)) =
      some (true, at' 121, true) := by decide +kernel
  rw [Option.map_eq_some_iff] at h
  obtain ⟨s, h1, h2⟩ := h
  rw [Prod.mk.injEq, Prod.mk.injEq] at h2
  obtain ⟨h2, h3, h4⟩ := h2
  refine ⟨s, .write true [2#8] (at' 313) 9#32 true true, play_net (.init _) h1, ⟨?_, trivial⟩, h2, ?_⟩
  · show s.now ≤ at' 313
    rw [h3]
    decide
  · generalize step s _ = o at h4
    cases o with
    | ub => rfl
    | ok => cases h4

/-! ## C55 -/

/-- C55 (partial: for histories satisfying `Ok`). A packet a writer handed to a reliable flow is read by the peer, or its retransmission
    is pending, or its timer could not be armed, or the writer's end knows that the flow is down. -/
theorem C55_no_silent_loss_partial {a r mpl : Nat} {s : Sys} (h : Reach a r mpl s) : NoSilentLoss s := by
  intro d g hg
  have hv := inv_reach h d
  rcases Nat.lt_or_ge g (s.dir d).got.length with h1 | h1
  · exact Or.inl h1
  · right
    rcases hv.keep g h1 hg with h2 | h2 | ⟨x, hx, h2⟩
    · exact Or.inr (Or.inl h2)
    · exact Or.inr (Or.inr h2)
    · refine Or.inl ⟨x, hx, h2, ?_⟩
      have := (hv.rxm x hx).1.pl
      rw [h2] at this
      exact this

/-- C55 (partial: for steady histories). -/
theorem C55_no_silent_loss_steady_partial {a r mpl : Nat} {s : Sys} (h : ReachSteady a r mpl s) : NoSilentLoss s :=
  C55_no_silent_loss_partial (steady_reach h).1

/-- In a history of `Ok` the third packet is pending, the first two are read. -/
example : ((play (fun s op => decide (Ok 60 s op)) s0
    [.write true [1#8] (at' 0) 5#32 true true, .write true [2#8] (at' 0) 5#32 true true, .write true [3#8] (at' 0) 5#32 true true,
     .recv false 1 (at' 1), .recv false 0 (at' 1), .recv false 1 (at' 1), .read false, .read false, .ack false (at' 1), .recv true 0 (at' 1),
     .expire true 0 (at' 2) true true, .expire true 0 (at' 2) true true]).map
    fun s => ((readAtPeer s true).length, (s.rxm true).map (·.tag.idx), s.down true)) = some (2, [2], false) := by decide +kernel

/-- C55. The peer acknowledges before it sends data; its first data packet is then refused, and if its number is in the upper half of
    the number space it is acknowledged all the same: the timer is dropped and the packet is gone. All within three seconds, without any
    packet delayed, lost or reordered. -/
theorem C55_no_silent_loss_violated : ∃ s, ReachNet 10 120 60 s ∧ ¬ NoSilentLoss s := by
  have h : ((play (fun s op => decide (OkNet 60 s op)) s0
      [.write true [1#8] (at' 0) 5#32 true true, .recv false 0 (at' 0), .read false, .ack false (at' 1), .recv true 0 (at' 1),
       .write false [9#8] (at' 2) 0x80000000#32 true true, .recv true 1 (at' 2), .ack true (at' 2), .recv false 1 (at' 2),
       .expire false 0 (at' 3) true true]).map
        fun s => ((written s false).length, (readAtPeer s false).length, (s.rxm false).length, (s.dir false).lost.length, s.down false)) =
      some (1, 0, 0, 0, false) := by decide +kernel
  rw [Option.map_eq_some_iff] at h
  obtain ⟨s, h1, h2⟩ := h
  simp only [Prod.mk.injEq] at h2
  obtain ⟨h2, h3, h4, h5, h6⟩ := h2
  refine ⟨s, play_net (.init _) h1, fun h => ?_⟩
  rcases h false 0 (by omega) with h | ⟨x, hx, _⟩ | h | h
  · omega
  · rw [List.eq_nil_of_length_eq_zero h4] at hx; cases hx
  · rw [List.eq_nil_of_length_eq_zero h5] at h; cases h
  · rw [h6] at h; cases h

/-! ## C11 -/

/-- C11. `is_window_open` is true exactly when flow control is off or the next sequence number is before the right window edge, and
    asking changes neither of them. -/
theorem C11_is_window_open (e : Ep) (now : Int) :
    ((isWindowOpen e now).2.1 = true ↔ e.snd.rescntl = false ∨ (0 < dist e.snd.seqno e.snd.rwe ∧ dist e.snd.seqno e.snd.rwe ≤ 2 ^ 31)) ∧
    (isWindowOpen e now).1.snd = e.snd := by
  refine ⟨?_, (isWindowOpen_frame e now).1⟩
  rw [← before_iff]
  unfold isWindowOpen
  cases e.snd.rescntl <;> cases before e.snd.seqno e.snd.rwe <;> simp
  split
  · rfl
  split
  · rfl
  split <;> rfl

example : (isWindowOpen { create 10 120 60 true 0 with snd := { (create 10 120 60 true 0).snd with seqno := 63#32 } } 0).2.1 = true ∧
    (isWindowOpen { create 10 120 60 true 0 with snd := { (create 10 120 60 true 0).snd with seqno := 64#32 } } 0).2.1 = false := by
  decide +kernel

/-- C11. Whatever happens, in any state, the receive window of an endpoint moves forward by one or stays, unless the endpoint was
    inactive and accepts the first packet of a new run. -/
theorem C11_edge_forward {s s' : Sys} {op : Op} (hs : step s op = .ok s') (d : Bool) :
    (s'.ep d).rcv.rwe = (s.ep d).rcv.rwe ∨ (s'.ep d).rcv.rwe = (s.ep d).rcv.rwe + 1#32 ∨
    ∃ k now q, op = .recv d k now ∧ (s.net (!d))[k]? = some q ∧ inactive (s.ep d).rcv now = true ∧ q.pkt.drf = true ∧
      (s'.ep d).rcv.rwe = q.pkt.seqno + 256#32 := by
  have other : ∀ (b : Bool) (e : Ep), (b = d → e.rcv.rwe = (s.ep d).rcv.rwe) → (upd s.ep b e d).rcv.rwe = (s.ep d).rcv.rwe := by
    intro b e h
    unfold upd
    split
    · rename_i hb; exact h hb.symm
    · rfl
  cases op with
  | write b pl now rnd armed out =>
    unfold step stepWrite at hs
    dsimp only at hs
    cases hsn : snd (s.ep b) pl now rnd with
    | ub => rw [hsn] at hs; cases hs
    | ok ep =>
      obtain ⟨e, p⟩ := ep
      rw [hsn] at hs
      cases Outcome.ok.inj hs
      left
      refine other b e fun hb => ?_
      subst hb
      obtain ⟨e1, hrun, rfl, rfl⟩ := snd_inv hsn
      have hrc : e1.rcv = (s.ep b).rcv := by
        rcases newRun_inv hrun with ⟨_, _, he⟩ | ⟨_, he⟩ <;> rw [he]
      show e1.rcv.rwe = _
      rw [hrc]
  | recv b k now =>
    unfold step at hs
    dsimp only at hs
    cases hk : (s.net (!b))[k]? with
    | none => rw [hk] at hs; cases Outcome.ok.inj hs; exact Or.inl rfl
    | some q =>
      rw [hk] at hs
      cases Outcome.ok.inj hs
      by_cases hb : b = d
      · subst hb
        have hrw : (rcv (s.ep b) q.pkt now).1.rcv.rwe = if inactive (s.ep b).rcv now && q.pkt.drf then q.pkt.seqno + 256#32 else (s.ep b).rcv.rwe := by
          have hD : ∀ e : Ep, (rcvData e q.pkt).1.rcv.rwe = e.rcv.rwe := by
            intro e; unfold rcvData; split
            · rfl
            split
            · rfl
            split
            · split
              · rfl
              split
              · rfl
              split <;> rfl
            · rfl
          have hR : ∀ e1, rcvRun (s.ep b) q.pkt now = some e1 →
              e1.rcv.rwe = if inactive (s.ep b).rcv now && q.pkt.drf then q.pkt.seqno + 256#32 else (s.ep b).rcv.rwe := by
            intro e1 h1
            unfold rcvRun at h1
            cases hi : inactive (s.ep b).rcv now <;> cases hf : q.pkt.drf <;> rw [hi] at h1 <;> rw [hf] at h1
            · cases h1; rfl
            · cases h1; rfl
            · cases hd : q.pkt.data <;> rw [hd] at h1 <;> cases h1; rfl
            · cases h1; rfl
          unfold rcv
          cases hr : rcvRun (s.ep b) q.pkt now with
          | none =>
            dsimp only
            unfold rcvRun at hr
            split at hr
            · split at hr
              · cases hr
              · rename_i hf; simp [hf]
            · cases hr
          | some e1 =>
            dsimp only
            rw [← hR e1 hr]
            split
            · rfl
            · dsimp only
              rw [hD, (rcvFc_frame _ _).1, (rcvAck_frame _ _ _).1]
        unfold stepRecv
        dsimp only
        rw [upd_same, hrw]
        cases hc : (inactive (s.ep b).rcv now && q.pkt.drf)
        · exact Or.inl rfl
        · rw [Bool.and_eq_true] at hc
          exact Or.inr (Or.inr ⟨k, now, q, rfl, hk, hc.1, hc.2, rfl⟩)
      · left
        exact other b _ fun h => absurd h hb
  | read b =>
    unfold step stepRead queuedPdu at hs
    dsimp only at hs
    cases hq : (s.ep b).rq (pos (s.ep b).rcv.lwe) with
    | none => rw [hq] at hs; cases Outcome.ok.inj hs; exact Or.inl rfl
    | some x =>
      rw [hq] at hs
      cases Outcome.ok.inj hs
      by_cases hb : b = d
      · subst hb
        right; left
        dsimp only
        rw [upd_same]
      · left
        exact other b _ fun h => absurd h hb
  | ack b now =>
    unfold step at hs
    dsimp only at hs
    cases Outcome.ok.inj hs
    left
    refine other b _ fun hb => ?_
    subst hb
    unfold sendAck
    split
    · rfl
    split
    · rfl
    split <;> rfl
  | expire b k now alloc out =>
    unfold step at hs
    dsimp only at hs
    cases hk : (s.rxm b)[k]? with
    | none => rw [hk] at hs; cases Outcome.ok.inj hs; exact Or.inl rfl
    | some x =>
      rw [hk] at hs
      cases Outcome.ok.inj hs
      left
      unfold stepExpire
      rcases expire_inv (s.ep b) x.rxm now with ⟨_, he⟩ | ⟨e', _, e2, _, _, he⟩ | ⟨e', _, e2, _, _, _, he⟩
      · rw [he]; exact other b _ fun hb => by subst hb; rfl
      · rw [he]; exact other b _ fun hb => by subst hb; rw [e2]
      · rw [he]
        dsimp only
        split
        · exact other b _ fun hb => by subst hb; rw [e2]
        split
        · exact other b _ fun hb => by subst hb; rw [e2]
        · exact other b _ fun hb => by subst hb; rw [e2]
  | window b now =>
    unfold step at hs
    dsimp only at hs
    cases Outcome.ok.inj hs
    left
    refine other b _ fun hb => ?_
    subst hb
    rw [(isWindowOpen_frame (s.ep b) now).2.1]
  | close b now =>
    unfold step at hs
    dsimp only at hs
    cases Outcome.ok.inj hs
    exact Or.inl rfl
  | flags b f rc l =>
    unfold step at hs
    dsimp only at hs
    cases Outcome.ok.inj hs
    left
    refine other b _ fun hb => ?_
    subst hb
    rfl

/-- C11. On a reliable flow a packet outside the receive window is not queued and the queue keeps what it held: what is queued by an
    active receiver lies in the window, and only its own slot changes. -/
theorem C11_outside_not_queued (e : Ep) (p : Pkt) (now : Int) (hf : e.rcv.frtx = true) (hact : inactive e.rcv now = false) :
    ((rcv e p now).2.1 = .queued → before p.seqno e.rcv.lwe = false ∧ before p.seqno e.rcv.rwe = true ∧ e.rq (pos p.seqno) = none) ∧
    (rcv e p now).1.rq = if (rcv e p now).2.1 = .queued then (fun i => if i = pos p.seqno then some p.payload else e.rq i) else e.rq := by
  have hrun : rcvRun e p now = some { e with rcv := { e.rcv with act := now } } := by unfold rcvRun; rw [hact]; rfl
  unfold rcv
  rw [hrun]
  dsimp only
  split
  · exact ⟨by rintro ⟨⟩, rfl⟩
  · obtain ⟨f1, f2, _⟩ := rcvFc_frame (rcvAck { e with rcv := { e.rcv with act := now } } p now) p
    obtain ⟨g1, g2, _⟩ := rcvAck_frame { e with rcv := { e.rcv with act := now } } p now
    rw [g1] at f1
    rw [g2] at f2
    generalize rcvFc (rcvAck { e with rcv := { e.rcv with act := now } } p now) p = e1 at f1 f2
    dsimp only at f1 f2 ⊢
    unfold rcvData
    rw [f1, f2]
    dsimp only
    cases hd : p.data
    · exact ⟨by rintro ⟨⟩, f2⟩
    cases h1 : before p.seqno e.rcv.lwe
    · simp only [Bool.not_true, Bool.false_eq_true, if_false, hf, if_true]
      cases h2 : before p.seqno e.rcv.rwe
      · exact ⟨by rintro ⟨⟩, f2⟩
      simp only [Bool.not_true, Bool.false_eq_true, if_false]
      cases h3 : before p.seqno (e.rcv.lwe + 256#32)
      · exact ⟨by rintro ⟨⟩, f2⟩
      simp only [Bool.not_true, Bool.false_eq_true, if_false]
      cases h4 : e.rq (pos p.seqno) with
      | none => simp
      | some b => exact ⟨by rintro ⟨⟩, f2⟩
    · exact ⟨by rintro ⟨⟩, rfl⟩

/-- C11. Without retransmission the right edge is not looked at: a packet arbitrarily far beyond the window is queued. -/
theorem C11_outside_not_queued_violated : ∃ (e : Ep) (p : Pkt) (now : Int), inactive e.rcv now = false ∧
    before p.seqno e.rcv.rwe = false ∧ (rcv e p now).2.1 = .queued :=
  ⟨(rcv (create 10 120 60 false (at' 0)) ⟨true, true, false, false, false, 0, 5#32, 0, [1#8]⟩ (at' 1)).1,
   ⟨true, false, false, false, false, 0, 70005#32, 0, [1#8]⟩, at' 2, by decide +kernel⟩

/-- C11. The 24 bits of a window announcement determine the new right edge exactly as long as it moved forward by at most `2^23`. -/
theorem C11_window_reconstructed (cur : W) (n : Nat) (hn : n ≤ 2 ^ 23) :
    recon cur ((cur + BitVec.ofNat 32 n).setWidth 24) = cur + BitVec.ofNat 32 n := recon_exact cur n hn

example : recon 0x00FFFFF0#32 ((0x00FFFFF0#32 + BitVec.ofNat 32 32).setWidth 24) = 0x01000010#32 := by decide

/-- C11 (partial: windows arrive in the order in which they were announced and writers ask before they write). A writer never gets more
    than 256 packets ahead of the reader, and every packet it sends in the run the receiver follows has a slot: the receiver drops such a
    packet only if it was read already or is queued already. -/
theorem C11_no_overrun_partial {a r mpl : Nat} {s : Sys} (h : ReachWindow a r mpl s) (d : Bool) :
    (written s d).length ≤ (readAtPeer s d).length + 256 ∧
    ∀ q ∈ s.net d, ∀ now, q.pkt.data = true → q.pkt.rdvs = false → q.tag.run = (s.dir d).run → (s.dir d).rrun = (s.dir d).run →
      inactive (s.ep (!d)).rcv now = false → (readAtPeer s d).length < q.tag.idx + 2 ^ 31 →
      (rcv (s.ep (!d)) q.pkt now).2.1 = .dropped →
      q.tag.idx < (readAtPeer s d).length ∨ (s.ep (!d)).rq (pos q.pkt.seqno) = some q.pkt.payload := by
  obtain ⟨hr, hw⟩ := invW_reach h
  have hv := inv_reach hr d
  have hvw := hw d
  have hlen : (s.dir d).sent.length ≤ (s.dir d).got.length + 256 := by
    rcases Nat.eq_zero_or_pos (s.dir d).run with h0 | h0
    · have := hv.run0 h0
      omega
    · have := hvw.lo h0
      have := hvw.hi h0
      omega
  refine ⟨hlen, ?_⟩
  intro q hq now hd hrd hrun hrr hact hnear hdrop
  obtain ⟨hdo, _⟩ := hv.data q hq hd
  have hlt := hdo.lt
  have hseq : q.pkt.seqno = (s.dir d).base + BitVec.ofNat 32 q.tag.idx := by
    rcases hdo.run with ⟨_, _, h3, _⟩ | ⟨h1, _⟩
    · exact h3
    · omega
  have hpos : 0 < (s.dir d).run := by
    by_contra h0
    have := hv.run0 (by omega)
    omega
  have hlwe := hv.cur1 hrr
  have hrwe := hv.cur2 hrr hpos
  rcases Nat.lt_or_ge q.tag.idx (s.dir d).got.length with hlo | hge
  · exact Or.inl hlo
  right
  have hb1 : before q.pkt.seqno (s.ep (!d)).rcv.lwe = false := by
    rw [← Bool.not_eq_true, hseq, hlwe, before_add _ _ _ (by omega) (by omega)]
    omega
  have hb2 : before q.pkt.seqno (s.ep (!d)).rcv.rwe = true := by
    rw [hseq, hrwe, before_add _ _ _ (by omega) (by omega)]
    omega
  have hb3 : before q.pkt.seqno ((s.ep (!d)).rcv.lwe + 256#32) = true := by
    rw [hseq, hlwe, add_256, before_add _ _ _ (by omega) (by omega)]
    omega
  have hrc : rcvRun (s.ep (!d)) q.pkt now = some { s.ep (!d) with rcv := { (s.ep (!d)).rcv with act := now } } := by
    unfold rcvRun; rw [hact]; rfl
  unfold rcv at hdrop
  rw [hrc] at hdrop
  simp only [hrd, Bool.false_eq_true, if_false] at hdrop
  obtain ⟨f1, f2, _⟩ := rcvFc_frame (rcvAck { s.ep (!d) with rcv := { (s.ep (!d)).rcv with act := now } } q.pkt now) q.pkt
  obtain ⟨g1, g2, _⟩ := rcvAck_frame { s.ep (!d) with rcv := { (s.ep (!d)).rcv with act := now } } q.pkt now
  unfold rcvData at hdrop
  rw [f1, f2, g1, g2] at hdrop
  simp only [hd, hb1, hb2, hb3, hv.frtxR, Bool.not_true, Bool.false_eq_true, if_false, if_true] at hdrop
  cases hslot : (s.ep (!d)).rq (pos q.pkt.seqno) with
  | none => rw [hslot] at hdrop; simp at hdrop
  | some b =>
    obtain ⟨g, g1, g2, g3, g4, g5, _⟩ := hv.rq _ _ hslot
    rw [hseq] at g4
    have := pos_inj _ _ _ (s.dir d).got.length hge (by omega) g1 g2 g4
    subst this
    rw [hdo.pl] at g5
    rw [g5]

/-- A history in which the windows of both ends are announced, in order; the first acknowledgement of `true` is late. -/
def windowed : List Op :=
  [.write true [1#8] (at' 0) 0xFFFFFFF0#32 true true, .recv false 0 (at' 0), .read false,
   .write false [9#8] (at' 1) 5#32 true true, .recv true 0 (at' 1), .read true,
   .write true [2#8] (at' 2) 0#32 true true, .recv false 1 (at' 2), .recv false 1 (at' 2), .read false,
   .ack false (at' 3), .recv true 1 (at' 3), .write true [3#8] (at' 3) 0#32 true true]

example : ((play (fun s op => decide (Ok 60 s op) && decide (OkWindow s op)) s0 windowed).map
    fun s => ((written s true).length, (readAtPeer s true).length, (s.dir true).wnd, (s.ep true).snd.rwe)) =
    some (3, 2, 258, 0xFFFFFFF0#32 + 258#32) := by decide +kernel

/-- C11. The right edge does move backward at the sender: a packet sent again carries the window it was first sent with. All the
    other conditions of `C09_reliable_steady_partial` hold. -/
theorem C11_edge_announced_violated : ∃ s s' k now, ReachSteady 10 120 60 s ∧ OkSteady 60 s (.recv false k now) ∧
    step s (.recv false k now) = .ok s' ∧ before (s'.ep false).snd.rwe (s.ep false).snd.rwe = true := by
  have h : ((play (fun s op => decide (OkSteady 60 s op)) s0
      [.write false [1#8] (at' 0) 5#32 true true, .recv true 0 (at' 0), .write true [9#8] (at' 1) 70#32 true true, .recv false 0 (at' 1),
       .read true, .ack true (at' 2), .recv false 1 (at' 2), .expire true 0 (at' 3) true true]).map
        fun s => (decide (OkSteady 60 s (.recv false 2 (at' 3))),
          match step s (.recv false 2 (at' 3)) with | .ub => false | .ok s' => before (s'.ep false).snd.rwe (s.ep false).snd.rwe)) =
      some (true, true) := by decide +kernel
  rw [Option.map_eq_some_iff] at h
  obtain ⟨s, h1, h2⟩ := h
  rw [Prod.mk.injEq] at h2
  obtain ⟨h2, h3⟩ := h2
  cases hs : step s (.recv false 2 (at' 3)) with
  | ub => rw [hs] at h3; cases h3
  | ok s' =>
    rw [hs] at h3
    exact ⟨s, s', 2, at' 3, play_steady (.init _) h1, of_decide_eq_true h2, hs, h3⟩

/-- C11. If the edge has just crossed a multiple of `2^24`, such a packet moves it forward by almost `2^24` instead: the window the
    receiver meant to bound by 256 packets is open for sixteen million. -/
theorem C11_edge_jump_violated : ∃ s s' k now, ReachSteady 10 120 60 s ∧ OkSteady 60 s (.recv false k now) ∧
    step s (.recv false k now) = .ok s' ∧ 2 ^ 24 - 2 ≤ dist (s'.ep true).rcv.rwe (s'.ep false).snd.rwe ∧
    dist (s'.ep true).rcv.rwe (s'.ep false).snd.rwe < 2 ^ 24 := by
  have h : ((play (fun s op => decide (OkSteady 60 s op)) s0
      [.write false [1#8] (at' 0) 0xFFFEFF#32 true true, .recv true 0 (at' 0), .write true [9#8] (at' 1) 70#32 true true, .recv false 0 (at' 1),
       .read true, .ack true (at' 2), .recv false 1 (at' 2), .expire true 0 (at' 3) true true]).map
        fun s => (decide (OkSteady 60 s (.recv false 2 (at' 3))),
          match step s (.recv false 2 (at' 3)) with | .ub => 0 | .ok s' => dist (s'.ep true).rcv.rwe (s'.ep false).snd.rwe)) =
      some (true, 2 ^ 24 - 1) := by decide +kernel
  rw [Option.map_eq_some_iff] at h
  obtain ⟨s, h1, h2⟩ := h
  rw [Prod.mk.injEq] at h2
  obtain ⟨h2, h3⟩ := h2
  cases hs : step s (.recv false 2 (at' 3)) with
  | ub => rw [hs] at h3; cases h3
  | ok s' =>
    rw [hs] at h3
    dsimp only at h3
    exact ⟨s, s', 2, at' 3, play_steady (.init _) h1, of_decide_eq_true h2, hs, by omega, by omega⟩

/-! ## C57: a blocking writer -/

/-- C57 (partial: as `C11_no_overrun_partial`). When a blocking writer is let through, flow control is off or the window is open, so the
    test of the blocking path agrees with that of the non-blocking path. -/
theorem C57_writer_waits_partial {a r mpl : Nat} {s : Sys} (h : ReachWindow a r mpl s) (d : Bool) (now now' t : Int) (late : Bool)
    (hrun : 0 < (s.dir d).run) : (windowWait (s.ep d) now now' late).2 = .done ↔ (isWindowOpen (s.ep d) t).2.1 = true := by
  obtain ⟨hr, hw⟩ := invW_reach h
  have hv := inv_reach hr d
  have hvw := hw d
  rw [(C11_is_window_open _ _).1, ← before_iff]
  have hedge := hvw.edge hrun
  have hlo := hvw.lo hrun
  have hhi := hvw.hi hrun
  have hseq := hv.seqS
  have hdg := hv.dg
  have hb : before (s.ep d).snd.seqno (s.ep d).snd.rwe = true ↔ (s.dir d).sent.length < (s.dir d).wnd := by
    rw [hedge, hseq]
    exact before_add _ _ _ (by omega) (by omega)
  have hne : (s.ep d).snd.seqno = (s.ep d).snd.rwe ↔ (s.dir d).sent.length = (s.dir d).wnd := by
    rw [hedge, hseq, add_inj]
    constructor
    · intro h; omega
    · intro h; rw [h]
  rw [hb]
  unfold windowWait
  cases hrc : (s.ep d).snd.rescntl
  · simp
  · simp only [Bool.not_true, Bool.false_eq_true, if_false, reduceCtorEq, false_or]
    by_cases he : (s.ep d).snd.seqno = (s.ep d).snd.rwe
    · have := hne.mp he
      rw [he]
      simp only [bne_self_eq_false, Bool.false_eq_true, if_false]
      constructor
      · intro h
        exfalso
        revert h
        cases late
        · simp
        · simp only [if_true]
          generalize (if (s.ep d).isOpen = true then { s.ep d with isOpen := false, tWnd := now, tRdvs := now } else s.ep d) = e
          split
          · rintro ⟨⟩
          split
          · rintro ⟨⟩
          · rintro ⟨⟩
      · intro h; omega
    · have : ((s.ep d).snd.seqno != (s.ep d).snd.rwe) = true := by simpa using he
      rw [this]
      simp only [if_true, true_iff]
      have : (s.dir d).sent.length ≠ (s.dir d).wnd := fun h => he (hne.mpr h)
      omega

example : ((play (fun s op => decide (Ok 60 s op) && decide (OkWindow s op)) s0 windowed).map
    fun s => ((s.dir true).run, (windowWait (s.ep true) 0 0 true).2)) = some (1, .done) := by decide +kernel

/-- C57. A window of an earlier run makes the blocking path let a writer through although the window is closed. -/
theorem C57_writer_waits_violated : ∃ s, ReachNet 10 120 60 s ∧ (windowWait (s.ep true) s.now s.now false).2 = .done ∧
    (isWindowOpen (s.ep true) s.now).2.1 = false := by
  have h : ((play (fun s op => decide (OkNet 60 s op)) s0
      [.write true [1#8] (at' 0) 5#32 true true, .recv false 0 (at' 0), .read false,
       .write false [9#8] (at' 1) 70#32 true true, .recv true 0 (at' 1), .read true, .ack true (at' 2), .recv false 1 (at' 2),
       .write false [8#8] (at' 200) 0#32 true true, .recv true 1 (at' 200), .read true, .ack true (at' 201), .recv false 2 (at' 201),
       .write true [2#8] (at' 313) 1000#32 true true, .write false [7#8] (at' 313) 0#32 true true, .recv true 2 (at' 313)]).map
        fun s => ((windowWait (s.ep true) s.now s.now false).2, (isWindowOpen (s.ep true) s.now).2.1)) =
      some (.done, false) := by decide +kernel
  rw [Option.map_eq_some_iff] at h
  obtain ⟨s, h1, h2⟩ := h
  rw [Prod.mk.injEq] at h2
  exact ⟨s, play_net (.init _) h1, h2⟩

/-- C57. A writer that fills the first window before any window was announced is told that the connection was reset at its first
    timeout, without any rendez-vous having been sent. -/
theorem C57_reset_violated : ∃ s, ReachSteady 10 120 60 s ∧ (s.net true).all (fun q => !q.pkt.rdvs) = true ∧
    (windowWait (s.ep true) s.now (s.now + 1) true).2 = .reset none := by
  have h : ((play (fun s op => decide (OkSteady 60 s op)) s0
      (List.replicate 64 (.write true [1#8] (at' 0) 5#32 true true))).map
        fun s => ((s.net true).all (fun q => !q.pkt.rdvs), (windowWait (s.ep true) s.now (s.now + 1) true).2)) =
      some (true, .reset none) := by decide +kernel
  rw [Option.map_eq_some_iff] at h
  obtain ⟨s, h1, h2⟩ := h
  rw [Prod.mk.injEq] at h2
  exact ⟨s, play_steady (.init _) h1, h2⟩

/-! ## C56 -/

/-- C56. Flags, window, sequence number, acknowledgement and payload of an FRCT packet survive the wire, for every packet. -/
theorem C56_header_round_trip (p : Pkt) : decode (encode p) = .ok p := by
  obtain ⟨data, drf, ack, fc, rdvs, window, seqno, ackno, payload⟩ := p
  have hw : FaMsg.beVal (FaMsg.beBytes 3 window.toNat) = window.toNat := FaMsg.beVal_beBytes (by have := window.isLt; omega)
  have hs : FaMsg.beVal (FaMsg.beBytes 4 seqno.toNat) = seqno.toNat := FaMsg.beVal_beBytes (by have := seqno.isLt; omega)
  have ha : FaMsg.beVal (FaMsg.beBytes 4 ackno.toNat) = ackno.toNat := FaMsg.beVal_beBytes (by have := ackno.isLt; omega)
  unfold encode decode
  dsimp only
  rw [if_neg (by simp; omega)]
  have h3 : (FaMsg.beBytes 3 window.toNat).length = 3 := by simp
  have h4 : (FaMsg.beBytes 4 seqno.toNat).length = 4 := by simp
  have h5 : (FaMsg.beBytes 4 ackno.toNat).length = 4 := by simp
  have t1 : ∀ l : List Byte, (FaMsg.beBytes 3 window.toNat ++ l).take 3 = FaMsg.beBytes 3 window.toNat := fun l => List.take_left' h3
  have t2 : ∀ l : List Byte, (FaMsg.beBytes 3 window.toNat ++ l).drop 3 = l := fun l => List.drop_left' h3
  have t3 : ∀ l : List Byte, (FaMsg.beBytes 4 seqno.toNat ++ l).take 4 = FaMsg.beBytes 4 seqno.toNat := fun l => List.take_left' h4
  have t4 : ∀ l : List Byte, (FaMsg.beBytes 4 seqno.toNat ++ l).drop 4 = l := fun l => List.drop_left' h4
  have t5 : ∀ l : List Byte, (FaMsg.beBytes 4 ackno.toNat ++ l).take 4 = FaMsg.beBytes 4 ackno.toNat := fun l => List.take_left' h5
  have t6 : ∀ l : List Byte, (FaMsg.beBytes 4 ackno.toNat ++ l).drop 4 = l := fun l => List.drop_left' h5
  have d7 : ∀ l : List Byte, l.drop 7 = (l.drop 3).drop 4 := fun l => by rw [List.drop_drop]
  have d11 : ∀ l : List Byte, l.drop 11 = ((l.drop 3).drop 4).drop 4 := fun l => by rw [List.drop_drop, List.drop_drop]
  rw [d7, d11, t1, t2, t3, t4, t5, t6, hw, hs, ha]
  simp only [BitVec.ofNat_toNat, BitVec.setWidth_eq]
  have hfl : ∀ a b c d e : Bool,
      (BitVec.ofNat 8 (a.toNat + 2 * b.toNat + 4 * c.toNat + 8 * d.toNat + 16 * e.toNat)).toNat.testBit 0 = a ∧
      (BitVec.ofNat 8 (a.toNat + 2 * b.toNat + 4 * c.toNat + 8 * d.toNat + 16 * e.toNat)).toNat.testBit 1 = b ∧
      (BitVec.ofNat 8 (a.toNat + 2 * b.toNat + 4 * c.toNat + 8 * d.toNat + 16 * e.toNat)).toNat.testBit 2 = c ∧
      (BitVec.ofNat 8 (a.toNat + 2 * b.toNat + 4 * c.toNat + 8 * d.toNat + 16 * e.toNat)).toNat.testBit 3 = d ∧
      (BitVec.ofNat 8 (a.toNat + 2 * b.toNat + 4 * c.toNat + 8 * d.toNat + 16 * e.toNat)).toNat.testBit 4 = e := by decide
  obtain ⟨f0, f1, f2, f3, f4⟩ := hfl data drf ack fc rdvs
  unfold flagsByte
  rw [f0, f1, f2, f3, f4]

/-- C56. Two different packets are different on the wire. -/
theorem C56_header_injective (p q : Pkt) (h : encode p = encode q) : p = q := by
  have := C56_header_round_trip p
  rw [h, C56_header_round_trip q] at this
  exact (Outcome.ok.inj this).symm

example : encode ⟨true, true, false, true, false, 0x000105#24, 5#32, 0, [0xAB#8]⟩ =
    [0x0B#8, 0#8, 1#8, 5#8, 0#8, 0#8, 0#8, 5#8, 0#8, 0#8, 0#8, 0#8, 0xAB#8] := by decide

/-- C56. A packet shorter than the header is read beyond its end. -/
theorem C56_short_packet_violated (b : List Byte) (h : b.length < 12) : decode b = .ub := by
  unfold decode
  cases b with
  | nil => rfl
  | cons f rest => rw [List.length_cons] at h; dsimp only; rw [if_pos (by omega)]

end Ouro.Frct
