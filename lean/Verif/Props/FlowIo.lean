import Verif.Proof.FlowIo
import Verif.Spec.FlowSettings

/-!
# C16, C17, C18: reading, writing and configuring a flow

A history is any interleaving of the steps of any number of threads in `flow_write`, one thread in `flow_read`, `fccntl`, the
keepalive timer and the other end of the flow (`FlowIo.Op`), starting from a new flow with rings of `2^k` cells, for any `k`
and any QoS. `Spec/FlowIoHistory.lean` has the conditions on the steps.
-/

namespace Ouro.FlowIo

open Ouro.Rbuff
open Spec.Datagrams (Ev follow exact lossy)

/-- What was observed: arrivals and reads; packets that the transmit ring took; packets that the other end took from it. -/
structure Log where
  reads : List (Ev Byte)
  sent : List (List Byte)
  got : List (List Byte)

/-- The executions of the model whose steps all satisfy `ok`, with what was observed. -/
inductive Exec (k : Nat) (qs : Qoscube.Spec) (ok : St → Op → Prop) : Log → St → Prop
  | start : Exec k qs ok ⟨[], [], []⟩ (init k qs)
  | step {l : Log} {s s' : St} {op : Op} {r : Ret} : Exec k qs ok l s → ok s op → step s op = .ok (s', r) →
      Exec k qs ok ⟨l.reads ++ evs s op r, l.sent ++ (accepted s op).toList, l.got ++ (taken op r).toList⟩ s'

/-! ## Computing executions for the examples -/

instance (s : St) (op : Op) : Decidable (Ok s op) := by
  unfold Ok
  split <;> try infer_instance
  all_goals
    split
    · infer_instance
    · first
      | infer_instance
      | (split <;> infer_instance)

/-- Run a list of steps, all of which must be `Ok`. -/
def play (s : St) (l : Log) : List Op → Option (St × Log)
  | [] => some (s, l)
  | op :: ops =>
    if Ok s op then
      match step s op with
      | .ub => none
      | .ok (s', r) => play s' ⟨l.reads ++ evs s op r, l.sent ++ (accepted s op).toList, l.got ++ (taken op r).toList⟩ ops
    else none

theorem play_exec {k : Nat} {qs : Qoscube.Spec} {ops : List Op} : ∀ {s : St} {l : Log}, Exec k qs Ok l s → ∀ {s' : St} {l' : Log},
    play s l ops = some (s', l') → Exec k qs Ok l' s' := by
  induction ops with
  | nil =>
    intro s l h s' l' e
    cases Option.some.inj e
    exact h
  | cons op ops ih =>
    intro s l h s' l' e
    unfold play at e
    split at e
    · rename_i hok
      split at e
      · cases e
      · rename_i s1 r h1
        exact ih (.step h hok h1) e
    · cases e

/-- A flow without error detection, and one with. -/
def plain : Qoscube.Spec := ⟨0, 0, 0, 0, 1, 0, 0, 0, 0⟩
def checked : Qoscube.Spec := ⟨0, 0, 0, 0, 0, 0, 0, 0, 0⟩

/-- Run a list of steps without conditions, with what they showed. -/
def runAll (s : St) : List Op → Outcome (St × List Ret)
  | [] => .ok (s, [])
  | op :: ops =>
    match step s op with
    | .ub => .ub
    | .ok (s', r) =>
      match runAll s' ops with
      | .ub => .ub
      | .ok (s'', rs) => .ok (s'', r :: rs)

/-- The outcome is undefined behaviour. -/
def isUb {α : Type} : Outcome α → Bool
  | .ub => true
  | .ok _ => false

theorem isUb_eq {α : Type} {o : Outcome α} (h : isUb o = true) : o = .ub := by
  cases o with
  | ub => rfl
  | ok a => cases h

/-! ## The invariant -/

theorem exec_inv {k : Nat} {qs : Qoscube.Spec} {ok : St → Op → Prop} (hok : ∀ s op, ok s op → Ok s op) {l : Log} {s : St}
    (h : Exec k qs ok l s) : Inv s ∧ l.sent.map some = l.got.map some ++ outgoing s := by
  induction h with
  | start => exact ⟨inv_init k qs, by rw [out_init]; rfl⟩
  | @step l s s' op r _ h1 h2 ih =>
    obtain ⟨t, r', e, hi, ht, -⟩ := good_step (keep := id) ih.1 op (hok _ _ h1)
    rw [h2] at e
    cases Outcome.ok.inj e
    refine ⟨hi, ?_⟩
    unfold TxStep at ht
    rw [List.map_append, List.map_append, ih.2, List.append_assoc, ← ht, List.append_assoc]

theorem follow_append {keep : List Byte → List Byte} {a b : List (Ev Byte)} : ∀ {r r' : Spec.Datagrams.Reader Byte},
    follow keep r a = some r' → follow keep r (a ++ b) = follow keep r' b := by
  induction a with
  | nil =>
    intro r r' h
    cases Option.some.inj h
    rfl
  | cons e a ih =>
    intro r r' h
    simp only [follow, List.cons_append] at h ⊢
    cases hn : Spec.Datagrams.next keep r e with
    | none => rw [hn] at h; cases h
    | some r1 =>
      rw [hn] at h
      exact ih h

theorem exec_follow {k : Nat} {qs : Qoscube.Spec} {keep : List Byte → List Byte} (hk : keep [] = []) {ok : St → Op → Prop}
    (hok : ∀ s op, ok s op → Ok s op ∧ NoLoss keep s op) {l : Log} {s : St} (h : Exec k qs ok l s) :
    follow keep ⟨[], none⟩ l.reads = some (view s) := by
  induction h with
  | start => rw [view_init]; rfl
  | @step l s s' op r h0 h1 h2 ih =>
    obtain ⟨t, r', e, -, -, hf⟩ := good_step (keep := keep) (exec_inv (fun s op x => (hok s op x).1) h0).1 op (hok _ _ h1).1
    rw [h2] at e
    cases Outcome.ok.inj e
    exact (follow_append ih).trans (hf hk (hok _ _ h1).2)

/-! ## C16: reading -/

/-- No read asks for zero bytes. -/
def NonZero (s : St) : Op → Prop
  | .readerDone k => ∀ x, s.readers[k]? = some x → x.count ≠ 0
  | _ => True

/-- A read with partial reads enabled takes the whole datagram. -/
def Whole (s : St) : Op → Prop
  | .readerDone k => ∀ x i fp bs, s.readers[k]? = some x → x.pc = .got i fp → s.pool i = some bs → x.partrd = true →
      bs.length ≤ x.count
  | _ => True

/-- **C16, part.** In every history in which the buffer of a read with partial reads enabled is not shorter than the datagram (and
not empty), the reads return the datagrams that arrived, in order, each once and completely; a datagram that fills the
buffer is followed by a read that returns 0 bytes; without partial reads a datagram that does not fit gives `-EMSGSIZE` and
is gone. What is missing: pieces of longer datagrams, see `C16_violated`. -/
theorem C16_reads_partial (k : Nat) (qs : Qoscube.Spec) {l : Log} {s : St}
    (h : Exec k qs (fun s op => Ok s op ∧ NonZero s op ∧ Whole s op) l s) :
    ∃ r, follow exact ⟨[], none⟩ l.reads = some r := by
  refine ⟨_, exec_follow (keep := exact) rfl ?_ h⟩
  intro s op ⟨h1, h2, h3⟩
  refine ⟨h1, ?_⟩
  cases op <;> try trivial
  rename_i k
  intro x i fp bs hx hp hb hpt
  refine ⟨fun _ hl => ?_, fun _ => h2 x hx⟩
  have := h3 x i fp bs hx hp hb hpt
  omega

/-- **C16, part.** In every history in which no read asks for zero bytes, the reads return a prefix of each datagram that arrived,
in order, each datagram at most once, never bytes of two datagrams; and the datagrams that are neither read nor waiting in
the ring are those that a read began. -/
theorem C16_prefix_partial (k : Nat) (qs : Qoscube.Spec) {l : Log} {s : St}
    (h : Exec k qs (fun s op => Ok s op ∧ NonZero s op) l s) :
    ∃ r, follow lossy ⟨[], none⟩ l.reads = some r ∧
      (s.readers = [] → r.queue = (contents s.rx).filterMap (fun v => (s.pool v.toNat).bind (payload s.fl))) := by
  refine ⟨_, exec_follow (keep := lossy) rfl ?_ h, ?_⟩
  · intro s op ⟨h1, h2⟩
    refine ⟨h1, ?_⟩
    cases op <;> try trivial
    rename_i k
    intro x i fp bs hx hp hb hpt
    exact ⟨fun _ _ => rfl, fun _ => h2 x hx⟩
  · intro hr
    simp [view, hr, hand, pend]

/-- Two datagrams of 3 and 2 bytes, read with buffers of 3, 3 (the end of the first) and 5 bytes. -/
def wholeOps : List Op :=
  [.peerPut 7 [1#8, 2#8, 3#8], .peerPut 4 [8#8, 9#8], .read 3, .readerRx 0 0, .readerDone 0, .read 3, .read 5, .readerRx 0 0,
    .readerDone 0]

example : (play (init 2 plain) ⟨[], [], []⟩ wholeOps).map (fun x => (x.2.reads, x.1.pool 7, x.1.pool 4)) =
    some ([.arrive [1#8, 2#8, 3#8], .arrive [8#8, 9#8], .read 3 true [1#8, 2#8, 3#8], .read 3 true [], .read 5 true [8#8, 9#8]],
      none, none) := by decide +kernel

/-- The same on a flow with a CRC, without partial reads, with a packet whose CRC is wrong in between and a last datagram that
is too long. -/
def checkedOps : List Op :=
  [.fccntl (.setFlags (FLOWFRDWR ||| FLOWFRNOPART)), .peerPut 7 ([1#8, 2#8, 3#8] ++ crcBytes [1#8, 2#8, 3#8]),
    .peerPut 4 [8#8, 9#8, 0#8, 0#8, 0#8, 0#8], .peerPut 5 ([5#8, 6#8] ++ crcBytes [5#8, 6#8]), .read 3, .readerRx 0 0,
    .readerDone 0, .read 1, .readerRx 0 0, .readerRx 0 0, .readerDone 0]

example : (play (init 2 checked) ⟨[], [], []⟩ checkedOps).map (fun x => (x.2.reads, x.1.pool 7, x.1.pool 4, x.1.pool 5)) =
    some ([.arrive [1#8, 2#8, 3#8], .arrive [5#8, 6#8], .read 3 false [1#8, 2#8, 3#8], .tooLong 1], none, none, none) := by
  decide +kernel

/-- The hypotheses of `C16_reads_partial` are met by a run with two datagrams. -/
example : ∃ l s, Exec 2 plain (fun s op => Ok s op ∧ NonZero s op ∧ Whole s op) l s ∧
    l.reads = [.arrive [1#8, 2#8, 3#8], .read 5 true [1#8, 2#8, 3#8]] := by
  refine ⟨_, _, .step (op := .readerDone 0) (.step (op := .readerRx 0 0) (.step (op := .read 5)
    (.step (op := .peerPut 7 [1#8, 2#8, 3#8]) .start ⟨by decide, trivial, trivial⟩ rfl) ⟨by decide, trivial, trivial⟩ rfl)
    ⟨by decide, trivial, trivial⟩ rfl) ⟨by decide, ?_, ?_⟩ rfl, rfl⟩
  · intro x hx
    cases Option.some.inj hx
    decide
  · intro x i fp bs hx hp hb _
    cases Option.some.inj hx
    cases hp
    cases Option.some.inj hb
    decide

/-- **C16 fails**: a datagram of 3 bytes is read with a buffer of 2 bytes and partial reads enabled. The second read returns 0
bytes: the third byte is never delivered (src/lib/dev.c:1432 drops the whole packet instead of `count` bytes). -/
theorem C16_violated : ∃ l s, Exec 2 plain Ok l s ∧
    l.reads = [.arrive [1#8, 2#8, 3#8], .read 2 true [1#8, 2#8], .read 2 true []] ∧ follow exact ⟨[], none⟩ l.reads = none := by
  let ops : List Op := [.peerPut 7 [1#8, 2#8, 3#8], .read 2, .readerRx 0 0, .readerDone 0, .read 2, .readerDone 0]
  have h : (play (init 2 plain) ⟨[], [], []⟩ ops).map (fun x => x.2.reads) =
      some [.arrive [1#8, 2#8, 3#8], .read 2 true [1#8, 2#8], .read 2 true []] := by decide +kernel
  cases hp : play (init 2 plain) ⟨[], [], []⟩ ops with
  | none => rw [hp] at h; cases h
  | some x =>
    rw [hp] at h
    have h' : x.2.reads = _ := Option.some.inj h
    refine ⟨x.2, x.1, play_exec .start hp, h', ?_⟩
    rw [h']
    decide +kernel

/-- **C16 fails with two threads** (flow_read(3) says it is MT-safe): after a partial read two threads call `flow_read`; both
take the packet kept for the next read, the first removes it, the second touches it. -/
theorem C16_two_readers_violated : runAll (init 2 plain)
    [.peerPut 7 [1#8, 2#8, 3#8], .read 2, .readerRx 0 0, .readerDone 0, .read 2, .read 2, .readerDone 0, .readerDone 0] = .ub :=
  isUb_eq (by decide +kernel)

/-- **C16 fails on short packets**: on a flow with a CRC, a packet of 1 to 3 bytes from the network makes `flow_read` check a CRC
outside the packet. -/
theorem C16_short_packet_violated (b : Byte) : runAll (init 2 checked) [.peerPut 7 [b], .read 2, .readerRx 0 0] = .ub := by
  refine isUb_eq ?_
  revert b
  decide +kernel

/-! ## C17: writing -/

/-- **C17, part.** Every packet in use is in exactly one place (a ring, the hands of one thread, kept for the next read), and a
packet not in use is nowhere. No step accesses a packet that is not in use (`step` never yields undefined behaviour).
Conditions: `Ok`; see the refutations below. -/
theorem C17_no_leak_partial (k : Nat) (qs : Qoscube.Spec) {l : Log} {s : St} (h : Exec k qs Ok l s) :
    (∀ i, (s.pool i ≠ none → cnt s i = 1) ∧ (s.pool i = none → cnt s i = 0)) ∧
    (contents s.tx = [] → contents s.rx = [] → s.writers = [] → s.readers = [] → (∀ i, s.fl.part ≠ .at i) →
      ∀ i, s.pool i = none) ∧
    (∀ op, Ok s op → ∃ s' r, step s op = .ok (s', r)) := by
  have hi := (exec_inv (fun _ _ x => x) h).1
  refine ⟨fun i => ?_, ?_, ?_⟩
  · have hb := hi.bal i
    constructor
    · intro hn
      cases hp : s.pool i with
      | none => exact absurd hp hn
      | some x => rw [hp] at hb; simpa using hb
    · intro hn
      rw [hn] at hb
      simpa using hb
  · intro h1 h2 h3 h4 h5 i
    have hb := hi.bal i
    cases hp : s.pool i with
    | none => rfl
    | some x =>
      rw [hp] at hb
      simp [cnt, inRing, h1, h2, h3, h4, inPart, h5 i] at hb
  · intro op ho
    obtain ⟨s', r, e, -⟩ := good_step (keep := id) hi op ho
    exact ⟨s', r, e⟩

/-- **C17, part.** A call of `flow_write` that gets to the ring when the ring is open and has room returns the number of bytes
written, and its packet (the bytes, with their CRC if the flow has one) is the last of the transmit ring, behind all that
were there. If the ring is closed or full for a call that must not wait, the packet is nowhere and its memory is returned,
but the call returns the number of bytes all the same. -/
theorem C17_write_queued_partial (k : Nat) (qs : Qoscube.Spec) {l : Log} {s : St} (h : Exec k qs Ok l s) {w i : Nat} {x : Writer}
    (hx : s.writers[w]? = some x) (hp : x.pc = .tx i) (ok : Known s.tx) :
    ∃ s' r, step s (.writerTx w 0) = .ok (s', r) ∧
      (s.tx.acl = ACL_RDWR ∧ s.tx.free = true → r = .ret x.data.length ∧ outgoing s' = outgoing s ++ [some (wire s.fl x.data)] ∧
        contents s'.tx = contents s.tx ++ [(i : Int)]) ∧
      (s.tx.acl ≠ ACL_RDWR ∨ (s.tx.free = false ∧ x.nonblock = true) → r = .ret x.data.length ∧ outgoing s' = outgoing s ∧
        s'.pool i = none) ∧
      (s.tx.acl = ACL_RDWR ∧ s.tx.free = false ∧ x.nonblock = false → r = .inside ∧ outgoing s' = outgoing s) := by
  have hi := (exec_inv (fun _ _ x => x) h).1
  have hok : Ok s (.writerTx w 0) := by simp only [Ok, hx, hp]; exact ok
  obtain ⟨s', r, e, -, ht, -⟩ := good_step (keep := id) hi _ hok
  have hpi : s.pool i = some (wire s.fl x.data) := hi.wr x (List.mem_of_getElem? hx) i (by simp [Writer.holds, hp])
  unfold TxStep at ht
  simp only [taken, accepted, hx, hp, Option.toList_none, List.map_nil, List.nil_append] at ht
  refine ⟨s', r, e, ?_, ?_, ?_⟩
  all_goals
    simp only [step, writerTx, hx, hp, ringWrite, onRing_write hi.wtx i, onRing_writeB hi.wtx i] at e
  · intro ⟨ha, hf⟩
    simp only [ha, hf, ne_eq, not_true, if_false, Bool.not_true, Bool.false_eq_true, ite_self, Outcome.bind_ok] at e
    unfold writerEnd at e
    simp at e
    obtain ⟨rfl, rfl⟩ := e
    refine ⟨rfl, ?_, pushed_contents hi.wtx i (hi.wtx.free_iff.mp hf)⟩
    simpa [ha, hf] using ht
  · intro hc
    have hv : ∃ v : Int, v < 0 ∧ writerEnd s w x i (s.tx, .ret v) = .ok (s', r) := by
      by_cases ha : s.tx.acl = ACL_RDWR
      · have hc' : s.tx.free = false ∧ x.nonblock = true := by
          rcases hc with hc | hc
          · exact absurd ha hc
          · exact hc
        refine ⟨-EAGAIN, by decide, ?_⟩
        simpa [ha, hc'.1, hc'.2] using e
      · refine ⟨s.tx.denyCode, ok.deny ha, ?_⟩
        simp only [ne_eq, ha, not_false_eq_true, if_true, ite_self, Outcome.bind_ok] at e
        exact e
    obtain ⟨v, hv, e'⟩ := hv
    have hno : ¬ (s.tx.acl = ACL_RDWR ∧ s.tx.free = true) := by
      rintro ⟨h1, h2⟩
      rcases hc with hc | hc
      · exact hc h1
      · rw [h2] at hc; cases hc.1
    rw [if_neg hno] at ht
    unfold writerEnd freePkt at e'
    simp only [hv, if_true, hpi, Outcome.bind_ok, Outcome.pure_eq] at e'
    cases Outcome.ok.inj e'
    exact ⟨rfl, by simpa using ht, by simp⟩
  · intro ⟨ha, hf, hn⟩
    simp only [ha, hf, hn, ne_eq, not_true, if_false, Bool.not_false, Bool.false_eq_true, Outcome.bind_ok] at e
    unfold writerEnd at e
    simp at e
    obtain ⟨rfl, rfl⟩ := e
    refine ⟨rfl, ?_⟩
    simpa [hf] using ht

/-- **C17, part.** A call of `flow_write` that returns a negative value has changed nothing in the rings and the packet pool, and
the value is one of the documented ones. -/
theorem C17_failure_no_effect {s s' : St} {op : Op} {v : Int} (hop : (∃ b, op = .write b) ∨ (∃ w, op = .writerRefused w) ∨
      (∃ w rc, op = .writerTx w rc)) (h : step s op = .ok (s', .ret v)) (hv : v < 0) :
    s'.rx = s.rx ∧ s'.tx = s.tx ∧ s'.pool = s.pool ∧ s'.fl = s.fl ∧
      (v = -EINVAL ∨ v = -ENOTALLOC ∨ v = -EPERM ∨ v = -EAGAIN ∨ v = -ETIMEDOUT) := by
  rcases hop with ⟨b, rfl⟩ | ⟨w, rfl⟩ | ⟨w, rc, rfl⟩
  · have e := Outcome.ok.inj h
    unfold writeCall at e
    split at e
    · cases e; simp
    · split at e
      · cases e; simp
      · split at e
        · cases e; simp
        · cases e
  · have e := Outcome.ok.inj h
    unfold writerRefused at e
    split at e
    · cases e
    · split at e
      · split at e
        · cases e; simp
        · split at e
          · cases e; simp
          · cases e
      · cases e
  · exfalso
    have key : ∀ x i q, writerEnd s w x i q = .ok (s', .ret v) → v = x.data.length := by
      intro x i q e
      unfold writerEnd at e
      split at e
      · cases Outcome.ok.inj e
      · dsimp only at e
        split at e
        · unfold freePkt at e
          split at e
          · cases Outcome.ok.inj e; rfl
          · cases e
        · cases Outcome.ok.inj e; rfl
    simp only [step, writerTx] at h
    split at h
    · cases Outcome.ok.inj h
    · rename_i x _
      have : v = x.data.length := by
        split at h
        · cases Outcome.ok.inj h
        · rename_i i _
          cases hq : ringWrite s.tx x.nonblock i with
          | ub => rw [hq] at h; cases h
          | ok q => rw [hq] at h; exact key _ _ _ h
        · rename_i i _
          cases hq : onRing s.tx (Rbuff.writeBLoop · i (-rc)) with
          | ub => rw [hq] at h; cases h
          | ok q => rw [hq] at h; exact key _ _ _ h
      omega

/-- **C17, delivery.** In every history the packets that the transmit ring took are, in order, unchanged and each once: those the
other end has taken, then those still in the ring. -/
theorem C17_fifo_partial (k : Nat) (qs : Qoscube.Spec) {l : Log} {s : St} (h : Exec k qs Ok l s) :
    l.sent.map some = l.got.map some ++ outgoing s := (exec_inv (fun _ _ x => x) h).2

/-- The receiver of a non-empty datagram gets back the bytes that were written (with the same QoS at both ends). -/
theorem C17_payload_of_wire (f g : Flow) (hq : f.qs = g.qs) (data : List Byte) (hd : data ≠ []) :
    payload g (wire f data) = some data := by
  have hl : 0 < data.length := List.length_pos_iff.mpr hd
  have hfg : f.crc = g.crc := by unfold Flow.crc; rw [hq]
  have h4 : (crcBytes data).length = 4 := by simp [crcBytes]
  unfold payload wire rxCheck
  rw [if_pos hl, hfg]
  cases g.crc with
  | false =>
    simp only [Bool.false_eq_true, if_false]
    rw [if_neg (by omega)]
  | true =>
    simp only [if_true, List.length_append, h4]
    rw [if_neg (by omega), if_neg (by omega)]
    simp

/-- Two writers and the other end: both packets arrive in the order in which the ring took them. -/
def writeOps : List Op :=
  [.write (.bytes [1#8, 2#8]), .write (.bytes [3#8]), .writerAlloc 1 4, .writerAlloc 0 9, .keepalive 6, .writerTx 1 0,
    .writerTx 0 0, .peerGet, .peerGet, .peerGet]

example : (play (init 2 plain) ⟨[], [], []⟩ writeOps).map (fun x => (x.2.sent, x.2.got, x.1.pool 4, x.1.pool 9)) =
    some ([[], [3#8], [1#8, 2#8]], [[], [3#8], [1#8, 2#8]], none, none) := by decide +kernel

/-- A writer that finds the ring full sleeps and goes on when there is room. -/
def sleepOps : List Op :=
  [.write (.bytes [1#8, 2#8]), .writerAlloc 0 4, .writerTx 0 0, .write (.bytes [3#8]), .writerAlloc 0 5, .writerTx 0 0, .peerGet,
    .writerTx 0 0, .peerGet]

example : (play (init 1 plain) ⟨[], [], []⟩ sleepOps).map (fun x => (x.2.sent, x.2.got, x.1.writers)) =
    some ([[1#8, 2#8], [3#8]], [[1#8, 2#8], [3#8]], []) := by decide +kernel

/-- The hypotheses of `C17_write_queued_partial` are met, with a writer at the ring. -/
example : (play (init 2 plain) ⟨[], [], []⟩ [.write (.bytes [1#8, 2#8]), .writerAlloc 0 4]).map
    (fun x => (x.1.writers.map Writer.pc, x.1.tx.acl, x.1.tx.free)) = some ([.tx 4], ACL_RDWR, true) := by decide +kernel

/-- **C17 fails on a full ring**: a non-blocking write to a full ring returns the number of bytes, not `-EAGAIN`; the packet
is dropped. -/
theorem C17_full_violated : ∃ s, runAll (init 1 plain) [.fccntl (.setFlags (FLOWFDEFAULT ||| FLOWFWNOBLOCK)),
      .write (.bytes [1#8, 2#8]), .writerAlloc 0 4, .writerTx 0 0, .write (.bytes [3#8]), .writerAlloc 0 5, .writerTx 0 0] =
      .ok (s, [.ret 0, .inside, .inside, .ret 2, .inside, .inside, .ret 1]) ∧ outgoing s = [some [1#8, 2#8]] :=
  ⟨_, rfl, by decide +kernel⟩

/-- **C17 fails on a closed flow**: a write to a flow that the other end has closed returns the number of bytes, not
`-EFLOWDOWN`; the packet is dropped. -/
theorem C17_down_violated : ∃ s, runAll (init 1 plain) [.peerDown, .write (.bytes [1#8, 2#8]), .writerAlloc 0 4, .writerTx 0 0] =
      .ok (s, [.ret 0, .inside, .inside, .ret 2]) ∧ outgoing s = [] :=
  ⟨_, rfl, by decide +kernel⟩

/-- **C17 fails on a deadline**: a write that waits for room in the ring until its deadline returns the number of bytes, not
`-ETIMEDOUT`; the packet is dropped. -/
theorem C17_timeout_violated : ∃ s, runAll (init 1 plain) [.fccntl (.setSnd (some ⟨1, 0⟩)), .write (.bytes [1#8, 2#8]),
      .writerAlloc 0 4, .writerTx 0 0, .write (.bytes [3#8]), .writerAlloc 0 5, .writerTx 0 0, .writerTx 0 ETIMEDOUT] =
      .ok (s, [.ret 0, .inside, .inside, .ret 2, .inside, .inside, .inside, .ret 1]) ∧ outgoing s = [some [1#8, 2#8]] :=
  ⟨_, rfl, by decide +kernel⟩

/-- **C17 fails: a leak.** After a keepalive timeout, setting the flags copies the peer-timeout bit to the access word of the
transmit ring; a ring write then returns 0 without taking the packet: `flow_write` reports success, nobody has the packet
and it is never removed. -/
theorem C17_leak_violated : ∃ s, runAll (init 1 plain) [.peerTimeout, .fccntl (.setFlags FLOWFDEFAULT), .write (.bytes [1#8, 2#8]),
      .writerAlloc 0 4, .writerTx 0 0] = .ok (s, [.ret 0, .ret 0, .inside, .inside, .ret 2]) ∧ outgoing s = [] ∧ cnt s 4 = 0 ∧
      s.pool 4 = some [1#8, 2#8] :=
  ⟨_, rfl, by decide +kernel⟩

/-- **C17 fails at the other end too**: after a keepalive timeout the packets of the peer are taken for delivered and leak. -/
theorem C17_peer_leak_violated : ∃ s, runAll (init 1 plain) [.peerTimeout, .peerPut 4 [1#8, 2#8]] = .ok (s, [.ret 0, .ret 0]) ∧
      cnt s 4 = 0 ∧ s.pool 4 = some [1#8, 2#8] :=
  ⟨_, rfl, by decide +kernel⟩

/-- **C17 fails on an empty write**: flow_write(3) says that a `NULL` buffer "returns 0 with no other effects"; an empty packet is
sent. -/
theorem C17_null_violated : ∃ s, runAll (init 1 plain) [.write (.null 0), .writerAlloc 0 4, .writerTx 0 0] =
      .ok (s, [.inside, .inside, .ret 0]) ∧ outgoing s = [some []] :=
  ⟨_, rfl, by decide +kernel⟩

/-! ## C18: settings -/

open Spec.FlowSettings (Settings Call Answer answers ask)

/-- The settings of a flow. -/
def settings (f : Flow) : Settings Time.Timespec := ⟨f.oflags, f.sndTimeo, f.rcvTimeo⟩

/-- The specification call that an operation is. -/
def call : Op → Option (Call Time.Timespec)
  | .fccntl (.setFlags f) => some (.setFlags f)
  | .fccntl (.getFlags false) => some .getFlags
  | .fccntl (.setSnd t) => some (.setSnd t)
  | .fccntl (.getSnd false) => some .getSnd
  | .fccntl (.setRcv t) => some (.setRcv t)
  | .fccntl (.getRcv false) => some .getRcv
  | _ => none

/-- The answer that a return value is. -/
def answer : Ret → Option (Answer Time.Timespec)
  | .ret v => if v = 0 then some .ok else if v = -EPERM then some .notSet else none
  | .flags f => some (.flags f)
  | .timeo t => some (.timeout t)
  | _ => none

/-- The answers to the settings calls in a history. -/
def answersOf : List Op → List Ret → List (Option (Answer Time.Timespec))
  | op :: ops, r :: rs => if (call op).isSome then answer r :: answersOf ops rs else answersOf ops rs
  | _, _ => []

theorem step_settings {s s' : St} {op : Op} {r : Ret} (h : step s op = .ok (s', r)) (ho : s.fl.isOpen = true) :
    s'.fl.isOpen = true ∧
    match call op with
    | none => settings s'.fl = settings s.fl
    | some c => (∀ f, op = .fccntl (.setFlags f) → f < 2 ^ 16) → settings s'.fl = (Spec.FlowSettings.exec (settings s.fl) c).1 ∧
        answer r = some (Spec.FlowSettings.exec (settings s.fl) c).2 := by
  have free : ∀ {s s' : St} {i}, freePkt s i = .ok s' → s'.fl = s.fl := by
    intro s s' i e
    unfold freePkt at e
    split at e
    · cases Outcome.ok.inj e; rfl
    · cases e
  have keep : s'.fl = s.fl → call op = none → _ := fun (e : s'.fl = s.fl) (hc : call op = none) =>
    (show s'.fl.isOpen = true ∧
    match call op with
    | none => settings s'.fl = settings s.fl
    | some c => (∀ f, op = .fccntl (.setFlags f) → f < 2 ^ 16) → settings s'.fl = (Spec.FlowSettings.exec (settings s.fl) c).1 ∧
        answer r = some (Spec.FlowSettings.exec (settings s.fl) c).2 from by rw [hc, e]; exact ⟨ho, rfl⟩)
  cases op with
  | write b =>
    refine keep ?_ rfl
    have e := Outcome.ok.inj h
    unfold writeCall at e
    split at e
    · cases e; rfl
    · split at e
      · cases e; rfl
      · split at e <;> (cases e; rfl)
  | writerAlloc w i =>
    refine keep ?_ rfl
    have e := Outcome.ok.inj h
    unfold writerAlloc at e
    split at e
    · cases e; rfl
    · split at e <;> (cases e; rfl)
  | writerRefused w =>
    refine keep ?_ rfl
    have e := Outcome.ok.inj h
    unfold writerRefused at e
    split at e
    · cases e; rfl
    · split at e
      · split at e
        · cases e; rfl
        · split at e <;> (cases e; rfl)
      · cases e; rfl
  | writerTx w rc =>
    refine keep ?_ rfl
    have key : ∀ x i q, writerEnd s w x i q = .ok (s', r) → s'.fl = s.fl := by
      intro x i q e
      unfold writerEnd at e
      split at e
      · cases Outcome.ok.inj e; rfl
      · dsimp only at e
        split at e
        · cases hf : freePkt { s with tx := q.1, writers := s.writers.eraseIdx w } i with
          | ub => rw [hf] at e; cases e
          | ok t =>
            rw [hf] at e
            cases Outcome.ok.inj e
            have := free hf
            exact this
        · cases Outcome.ok.inj e; rfl
    simp only [step, writerTx] at h
    split at h
    · cases Outcome.ok.inj h; rfl
    · rename_i x _
      split at h
      · cases Outcome.ok.inj h; rfl
      · rename_i i _
        cases hq : ringWrite s.tx x.nonblock i with
        | ub => rw [hq] at h; cases h
        | ok q => rw [hq] at h; exact key _ _ _ h
      · rename_i i _
        cases hq : onRing s.tx (Rbuff.writeBLoop · i (-rc)) with
        | ub => rw [hq] at h; cases h
        | ok q => rw [hq] at h; exact key _ _ _ h
  | read count =>
    have e := Outcome.ok.inj h
    unfold readCall at e
    simp only [ho, Bool.not_true, Bool.false_eq_true, if_false] at e
    split at e <;> (cases e; exact ⟨by simp [ho], rfl⟩)
  | readerRx k rc =>
    refine keep ?_ rfl
    have key : ∀ x q, readerCont s k x q = .ok (s', r) → s'.fl = s.fl := by
      intro x q e
      unfold readerCont at e
      dsimp only at e
      split at e
      · cases Outcome.ok.inj e; rfl
      · split at e
        · split at e <;> (cases Outcome.ok.inj e; rfl)
        · rename_i v _ _
          unfold readerPkt at e
          cases hg : getPkt { s with rx := q.1 } v.toNat with
          | ub => rw [hg] at e; cases e
          | ok bs =>
            rw [hg] at e
            simp only [Outcome.bind_ok] at e
            cases hc : rxCheck s.fl bs with
            | ub => rw [hc] at e; cases e
            | ok p =>
              rw [hc] at e
              simp only [Outcome.bind_ok] at e
              cases p with
              | some p => cases Outcome.ok.inj e; rfl
              | none =>
                cases hf : freePkt { s with rx := q.1 } v.toNat with
                | ub => simp only [hf] at e; cases e
                | ok t =>
                  simp only [hf, Outcome.bind_ok] at e
                  split at e <;> (cases Outcome.ok.inj e; have := free hf; exact this)
    simp only [step, readerRx] at h
    split at h
    · cases Outcome.ok.inj h; rfl
    · rename_i x _
      split at h
      · cases Outcome.ok.inj h; rfl
      · cases hq : ringRead s.rx x.block with
        | ub => rw [hq] at h; cases h
        | ok q => rw [hq] at h; exact key _ _ h
      · cases hq : onRing s.rx (Rbuff.readBLoop · (-rc)) with
        | ub => rw [hq] at h; cases h
        | ok q => rw [hq] at h; exact key _ _ h
  | readerDone k =>
    suffices hs : ∃ p, s'.fl = { s.fl with part := p } by
      obtain ⟨p, hs⟩ := hs
      rw [hs]
      exact ⟨ho, rfl⟩
    simp only [step, readerDone] at h
    split at h
    · cases Outcome.ok.inj h; exact ⟨_, rfl⟩
    · rename_i x _
      split at h
      · rename_i i _ _
        cases hg : getPkt s i with
        | ub => rw [hg] at h; cases h
        | ok bs =>
          rw [hg] at h
          simp only [Outcome.bind_ok] at h
          cases hf : freePkt { s with readers := s.readers.eraseIdx k } i with
          | ub =>
            simp only [hf] at h
            split at h
            · cases h
            · split at h
              · cases Outcome.ok.inj h; exact ⟨_, rfl⟩
              · cases h
          | ok t =>
            have ht := free hf
            simp only [hf, Outcome.bind_ok, Outcome.pure_eq] at h
            split at h
            · cases Outcome.ok.inj h
              refine ⟨if (x.partrd && bs.length == x.count) = true then Part.done else Part.no, ?_⟩
              rw [ht]
            · split at h
              · cases Outcome.ok.inj h; exact ⟨_, rfl⟩
              · cases Outcome.ok.inj h
                exact ⟨s.fl.part, ht⟩
      · cases Outcome.ok.inj h; exact ⟨_, rfl⟩
  | keepalive i =>
    refine keep ?_ rfl
    simp only [step, FlowIo.keepalive] at h
    cases hq : onRing s.tx (Rbuff.write · i) with
    | ub => rw [hq] at h; cases h
    | ok q =>
      rw [hq] at h
      have e := Outcome.ok.inj h
      unfold putEnd at e
      dsimp only at e
      split at e
      · split at e <;> (cases e; rfl)
      · cases e; rfl
  | peerPut i bs =>
    refine keep ?_ rfl
    simp only [step, FlowIo.peerPut] at h
    cases hq : onRing s.rx (Rbuff.writeB · i) with
    | ub => rw [hq] at h; cases h
    | ok q =>
      rw [hq] at h
      have e := Outcome.ok.inj h
      unfold putEnd at e
      dsimp only at e
      split at e
      · split at e <;> (cases e; rfl)
      · cases e; rfl
  | peerGet =>
    refine keep ?_ rfl
    simp only [step, FlowIo.peerGet] at h
    cases hq : onRing s.tx Rbuff.read with
    | ub => rw [hq] at h; cases h
    | ok q =>
      rw [hq] at h
      simp only [Outcome.bind_ok] at h
      unfold peerGetEnd at h
      dsimp only at h
      split at h
      · cases Outcome.ok.inj h; rfl
      · split at h
        · cases Outcome.ok.inj h; rfl
        · rename_i v _ _
          cases hg : getPkt { s with tx := q.1 } v.toNat with
          | ub => rw [hg] at h; cases h
          | ok bs =>
            rw [hg] at h
            simp only [Outcome.bind_ok] at h
            cases hf : freePkt { s with tx := q.1 } v.toNat with
            | ub => rw [hf] at h; cases h
            | ok t =>
              rw [hf] at h
              cases Outcome.ok.inj h
              have := free hf
              exact this
  | peerTimeout =>
    refine keep ?_ rfl
    cases Outcome.ok.inj h
    unfold peerTimeout
    split <;> rfl
  | peerDown =>
    refine keep ?_ rfl
    cases Outcome.ok.inj h
    rfl
  | fccntl c =>
    simp only [step, FlowIo.fccntl, ho, Bool.not_true, Bool.false_eq_true, if_false] at h
    cases c with
    | setSnd t => cases Outcome.ok.inj h; exact ⟨by simp, fun _ => ⟨rfl, rfl⟩⟩
    | setRcv t => cases Outcome.ok.inj h; exact ⟨by simp, fun _ => ⟨rfl, rfl⟩⟩
    | getSnd null =>
      cases null with
      | true => cases Outcome.ok.inj h; exact ⟨ho, rfl⟩
      | false =>
        simp only [Bool.false_eq_true, if_false] at h
        cases ht : s.fl.sndTimeo with
        | none =>
          rw [ht] at h
          cases Outcome.ok.inj h
          exact ⟨ho, fun _ => ⟨rfl, by simp [answer, Spec.FlowSettings.exec, settings, ht, ask, EPERM]⟩⟩
        | some t =>
          rw [ht] at h
          cases Outcome.ok.inj h
          exact ⟨ho, fun _ => ⟨rfl, by simp [answer, Spec.FlowSettings.exec, settings, ht, ask]⟩⟩
    | getRcv null =>
      cases null with
      | true => cases Outcome.ok.inj h; exact ⟨ho, rfl⟩
      | false =>
        simp only [Bool.false_eq_true, if_false] at h
        cases ht : s.fl.rcvTimeo with
        | none =>
          rw [ht] at h
          cases Outcome.ok.inj h
          exact ⟨ho, fun _ => ⟨rfl, by simp [answer, Spec.FlowSettings.exec, settings, ht, ask, EPERM]⟩⟩
        | some t =>
          rw [ht] at h
          cases Outcome.ok.inj h
          exact ⟨ho, fun _ => ⟨rfl, by simp [answer, Spec.FlowSettings.exec, settings, ht, ask]⟩⟩
    | getQos null => cases null <;> (cases Outcome.ok.inj h; exact ⟨ho, rfl⟩)
    | rxLen null => cases null <;> first | (cases Outcome.ok.inj h; exact ⟨ho, rfl⟩) | cases h
    | txLen null => cases null <;> first | (cases Outcome.ok.inj h; exact ⟨ho, rfl⟩) | cases h
    | setFlags f =>
      cases Outcome.ok.inj h
      refine ⟨ho, fun hf => ?_⟩
      have := hf f rfl
      refine ⟨?_, rfl⟩
      simp only [settings, setFlags, Spec.FlowSettings.exec, Nat.mod_eq_of_lt this]
    | getFlags null =>
      cases null with
      | true => cases Outcome.ok.inj h; exact ⟨ho, rfl⟩
      | false => cases Outcome.ok.inj h; exact ⟨ho, fun _ => ⟨rfl, rfl⟩⟩
    | setFrct f =>
      dsimp only at h
      split at h <;> (cases Outcome.ok.inj h; exact ⟨by simp [ho], rfl⟩)
    | getFrct null =>
      cases null with
      | true => cases Outcome.ok.inj h; exact ⟨ho, rfl⟩
      | false =>
        simp only [Bool.false_eq_true, if_false] at h
        split at h <;> (cases Outcome.ok.inj h; exact ⟨ho, rfl⟩)
    | other c => cases Outcome.ok.inj h; exact ⟨ho, rfl⟩

/-- **C18, settings.** In every history of steps of an open flow, by any threads and without any condition on the interleaving,
the flags and timeouts that `fccntl` reports are those last set; a timeout that is not set is reported as `-EPERM`. Flags
are 16 bits wide. -/
theorem C18_settings {ops : List Op} : ∀ {s s' : St} {rs : List Ret}, runAll s ops = .ok (s', rs) → s.fl.isOpen = true →
    (∀ f, Op.fccntl (.setFlags f) ∈ ops → f < 2 ^ 16) →
    answersOf ops rs = (answers (settings s.fl) (ops.filterMap call)).map some := by
  induction ops with
  | nil =>
    intro s s' rs h ho hf
    cases Outcome.ok.inj h
    rfl
  | cons op ops ih =>
    intro s s' rs h ho hf
    unfold runAll at h
    cases h1 : step s op with
    | ub => rw [h1] at h; cases h
    | ok x =>
      obtain ⟨s1, r⟩ := x
      rw [h1] at h
      dsimp only at h
      cases h2 : runAll s1 ops with
      | ub => rw [h2] at h; cases h
      | ok y =>
        obtain ⟨s2, rs'⟩ := y
        rw [h2] at h
        cases Outcome.ok.inj h
        have hs := step_settings h1 ho
        have hr := ih h2 hs.1 (fun f hm => hf f (List.mem_cons_of_mem _ hm))
        unfold answersOf
        cases hc : call op with
        | none =>
          rw [hc] at hs
          simp only [Option.isSome_none, Bool.false_eq_true, if_false, List.filterMap_cons, hc]
          rw [hr, hs.2]
        | some c =>
          rw [hc] at hs
          have := hs.2 (fun f e => hf f (by rw [e]; exact List.mem_cons_self ..))
          simp only [Option.isSome_some, if_true, List.filterMap_cons, hc, answers, List.map_cons]
          rw [hr, this.1, this.2]

example : ∃ s, runAll (init 1 plain) [.fccntl (.getFlags false), .fccntl (.setFlags FLOWFWRONLY), .fccntl (.getSnd false),
      .fccntl (.setSnd (some ⟨3, 5⟩)), .peerTimeout, .fccntl (.getFlags false), .fccntl (.getSnd false), .fccntl (.setSnd none),
      .fccntl (.getSnd false)] =
    .ok (s, [.flags 8194, .ret 0, .ret (-EPERM), .ret 0, .ret 0, .flags 1, .timeo ⟨3, 5⟩, .ret 0, .ret (-EPERM)]) :=
  ⟨_, rfl⟩

/-- **C18, access mode.** On an open flow with a valid buffer, `flow_write` fails with `-EPERM` and no effect if and only if the
access mode is read-only. -/
theorem C18_write_mode_partial (s : St) (b : Buf) (ho : s.fl.isOpen = true) (hb : b.bad = false) :
    (s.fl.oflags &&& FLOWFACCMODE = FLOWFRDONLY → step s (.write b) = .ok (s, .ret (-EPERM))) ∧
    (s.fl.oflags &&& FLOWFACCMODE ≠ FLOWFRDONLY → ∃ s', step s (.write b) = .ok (s', .inside)) := by
  constructor <;> intro h <;> simp [step, writeCall, ho, hb, h]

example : (setFlags (init 1 plain) (FLOWFRDONLY ||| FLOWFWNOPART)).fl.oflags &&& FLOWFACCMODE = FLOWFRDONLY := by decide
example : (init 1 plain).fl.oflags &&& FLOWFACCMODE ≠ FLOWFRDONLY := by decide

theorem and_pow (n k : Nat) : n &&& 2 ^ k = 0 ↔ n.testBit k = false := by
  constructor
  · intro h
    have := congrArg (Nat.testBit · k) h
    simpa [Nat.testBit_and, Nat.testBit_two_pow_self] using this
  · intro h
    apply Nat.eq_of_testBit_eq
    intro j
    rw [Nat.testBit_and, Nat.testBit_two_pow, Nat.zero_testBit]
    by_cases e : k = j
    · subst e; simp [h]
    · simp [e]

/-- Setting the flags with or without the "down" flag makes both directions report the flow down or not; write-only makes the
other end unable to write. -/
theorem C18_down_partial (s : St) (f : Nat) (ho : s.fl.isOpen = true) :
    ∃ s', step s (.fccntl (.setFlags f)) = .ok (s', .ret 0) ∧
      (f &&& FLOWFDOWN ≠ 0 → s'.rx.acl &&& ACL_FLOWDOWN ≠ 0 ∧ s'.tx.acl &&& ACL_FLOWDOWN ≠ 0) ∧
      (f &&& FLOWFDOWN = 0 → s'.rx.acl &&& ACL_FLOWDOWN = 0 ∧ s'.tx.acl &&& ACL_FLOWDOWN = 0) ∧
      (f &&& FLOWFWRONLY ≠ 0 → s'.rx.acl &&& ACL_RDONLY ≠ 0) := by
  refine ⟨setFlags s f, by simp [step, FlowIo.fccntl, ho], ?_⟩
  have e1 : FLOWFDOWN = 2 ^ 2 := rfl
  have e2 : FLOWFWRONLY = 2 ^ 0 := rfl
  have e3 : ACL_FLOWDOWN = 2 ^ 1 := rfl
  have e4 : ACL_RDONLY = 2 ^ 0 := rfl
  have m2 : (f % 2 ^ 16).testBit 2 = f.testBit 2 := by rw [Nat.testBit_mod_two_pow]; simp
  have m0 : (f % 2 ^ 16).testBit 0 = f.testBit 0 := by rw [Nat.testBit_mod_two_pow]; simp
  have c1 : Nat.testBit (2 ^ 32 - 1 - 2 ^ 1) 1 = false := by decide
  have c0 : Nat.testBit (2 ^ 32 - 1 - 2 ^ 1) 0 = true := by decide
  have d1 : Nat.testBit (2 ^ 1) 1 = true := by decide
  have d0 : Nat.testBit (2 ^ 0) 0 = true := by decide
  unfold setFlags
  simp only [e1, e2, e3, e4, ne_eq, and_pow, m2, m0]
  cases f.testBit 2 <;> cases f.testBit 0 <;> (repeat' split) <;> simp_all [Nat.testBit_or, Nat.testBit_and]

/-- **C18, errors.** Unknown commands give `-ENOTSUP`, `NULL` pointers for values to be stored `-EINVAL` (except for the queue
lengths), and nothing changes. -/
theorem C18_errors_partial (s : St) (ho : s.fl.isOpen = true) :
    (∀ c, step s (.fccntl (.other c)) = .ok (s, .ret (-ENOTSUP))) ∧
    (∀ c ∈ [Cmd.getSnd true, .getRcv true, .getQos true, .getFlags true, .getFrct true],
      step s (.fccntl c) = .ok (s, .ret (-EINVAL))) := by
  constructor
  · intro c
    simp [step, FlowIo.fccntl, ho]
  · intro c hc
    simp only [List.mem_cons, List.not_mem_nil, or_false] at hc
    rcases hc with rfl | rfl | rfl | rfl | rfl <;> simp [step, FlowIo.fccntl, ho]

/-- **C18, descriptors.** A descriptor that is out of range gives `-EBADF`, a closed one `-ENOTALLOC`, from each of the three calls
(for `flow_write` if the buffer is valid). What is missing: `fccntl` on 4096..10239, see `C18_fd_violated`. -/
theorem C18_descriptors_partial (flows : Int → St) (fd : Int) (c : Cmd) (b : Buf) (n : Nat) (hb : b.bad = false) :
    (fd < 0 ∨ SYS_MAX_FLOWS ≤ fd → fccntlFd flows fd c = .ok (flows fd, .ret (-EBADF))) ∧
    (fd < 0 ∨ PROG_MAX_FLOWS ≤ fd → writeFd flows fd b = .ok (flows fd, .ret (-EBADF)) ∧
      readFd flows fd n = .ok (flows fd, .ret (-EBADF))) ∧
    (0 ≤ fd → fd < PROG_MAX_FLOWS → (flows fd).fl.isOpen = false → fccntlFd flows fd c = .ok (flows fd, .ret (-ENOTALLOC)) ∧
      writeFd flows fd b = .ok (flows fd, .ret (-ENOTALLOC)) ∧ readFd flows fd n = .ok (flows fd, .ret (-ENOTALLOC))) := by
  have e1 : SYS_MAX_FLOWS = 10240 := rfl
  have e2 : PROG_MAX_FLOWS = 4096 := rfl
  refine ⟨?_, ?_, ?_⟩
  · intro h
    unfold fccntlFd
    rw [if_pos h]
  · intro h
    unfold writeFd readFd
    rw [if_pos h, if_pos h, hb]
    exact ⟨rfl, rfl⟩
  · intro h1 h2 h3
    unfold fccntlFd writeFd readFd
    have n1 : ¬ SYS_MAX_FLOWS ≤ fd := by omega
    have n2 : ¬ fd < 0 := by omega
    have n3 : ¬ PROG_MAX_FLOWS ≤ fd := by omega
    simp only [n1, n2, n3, or_self, if_false, hb, Bool.false_eq_true]
    simp [FlowIo.fccntl, writeCall, readCall, h3, hb]

/-- The queue lengths reported are the numbers of packets in the rings. -/
theorem C18_queue_lengths (s : St) (ho : s.fl.isOpen = true) :
    step s (.fccntl (.rxLen false)) = .ok (s, .len (contents s.rx).length) ∧
    step s (.fccntl (.txLen false)) = .ok (s, .len (contents s.tx).length) := by
  simp [step, FlowIo.fccntl, ho, store, contents]

/-- **C18 fails: reading a write-only flow.** `flow_read` does not look at the access mode. -/
theorem C18_read_wronly_violated : ∃ s, runAll (init 2 plain) [.peerPut 7 [1#8, 2#8], .fccntl (.setFlags FLOWFWRONLY), .read 5,
      .readerRx 0 0, .readerDone 0] = .ok (s, [.ret 0, .ret 0, .inside, .inside, .data [1#8, 2#8]]) := ⟨_, rfl⟩

/-- **C18 fails: write-only is for ever.** After the flags are set to write-only and back to read-write the packets of the other
end are still refused. -/
theorem C18_wronly_sticks_violated : ∃ s, runAll (init 2 plain) [.fccntl (.setFlags FLOWFWRONLY), .fccntl (.setFlags FLOWFDEFAULT),
      .peerPut 7 [1#8, 2#8]] = .ok (s, [.ret 0, .ret 0, .ret (-ENOTALLOC)]) ∧ contents s.rx = [] := ⟨_, rfl, by decide +kernel⟩

/-- **C18 fails: write-only set twice stops the writes.** The access word of the transmit ring is computed from that of the
receive ring (src/lib/dev.c:1084), so setting the flags again makes our own writes fail, with success reported. -/
theorem C18_wronly_twice_violated : ∃ s, runAll (init 2 plain) [.fccntl (.setFlags FLOWFWRONLY), .fccntl (.setFlags FLOWFWRONLY),
      .write (.bytes [1#8, 2#8]), .writerAlloc 0 4, .writerTx 0 0] = .ok (s, [.ret 0, .ret 0, .inside, .inside, .ret 2]) ∧
      outgoing s = [] := ⟨_, rfl, by decide +kernel⟩

/-- **C18 fails: descriptors above the table** are not refused by `fccntl` (src/lib/dev.c:1017 tests `SYS_MAX_FLOWS`). -/
theorem C18_fd_violated (flows : Int → St) (fd : Int) (c : Cmd) (h : PROG_MAX_FLOWS ≤ fd) (h' : fd < SYS_MAX_FLOWS) :
    fccntlFd flows fd c = .ub := by
  have e1 : SYS_MAX_FLOWS = 10240 := rfl
  have e2 : PROG_MAX_FLOWS = 4096 := rfl
  unfold fccntlFd
  rw [if_neg (by omega), if_pos h]

/-- **C18 fails: `NULL` for a queue length** is dereferenced. -/
theorem C18_null_len_violated (s : St) (ho : s.fl.isOpen = true) : step s (.fccntl (.rxLen true)) = .ub := by
  simp [step, FlowIo.fccntl, ho, store]

/-- **C18 fails: FRCT flags** are not those set: whatever is set, flow control and lingering are switched off for good and
retransmission stays as it was (src/lib/frct.c:463-477 only ever clears). -/
theorem C18_frct_flags_violated (s : St) (ho : s.fl.isOpen = true) (c : Nat) (hc : s.fl.frct = some c) (f : Nat) :
    ∃ s1, step s (.fccntl (.setFrct f)) = .ok (s1, .ret 0) ∧
      step s1 (.fccntl (.getFrct false)) = .ok (s1, .flags (c &&& FRCTFRTX)) := by
  have e : (c &&& FRCTFRTX) &&& (f % 2 ^ 16 ||| FRCTFRTX) = c &&& FRCTFRTX := by
    apply Nat.eq_of_testBit_eq
    intro j
    simp only [Nat.testBit_and, Nat.testBit_or]
    cases FRCTFRTX.testBit j <;> simp
  refine ⟨{ s with fl := { s.fl with frct := some (c &&& FRCTFRTX) } }, ?_, ?_⟩
  · simp only [step, FlowIo.fccntl, ho, hc, e, Bool.not_true, Bool.false_eq_true, if_false]
  · simp [step, FlowIo.fccntl, ho]

example : ({ (init 1 plain) with fl := { (init 1 plain).fl with frct := some 1 } } : St).fl.frct = some 1 := rfl

end Ouro.FlowIo
