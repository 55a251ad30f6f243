import Verif.Model.FlowIo
import Verif.Proof.Rbuff
import Verif.Spec.Datagrams

/-!
# Histories of a flow

What can be observed of the steps of `Ouro.FlowIo`, where the packets of a flow can be, and the conditions under which the
theorems of `Props/FlowIo.lean` hold. Used in the statements of C16 and C17.
-/

namespace Ouro.FlowIo

open Ouro.Rbuff
open Spec.Datagrams (Ev)

/-! ## Where a packet can be -/

/-- How often packet `i` is in a ring. -/
def inRing (r : Ring) (i : Nat) : Nat := (contents r).count (i : Int)

/-- The thread in `flow_write` holds packet `i`. -/
def Writer.holds (i : Nat) (x : Writer) : Bool :=
  match x.pc with
  | .alloc => false
  | .tx j => j == i
  | .txWait j => j == i

/-- The thread in `flow_read` holds packet `i`, taken from the ring. -/
def Reader.holds (i : Nat) (x : FlowIo.Reader) : Bool :=
  match x.pc with
  | .got j false => j == i
  | _ => false

/-- Packet `i` is kept for the next read. -/
def inPart (f : Flow) (i : Nat) : Nat := if f.part = .at i then 1 else 0

/-- In how many places of the flow packet `i` is. -/
def cnt (s : St) (i : Nat) : Nat :=
  inRing s.tx i + inRing s.rx i + s.writers.countP (Writer.holds i) + s.readers.countP (Reader.holds i) + inPart s.fl i

/-! ## What can be observed -/

/-- The datagram in a packet of the receive ring, if the packet is valid. -/
def payload (f : Flow) (bs : List Byte) : Option (List Byte) :=
  match rxCheck f bs with
  | .ok o => o
  | .ub => none

/-- The observable events of a step. -/
def evs (s : St) (op : Op) (r : Ret) : List (Ev Byte) :=
  match op, r with
  | .peerPut _ bs, .ret 0 => (payload s.fl bs).toList.map .arrive
  | .read count, .data bs => [.read count (decide (s.fl.oflags &&& FLOWFRNOPART = 0)) bs]
  | .readerDone k, .data bs =>
    match s.readers[k]? with
    | some x => [.read x.count x.partrd bs]
    | none => []
  | .readerDone k, .ret _ =>
    match s.readers[k]? with
    | some x => [.tooLong x.count]
    | none => []
  | _, _ => []

/-- The packets in the transmit ring, oldest first. -/
def outgoing (s : St) : List (Option (List Byte)) := (contents s.tx).map (fun v => s.pool v.toNat)

/-- The packet that a step puts in the transmit ring, if the ring takes it. -/
def accepted (s : St) : Op → Option (List Byte)
  | .writerTx w rc =>
    match s.writers[w]? with
    | none => none
    | some x =>
      match x.pc with
      | .alloc => none
      | .tx _ => if s.tx.acl = ACL_RDWR ∧ s.tx.free = true then some (wire s.fl x.data) else none
      | .txWait _ => if s.tx.free = true ∧ rc = 0 then some (wire s.fl x.data) else none
  | .keepalive _ => if s.tx.acl = ACL_RDWR ∧ s.tx.free = true then some [] else none
  | _ => none

/-- The packet taken by the other end. -/
def taken : Op → Ret → Option (List Byte)
  | .peerGet, .data bs => some bs
  | _, _ => none

/-! ## Conditions -/

/-- An access word that the ring writes understand. -/
def Known (r : Ring) : Prop := r.acl = ACL_RDWR ∨ r.acl &&& ACL_FLOWDOWN ≠ 0 ∨ r.acl &&& ACL_RDONLY ≠ 0

instance (r : Ring) : Decidable (Known r) := by unfold Known; infer_instance

/-- A possible return value of a wait: signalled (or spurious), or the deadline of the call has passed. -/
def WaitRet (timed : Bool) (rc : Int) : Prop := rc = 0 ∨ (rc = ETIMEDOUT ∧ timed = true)

instance (t : Bool) (rc : Int) : Decidable (WaitRet t rc) := by unfold WaitRet; infer_instance

/-- The steps for which the theorems hold. An allocation gives a packet not in use (C04). Excluded, with a refutation for each in
`Props/FlowIo.lean`: ring writes when only the peer-timeout bit is set in the access word; a writer that is woken when the
flow is down and the ring full (see C03); two threads in `flow_read` at once; packets shorter than a CRC on a flow with CRC;
`NULL` where `fccntl` stores a queue length. -/
def Ok (s : St) : Op → Prop
  | .writerAlloc _ i => s.pool i = none
  | .writerTx w rc =>
    match s.writers[w]? with
    | none => True
    | some x => (match x.pc with
      | .alloc => True
      | .tx _ => Known s.tx
      | .txWait _ => WaitRet x.timed rc ∧ ¬ (s.tx.free = false ∧ s.tx.acl &&& ACL_FLOWDOWN ≠ 0 ∧ rc ≠ ETIMEDOUT))
  | .read _ => s.readers = []
  | .readerRx r rc =>
    match s.readers[r]? with
    | none => True
    | some x => WaitRet x.timed rc
  | .keepalive i => s.pool i = none ∧ Known s.tx
  | .peerPut i bs => s.pool i = none ∧ Known s.rx ∧ (s.fl.crc = true → bs.length = 0 ∨ 4 ≤ bs.length)
  | .fccntl (.rxLen null) => null = false
  | .fccntl (.txLen null) => null = false
  | _ => True


end Ouro.FlowIo
