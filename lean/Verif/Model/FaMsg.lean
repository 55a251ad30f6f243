import Verif.Model.Bytes
import Verif.Model.Errno
import Verif.Model.Qoscube

/-!
# Model of the flow allocator's messages (src/ipcpd/unicast/fa.c:61-85)

`hton64` and friends on a little-endian machine followed by storage in the packed structure give big-endian bytes.
-/

namespace Ouro.FaMsg

open Ouro.Qoscube (Spec)

/-- `n` bytes, most significant first: `hton` and storage (src/ipcpd/unicast/fa.c:767-777). -/
def beBytes (n v : Nat) : List Byte := (leBytes n v).reverse

/-- `ntoh` of a field (src/ipcpd/unicast/fa.c:493-501). -/
def beVal (bs : List Byte) : Nat := leVal bs.reverse

/-- FLOW_REQ, FLOW_REPLY, FLOW_UPDATE (src/ipcpd/unicast/fa.c:61-63). -/
def FLOW_REQ : Byte := 0
/-- src/ipcpd/unicast/fa.c:62 -/
def FLOW_REPLY : Byte := 1
/-- src/ipcpd/unicast/fa.c:63 -/
def FLOW_UPDATE : Byte := 2

/-- MSGBUFSZ (src/ipcpd/unicast/fa.c:64). -/
def MSGBUFSZ : Nat := 2048

/-- `struct fa_msg` (src/ipcpd/unicast/fa.c:68-85) in memory, field by field; packed. -/
def fields (sAddr rEid sEid : Nat) (code response : Byte) (ece : Nat) (q : Spec) : List (List Byte) :=
  [beBytes 8 sAddr, beBytes 8 rEid, beBytes 8 sEid, [code], [response], beBytes 2 ece, beBytes 4 q.delay, beBytes 8 q.bandwidth,
   beBytes 4 q.loss, beBytes 4 q.ber, beBytes 4 q.maxGap, beBytes 4 q.timeout, beBytes 2 q.cypherS,
   [BitVec.ofNat 8 q.availability], [BitVec.ofNat 8 q.inOrder]]

/-- `sizeof(struct fa_msg)` (src/ipcpd/unicast/fa.c:68-85). -/
def hdrLen : Nat := 60

/-- A zeroed QoS part (`memset`, src/ipcpd/unicast/fa.c:825, 898). -/
def zeroQos : Spec := ⟨0, 0, 0, 0, 0, 0, 0, 0, 0⟩

/-- The request built by `fa_alloc` (src/ipcpd/unicast/fa.c:756-781). -/
def request (dtAddr eid : Nat) (q : Spec) (dst data : List Byte) : List Byte :=
  (fields dtAddr 0 eid FLOW_REQ 0 0 q).flatten ++ dst ++ data

/-- The reply built by `fa_alloc_resp` (src/ipcpd/unicast/fa.c:824-835). `response` is stored in an `int8_t`. -/
def reply (rEid sEid : Nat) (response : Int) (data : List Byte) : List Byte :=
  (fields 0 rEid sEid FLOW_REPLY (BitVec.ofInt 8 response) 0 zeroQos).flatten ++ data

/-- The update built by `fa_update_remote` (src/ipcpd/unicast/fa.c:896-906). -/
def update (rEid ece : Nat) : List Byte :=
  (fields 0 rEid 0 FLOW_UPDATE 0 ece zeroQos).flatten

/-- What the worker makes of a message (src/ipcpd/unicast/fa.c:609-625). -/
inductive Msg where
  | request (sAddr sEid : Nat) (q : Spec) (dst data : List Byte)
  | reply (rEid sEid : Nat) (response : Int) (data : List Byte)
  | update (rEid ece : Nat)
  deriving DecidableEq, Repr

/-- `fa_wait_for_fa_msg` (length check, src/ipcpd/unicast/fa.c:457-462), the dispatch (609-625) and the reading of the fields
(483-501, 514-515; 530-549; 571-587). `none` when the message is ignored. -/
def parse (hashLen : Nat) (b : List Byte) : Outcome (Option Msg) :=
  if MSGBUFSZ < b.length ∨ b.length < hdrLen then .ok none
  else do
    let code ← rd b 24
    if code = FLOW_REQ then
      if b.length < hdrLen + hashLen then return none
      else
        let sAddr ← slice b 0 8
        let sEid ← slice b 16 8
        let delay ← slice b 28 4
        let bandwidth ← slice b 32 8
        let loss ← slice b 40 4
        let ber ← slice b 44 4
        let maxGap ← slice b 48 4
        let timeout ← slice b 52 4
        let cypherS ← slice b 56 2
        let availability ← rd b 58
        let inOrder ← rd b 59
        let dst ← slice b hdrLen hashLen
        return some (.request (beVal sAddr) (beVal sEid)
          ⟨beVal delay, beVal bandwidth, availability.toNat, beVal loss, beVal ber, inOrder.toNat, beVal maxGap, beVal cypherS,
           beVal timeout⟩
          dst (b.drop (hdrLen + hashLen)))
    else if code = FLOW_REPLY then
      let rEid ← slice b 8 8
      let sEid ← slice b 16 8
      let response ← rd b 25
      return some (.reply (beVal rEid) (beVal sEid) response.toInt (b.drop hdrLen))
    else if code = FLOW_UPDATE then
      let rEid ← slice b 8 8
      let ece ← slice b 26 2
      return some (.update (beVal rEid) (beVal ece))
    else return none

end Ouro.FaMsg
