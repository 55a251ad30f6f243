import Verif.Model.EthLlc

/-!
# Model of what is different in the IPCP over Ethernet without LLC (src/ipcpd/eth/eth.c, built with BUILD_ETH_DIX and raw sockets)

Frames, messages, the decision of the reader and the handling of a reply. Endpoint identifiers are the descriptors of the flows.
-/

namespace Ouro.EthDix

open Ouro.FaMsg (beBytes beVal)
open Ouro.EthLlc (Qos FLOW_REQ FLOW_REPLY NAME_QUERY_REQ NAME_QUERY_REPLY MGMT_FRAME_SIZE PROG_MAX_FLOWS upd)

/-- The size of the packed `struct mgmt_msg` (src/ipcpd/eth/eth.c:150-175). -/
def MSG_LEN : Nat := 38
/-- The entries of `fd_to_ef` (src/ipcpd/eth/eth.c:259). -/
def SYS_MAX_FLOWS : Nat := 10240

/-- The frame that `eth_ipcp_send_frame` sends (src/ipcpd/eth/eth.c:373-412). -/
def frame (dst src etype eid : Nat) (payload : List Byte) : List Byte :=
  [leBytes 6 dst, leBytes 6 src, beBytes 2 etype, beBytes 2 eid, beBytes 2 payload.length].flatten ++ payload

/-- What is not written before a message is sent (src/ipcpd/eth/eth.c:475, 528). -/
structure Junk where
  deid : BitVec 16
  byte : Byte
  rest : BitVec 248
  byte2 : Byte
  deriving DecidableEq, Repr

/-- The request of `eth_ipcp_alloc` (src/ipcpd/eth/eth.c:458-512). -/
def request (eid : Nat) (q : Qos) (dst data : List Byte) (j : Junk) : List Byte :=
  [beBytes 2 eid, beBytes 2 j.deid.toNat, beBytes 4 q.loss, beBytes 8 q.bandwidth, beBytes 4 q.ber, beBytes 4 q.maxGap, beBytes 4 q.delay, beBytes 4 q.timeout,
   beBytes 2 q.cypherS, [BitVec.ofNat 8 q.inOrder], [FLOW_REQ], [BitVec.ofNat 8 q.availability], [j.byte]].flatten ++ (dst ++ data)

/-- The reply of `eth_ipcp_alloc_resp` (src/ipcpd/eth/eth.c:514-562). -/
def reply (seid deid : Nat) (response : Int) (data : List Byte) (j : Junk) : List Byte :=
  [beBytes 2 seid, beBytes 2 deid, beBytes 31 j.rest.toNat, [FLOW_REPLY], [j.byte2], [BitVec.ofInt 8 response]].flatten ++ data

/-- What the handler makes of a management frame. [src/ipcpd/eth/eth.c:708-780] -/
inductive Msg where
  | request (seid : Nat) (q : Qos) (dst data : List Byte)
  | reply (seid deid : Nat) (response : Int) (data : List Byte)
  | query (hash : List Byte)
  | answer (hash : List Byte)
  | unknown
  deriving DecidableEq, Repr

/-- `eth_ipcp_mgmt_frame` (src/ipcpd/eth/eth.c:708-780), up to the calls; as for LLC. -/
def parse (L : Nat) (b : List Byte) : Outcome Msg := do
  let code ← rd b 35
  if code = FLOW_REQ then
    if b.length < MSG_LEN + L then .ub
    else
      let seid ← slice b 0 2
      let loss ← slice b 4 4
      let bandwidth ← slice b 8 8
      let ber ← slice b 16 4
      let maxGap ← slice b 20 4
      let delay ← slice b 24 4
      let timeout ← slice b 28 4
      let cypherS ← slice b 32 2
      let inOrder ← rd b 34
      let availability ← rd b 36
      let dst ← slice b MSG_LEN L
      return .request (beVal seid)
        ⟨beVal delay, beVal bandwidth, availability.toNat, beVal loss, beVal ber, inOrder.toNat, beVal maxGap, beVal cypherS, beVal timeout⟩
        dst (b.drop (MSG_LEN + L))
  else if code = FLOW_REPLY then
    if b.length < MSG_LEN then .ub
    else
      let seid ← slice b 0 2
      let deid ← slice b 2 2
      let response ← rd b 37
      return .reply (beVal seid) (beVal deid) response.toInt (b.drop MSG_LEN)
  else if code = NAME_QUERY_REQ then
    let hash ← slice b MSG_LEN L
    return .query hash
  else if code = NAME_QUERY_REPLY then
    let hash ← slice b MSG_LEN L
    return .answer hash
  else return .unknown

/-- `struct ef` (src/ipcpd/eth/eth.c:193-201). -/
structure Ef where
  rEid : Int
  addr : Nat
  deriving DecidableEq, Repr

/-- What the reader does with a frame. [src/ipcpd/eth/eth.c:916-991] -/
inductive Verdict where
  | drop
  | mgmt (src : Nat) (payload : List Byte)
  | deliver (fd : Nat) (payload : List Byte)
  deriving DecidableEq, Repr

/-- The reader, for one frame (src/ipcpd/eth/eth.c:867-991), without what other threads do to the buffer; `np1_flow_write` (src/lib/dev.c:1959-1994) drops the packet if there is no such flow. -/
def recv (etype : Nat) (live : Nat → Bool) (fr mem : List Byte) : Outcome Verdict := do
  let m := fr ++ mem
  let len ← slice m 16 2
  let ty ← slice m 12 2
  if beVal ty ≠ etype then .ok .drop
  else
    let d ← slice m 14 2
    let deid := beVal d
    if deid = 0 then
      let payload ← slice m 18 (beVal len)
      let src ← slice m 6 6
      if MGMT_FRAME_SIZE < beVal len then .ub
      else .ok (.mgmt (leVal src) payload)
    else
      let payload ← slice m 18 (beVal len)
      if PROG_MAX_FLOWS ≤ deid then .ub
      else if live deid then .ok (.deliver deid payload) else .ok .drop

/-- `eth_ipcp_alloc_reply` (src/ipcpd/eth/eth.c:600-654) up to `ipcp_flow_alloc_reply`, which looks up the flow (src/lib/dev.c:1839-1867). -/
def allocReply (ef : Nat → Ef) (src seid deid : Nat) (response : Int) : Outcome (Nat → Ef) :=
  if SYS_MAX_FLOWS ≤ deid then .ub
  else
    let ef1 := if response ≠ 0 then ef else upd ef deid ⟨seid, src⟩
    if PROG_MAX_FLOWS ≤ deid then .ub else .ok ef1

end Ouro.EthDix
