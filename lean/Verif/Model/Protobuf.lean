import Verif.Model.Base

/-!
# Model of the message conversions (src/lib/protobuf.c, src/lib/serdes-oep.c) and of the enrolment exchange (src/ipcpd/common/enroll.c)

Integer fields have the width of the C type; assignments between widths convert as C does. `enum` fields are unsigned 32-bit, `int` and `pid_t` signed 32-bit, `time_t` and `long`
signed 64-bit. A fixed character array is the string it holds (bytes without the final zero). `malloc` and `strdup` succeed. The wire format is that of the protobuf library and is not
part of the repository: `Codec` has what is used of it.
-/

namespace Ouro.Protobuf

/-- A string, or an array of bytes. [include/ouroboros/ipcp.h:119] -/
abbrev Str := List UInt8

/-- `LAYER_NAME_SIZE`, `IPCP_NAME_SIZE` and `DEV_NAME_SIZE` (include/ouroboros/ipcp.h:31-33). -/
def nameSize : Nat := 255
/-- `ENROLL_ID_LEN` (include/ouroboros/serdes-oep.h:33). -/
def idLen : Nat := 8

/-- `struct timespec` (POSIX), used in src/lib/protobuf.c:31. -/
structure Timespec where
  sec : Int64
  nsec : Int64
  deriving DecidableEq, Repr

/-- `timespec_msg` (src/lib/pb/irm.proto:58-61). -/
structure TimespecMsg where
  sec : UInt64
  nsec : UInt32
  deriving DecidableEq, Repr

/-- `struct qos_spec` (include/ouroboros/qos.h:31-41). -/
structure Qos where
  delay : UInt32
  bandwidth : UInt64
  availability : UInt8
  loss : UInt32
  ber : UInt32
  inOrder : UInt8
  maxGap : UInt32
  cypherS : UInt16
  timeout : UInt32
  deriving DecidableEq, Repr

/-- `qosspec_msg` (src/lib/pb/model.proto:25-35). -/
structure QosMsg where
  delay : UInt32
  bandwidth : UInt64
  availability : UInt32
  loss : UInt32
  ber : UInt32
  inOrder : UInt32
  maxGap : UInt32
  cypherS : UInt32
  timeout : UInt32
  deriving DecidableEq, Repr

/-- `struct flow_info` (include/ouroboros/flow.h:41-52). -/
structure FlowInfo where
  id : Int32
  nPid : Int32
  n1Pid : Int32
  mpl : Int64
  qs : Qos
  state : UInt32
  deriving DecidableEq, Repr

/-- `flow_info_msg` (src/lib/pb/model.proto:37-44). -/
structure FlowInfoMsg where
  id : UInt32
  nPid : UInt32
  n1Pid : UInt32
  mpl : UInt32
  state : UInt32
  qos : QosMsg
  deriving DecidableEq, Repr

/-- `struct layer_info` (include/ouroboros/ipcp.h:118-121). -/
structure LayerInfo where
  name : Str
  algo : UInt32
  deriving DecidableEq, Repr

/-- `layer_info_msg` (src/lib/pb/model.proto:51-54). -/
structure LayerInfoMsg where
  name : Str
  algo : UInt32
  deriving DecidableEq, Repr

/-- `struct ipcp_info` (include/ouroboros/ipcp.h:55-60). -/
structure IpcpInfo where
  type : UInt32
  pid : Int32
  name : Str
  state : UInt32
  deriving DecidableEq, Repr

/-- `ipcp_info_msg` (src/lib/pb/model.proto:56-61). -/
structure IpcpInfoMsg where
  type : UInt32
  name : Str
  pid : UInt32
  state : UInt32
  deriving DecidableEq, Repr

/-- `struct dt_config` (include/ouroboros/ipcp.h:85-90). -/
structure DtConfig where
  addrSize : UInt8
  eidSize : UInt8
  maxTtl : UInt8
  routing : UInt32
  deriving DecidableEq, Repr

/-- `dt_config_msg` (src/lib/pb/ipcp_config.proto:27-32). -/
structure DtConfigMsg where
  addrSize : UInt32
  eidSize : UInt32
  maxTtl : UInt32
  routing : UInt32
  deriving DecidableEq, Repr

/-- `struct uni_config` (include/ouroboros/ipcp.h:93-97). -/
structure UniConfig where
  dt : DtConfig
  addrAuth : UInt32
  congAvoid : UInt32
  deriving DecidableEq, Repr

/-- `uni_config_msg` (src/lib/pb/ipcp_config.proto:34-38). -/
structure UniConfigMsg where
  dt : DtConfigMsg
  addrAuth : UInt32
  congAvoid : UInt32
  deriving DecidableEq, Repr

/-- `struct eth_config` (include/ouroboros/ipcp.h:99-102). -/
structure EthConfig where
  dev : Str
  ethertype : UInt16
  deriving DecidableEq, Repr

/-- `eth_config_msg` (src/lib/pb/ipcp_config.proto:40-43). -/
structure EthConfigMsg where
  dev : Str
  ethertype : UInt32
  deriving DecidableEq, Repr

/-- `struct udp_config` (include/ouroboros/ipcp.h:104-108). -/
structure UdpConfig where
  ip : UInt32
  dns : UInt32
  port : UInt16
  deriving DecidableEq, Repr

/-- `udp_config_msg` (src/lib/pb/ipcp_config.proto:45-49). -/
structure UdpConfigMsg where
  ip : UInt32
  port : UInt32
  dns : UInt32
  deriving DecidableEq, Repr

/-- The union in `struct ipcp_config` (include/ouroboros/ipcp.h:128-132): the member that was stored last. -/
inductive Member where
  | unset
  | uni (c : UniConfig)
  | udp (c : UdpConfig)
  | eth (c : EthConfig)
  deriving DecidableEq, Repr

/-- `struct ipcp_config` (include/ouroboros/ipcp.h:124-133). -/
structure Config where
  layer : LayerInfo
  type : UInt32
  u : Member
  deriving DecidableEq, Repr

/-- `ipcp_config_msg` (src/lib/pb/ipcp_config.proto:51-57). -/
structure ConfigMsg where
  layer : LayerInfoMsg
  type : UInt32
  uni : Option UniConfigMsg
  udp : Option UdpConfigMsg
  eth : Option EthConfigMsg
  deriving DecidableEq, Repr

/-- `IPCP_LOCAL` (include/ouroboros/ipcp.h:46). -/
def LOCAL : UInt32 := 0
/-- `IPCP_UNICAST` (include/ouroboros/ipcp.h:47). -/
def UNICAST : UInt32 := 1
/-- `IPCP_BROADCAST` (include/ouroboros/ipcp.h:48). -/
def BROADCAST : UInt32 := 2
/-- `IPCP_ETH_LLC` (include/ouroboros/ipcp.h:49). -/
def ETH_LLC : UInt32 := 3
/-- `IPCP_ETH_DIX` (include/ouroboros/ipcp.h:50). -/
def ETH_DIX : UInt32 := 4
/-- `IPCP_UDP` (include/ouroboros/ipcp.h:51). -/
def UDP : UInt32 := 5

/-- `strcpy` into an array of `nameSize + 1`: a longer string overflows (with assertions it aborts) (src/lib/protobuf.c:138-141). -/
def strcpy (s : Str) : Outcome Str := if s.length ≤ nameSize then .ok s else .ub

/-- Using a pointer that may be null (src/lib/protobuf.c:407). -/
def deref {α : Type} : Option α → Outcome α
  | some x => .ok x
  | none => .ub

/-- `timespec_s_to_msg` (src/lib/protobuf.c:31-50). -/
def timespecToMsg (s : Timespec) : TimespecMsg := ⟨s.sec.toUInt64, s.nsec.toUInt64.toUInt32⟩
/-- `timespec_msg_to_s` (src/lib/protobuf.c:52-62). -/
def timespecOfMsg (m : TimespecMsg) : Timespec := ⟨m.sec.toInt64, m.nsec.toUInt64.toInt64⟩

/-- `qos_spec_s_to_msg` (src/lib/protobuf.c:423-446). -/
def qosToMsg (s : Qos) : QosMsg where
  delay := s.delay
  bandwidth := s.bandwidth
  availability := s.availability.toUInt32
  loss := s.loss
  ber := s.ber
  inOrder := s.inOrder.toUInt32
  maxGap := s.maxGap
  cypherS := s.cypherS.toUInt32
  timeout := s.timeout

/-- `qos_spec_msg_to_s` (src/lib/protobuf.c:448-465). -/
def qosOfMsg (m : QosMsg) : Qos where
  delay := m.delay
  bandwidth := m.bandwidth
  availability := m.availability.toUInt8
  loss := m.loss
  ber := m.ber
  inOrder := m.inOrder.toUInt8
  maxGap := m.maxGap
  cypherS := m.cypherS.toUInt16
  timeout := m.timeout

/-- `flow_info_s_to_msg` (src/lib/protobuf.c:64-91). -/
def flowToMsg (s : FlowInfo) : FlowInfoMsg where
  id := s.id.toUInt32
  nPid := s.nPid.toUInt32
  n1Pid := s.n1Pid.toUInt32
  mpl := s.mpl.toUInt64.toUInt32
  state := s.state
  qos := qosToMsg s.qs

/-- `flow_info_msg_to_s` (src/lib/protobuf.c:93-107). -/
def flowOfMsg (m : FlowInfoMsg) : FlowInfo where
  id := m.id.toInt32
  nPid := m.nPid.toInt32
  n1Pid := m.n1Pid.toInt32
  mpl := m.mpl.toUInt64.toInt64
  qs := qosOfMsg m.qos
  state := m.state

/-- `layer_info_s_to_msg` (src/lib/protobuf.c:109-132). -/
def layerToMsg (s : LayerInfo) : LayerInfoMsg := ⟨s.name, s.algo⟩
/-- `layer_info_msg_to_s` (src/lib/protobuf.c:134-146). -/
def layerOfMsg (m : LayerInfoMsg) : Outcome LayerInfo := do
  let name ← strcpy m.name
  return ⟨name, m.algo⟩

/-- `ipcp_info_s_to_msg` (src/lib/protobuf.c:148-172). -/
def ipcpToMsg (s : IpcpInfo) : IpcpInfoMsg := ⟨s.type, s.name, s.pid.toUInt32, s.state⟩
/-- `ipcp_info_msg_to_s` (src/lib/protobuf.c:174-189). -/
def ipcpOfMsg (m : IpcpInfoMsg) : Outcome IpcpInfo := do
  let name ← strcpy m.name
  return ⟨m.type, m.pid.toInt32, name, m.state⟩

/-- `dt_config_s_to_msg` (src/lib/protobuf.c:191-209). -/
def dtToMsg (s : DtConfig) : DtConfigMsg := ⟨s.addrSize.toUInt32, s.eidSize.toUInt32, s.maxTtl.toUInt32, s.routing⟩
/-- `dt_config_msg_to_s` (src/lib/protobuf.c:211-223). -/
def dtOfMsg (m : DtConfigMsg) : DtConfig := ⟨m.addrSize.toUInt8, m.eidSize.toUInt8, m.maxTtl.toUInt8, m.routing⟩

/-- `uni_config_s_to_msg` (src/lib/protobuf.c:225-250). -/
def uniToMsg (s : UniConfig) : UniConfigMsg := ⟨dtToMsg s.dt, s.addrAuth, s.congAvoid⟩
/-- `uni_config_msg_to_s` (src/lib/protobuf.c:252-262). -/
def uniOfMsg (m : UniConfigMsg) : UniConfig := ⟨dtOfMsg m.dt, m.addrAuth, m.congAvoid⟩

/-- `udp_config_s_to_msg` (src/lib/protobuf.c:264-281). -/
def udpToMsg (s : UdpConfig) : UdpConfigMsg where
  ip := s.ip
  dns := s.dns
  port := s.port.toUInt32
/-- `udp_config_msg_to_s` (src/lib/protobuf.c:283-294). -/
def udpOfMsg (m : UdpConfigMsg) : UdpConfig where
  ip := m.ip
  dns := m.dns
  port := m.port.toUInt16

/-- `eth_config_s_to_msg` (src/lib/protobuf.c:296-319). -/
def ethToMsg (s : EthConfig) : EthConfigMsg := ⟨s.dev, s.ethertype.toUInt32⟩
/-- `eth_config_msg_to_s` (src/lib/protobuf.c:321-333). -/
def ethOfMsg (m : EthConfigMsg) : Outcome EthConfig := do
  let dev ← strcpy m.dev
  return ⟨dev, m.ethertype.toUInt16⟩

/-- `ipcp_config_s_to_msg` (src/lib/protobuf.c:336-388). Reading a member of the union that is not the one stored is `ub` here; in C its bytes are reinterpreted. -/
def configToMsg (s : Config) : Outcome ConfigMsg := do
  let m : ConfigMsg := ⟨layerToMsg s.layer, s.type, none, none, none⟩
  if s.type = UNICAST then
    match s.u with
    | .uni c => return { m with uni := some (uniToMsg c) }
    | _ => .ub
  else if s.type = ETH_LLC ∨ s.type = ETH_DIX then
    match s.u with
    | .eth c => return { m with eth := some (ethToMsg c) }
    | _ => .ub
  else if s.type = UDP then
    match s.u with
    | .udp c => return { m with udp := some (udpToMsg c) }
    | _ => .ub
  else return m

/-- `ipcp_config_msg_to_s` (src/lib/protobuf.c:390-421). -/
def configOfMsg (m : ConfigMsg) : Outcome Config := do
  let layer ← layerOfMsg m.layer
  if m.type = UNICAST then
    let c ← deref m.uni
    return ⟨layer, m.type, .uni (uniOfMsg c)⟩
  else if m.type = ETH_LLC ∨ m.type = ETH_DIX then
    let c ← deref m.eth
    let e ← ethOfMsg c
    return ⟨layer, m.type, .eth e⟩
  else if m.type = UDP then
    let c ← deref m.udp
    return ⟨layer, m.type, .udp (udpOfMsg c)⟩
  else return ⟨layer, m.type, .unset⟩

/-- `struct enroll_req` and `enroll_req_msg` (include/ouroboros/serdes-oep.h:35-38, src/lib/pb/enroll.proto:26-29). -/
structure EnrollReq where
  id : Str
  deriving DecidableEq, Repr

/-- `struct enroll_resp` (include/ouroboros/serdes-oep.h:40-45); `conf` is `none` where it is not set. -/
structure EnrollResp where
  id : Str
  t : Timespec
  response : Int32
  conf : Option Config
  deriving DecidableEq, Repr

/-- `enroll_resp_msg` (src/lib/pb/enroll.proto:31-37). -/
structure EnrollRespMsg where
  id : Str
  tSec : Int64
  tNsec : Int32
  response : Int32
  conf : Option ConfigMsg
  deriving DecidableEq, Repr

/-- `struct enroll_ack` and `enroll_ack_msg` (include/ouroboros/serdes-oep.h:47-50, src/lib/pb/enroll.proto:39-42). -/
structure EnrollAck where
  id : Str
  result : Int32
  deriving DecidableEq, Repr

/-- The `memcpy` of `ENROLL_ID_LEN` bytes from a message: fewer bytes are read past the end (src/lib/protobuf.c:500). -/
def copyId (id : Str) : Outcome Str := if idLen ≤ id.length then .ok (id.take idLen) else .ub

/-- `enroll_req_s_to_msg` (src/lib/protobuf.c:467-492). -/
def reqToMsg (s : EnrollReq) : Outcome EnrollReq := do
  let id ← copyId s.id
  return ⟨id⟩
/-- `enroll_req_msg_to_s` (src/lib/protobuf.c:494-503). -/
def reqOfMsg (m : EnrollReq) : Outcome EnrollReq := do
  let id ← copyId m.id
  return ⟨id⟩

/-- `enroll_resp_s_to_msg` (src/lib/protobuf.c:505-543). -/
def respToMsg (s : EnrollResp) : Outcome EnrollRespMsg := do
  let id ← copyId s.id
  let m : EnrollRespMsg := ⟨id, s.t.sec, s.t.nsec.toInt32, s.response, none⟩
  if s.response < 0 then return m
  let c ← deref s.conf
  let cm ← configToMsg c
  return { m with conf := some cm }

/-- `enroll_resp_msg_to_s` (src/lib/protobuf.c:545-561). -/
def respOfMsg (m : EnrollRespMsg) : Outcome EnrollResp := do
  let conf ← (if m.response ≥ 0 then do
    let cm ← deref m.conf
    let c ← configOfMsg cm
    return some c
  else return none)
  let id ← copyId m.id
  return ⟨id, ⟨m.tSec, m.tNsec.toInt64⟩, m.response, conf⟩

/-- `enroll_ack_s_to_msg` (src/lib/protobuf.c:563-590). -/
def ackToMsg (s : EnrollAck) : Outcome EnrollAck := do
  let id ← copyId s.id
  return ⟨id, s.result⟩
/-- `enroll_ack_msg_to_s` (src/lib/protobuf.c:592-605). -/
def ackOfMsg (m : EnrollAck) : Outcome EnrollAck := do
  let id ← copyId m.id
  return ⟨id, m.result⟩

/-- What the protobuf library does for messages of type `M`: `pack`, `unpack` and the size (used in src/lib/serdes-oep.c:38-42 and 57-59). `W` is the type of what is on the wire. -/
structure Codec (M W : Type) where
  pack : M → W
  unpack : W → Option M
  size : W → Nat

/-- `enroll_req_ser` and the like (src/lib/serdes-oep.c:28-52, 77-101, 119-144): `none` is −1. -/
def ser {S M W : Type} (toMsg : S → Outcome M) (k : Codec M W) (len : Nat) (s : S) : Outcome (Option W) := do
  let m ← toMsg s
  return if len < k.size (k.pack m) then none else some (k.pack m)

/-- `enroll_req_des` (src/lib/serdes-oep.c:54-75). -/
def reqDes {W : Type} (k : Codec EnrollReq W) (w : W) : Outcome (Option EnrollReq) :=
  match k.unpack w with
  | none => .ok none
  | some m => if m.id.length ≠ idLen then .ok none else do
    let r ← reqOfMsg m
    return some r

/-- `enroll_resp_des` (src/lib/serdes-oep.c:103-117). -/
def respDes {W : Type} (k : Codec EnrollRespMsg W) (w : W) : Outcome (Option EnrollResp) :=
  match k.unpack w with
  | none => .ok none
  | some m => do
    let r ← respOfMsg m
    return some r

/-- `enroll_ack_des` (src/lib/serdes-oep.c:146-161). -/
def ackDes {W : Type} (k : Codec EnrollAck W) (w : W) : Outcome (Option EnrollAck) :=
  match k.unpack w with
  | none => .ok none
  | some m => do
    let r ← ackOfMsg m
    return some r

/-- `ENROLL_BUF_LEN` (src/ipcpd/common/enroll.c:49). -/
def bufLen : Nat := 1024

/-- `enroll_handle` up to sending the reply (src/ipcpd/common/enroll.c:78-126): what it sends for `w`, with the configuration `conf` of the member and the time `t`. -/
def handle {R W : Type} (kr : Codec EnrollReq R) (kw : Codec EnrollRespMsg W) (conf : Config) (t : Timespec) (w : R) : Outcome (Option W) := do
  match ← reqDes kr w with
  | none => return none
  | some req => ser respToMsg kw bufLen ⟨req.id, t, 0, some conf⟩

/-- The request of `enroll_boot` (src/ipcpd/common/enroll.c:184-202). -/
def bootReq {R : Type} (kr : Codec EnrollReq R) (id : Str) : Outcome (Option R) := ser reqToMsg kr bufLen ⟨id⟩

/-- The rest of `enroll_boot` (src/ipcpd/common/enroll.c:204-248): the reply `w`; the result is the new configuration, or `none` if it fails. `type` is the type of this IPCP. -/
def bootReply {W : Type} (kw : Codec EnrollRespMsg W) (type : UInt32) (id : Str) (w : W) : Outcome (Option Config) := do
  match ← respDes kw w with
  | none => return none
  | some resp =>
    if resp.id ≠ id.take idLen then return none
    else if resp.response < 0 then return none
    else do
      let c ← deref resp.conf
      return if c.type ≠ type then none else some c

end Ouro.Protobuf
