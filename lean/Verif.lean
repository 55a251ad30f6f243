import Verif.Model.Base
import Verif.Model.Errno
import Verif.Model.Rbuff
import Verif.Spec.BoundedQueue
import Verif.Proof.Rbuff
import Verif.Props.Rbuff
import Verif.Model.Bitmap
import Verif.Spec.IdPool
import Verif.Proof.Bitmap
import Verif.Props.Bitmap
import Verif.Model.Crc32
import Verif.Spec.Crc
import Verif.Proof.Crc32
import Verif.Props.Crc32
import Verif.Model.Time
import Verif.Props.Time
import Verif.Model.Seqno
import Verif.Props.Seqno
import Verif.Model.Utils
import Verif.Props.Utils
import Verif.Model.LinkedList
import Verif.Spec.Sequence
import Verif.Props.LinkedList
import Verif.Model.Notifier
import Verif.Props.Notifier
import Verif.Model.Qoscube
import Verif.Props.Qoscube
import Verif.Model.Pft
import Verif.Spec.FiniteMap
import Verif.Proof.Pft
import Verif.Props.Pft
import Verif.Model.Pff
import Verif.Spec.NextHop
import Verif.Proof.Pff
import Verif.Props.Pff
import Verif.Model.Bytes
import Verif.Proof.Bytes
import Verif.Model.Dt
import Verif.Spec.DtWire
import Verif.Proof.Dt
import Verif.Props.Dt
import Verif.Model.Fa
import Verif.Spec.Endpoints
import Verif.Proof.Fa
import Verif.Props.Fa
import Verif.Model.FaMsg
import Verif.Proof.FaMsg
import Verif.Props.FaMsg
import Verif.Model.MbEcn
import Verif.Spec.Ecn
import Verif.Proof.MbEcn
import Verif.Props.MbEcn
import Verif.Model.Graph
import Verif.Spec.Routing
import Verif.Proof.Graph
import Verif.Proof.Dijkstra
import Verif.Proof.GraphTables
import Verif.Proof.GraphHistory
import Verif.Props.Graph
import Verif.Model.Lsdb
import Verif.Model.LsdbPff
import Verif.Spec.Lsdb
import Verif.Proof.Lsdb
import Verif.Proof.LsdbFlood
import Verif.Proof.LsdbConverge
import Verif.Proof.LsdbPff
import Verif.Props.Lsdb
import Verif.Model.Rdrbuff
import Verif.Spec.PacketPool
import Verif.Proof.Rdrbuff
import Verif.Model.DuBuff
import Verif.Props.Rdrbuff
import Verif.Spec.FlowSets
import Verif.Spec.FlowSetHistory
import Verif.Model.FlowSet
import Verif.Proof.FlowSet
import Verif.Proof.FlowEvents
import Verif.Props.FlowSet
import Verif.Model.FlowIo
import Verif.Spec.Datagrams
import Verif.Spec.FlowSettings
import Verif.Spec.FlowIoHistory
import Verif.Proof.FlowIo
import Verif.Props.FlowIo
import Verif.Model.Frct
import Verif.Model.FrctNet
import Verif.Spec.FrctHistory
import Verif.Proof.Frct
import Verif.Proof.FrctNet
import Verif.Proof.FrctWindow
import Verif.Proof.FrctSteady
import Verif.Props.Frct
import Verif.Model.TimerWheel
import Verif.Spec.TimerHistory
import Verif.Proof.TimerWheel
import Verif.Proof.AckWheel
import Verif.Props.TimerWheel
import Verif.Model.Btree
import Verif.Spec.KeyedStore
import Verif.Proof.Btree
import Verif.Proof.BtreeInsert
import Verif.Proof.BtreeDelete
import Verif.Proof.BtreeRemove
import Verif.Proof.BtreeSearch
import Verif.Props.Btree
import Verif.Model.Registry
import Verif.Spec.Registry
import Verif.Proof.Registry
import Verif.Proof.RegistryInv
import Verif.Proof.RegistryFlow
import Verif.Proof.RegistryStep
import Verif.Proof.RegistryTab
import Verif.Proof.RegistryMap
import Verif.Proof.RegistryBind
import Verif.Proof.RegistryAct
import Verif.Proof.RegistryApi
import Verif.Props.Registry
import Verif.Props.RegistryNames
import Verif.Model.Broadcast
import Verif.Spec.Broadcast
import Verif.Proof.Broadcast
import Verif.Props.Broadcast
import Verif.Model.ShimData
import Verif.Spec.ShimData
import Verif.Proof.ShimData
import Verif.Proof.ShimQuery
import Verif.Props.ShimData
import Verif.Model.CmdQueue
import Verif.Proof.CmdQueue
import Verif.Props.CmdQueue
import Verif.Model.Ipcp
import Verif.Spec.Ipcp
import Verif.Proof.Ipcp
import Verif.Props.Ipcp
import Verif.Model.AllocId
import Verif.Proof.AllocId
import Verif.Props.AllocId
import Verif.Model.Local
import Verif.Proof.Local
import Verif.Props.Local
import Verif.Spec.Local
import Verif.Model.Tpm
import Verif.Spec.Tpm
import Verif.Proof.Tpm
import Verif.Props.Tpm
import Verif.Model.Psched
import Verif.Spec.Psched
import Verif.Proof.Psched
import Verif.Props.Psched
import Verif.Model.Connmgr
import Verif.Spec.Connmgr
import Verif.Proof.Connmgr
import Verif.Props.Connmgr
import Verif.Model.Protobuf
import Verif.Spec.Protobuf
import Verif.Props.Protobuf
import Verif.Model.Sha3
import Verif.Spec.Sha3
import Verif.Proof.Sha3
import Verif.Proof.Sha3Stream
import Verif.Props.Sha3
import Verif.Model.Md5
import Verif.Spec.Md5
import Verif.Proof.Md5
import Verif.Props.Md5
import Verif.Model.DhtStore
import Verif.Spec.DhtStore
import Verif.Proof.DhtStore
import Verif.Props.DhtStore
import Verif.Model.DhtLookup
import Verif.Spec.DhtLookup
import Verif.Proof.DhtLookup
import Verif.Props.DhtLookup
import Verif.Model.DhtBuckets
import Verif.Spec.DhtBuckets
import Verif.Proof.DhtBuckets
import Verif.Props.DhtBuckets
import Verif.Model.IrmdFlow
import Verif.Spec.IrmdFlow
import Verif.Spec.IrmdLog
import Verif.Proof.IrmdReg
import Verif.Proof.IrmdFlow
import Verif.Proof.IrmdEff
import Verif.Proof.IrmdStep
import Verif.Proof.IrmdGo
import Verif.Proof.IrmdInv
import Verif.Proof.IrmdAns
import Verif.Proof.IrmdSame
import Verif.Proof.IrmdMsg
import Verif.Props.IrmdFlow
import Verif.Model.Udp
import Verif.Spec.Udp
import Verif.Proof.UdpMsg
import Verif.Proof.Udp
import Verif.Proof.UdpStep
import Verif.Proof.UdpRun
import Verif.Proof.UdpOnce
import Verif.Proof.UdpWit
import Verif.Props.Udp
import Verif.Model.EthLlc
import Verif.Model.EthDix
import Verif.Spec.EthLlc
import Verif.Proof.EthLlc
import Verif.Proof.EthLlcStep
import Verif.Proof.EthLlcRun
import Verif.Proof.EthMsg
import Verif.Proof.EthLlcWit
import Verif.Proof.EthLlcTalk
import Verif.Props.EthLlc
import Verif.Model.FlowCrypt
import Verif.Spec.FlowCrypt
import Verif.Proof.FlowCrypt
import Verif.Proof.FlowOneWay
import Verif.Props.FlowCrypt
import Verif.Model.DhtReq
import Verif.Spec.DhtReq
import Verif.Proof.DhtReq
import Verif.Props.DhtReq
import Verif.Model.DhtJoin
import Verif.Spec.DhtJoin
import Verif.Proof.DhtJoin
import Verif.Props.DhtJoin
import Verif.Model.DhtPacket
import Verif.Spec.DhtPacket
import Verif.Proof.DhtPacket
import Verif.Props.DhtPacket
import Verif.Model.IrmdAdmin
import Verif.Spec.IrmdAdmin
import Verif.Proof.IrmdAdmin
import Verif.Props.IrmdAdmin
import Verif.Model.ProgPath
import Verif.Spec.ProgPath
import Verif.Proof.ProgPath
import Verif.Props.ProgPath
import Verif.Spec.LsdbPff
import Verif.Proof.LsdbPffMulti
import Verif.Model.FlowTable
import Verif.Spec.FlowTable
import Verif.Proof.FlowTable
import Verif.Props.FlowTable
import Verif.Model.Keepalive
import Verif.Spec.Keepalive
import Verif.Proof.Keepalive
import Verif.Props.Keepalive
import Verif.Model.Lockfile
import Verif.Spec.Lockfile
import Verif.Proof.Lockfile
import Verif.Props.Lockfile
import Verif.Model.Rib
import Verif.Spec.Rib
import Verif.Proof.Rib
import Verif.Props.Rib
import Verif.Model.RibDocs
import Verif.Spec.RibDocs
import Verif.Proof.RibDocs
import Verif.Props.RibDocs
import Verif.Model.Locks
import Verif.Spec.Locks
import Verif.Proof.Locks
import Verif.Props.Locks
import Verif.Model.Unicast
import Verif.Spec.Unicast
import Verif.Proof.Unicast
import Verif.Props.Unicast
import Verif.Model.Startup
import Verif.Spec.Startup
import Verif.Proof.Startup
import Verif.Props.Startup
import Verif.Model.Cep
import Verif.Spec.Cep
import Verif.Proof.Cep
import Verif.Props.Cep
import Verif.Model.IrmTool
import Verif.Spec.IrmTool
import Verif.Proof.IrmTool
import Verif.Props.IrmTool
import Verif.Model.Config
import Verif.Spec.Config
import Verif.Proof.Config
import Verif.Props.Config
import Verif.Model.RbuffLl
import Verif.Spec.RbuffLl
import Verif.Proof.RbuffLl
import Verif.Props.RbuffLl
import Verif.Model.SerdesIrm
import Verif.Spec.SerdesIrm
import Verif.Proof.SerdesIrm
import Verif.Props.SerdesIrm
import Verif.Model.Oping
import Verif.Spec.Oping
import Verif.Proof.Oping
import Verif.Props.Oping
import Verif.Model.Ocbr
import Verif.Spec.Ocbr
import Verif.Proof.Ocbr
import Verif.Props.Ocbr
import Verif.Model.IrmEnroll
import Verif.Spec.IrmEnroll
import Verif.Proof.IrmEnroll
import Verif.Props.IrmEnroll
import Verif.Model.Operf
import Verif.Spec.Operf
import Verif.Proof.Operf
import Verif.Props.Operf
