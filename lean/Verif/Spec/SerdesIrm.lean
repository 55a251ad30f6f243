import Verif.Model.SerdesIrm

/-!
# Specification for C82: the exchanges between the library and the IRM daemon
-/

namespace Ouro.SerdesIrm

open Ouro.Protobuf

/-- What a program or IPCP can ask of the daemon. -/
inductive Req where
  | accept (f : FlowInfo) (t : Option Timespec)
  | alloc (f : FlowInfo) (dst : Str) (t : Option Timespec)
  | join (f : FlowInfo) (dst : Str) (t : Option Timespec)
  | dealloc (f : FlowInfo) (t : Timespec)
  | ipcpDealloc (f : FlowInfo)
  | created (i : IpcpInfo)
  | announce (pid : Int32) (prog : Str)
  | exit (pid : Int32)
  | arrived (dst : Str) (f : FlowInfo) (data : Str)
  | reply (f : FlowInfo) (response : Int32) (data : Str)

/-- The call that serialises a request. -/
def Req.ser (e : Env) (b : Buf) : Req → Outcome Res
  | .accept f t => flowAccept e b f t
  | .alloc f d t => flowAlloc e b f d t
  | .join f d t => flowJoin e b f d t
  | .dealloc f t => flowDealloc e b f t
  | .ipcpDealloc f => ipcpFlowDealloc e b f
  | .created i => ipcpCreateR e b i
  | .announce p g => procAnnounce e b p g
  | .exit p => procExit e b p
  | .arrived d f x => flowReqArr e b d f x
  | .reply f r x => flowAllocReply e b f r x

/-- A flow that survives the narrowing of its MPL to 32 bits (C47). -/
def FlowOk (f : FlowInfo) : Prop := 0 ≤ f.mpl.toInt ∧ f.mpl.toInt < 2 ^ 32

/-- A time in normal form. -/
def TimeOk (t : Timespec) : Prop := 0 ≤ t.nsec.toInt ∧ t.nsec.toInt < 10 ^ 9

/-- The values in a request survive their conversion. -/
def Req.Ok : Req → Prop
  | .accept f t => FlowOk f ∧ ∀ x ∈ t, TimeOk x
  | .alloc f _ t => FlowOk f ∧ ∀ x ∈ t, TimeOk x
  | .join f _ t => FlowOk f ∧ ∀ x ∈ t, TimeOk x
  | .dealloc f t => FlowOk f ∧ TimeOk t
  | .ipcpDealloc f => FlowOk f
  | .created i => i.name.length ≤ 255
  | .announce _ _ => True
  | .exit _ => True
  | .arrived _ f _ => FlowOk f
  | .reply f _ _ => FlowOk f

/-- Message `m` asks for this: its code is that of irm.proto, it has the arguments of the request, and nothing else. -/
def Req.AsksFor (m : IrmMsg) : Req → Prop
  | .accept f t => ∃ fm tm, m = { code := 21, flow := some fm, timeo := tm } ∧ flowOfMsg fm = f ∧ tm.map timespecOfMsg = t
  | .alloc f d t => ∃ fm tm, m = { code := 20, flow := some fm, dst := some d, timeo := tm } ∧ flowOfMsg fm = f ∧ tm.map timespecOfMsg = t
  | .join f d t => ∃ fm tm, m = { code := 22, flow := some fm, dst := some d, timeo := tm } ∧ flowOfMsg fm = f ∧ tm.map timespecOfMsg = t
  | .dealloc f t => ∃ fm tm, m = { code := 23, flow := some fm, timeo := some tm } ∧ flowOfMsg fm = f ∧ timespecOfMsg tm = t
  | .ipcpDealloc f => ∃ fm, m = { code := 24, flow := some fm } ∧ flowOfMsg fm = f
  | .created i => ∃ im, m = { code := 2, ipcp := some im } ∧ ipcpOfMsg im = .ok i
  | .announce p g => m = { code := 11, pid := some p, prog := some g }
  | .exit p => m = { code := 12, pid := some p }
  | .arrived d f x => ∃ fm, m = { code := 25, flow := some fm, hash := some d, pk := some x } ∧ flowOfMsg fm = f
  | .reply f r x => ∃ fm, m = { code := 26, flow := some fm, response := some r, pk := some x } ∧ flowOfMsg fm = f

/-- The bytes of the strings in a request. -/
def Req.strings : Req → Nat
  | .alloc _ d _ => d.length
  | .join _ d _ => d.length
  | .created i => i.name.length
  | .announce _ g => g.length
  | .arrived d _ x => d.length + x.length
  | .reply _ _ x => x.length
  | _ => 0

/-- What a program must be told when the daemon answers `m`, and the flow and key it gets. -/
inductive Told (m : IrmMsg) (wantsKey : Bool) : Int → Option FlowInfo → Option Str → Prop where
  | noResult : m.result = none → Told m wantsKey (-1002) none none
  | refused (r : Int32) : m.result = some r → r.toInt < 0 → Told m wantsKey r.toInt none none
  | noFlow (r : Int32) : m.result = some r → 0 ≤ r.toInt → m.flow = none → Told m wantsKey (-9) none none
  | plain (r : Int32) (f : FlowInfoMsg) : m.result = some r → 0 ≤ r.toInt → m.flow = some f → (wantsKey = false ∨ (flowOfMsg f).qs.cypherS = 0) →
      Told m wantsKey 0 (some (flowOfMsg f)) none
  | secret (r : Int32) (f : FlowInfoMsg) (k : Str) : m.result = some r → 0 ≤ r.toInt → m.flow = some f → wantsKey = true → (flowOfMsg f).qs.cypherS ≠ 0 →
      m.key = some k → k ≠ [] → Told m wantsKey 0 (some (flowOfMsg f)) (some k)
  | noKey (r : Int32) (f : FlowInfoMsg) : m.result = some r → 0 ≤ r.toInt → m.flow = some f → wantsKey = true → (flowOfMsg f).qs.cypherS ≠ 0 →
      m.key.getD [] = [] → Told m wantsKey (-1007) (some (flowOfMsg f)) none

end Ouro.SerdesIrm
