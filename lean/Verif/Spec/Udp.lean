import Verif.Model.Udp

/-!
# What users of the layer over UDP rely on: two flows are connected, and packets go only between them
-/

namespace Ouro.Udp

/-- Flow `f` of host `a` asked for a name at host `b`, and host `b` offered its daemon flow `g` for that request: same name, QoS and data. -/
def Connected (log : List Event) (a f b g : Nat) : Prop :=
  ∃ h q d i, .requested a f b h q d ∈ log ∧ .offered b g a f h q d i ∈ log

/-- The two flows are the two ends of one request. -/
def Paired (log : List Event) (a f b g : Nat) : Prop := Connected log a f b g ∨ Connected log b g a f

/-- The descriptors that are given out. -/
def given : List Op → List (Nat × Nat)
  | [] => []
  | .alloc a fd _ _ _ _ _ :: l => (a, fd) :: given l
  | .mgmt a (some fd) :: l => (a, fd) :: given l
  | _ :: l => given l

/-- No descriptor is given out twice. -/
def Fresh (ops : List Op) : Prop := (given ops).Nodup

/-- The datagrams that are received, in order. -/
def received : List Op → List Nat
  | [] => []
  | .recv i :: l => i :: received l
  | _ :: l => received l

/-- A step of an orderly world: nobody else sends, QoS specifications have the ranges of their C types, messages fit the buffer of 2048 bytes, and no request is refused. -/
def Op.Sane : Op → Prop
  | .inject _ => False
  | .alloc _ _ _ _ q data _ => q.WF ∧ 46 + 16 + data.length ≤ 2048
  | .resp _ _ response data _ => response = 0 ∧ 46 + data.length ≤ 2048
  | _ => True

def Sane (ops : List Op) : Prop := ∀ op ∈ ops, op.Sane

end Ouro.Udp
