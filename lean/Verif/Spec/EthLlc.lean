import Verif.Model.EthLlc

/-!
# What users of a layer over Ethernet rely on: a flow stays with its peer
-/

namespace Ouro.EthLlc

/-- What was seen since the flow was last closed. -/
def since (log : List Event) (fd : Nat) : List Event := log.reverse.takeWhile (fun e => e ≠ .closed fd)

/-- SAP `sap` of address `a` asked for this flow, or replied to its request, since the flow was last closed. -/
def Peer (log : List Event) (fd a sap : Nat) : Prop :=
  (∃ h q d, .offered fd a sap h q d ∈ since log fd) ∨ ∃ d, .replied fd a sap 0 d ∈ since log fd

/-- The flow was given this SAP since it was last closed. -/
def HasSap (log : List Event) (fd sap : Nat) : Prop := .assigned fd sap ∈ since log fd

/-- The name was registered since it was last unregistered. -/
def Registered (log : List Event) (h : List Byte) : Prop := .registered h ∈ log.reverse.takeWhile (fun e => e ≠ .unregistered h)

/-- The parts of a frame: addresses in bytes 0 and 6, SAPs (with their bits reversed) in bytes 14 and 15, payload from byte 17. -/
structure IsFrame (b : List Byte) (dst src dsap ssap : Nat) (p : List Byte) : Prop where
  dst : leVal (b.take 6) = dst
  src : leVal ((b.drop 6).take 6) = src
  dsap : ∃ x, b[14]? = some x ∧ ∀ i, i < 8 → x.getLsbD i = dsap.testBit (7 - i)
  ssap : ∃ x, b[15]? = some x ∧ ∀ i, i < 8 → x.getLsbD i = ssap.testBit (7 - i)
  payload : b.drop 17 = p

/-- The daemon does not deallocate a flow while the handler or a thread that responds still works for it. -/
def Calm (s : Host) : Op → Prop
  | .dealloc fd => s.await ≠ some fd ∧ ∀ b, s.busy = some b → b.fd ≠ fd
  | _ => True

/-- A frame a host of the layer can have sent: it has the length it says, it is for a SAP in the table, and if it is a management frame, its message is whole and no refusal. -/
def Honest (c : Cfg) (fr : List Byte) : Prop :=
  ∃ (dst src : Nat) (d e : Byte) (p : List Byte), dst < 2 ^ 48 ∧ src < 2 ^ 48 ∧ p.length ≤ 1500 - 3 ∧ (∃ pad, fr = frame dst src d e p ++ pad) ∧ (reverseBits d).toNat < 64 ∧
    ((reverseBits d).toNat = 1 → (reverseBits e).toNat = 1 → ∃ m, parse c.hashLen p = .ok m ∧ ∀ ssap dsap r data, m = .reply ssap dsap r data → r = 0 ∧ dsap < 64)

/-- Some SAP below 64 is not given to a flow. -/
def Room (log : List Event) : Prop := ∃ sap, 2 ≤ sap ∧ sap < 64 ∧ ∀ fd, ¬ HasSap log fd sap

/-- A step of an orderly world: frames come from hosts of the layer; fewer flows than SAPs below 64; responses are positive, fit and can be sent; only flows with a SAP are deallocated. -/
def Fair (c : Cfg) (s : Host) : Op → Prop
  | .recv fr _ over => Honest c fr ∧ over = none
  | .alloc .. => Room s.log
  | .resp _ response data ok _ => response = 0 ∧ Room s.log ∧ 36 + data.length + 3 ≤ c.mtu ∧ ok = true
  | .dealloc fd => s.live fd = true → ∃ sap, HasSap s.log fd sap
  | _ => True

/-- Every step of the history meets a condition. -/
def Along (c : Cfg) (P : Host → Op → Prop) (s : Host) : List Op → Prop
  | [] => True
  | op :: l => P s op ∧ ∀ s', step c s op = .ok s' → Along c P s' l

end Ouro.EthLlc
