import Verif.Model.IrmEnroll
import Verif.Spec.IrmTool

/-!
# Specification for C85: enrolling and bootstrapping IPCPs by name
-/

namespace Ouro.IrmEnroll

open IrmTool (Str Plain Glob)

/-- The name and type given are those of the IPCP. -/
def Meant (ipcp : Str) (type : Nat) (p : Proc) : Prop := p.name = ipcp ∧ p.type = type

/-- IPCPs have plain names. -/
def PlainNames (w : World) : Prop := ∀ p ∈ w.ipcps, Plain p.name

/-- The process a call is about. -/
def Call.pid : Call → Option Nat
  | .create _ _ => none
  | .enroll p _ => some p
  | .bootstrap p _ => some p
  | .bind p _ => some p
  | .unbind p _ => some p

end Ouro.IrmEnroll
