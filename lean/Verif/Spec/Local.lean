import Verif.Model.Local

/-!
# What the statements about the local IPCP speak about
-/

namespace Ouro.Local

/-- The descriptors an allocation in progress holds. -/
def fds (a : Alloc) : List Nat := a.fd :: (a.out.toList.map Prod.fst)

/-- End `n` has its descriptor and is not being deallocated. -/
def IsOpen (s : State) (n : Nat) : Prop := s.ends (s.home n) = some ⟨n, false⟩

/-- Descriptor `fd` may be given to a new flow: for every end that had it, the other end of that flow is deallocated; and the packet loop does not hold a
packet read from it or to be written to it. -/
def Reusable (s : State) (fd : Nat) : Prop :=
  (∀ m n, s.home m = fd → s.peer m = some n → ¬ IsOpen s n) ∧
  (∀ n p, s.loop ≠ .got fd n p) ∧ (∀ n p, s.loop ≠ .to (fd : Int) n p)

/-- A step that is careful: descriptors are reused late, and a flow is deallocated only after its allocation is complete. -/
def CarefulStep (s : State) : Op → Prop
  | .alloc fd => Reusable s fd
  | .arrived _ (some fd) => Reusable s fd
  | .clear fd => ∀ a ∈ s.allocs, fd ∉ fds a
  | _ => True

/-- Careful histories. -/
def Careful : State → List Op → Prop
  | _, [] => True
  | s, op :: ops => CarefulStep s op ∧ ∀ r, step s op = .ok r → Careful r.1 ops

/-- The two ends belong to the same flow, according to a history. -/
def SameFlow (log : List (Op × Out)) (n m : Nat) : Prop := ∃ e ∈ log, e.2 = .linked n m ∨ e.2 = .linked m n

/-- Packet `p` of end `n` was taken. -/
def isTook (n p : Nat) (e : Op × Out) : Bool := e.2 == .took n p
/-- Packet `p` of end `n` arrived somewhere, or was lost. -/
def isGone (n p : Nat) (e : Op × Out) : Bool := match e.2 with
  | .delivered k _ q => k == n && q == p
  | .lost k q => k == n && q == p
  | _ => false

end Ouro.Local
