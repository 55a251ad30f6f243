import Verif.Model.Lockfile

/-!
# The lock file of the IRM daemon: specification
-/

namespace Ouro.Lockfile

/-- Process `p` is a daemon that has the lock. -/
def Running (s : St) (p : Nat) : Prop := ∃ o, s.pc p = .running o

/-- Process `p` is a daemon that is starting up. -/
def Starting (s : St) (p : Nat) : Prop := s.pc p ≠ .gone ∧ s.pc p ≠ .other ∧ ¬ Running s p

/-- A daemon is started only when no other is starting up, and no daemon fails to map a lock file that it
opened. -/
def Apart : St → List Act → Prop
  | _, [] => True
  | s, a :: acts =>
    (∀ p, a = .start p → ∀ q, ¬ Starting s q) ∧ (∀ p, a = .fail p → s.pc p ≠ .opening) ∧
      Apart (step s a) acts

/-- `n` next steps of process `p`. -/
def nexts (p n : Nat) : List Act := List.replicate n (.next p)

end Ouro.Lockfile
