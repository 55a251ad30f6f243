/-!
# Model of the QoS classes (src/lib/qoscube.c, include/ouroboros/qos.h, include/ouroboros/qoscube.h)
-/

namespace Ouro.Qoscube

/-- `qosspec_t` (include/ouroboros/qos.h:31-41), all fields as naturals; `WF` below gives the ranges of the C types. -/
structure Spec where
  delay : Nat
  bandwidth : Nat
  availability : Nat
  loss : Nat
  ber : Nat
  inOrder : Nat
  maxGap : Nat
  cypherS : Nat
  timeout : Nat
  deriving DecidableEq, Repr

/-- Field ranges of `qosspec_t` (include/ouroboros/qos.h:31-41). -/
def Spec.WF (q : Spec) : Prop :=
  q.delay < 2^32 ∧ q.bandwidth < 2^64 ∧ q.availability < 2^8 ∧ q.loss < 2^32 ∧ q.ber < 2^32 ∧ q.inOrder < 2^8 ∧
  q.maxGap < 2^32 ∧ q.cypherS < 2^16 ∧ q.timeout < 2^32

instance (q : Spec) : Decidable q.WF := by unfold Spec.WF; infer_instance

/-- `qos_video` (include/ouroboros/qos.h:103-113). -/
def video : Spec := ⟨100, 2^64 - 1, 3, 1, 0, 1, 100, 0, 120000⟩

/-- `qos_voice` (include/ouroboros/qos.h:127-137). -/
def voice : Spec := ⟨50, 100000, 5, 1, 0, 1, 50, 0, 120000⟩

/-- `qos_best_effort` (include/ouroboros/qos.h:79-89). -/
def bestEffort : Spec := ⟨2^32 - 1, 0, 0, 1, 0, 1, 2^32 - 1, 0, 120000⟩

/-- `qoscube_t` (include/ouroboros/qoscube.h:28-33). -/
inductive Cube where
  | be
  | video
  | voice
  deriving DecidableEq, Repr

/-- The enumerator's value (include/ouroboros/qoscube.h:28-33). -/
def Cube.val : Cube → Nat
  | .be => 0
  | .video => 1
  | .voice => 2

/-- `qos_spec_to_cube` (src/lib/qoscube.c:30-44). -/
def specToCube (q : Spec) : Cube :=
  if q.delay ≤ voice.delay ∧ q.bandwidth ≤ voice.bandwidth ∧ q.availability ≥ voice.availability ∧ q.maxGap ≤ voice.maxGap then
    .voice
  else if q.delay ≤ video.delay ∧ q.bandwidth ≤ video.bandwidth ∧ q.availability ≥ video.availability ∧
      q.maxGap ≤ video.maxGap then
    .video
  else
    .be

end Ouro.Qoscube
