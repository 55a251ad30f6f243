import Verif.Model.Startup

/-!
# What start-up and clean-up should do (C77)

Start-up is all or nothing: when it fails it has undone what it did, when it succeeds its clean-up undoes it, and nothing is ended that was not there.
-/

namespace Ouro.Startup

/-- The resources an execution names. -/
def objs : Cmd → List Res
  | .ok => []
  | .fail => []
  | .acq r no yes => r :: (objs no ++ objs yes)
  | .reg r no yes => r :: (objs no ++ objs yes)
  | .put r no yes => r :: (objs no ++ objs yes)
  | .may no yes => objs no ++ objs yes
  | .rel r next => r :: objs next
  | .unr r next => r :: objs next
  | .has r yes no => r :: (objs yes ++ objs no)

/-- None of the resources `c` names is in use; others may be. -/
def Fresh (s : St) (c : Cmd) : Prop := ∀ r ∈ objs c, s.held r = false

/-- All or nothing: whatever calls fail, a failed start leaves the resources as they were; the clean-up after a successful one does too; and nothing
is ended that was not there or overwritten. -/
def Clean (init : Cmd → Cmd → Cmd) (fini : Cmd → Cmd) : Prop :=
  ∀ (s : St) (orc orc' : List Bool), Fresh s (init .fail .ok) → Fresh s (fini .ok) →
    ((run (init .fail .ok) orc s).1 = false → (run (init .fail .ok) orc s).2 = s) ∧
    ((run (init .fail .ok) orc s).1 = true → (run (init .fail .ok) orc s).2.bad = s.bad ∧ run (fini .ok) orc' (run (init .fail .ok) orc s).2 = (true, s))

/-- A failed start leaves at most `l`, and ends nothing that was not there. -/
def FailLeaves (init : Cmd → Cmd → Cmd) (l : List Res) : Prop :=
  ∀ (s : St) (orc : List Bool), Fresh s (init .fail .ok) → (run (init .fail .ok) orc s).1 = false →
    (run (init .fail .ok) orc s).2.bad = s.bad ∧ ∀ r, r ∉ l → (run (init .fail .ok) orc s).2.held r = s.held r

/-- A failed start leaves at most `l`; it may have ended something twice. -/
def FailLeavesOnly (init : Cmd → Cmd → Cmd) (l : List Res) : Prop :=
  ∀ (s : St) (orc : List Bool), Fresh s (init .fail .ok) → (run (init .fail .ok) orc s).1 = false →
    ∀ r, r ∉ l → (run (init .fail .ok) orc s).2.held r = s.held r

/-- The clean-up after a successful start leaves exactly `l`, and ends nothing that was not there. -/
def FiniLeaves (init : Cmd → Cmd → Cmd) (fini : Cmd → Cmd) (l : List Res) : Prop :=
  ∀ (s : St) (orc orc' : List Bool), Fresh s (init .fail .ok) → Fresh s (fini .ok) → (run (init .fail .ok) orc s).1 = true →
    (run (fini .ok) orc' (run (init .fail .ok) orc s).2).2.bad = s.bad ∧
    ∀ r, (run (fini .ok) orc' (run (init .fail .ok) orc s).2).2.held r = (s.held r || decide (r ∈ l))

/-- Nothing in use. -/
def nothing : St := ⟨fun _ => false, false⟩

/-- A later attempt of the user: a bootstrap or an enrolment, with the calls that fail in it. -/
structure Try where
  enrol : Bool
  orc : List Bool

/-- What an attempt runs. -/
def Try.cmd (a : Try) : Cmd := if a.enrol then enroll .fail .ok else bootstrap .fail .ok

/-- The results of attempts one after the other. -/
def attempts : List Try → St → List Bool
  | [], _ => []
  | a :: l, s => (run a.cmd a.orc s).1 :: attempts l (run a.cmd a.orc s).2

/-- A function with its clean-up. -/
structure Pair where
  init : Cmd → Cmd → Cmd
  fini : Cmd → Cmd

/-- The components that are all or nothing. -/
def components : List Pair :=
  [⟨tpmCreate 0, tpmDestroy 0⟩, ⟨bmpCreate 0, bmpDestroy 0⟩, ⟨graphCreate, graphDestroy⟩, ⟨pschedCreate, pschedDestroy⟩, ⟨pftCreate, pftDestroy⟩,
   ⟨pffPolCreate, pffPolDestroy⟩, ⟨pffCreate, pffDestroy⟩, ⟨routingICreate, routingIDestroy⟩, ⟨compInit 0, compFini 0⟩, ⟨lsInit, lsFini⟩,
   ⟨dtInit, dtFini⟩, ⟨faStart, faStop⟩, ⟨notifierInit, notifierFini⟩, ⟨connInit, connFini⟩, ⟨enrollInit, enrollFini⟩, ⟨regInit, regFini⟩,
   ⟨irmStart, irmStop⟩, ⟨frctiCreate, frctiDestroy⟩, ⟨rawFlowInit, rawFlowFini⟩]

end Ouro.Startup
