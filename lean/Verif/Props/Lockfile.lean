import Verif.Proof.Lockfile

/-!
# C72: one IRM daemon at a time
-/

namespace Ouro.Lockfile

/-- **C72, partial.**  In every history of daemons that start, stop and die at any point, among other processes
that come and go, at most one daemon has the lock, if no two daemons start up at the same time and none fails to
map the lock file that it opened.  The full statement has neither condition; see `C72_race_violated`,
`C72_restart_race_violated` and `C72_open_failure_violated`. -/
theorem C72_one_partial (acts : List Act) (ha : Apart start acts) (p q : Nat)
    (hp : Running (run start acts) p) (hq : Running (run start acts) q) : p = q :=
  (run_inv start_inv acts ha).unique hp hq

/-- A daemon starts, dies with the lock, and the next daemon takes over. -/
example : Running (run start ([.start 1] ++ nexts 1 3 ++ [.die 1, .start 2] ++ nexts 2 8)) 2 :=
  ⟨1, by decide +kernel⟩

/-- The histories meet the condition: one daemon starts up after the other. -/
example : Apart start [.start 1, .next 1, .next 1, .next 1, .die 1, .start 2] := by
  simp only [Apart, reduceCtorEq, false_implies, implies_true, true_and, Act.start.injEq, and_true]
  refine ⟨fun _ _ q hq => hq.1 rfl, fun _ _ q hq => hq.1 ?_⟩
  by_cases h : q = 1 <;> simp [step, next, create, start, upd, h]

/-- Under the same conditions the packet buffer is purged only while no daemon has the lock. -/
theorem C72_purge (acts : List Act) (ha : Apart start acts) (a : Act)
    (hpurge : (step (run start acts) a).purges ≠ (run start acts).purges) (q : Nat) :
    ¬ Running (run start acts) q := by
  have hI := run_inv start_inv acts ha
  generalize run start acts = s at *
  cases a with
  | next p =>
    simp only [step] at hpurge
    unfold next at hpurge
    cases hc : s.pc p with
    | stale o => rintro ⟨o', ho'⟩; exact hI.stale p o hc q o' ho'
    | begin1 => simp only [hc, create] at hpurge; split at hpurge <;> exact absurd rfl hpurge
    | begin2 => simp only [hc, create] at hpurge; split at hpurge <;> exact absurd rfl hpurge
    | opening => simp only [hc] at hpurge; split at hpurge <;> exact absurd rfl hpurge
    | mapped o =>
      simp only [hc] at hpurge
      split at hpurge
      · exact absurd rfl hpurge
      · split at hpurge <;> exact absurd rfl hpurge
    | purged o => simp only [hc] at hpurge; split at hpurge <;> exact absurd rfl hpurge
    | running o => simp only [hc] at hpurge; split at hpurge <;> exact absurd rfl hpurge
    | _ => simp only [hc] at hpurge; exact absurd rfl hpurge
  | start p => simp only [step] at hpurge; split at hpurge <;> exact absurd rfl hpurge
  | spawn p => simp only [step] at hpurge; split at hpurge <;> exact absurd rfl hpurge
  | die p => exact absurd rfl hpurge
  | fail p =>
    simp only [step] at hpurge
    unfold fail at hpurge
    cases hc : s.pc p with
    | opening => simp only [hc] at hpurge; split at hpurge <;> exact absurd rfl hpurge
    | _ => simp only [hc] at hpurge; exact absurd rfl hpurge

/-- The second daemon of the example purges the packet buffer once. -/
example : (run start ([.start 1] ++ nexts 1 3 ++ [.die 1, .start 2] ++ nexts 2 8)).purges = 1 := by
  decide +kernel

/-- A daemon that starts undisturbed gets the lock when there is no lock file, whatever else the system does. -/
theorem C72_starts (s : St) (p : Nat) (hp0 : p ≠ 0) (hp : s.pc p = .gone) (hn : s.name = none) :
    Running (run s ([.start p] ++ nexts p 3)) p := by
  refine ⟨s.count, ?_⟩
  simp [run, nexts, List.replicate, step, hp0, hp, next, create, hn, upd_same]

example : (start.pc 7 = .gone ∧ start.name = none) := ⟨rfl, rfl⟩

/-- A daemon that starts undisturbed takes over the lock of a daemon that died, and purges the packet buffer once. -/
theorem C72_takes_over (s : St) (p q o : Nat) (hp0 : p ≠ 0) (hp : s.pc p = .gone) (hn : s.name = some o)
    (ho : s.objs o = some q) (hq0 : q ≠ 0) (hq : s.pc q = .gone) (hpq : q ≠ p) :
    Running (run s ([.start p] ++ nexts p 8)) p ∧
      (run s ([.start p] ++ nexts p 8)).purges = s.purges + 1 := by
  have h1 : step s (.start p) =
      { s with pc := upd s.pc p .begin1, mask0 := upd s.mask0 p false } := by
    simp [step, hp0, hp]
  refine ⟨⟨s.count, ?_⟩, ?_⟩ <;>
    simp [run, nexts, List.replicate, step, hp0, hp, next, create, hn, upd_same, ho, alive, hq0,
      upd_ne _ _ hpq, hq, hpq]

example : (run start ([.start 1] ++ nexts 1 3 ++ [.die 1])).objs 0 = some 1 := by decide +kernel

/-- A daemon that starts while the process named in the lock file exists ends without touching the lock, the
packet buffer or any other process. -/
theorem C72_refuses (s : St) (p q o : Nat) (hp0 : p ≠ 0) (hp : s.pc p = .gone) (hn : s.name = some o)
    (ho : s.objs o = some q) (hq : s.pc q ≠ .gone) :
    let s' := run s ([.start p] ++ nexts p 3)
    s'.pc p = .gone ∧ s'.name = some o ∧ s'.objs = s.objs ∧ s'.purges = s.purges ∧
      ∀ r, r ≠ p → s'.pc r = s.pc r := by
  have hpq : q ≠ p := by rintro rfl; exact hq hp
  have hfin : run s ([.start p] ++ nexts p 3) =
      { s with
        pc := upd (upd (upd (upd s.pc p .begin1) p .opening) p (.mapped o)) p .gone
        mask0 := upd (upd s.mask0 p false) p true } := by
    simp [run, nexts, List.replicate, step, hp0, hp, next, create, hn, upd_same, ho, alive,
      upd_ne _ _ hpq, hq]
  rw [hfin]
  refine ⟨upd_same _ _ _, hn, rfl, rfl, fun r hr => ?_⟩
  simp only [upd_ne _ _ hr]

example : (run start ([.start 1] ++ nexts 1 3)).pc 1 ≠ .gone := by decide +kernel

/-- **C72 violated: two starts after a crash.**  Two daemons that start after a third died can both find its lock
file; the first takes it over, and the second, which looks at its mapping of the old file, then removes the new
file.  Both have the lock, and the packet buffer was purged under the first. -/
theorem C72_race_violated :
    let acts := [.start 1] ++ nexts 1 3 ++ [.die 1, .start 2, .start 3] ++ nexts 2 3 ++ nexts 3 3 ++
      nexts 2 5 ++ nexts 3 5
    Running (run start acts) 2 ∧ Running (run start acts) 3 ∧ (run start acts).purges = 2 :=
  ⟨⟨1, by decide +kernel⟩, ⟨2, by decide +kernel⟩, by decide +kernel⟩

/-- **C72 violated: a restart.**  No process needs to die before its time: daemon 1 stops normally and daemon 2
starts, while daemon 3 is between opening the lock file of daemon 1 and reading it. -/
theorem C72_restart_race_violated :
    let acts := [.start 1] ++ nexts 1 3 ++ [.start 3] ++ nexts 3 2 ++ nexts 1 1 ++ [.start 2] ++ nexts 2 3 ++
      nexts 3 6
    Running (run start acts) 2 ∧ Running (run start acts) 3 ∧ (∀ p, Act.die p ∉ acts) :=
  ⟨⟨1, by decide +kernel⟩, ⟨2, by decide +kernel⟩, by simp [nexts]⟩

/-- **C72 violated: a failed start removes the lock.**  When a second daemon cannot map the lock file of the
running one it removes its name, and a third daemon starts beside the first. -/
theorem C72_open_failure_violated :
    let acts := [.start 1] ++ nexts 1 3 ++ [.start 2] ++ nexts 2 1 ++ [.fail 2, .start 3] ++ nexts 3 3
    Running (run start acts) 1 ∧ Running (run start acts) 3 :=
  ⟨⟨0, by decide +kernel⟩, ⟨1, by decide +kernel⟩⟩

/-- **C72 violated: no daemon any more.**  After a daemon dies between creating the lock file and writing its
process id, no daemon ever starts, whatever processes do and however often it is tried: the file reads as
process 0, which counts as running, or has no size and kills the reader. -/
theorem C72_orphan_violated (p n : Nat) (hp0 : p ≠ 0) (hn : n = 1 ∨ n = 2) (acts : List Act)
    (hno : ∀ q, .fail q ∉ acts) (q : Nat) :
    ¬ Running (run start ([.start p] ++ nexts p n ++ [.die p] ++ acts)) q := by
  rw [run_append]
  refine (Orphan.run (o := 0) ?_ acts hno).not_running q
  rcases hn with rfl | rfl
  · have : run start ([.start p] ++ nexts p 1 ++ [.die p]) =
        { start with
          name := some 0, objs := upd start.objs 0 none, count := 1
          pc := upd (upd (upd start.pc p .begin1) p (.created 0)) p .gone
          mask0 := upd start.mask0 p false } := by
      simp [run, nexts, List.replicate, step, hp0, start, next, create, upd_same]
    rw [this]
    refine ⟨rfl, Or.inl rfl, fun r => Or.inl ?_⟩
    by_cases hr : r = p
    · subst hr; exact upd_same _ _ _
    · simp only [upd_ne _ _ hr]; rfl
  · have : run start ([.start p] ++ nexts p 2 ++ [.die p]) =
        { start with
          name := some 0, objs := upd (upd start.objs 0 none) 0 (some 0), count := 1
          pc := upd (upd (upd (upd start.pc p .begin1) p (.created 0)) p (.sized 0)) p .gone
          mask0 := upd start.mask0 p false } := by
      simp [run, nexts, List.replicate, step, hp0, start, next, create, upd_same]
    rw [this]
    refine ⟨rfl, Or.inr rfl, fun r => Or.inl ?_⟩
    by_cases hr : r = p
    · subst hr; exact upd_same _ _ _
    · simp only [upd_ne _ _ hr]; rfl

/-- Without the crash the same daemon gets the lock with its next step. -/
example : Running (run start ([.start 5] ++ nexts 5 3)) 5 := ⟨0, by decide +kernel⟩

/-- **C72 violated: the process id is reused.**  After a daemon died and an unrelated process got its process id,
a daemon that starts takes that process for the daemon and ends, although no daemon runs. -/
theorem C72_pid_reuse_violated :
    let s := run start ([.start 1] ++ nexts 1 3 ++ [.die 1, .spawn 1, .start 2] ++ nexts 2 3)
    s.pc 1 = .other ∧ s.pc 2 = .gone ∧ s.name = some 0 := by
  refine ⟨by decide +kernel, by decide +kernel, by decide +kernel⟩

/-- **C72 violated: the file creation mask.**  A daemon that takes over runs with its file creation mask cleared,
because the first attempt to create the lock file does not restore it; one that finds no lock file does not. -/
theorem C72_umask_violated (s : St) (p q o : Nat) (hp0 : p ≠ 0) (hp : s.pc p = .gone) (hn : s.name = some o)
    (ho : s.objs o = some q) (hq0 : q ≠ 0) (hq : s.pc q = .gone) (hpq : q ≠ p) :
    let s' := run s ([.start p] ++ nexts p 8)
    Running s' p ∧ s'.mask0 p = true := by
  refine ⟨(C72_takes_over s p q o hp0 hp hn ho hq0 hq hpq).1, ?_⟩
  simp [run, nexts, List.replicate, step, hp0, hp, next, create, hn, upd_same, ho, alive, hq0,
      upd_ne _ _ hpq, hq, hpq]

example : (run start ([.start 1] ++ nexts 1 3)).mask0 1 = false := by decide +kernel

end Ouro.Lockfile
