import Verif.Proof.Startup

/-!
# C77: a failed start leaves nothing behind

A component, a layer, the daemon or a program that cannot start, because some call fails anywhere on the way, gives back what it had taken; one that
started gives it back when it stops; and nothing is given back twice.
-/

namespace Ouro.Startup

/-- A start in which the call number `n` fails. -/
def failAt (n : Nat) : List Bool := List.replicate n true ++ [false]

/-- C77: every component of the list (thread pools, bitmaps, graphs, packet schedulers, forwarding tables and functions, routing instances, components of
the connection manager, link-state routing, data transfer, the start of the flow allocator, the notifier, the connection manager, enrolment, the
registry, the start of the daemon, FRCT instances, flows without FRCT) is all or nothing, whatever calls fail and whatever else is in use. -/
theorem C77_components_partial : ∀ p ∈ components, Clean p.init p.fini := by
  have h : ∀ p ∈ components, cleanB p.init p.fini = true := by
    simp only [components, List.forall_mem_cons, List.not_mem_nil, false_imp_iff, implies_true, and_true]
    decide +kernel
  exact fun p hp => clean_of _ _ (h p hp)

/-- Failing at the RIB, data transfer undoes all the calls before. -/
example : (run (dtInit .fail .ok) (failAt 24) nothing).1 = false ∧ (run (dtInit .fail .ok) [] nothing).1 = true ∧
    (run (dtInit .fail .ok) [] nothing).2.held ⟨.dtStat, 0⟩ = true ∧ (run (dtInit .fail .ok) (failAt 24) nothing).2.held ⟨.dtStat, 0⟩ = false := by
  decide +kernel

/-- C77: an array of objects set up in a loop, as the locks of the statistics, is all or nothing for every length. -/
theorem C77_array (mk : Nat → Res) (inj : ∀ i j, mk i = mk j → i = j) (n : Nat) (s : St) (orc orc' : List Bool) (hs : ∀ i, s.held (mk i) = false) :
    ((run (acqFrom mk .fail .ok 0 n) orc s).1 = false → (run (acqFrom mk .fail .ok 0 n) orc s).2 = s) ∧
    ((run (acqFrom mk .fail .ok 0 n) orc s).1 = true →
      (∀ i < n, (run (acqFrom mk .fail .ok 0 n) orc s).2.held (mk i) = true) ∧ (run (acqFrom mk .fail .ok 0 n) orc s).2.bad = s.bad ∧
      run (relFrom mk .ok 0 n) orc' (run (acqFrom mk .fail .ok 0 n) orc s).2 = (true, s)) := by
  have h := run_acqFrom mk inj s hs n 0 orc
  rw [upto_zero, Nat.zero_add] at h
  rcases h with h | h
  · rw [h]; simp
  · rw [h]
    refine ⟨by simp, fun _ => ⟨fun i hi => ?_, rfl, ?_⟩⟩
    · simp only [upto, Bool.or_eq_true, List.any_eq_true, decide_eq_true_eq]
      exact Or.inr ⟨i, List.mem_range'_1.2 (by omega), rfl⟩
    · rw [run_relFrom mk inj .ok _ s hs]; rfl

example : (run (acqFrom (Res.mk .dtStat) .fail .ok 0 40) (failAt 39) nothing).1 = false ∧
    (run (acqFrom (Res.mk .dtStat) .fail .ok 0 40) [] nothing).2.held ⟨.dtStat, 39⟩ = true := by decide +kernel

/-- C77, partial: a bootstrap of a unicast layer that fails leaves at most: the entries of the flow allocator and the directory with data transfer, the path of
the flow allocator in the RIB, the threads of the directory and its condition variable, the listeners of the directory and of data transfer with
the notifier, and the cancelled threads of enrolment and the connection manager.  Nothing should be left. -/
theorem C77_bootstrap_partial : FailLeavesOnly bootstrap
    [⟨.comp, 0⟩, ⟨.comp, 1⟩, ⟨.rib, pFa⟩, ⟨.tpmThr, 1⟩, ⟨.dhtCond, 0⟩, ⟨.notif, nDht⟩, ⟨.notif, nDt⟩, ⟨.enroller, 0⟩, ⟨.acceptor, 0⟩] :=
  failLeavesOnly_of _ _ (by decide +kernel)

example : (run (bootstrap .fail .ok) (failAt 54) nothing).1 = false ∧ (run (bootstrap .fail .ok) [] nothing).1 = true := by decide +kernel

/-- C77, partial: the same for an enrolment; the flow to the other member is given back. -/
theorem C77_enrol_partial : FailLeavesOnly enroll
    [⟨.comp, 0⟩, ⟨.comp, 1⟩, ⟨.rib, pFa⟩, ⟨.tpmThr, 1⟩, ⟨.dhtCond, 0⟩, ⟨.notif, nDht⟩, ⟨.notif, nDt⟩, ⟨.enroller, 0⟩] :=
  failLeavesOnly_of _ _ (by decide +kernel)

example : (run (enroll .fail .ok) (failAt 50) nothing).1 = false ∧ (run (enroll .fail .ok) [] nothing).1 = true := by decide +kernel

/-- C77, partial: a bootstrap or an enrolment that got past the flow allocator (its entry with data transfer is there) ends nothing twice, whether it fails
later or succeeds. -/
theorem C77_once_partial (s : St) (a : Try) (hi : Fresh s a.cmd) (hc : s.held ⟨.comp, 0⟩ = false) (h : (run a.cmd a.orc s).2.held ⟨.comp, 0⟩ = true) :
    (run a.cmd a.orc s).2.bad = s.bad := by
  refine once_of a.cmd ⟨.comp, 0⟩ ?_ s a.orc hi hc h
  unfold Try.cmd
  split <;> decide +kernel

example : ∀ n ∈ [34, 40, 45, 50, 54], (run (bootstrap .fail .ok) (failAt n) nothing).2.held ⟨.comp, 0⟩ = true := by decide +kernel

/-- C77, violated: when the bootstrap of a unicast layer fails after its directory was made, the listener of the directory stays with the notifier, on
memory that was freed; and every later bootstrap and enrolment of that IPCP fails, whatever calls succeed then. -/
theorem C77_retry_violated : (run (bootstrap .fail .ok) (failAt 43) nothing).1 = false ∧
    (run (bootstrap .fail .ok) (failAt 43) nothing).2.held ⟨.notif, nDht⟩ = true ∧
    (run (bootstrap .fail .ok) (failAt 43) nothing).2.held ⟨.dhtMem, 0⟩ = false ∧
    ∀ later : List Try, ∀ b ∈ attempts later (run (bootstrap .fail .ok) (failAt 43) nothing).2, b = false := by
  have h : (run (bootstrap .fail .ok) (failAt 43) nothing).2.held ⟨.notif, nDht⟩ = true := by decide +kernel
  exact ⟨by decide +kernel, h, by decide +kernel, fun later => attempts_fail later _ h⟩

/-- Without such a failure before, they can succeed. -/
example : attempts [⟨false, failAt 20⟩, ⟨true, failAt 10⟩, ⟨false, []⟩] nothing = [false, false, true] := by decide +kernel

/-- C77, violated: while the listener of the directory is with the notifier, no bootstrap and no enrolment succeeds, in any state. -/
theorem C77_listener_violated (s : St) (a : Try) (h : s.held ⟨.notif, nDht⟩ = true) : (run a.cmd a.orc s).1 = false :=
  attempts_fail [a] s h _ (List.mem_singleton.2 rfl)

/-- C77, violated: a directory that fails to register with data transfer ends its thread pool while its threads run; one that fails to register with
the notifier stays registered with data transfer, on freed memory. -/
theorem C77_directory_violated :
    ((run (dirInit .fail .ok) (failAt 7) nothing).1 = false ∧ (run (dirInit .fail .ok) (failAt 7) nothing).2.held ⟨.tpmThr, 1⟩ = true ∧
      (run (dirInit .fail .ok) (failAt 7) nothing).2.held ⟨.tpm, 1⟩ = false) ∧
    ((run (dirInit .fail .ok) (failAt 8) nothing).1 = false ∧ (run (dirInit .fail .ok) (failAt 8) nothing).2.held ⟨.comp, 1⟩ = true ∧
      (run (dirInit .fail .ok) (failAt 8) nothing).2.held ⟨.dhtMem, 0⟩ = false) := by
  decide +kernel

/-- C77, partial: a directory that fails leaves at most its threads and its entry with data transfer; one that is ended leaves exactly that entry,
its listener and its condition variable. -/
theorem C77_directory_partial : FailLeaves dirInit [⟨.tpmThr, 1⟩, ⟨.comp, 1⟩] ∧ FiniLeaves dirInit dirFini [⟨.comp, 1⟩, ⟨.notif, nDht⟩, ⟨.dhtCond, 0⟩] :=
  ⟨failLeaves_of _ _ (by decide +kernel), finiLeaves_of _ _ _ (by decide +kernel)⟩

/-- C77: starting a directory that was made (a bootstrap) is all or nothing. -/
theorem C77_directory_start : FailLeaves dirBootstrap [] := failLeaves_of _ _ (by decide +kernel)

example : (run (dirBootstrap .fail .ok) (failAt 2) nothing).1 = false ∧ (run (dirBootstrap .fail .ok) [] nothing).2.held ⟨.dhtWorker, 0⟩ = true := by
  decide +kernel

/-- C77, violated: a flow allocator that fails to register with data transfer leaves its path in the RIB, and when the RIB or data transfer refuses it
the attributes of its condition variable are ended a second time. -/
theorem C77_allocator_violated :
    ((run (faInit .fail .ok) (failAt 4) nothing).1 = false ∧ (run (faInit .fail .ok) (failAt 4) nothing).2.bad = true) ∧
    ((run (faInit .fail .ok) (failAt 5) nothing).1 = false ∧ (run (faInit .fail .ok) (failAt 5) nothing).2.bad = true ∧
      (run (faInit .fail .ok) (failAt 5) nothing).2.held ⟨.rib, pFa⟩ = true) := by
  decide +kernel

/-- C77, partial: a flow allocator that fails leaves at most its path in the RIB; one that is ended leaves exactly its entry with data transfer. -/
theorem C77_allocator_partial : FailLeavesOnly faInit [⟨.rib, pFa⟩] ∧ FiniLeaves faInit faFini [⟨.comp, 0⟩] :=
  ⟨failLeavesOnly_of _ _ (by decide +kernel), finiLeaves_of _ _ _ (by decide +kernel)⟩

/-- C77, violated: when data transfer cannot make its thread, its listener stays with the notifier though its packet scheduler is freed. -/
theorem C77_transfer_violated : (run (dtStart .fail .ok) (failAt 2) nothing).1 = false ∧
    (run (dtStart .fail .ok) (failAt 2) nothing).2.held ⟨.notif, nDt⟩ = true ∧ (run (dtStart .fail .ok) (failAt 2) nothing).2.held ⟨.psched, 0⟩ = false := by
  decide +kernel

/-- C77, partial: data transfer that fails to start leaves at most its listener; when it is stopped after a start nothing is left. -/
theorem C77_transfer_partial : FailLeaves dtStart [⟨.notif, nDt⟩] ∧ FiniLeaves dtStart dtStop [] :=
  ⟨failLeaves_of _ _ (by decide +kernel), finiLeaves_of _ _ _ (by decide +kernel)⟩

/-- C77, partial: the whole life of a unicast IPCP: started, bootstrapped, shut down.  Left are exactly the entries with data transfer and the condition
variable of the directory, and nothing is ended twice. -/
theorem C77_life_partial : FiniLeaves (fun no yes => ipcpMain no (bootstrap no yes)) ipcpShutdown [⟨.comp, 0⟩, ⟨.comp, 1⟩, ⟨.dhtCond, 0⟩] :=
  finiLeaves_of _ _ _ (by decide +kernel)

example : (run (ipcpMain .fail (bootstrap .fail .ok)) [] nothing).1 = true := by decide +kernel

/-- C77: an IPCP that is started and stopped without a bootstrap leaves nothing, and ends nothing twice. -/
theorem C77_idle : FiniLeaves ipcpMain ipcpExit [] := finiLeaves_of _ _ _ (by decide +kernel)

example : (run (ipcpMain .fail .ok) [] nothing).2.held ⟨.ipcpAcceptor, 0⟩ = true := by decide +kernel

/-- C77, partial: an IPCP that fails to start leaves at most the file of its socket. -/
theorem C77_ipcp_partial : FailLeavesOnly ipcpMain [⟨.sockFile, 0⟩] := failLeavesOnly_of _ _ (by decide +kernel)

/-- C77, violated: that file does stay, when the thread pool or an earlier object cannot be made. -/
theorem C77_socket_violated : ∀ n ∈ [5, 6, 7, 8, 9, 10, 11, 12, 13, 14, 15], (run (ipcpMain .fail .ok) (failAt n) nothing).1 = false ∧
    (run (ipcpMain .fail .ok) (failAt n) nothing).2.held ⟨.sockFile, 0⟩ = true := by decide +kernel

/-- C77, violated: whenever the last step of the start fails, for any reason and in any state, the thread pool is ended and the clean-up that follows
ends it again. -/
theorem C77_pool_violated (s : St) (orc orc' : List Bool) (h : (run (ipcpStart .fail .ok) orc s).1 = false) :
    (run (ipcpFini .ok) orc' (run (ipcpStart .fail .ok) orc s).2).2.bad = true := by
  have key : (run (ipcpStart .fail .ok) orc s).2.held ⟨.tpm, 0⟩ = false := by
    revert h
    simp only [ipcpStart, run]
    split <;> (try split) <;> (try split) <;> simp [St.set]
  generalize (run (ipcpStart .fail .ok) orc s).2 = t at key ⊢
  simp [ipcpFini, rels, run, St.set, key]

example : (run (ipcpStart .fail .ok) (failAt 2) nothing).1 = false := by decide +kernel

/-- C77, violated: a broadcast layer that fails after its component was registered leaves its locks, and the next bootstrap makes them anew. -/
theorem C77_broadcast_violated : (run (bcBootstrap .fail .ok) (failAt 8) nothing).1 = false ∧
    (run (bcBootstrap .fail .ok) (failAt 8) nothing).2.held ⟨.connMtx, idDt⟩ = true ∧
    (run (bcBootstrap .fail .ok) [] (run (bcBootstrap .fail .ok) (failAt 8) nothing).2).2.bad = true := by decide +kernel

/-- C77, partial: besides those it leaves at most the cancelled thread of enrolment. -/
theorem C77_broadcast_partial : FailLeaves bcBootstrap [⟨.connMtx, idDt⟩, ⟨.connCond, idDt⟩, ⟨.enroller, 0⟩] ∧ FailLeaves fwdInit [] :=
  ⟨failLeaves_of _ _ (by decide +kernel), failLeaves_of _ _ (by decide +kernel)⟩

/-- C77, violated: a daemon that cannot make the attributes of its condition variable leaves its lock of commands; one that cannot change the mode of
its socket leaves the socket open. -/
theorem C77_daemon_violated :
    ((run (irmMain .fail .ok) (failAt 3) nothing).1 = false ∧ (run (irmMain .fail .ok) (failAt 3) nothing).2.held ⟨.cmdLock, 1⟩ = true) ∧
    ((run (irmMain .fail .ok) (failAt 10) nothing).1 = false ∧ (run (irmMain .fail .ok) (failAt 10) nothing).2.held ⟨.sockFd, 1⟩ = true) := by
  decide +kernel

/-- C77, partial: a daemon that fails to start leaves at most those two; the lock file, the packet buffer and the files are gone.  One that started and
stops leaves nothing. -/
theorem C77_daemon_partial : FailLeaves irmMain [⟨.cmdLock, 1⟩, ⟨.sockFd, 1⟩] ∧ FiniLeaves irmMain irmExit [] :=
  ⟨failLeaves_of _ _ (by decide +kernel), finiLeaves_of _ _ _ (by decide +kernel)⟩

example : (run (irmMain .fail .ok) (failAt 16) nothing).1 = false ∧ (run (irmMain .fail .ok) [] nothing).1 = true := by decide +kernel

/-- C77, partial: a program whose library cannot start leaves nothing. -/
theorem C77_library_partial : FailLeavesOnly libInit [] := failLeavesOnly_of _ _ (by decide +kernel)

/-- C77, violated: the library does not see that its condition variable, its lock or its thread could not be made: it starts all the same, and ends what
is not there when the program exits; the same for the thread of the first flow with FRCT. -/
theorem C77_library_violated :
    (∀ n ∈ [8, 9, 14], (run (libInit .fail .ok) (failAt n) nothing).1 = true ∧
      (run (libFini .ok) [] (run (libInit .fail .ok) (failAt n) nothing).2).2.bad = true) ∧
    ((run (frctFlowInit .fail .ok) (failAt 7) nothing).1 = true ∧
      (run (frctFlowFini .ok) [] (run (frctFlowInit .fail .ok) (failAt 7) nothing).2).2.bad = true) := by decide +kernel

/-- C77, partial: a flow with FRCT that cannot be set up leaves nothing. -/
theorem C77_flow_partial : FailLeaves frctFlowInit [] := failLeaves_of _ _ (by decide +kernel)

example : (run (frctFlowInit .fail .ok) (failAt 6) nothing).1 = false := by decide +kernel

end Ouro.Startup
