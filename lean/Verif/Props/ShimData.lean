import Verif.Proof.ShimQuery

/-!
# C39 — registry and directory of shim processes

`Reached s log`: state `s` is reached by some history, any interleaving of calls and of the parts of calls that sleep, with the results in `log`.
`evs` and `qevs` translate the log for the specification.

Full statement about queries: a response for a name is handed to a pending query for it, at most once; whoever waits learns of it; no party sleeps forever. The code
violates it in four ways, refuted at the end.
-/

namespace Ouro.ShimData

open Spec.ShimData

set_option linter.unusedSectionVars false

variable {H : Type} [DecidableEq H]

/-! ## Registry -/

/-- C39. `shim_data_reg_has` answers whether the name was registered and not unregistered since. -/
theorem C39_registered {s : State H} {log : List (Op H × Out)} (hr : Reached s log) (h : H) :
    ∃ b, step s (.regHas h) = .ok (s, .bool b) ∧ (b = true ↔ Registered h (evs log)) :=
  ⟨_, rfl, by rw [regFind_iff]; exact (reached_tab hr).reg h⟩

/-- C39. Registering a name that is registered returns 0 and changes nothing, so registering twice equals registering once. -/
theorem C39_register_twice {s : State H} {log : List (Op H × Out)} (hr : Reached s log) (h : H) (mem : Bool)
    (hreg : Registered h (evs log)) : step s (.regAdd h mem) = .ok (s, .ret 0) := by
  have := (regFind_iff s h).mpr (((reached_tab hr).reg h).mpr hreg)
  simp [step, regAdd, this]

/-- C39. Registering and unregistering succeed (memory permitting). -/
theorem C39_register {s : State H} (h : H) : (∃ t, step s (.regAdd h true) = .ok (t, .ret 0)) ∧ ∃ t, step s (.regDel h) = .ok (t, .ret 0) := by
  refine ⟨?_, ⟨_, rfl⟩⟩
  simp only [step, regAdd]
  by_cases hx : regFind s h <;> simp [hx]

/-! ## Directory -/

/-- C39. `shim_data_dir_has` answers whether an address is known. -/
theorem C39_directory_has {s : State H} {log : List (Op H × Out)} (hr : Reached s log) (h : H) :
    ∃ b, step s (.dirHas h) = .ok (s, .bool b) ∧ (b = true ↔ ∃ a, Known h a (evs log)) := by
  refine ⟨_, rfl, ?_⟩
  simp only [dirHas, dirFindAny, List.find?_isSome, decide_eq_true_eq]
  constructor
  · rintro ⟨⟨x, a⟩, h1, rfl⟩; exact ⟨a, ((reached_tab hr).dir _ a).mp h1⟩
  · rintro ⟨a, ha⟩; exact ⟨_, ((reached_tab hr).dir h a).mpr ha, rfl⟩

/-- C39. `shim_data_dir_get_addr` gives an address that was added and not deleted since, if there is one, and 0 otherwise. -/
theorem C39_directory_get {s : State H} {log : List (Op H × Out)} (hr : Reached s log) (h : H) :
    ∃ a, step s (.dirGet h) = .ok (s, .addr a) ∧ (Known h a (evs log) ∨ (a = 0 ∧ ∀ b, ¬ Known h b (evs log))) := by
  refine ⟨_, rfl, ?_⟩
  unfold dirGet dirFindAny
  split
  · rename_i hf
    refine .inr ⟨rfl, fun b hb => ?_⟩
    have := List.find?_eq_none.mp hf _ (((reached_tab hr).dir h b).mpr hb)
    simp at this
  · rename_i e hf
    left
    have h1 := List.mem_of_find?_eq_some hf
    have h2 : e.1 = h := by simpa using List.find?_some hf
    rw [← (reached_tab hr).dir, ← h2]
    exact h1

/-- C39. Adding an address that is known is refused and changes nothing. -/
theorem C39_directory_add {s : State H} {log : List (Op H × Out)} (hr : Reached s log) (h : H) (a : Nat) :
    ∃ t r, step s (.dirAdd h a true) = .ok (t, .ret r) ∧ (r = 0 ↔ ¬ Known h a (evs log)) ∧ (r ≠ 0 → t = s) := by
  refine ⟨_, _, rfl, ?_⟩
  have := (reached_tab hr).dir h a
  rw [← this, ← dirFind_iff]
  unfold dirAdd
  by_cases hx : dirFind s h a <;> simp [hx]

/-- Non-vacuity: a history with names 7 and 9. -/
def exTab : List (Op Nat) := [.regAdd 7 true, .regAdd 9 true, .regAdd 7 true, .regDel 9, .regHas 7, .regHas 9, .dirAdd 7 100 true, .dirAdd 7 101 true,
  .dirAdd 7 100 true, .dirGet 7, .dirDel 7 101, .dirGet 7, .dirHas 9, .dirGet 9]

/-- The results of a history, if it is defined. -/
def outs {H : Type} [DecidableEq H] (ops : List (Op H)) : Option (List Out) :=
  match run (create : State H) ops with
  | .ok r => some (r.2.map (·.2))
  | .ub => none

example : outs exTab = some [.ret 0, .ret 0, .ret 0, .ret 0, .bool true, .bool false, .ret 0, .ret 0, .ret (-1), .addr 101, .ret 0, .addr 100,
    .bool false, .addr 0] := by decide +kernel

/-! ## Queries -/

/-- C39. A query is answered at most once. -/
theorem C39_answered_once {s : State H} {log : List (Op H × Out)} (hr : Reached s log) (q : Nat) : (qevs log).count (.answered q) ≤ 1 :=
  (reached_log hr).answered q

/-- C39. Whoever waited for a query and got 0 was answered; who got -1 was interrupted because the query was destroyed; there is no other result than these and
a timeout. -/
theorem C39_wait_result {s : State H} {log : List (Op H × Out)} (hr : Reached s log) (q : Nat) (r : Int) (h : QEv.waited q r ∈ qevs log) :
    (r = 0 ∧ QEv.answered q ∈ qevs log) ∨ (r = -1 ∧ QEv.destroyed q ∈ qevs log) ∨ r = -ETIMEDOUT :=
  (reached_log hr).waited q r h

/-- C39. A response is handed to the newest query for the name, if that one is being waited for (and nobody was cancelled, and no other response or
destruction is in progress). -/
theorem C39_answers_partial {s : State H} {log : List (Op H × Out)} (hr : Reached s log) (hc : ∀ q o, (Op.waitCancel q, o) ∉ log)
    (h : H) (q : Nat) (e : Query H) (hh : s.holder = none) (hnew : findQuery s h = some (q, e)) (hp : e.state = .pending) :
    ∃ t, step s (.respond h) = .ok (t, .answers q) := by
  have := (reached_alive hr hc).1 q e (findQuery_some hnew).2.1
  simp [step, respond, hh, hnew, hp, this]

/-- C39, the responder is never blocked forever (as long as no waiting thread is cancelled): while a responder sleeps, either the wait for the query it
answered is over, the responder was woken and returns when it runs; or the waiting thread was woken, and as soon as it runs, whatever the reason, its wait is
over, after which the responder returns when it runs. -/
theorem C39_responder_returns_partial {s : State H} {log : List (Op H × Out)} (hr : Reached s log) (hc : ∀ q o, (Op.waitCancel q, o) ∉ log)
    (q : Nat) (w : Bool) (hh : s.holder = some (.responder q w)) :
    (w = true ∧ ∃ t, step s .respondWake = .ok (t, .done) ∧ t.holder = none) ∨
    ((∃ e, s.qs q = some e ∧ e.waiter = some true) ∧
      ∀ timeout, ∃ t r, step s (.waitWake q timeout) = .ok (t, .ret r) ∧ t.holder = some (.responder q true) ∧
        ∃ u, step t .respondWake = .ok (u, .done) ∧ u.holder = none) := by
  have hi := reached_qinv hr
  obtain ⟨e, he, _, hst⟩ := hi.responder q w hh
  have hd := (reached_alive hr hc).1 q e he
  rcases hst with h | ⟨h, hw⟩
  · right
    rcases (hi.ok q e he).response h with h1 | ⟨h1, _⟩
    · rw [hd] at h1; cases h1
    refine ⟨⟨e, he, h1⟩, fun timeout => ?_⟩
    simp [step, waitWake, respondWake, he, h, h1, hd, hh, wakeHolder, upd_same]
  · left
    refine ⟨hw, ?_⟩
    simp [step, respondWake, hh, he, hd, h]

/-- C39, neither is whoever destroys a query. -/
theorem C39_destroyer_returns_partial {s : State H} {log : List (Op H × Out)} (hr : Reached s log) (hc : ∀ q o, (Op.waitCancel q, o) ∉ log)
    (q : Nat) (w : Bool) (hh : s.holder = some (.destroyer q w)) :
    (w = true ∧ ∃ t, step s .destroyWake = .ok (t, .done) ∧ t.holder = none ∧ t.qs q = none) ∨
    ((∃ e, s.qs q = some e ∧ e.waiter = some true) ∧
      ∀ timeout, ∃ t, step s (.waitWake q timeout) = .ok (t, .ret (-1)) ∧ t.holder = some (.destroyer q true) ∧
        ∃ u, step t .destroyWake = .ok (u, .done) ∧ u.holder = none ∧ u.qs q = none) := by
  have hi := reached_qinv hr
  obtain ⟨e, he, _, hst⟩ := hi.destroyer q w hh
  have hd := (reached_alive hr hc).1 q e he
  rcases hst with h | ⟨h, hw⟩
  · right
    rcases (hi.ok q e he).destroy h with h1 | ⟨h1, _⟩
    · rw [hd] at h1; cases h1
    refine ⟨⟨e, he, h1⟩, fun timeout => ?_⟩
    simp [step, waitWake, destroyWake, he, h, h1, hd, hh, wakeHolder, upd_same]
  · left
    refine ⟨hw, ?_⟩
    simp [step, destroyWake, hh, he, hd, h, upd_same]

/-- C39. No party uses a query after it was freed: a call is undefined only for a query that was not created or that somebody started to destroy
before (and then it is a call to wait for it or to destroy it again). -/
theorem C39_no_use_after_free {s : State H} {log : List (Op H × Out)} (hr : Reached s log) (op : Op H) (h : step s op = .ub) :
    ∃ q, (op = .waitStart q ∨ op = .waitWake q true ∨ op = .waitWake q false ∨ op = .waitCancel q ∨ op = .queryDestroy q) ∧
      ((∀ x m, (Op.queryCreate x m, Out.query (some q)) ∉ log) ∨ QEv.destroyed q ∈ qevs log) := by
  have hi := reached_qinv hr
  have key : ∀ q, s.qs q = none → (∀ x m, (Op.queryCreate x m, Out.query (some q)) ∉ log) ∨ QEv.destroyed q ∈ qevs log := by
    intro q hq
    by_contra hcon
    push Not at hcon
    obtain ⟨⟨x, m, hm⟩, hnd⟩ := hcon
    have := reached_live hr q (reached_created hr q x m hm) hnd
    rw [hq] at this; cases this
  cases op with
  | waitStart q =>
    simp only [step, waitStart] at h
    split at h
    · rename_i hq; exact ⟨q, .inl rfl, key q hq⟩
    · repeat' split at h
      all_goals cases h
  | waitWake q b =>
    simp only [step, waitWake] at h
    split at h
    · rename_i hq; exact ⟨q, by cases b <;> simp, key q hq⟩
    · repeat' split at h
      all_goals cases h
  | waitCancel q =>
    simp only [step, waitCancel] at h
    split at h
    · rename_i hq; exact ⟨q, by simp, key q hq⟩
    · repeat' split at h
      all_goals cases h
  | queryDestroy q =>
    simp only [step, queryDestroy] at h
    split at h
    · rename_i hq; exact ⟨q, by simp, key q hq⟩
    · repeat' split at h
      all_goals cases h
  | respondWake =>
    simp only [step, respondWake] at h
    split at h
    · rename_i q w hh
      obtain ⟨e, he, _⟩ := hi.responder q w hh
      rw [he] at h
      dsimp only at h
      repeat' split at h
      all_goals cases h
    · cases h
  | destroyWake =>
    simp only [step, destroyWake] at h
    split at h
    · rename_i q w hh
      obtain ⟨e, he, _⟩ := hi.destroyer q w hh
      rw [he] at h
      dsimp only at h
      repeat' split at h
      all_goals cases h
    · cases h
  | _ => cases h

/-- C39. A query is not freed while a thread sleeps in its wait. -/
theorem C39_sleeper_keeps_query {s t : State H} {log : List (Op H × Out)} (hr : Reached s log) (q : Nat) (e : Query H) (he : s.qs q = some e)
    (hw : e.waiter ≠ none) (op : Op H) (o : Out) (h : step s op = .ok (t, o)) (h1 : ∀ b, op ≠ .waitWake q b) (h2 : op ≠ .waitCancel q) :
    ∃ e', t.qs q = some e' ∧ e'.waiter ≠ none := by
  have hi := reached_qinv hr
  have same : t.qs = s.qs → ∃ e', t.qs q = some e' ∧ e'.waiter ≠ none := fun h => ⟨e, by rw [h]; exact he, hw⟩
  have other : ∀ p v, p ≠ q → t.qs = upd s.qs p v → ∃ e', t.qs q = some e' ∧ e'.waiter ≠ none := fun p v hp h =>
    ⟨e, by rw [h, upd_ne _ _ (Ne.symm hp)]; exact he, hw⟩
  have woken : ∀ p x st, s.qs p = some x → t.qs = upd s.qs p (some { x with state := st, waiter := x.waiter.map (fun _ => true) }) →
      ∃ e', t.qs q = some e' ∧ e'.waiter ≠ none := by
    intro p x st hx h
    by_cases hp : p = q
    · subst hp; rw [he] at hx; cases hx
      exact ⟨_, by rw [h, upd_same], by simpa using hw⟩
    · exact other p _ hp h
  cases op with
  | regAdd x m => refine same ?_; simp only [step, regAdd] at h; cases h; (repeat' split) <;> rfl
  | regDel x => refine same ?_; simp only [step, regDel] at h; cases h; (repeat' split) <;> rfl
  | dirAdd x a m => refine same ?_; simp only [step, dirAdd] at h; cases h; (repeat' split) <;> rfl
  | dirDel x a => refine same ?_; simp only [step, dirDel] at h; cases h; (repeat' split) <;> rfl
  | regHas x => cases h; exact same rfl
  | dirHas x => cases h; exact same rfl
  | dirGet x => cases h; exact same rfl
  | queryCreate x m =>
    simp only [step, queryCreate] at h
    repeat' split at h
    all_goals first
      | (cases h; exact same rfl)
      | (cases h; exact other _ _ (fun hp => absurd (hi.ok q e he).old (by omega)) rfl)
  | waitStart p =>
    simp only [step, waitStart] at h
    split at h
    · cases h
    rename_i x hx
    repeat' split at h
    · cases h; exact same rfl
    · cases h; exact same rfl
    · rename_i hst
      cases h
      by_cases hp : p = q
      · subst hp; rw [he] at hx; cases hx
        exact absurd ((hi.ok _ _ he).init (by simpa using hst)).1 hw
      · exact other p _ hp rfl
  | waitWake p b =>
    have hp : p ≠ q := fun hp => h1 b (by rw [hp])
    simp only [step, waitWake] at h
    repeat' split at h
    all_goals first | (cases h; done) | (cases h; exact same rfl) | (cases h; exact other p _ hp rfl)
  | waitCancel p =>
    have hp : p ≠ q := fun hp => h2 (by rw [hp])
    simp only [step, waitCancel] at h
    repeat' split at h
    all_goals first | (cases h; done) | (cases h; exact same rfl) | (cases h; exact other p _ hp rfl)
  | respond x =>
    simp only [step, respond] at h
    split at h
    · cases h; exact same rfl
    split at h
    · cases h; exact same rfl
    rename_i p y hf
    repeat' split at h
    all_goals first | (cases h; exact same rfl) | (cases h; exact woken p y _ (findQuery_some hf).2.1 rfl)
  | respondWake =>
    simp only [step, respondWake] at h
    repeat' split at h
    all_goals first | (cases h; done) | (cases h; exact same rfl)
  | queryDestroy p =>
    simp only [step, queryDestroy] at h
    split at h
    · cases h
    rename_i x hx
    have hne : (x.state = .init ∨ x.state = .done) → p ≠ q := by
      rintro hst rfl
      rw [he] at hx; cases hx
      rcases hst with hst | hst
      · exact hw ((hi.ok _ _ he).init hst).1
      · exact hw ((hi.ok _ _ he).done hst).1
    repeat' split at h
    · cases h; exact same rfl
    · cases h; exact same rfl
    · rename_i hst; cases h; exact other p _ (hne (.inl hst)) rfl
    · cases h; exact woken p x _ hx rfl
    · cases h; exact same rfl
    · rename_i hst; cases h; exact other p _ (hne (.inr hst)) rfl
    · cases h; exact same rfl
  | destroyWake =>
    simp only [step, destroyWake] at h
    split at h
    · rename_i p w hh
      split at h
      · cases h
      rename_i x hx
      repeat' split at h
      · cases h; exact same rfl
      · cases h; exact same rfl
      · rename_i hst
        cases h
        have hp : p ≠ q := by
          rintro rfl
          rw [he] at hx; cases hx
          exact hw ((hi.ok _ _ he).done (by simpa using hst)).1
        exact other p _ hp rfl
    · cases h; exact same rfl

/-- Non-vacuity: query 0 for name 7 is waited for and answered; query 1 is destroyed while it is waited for. -/
def exQuery : List (Op Nat) := [.queryCreate 7 true, .waitStart 0, .waitWake 0 false, .respond 7, .respond 9, .waitWake 0 false, .respondWake,
  .queryDestroy 0, .queryCreate 9 true, .waitStart 1, .queryDestroy 1, .destroyWake, .waitWake 1 true, .destroyWake]

example : outs exQuery = some [.query (some 0), .sleeps, .sleeps, .answers 0, .blocked, .ret 0, .done, .done, .query (some 1), .sleeps, .sleeps, .sleeps,
    .ret (-1), .done] := by decide +kernel

/-! ## What the code gets wrong -/

/-- C39 is violated: a response that comes after the query was created but before its creator waits is dropped; the wait ends with a timeout although the
name was found. (`eth_ipcp_query` sends the request between the two calls, src/ipcpd/eth/eth.c:1564-1586.) -/
theorem C39_early_answer_violated :
    outs [.queryCreate 7 true, .dirAdd 7 100 true, .respond (7 : Nat), .waitStart 0, .dirHas 7, .waitWake 0 true] =
      some [.query (some 0), .ret 0, .done, .sleeps, .bool true, .ret (-ETIMEDOUT)] := by decide +kernel

/-- C39 is violated: of two queries for the same name only the newer one is answered; while that one is not destroyed, a further response does not reach
the other one, which is still waited for. -/
theorem C39_second_query_violated :
    outs [.queryCreate (7 : Nat) true, .waitStart 0, .queryCreate 7 true, .waitStart 1, .respond 7, .waitWake 1 false, .respondWake, .respond 7,
        .waitWake 0 false] =
      some [.query (some 0), .sleeps, .query (some 1), .sleeps, .answers 1, .ret 0, .done, .done, .sleeps] := by decide +kernel

/-- C39 is violated: a response that comes after the time is over and before the waiting thread runs is reported as a timeout, while the responder is told that
the query was answered. -/
theorem C39_timeout_violated :
    outs [.queryCreate (7 : Nat) true, .waitStart 0, .respond 7, .waitWake 0 true, .respondWake] =
      some [.query (some 0), .sleeps, .answers 0, .ret (-ETIMEDOUT), .done] := by decide +kernel

/-- C39 is violated: when the thread that waits is cancelled, as happens when the IPCP stops, it keeps the lock of the query, and whoever destroys it (the IPCP,
before it exits) or responds to it never returns, nor does any later call that needs the list of queries. -/
theorem C39_cancel_violated : ∃ (s : State Nat) (log : List (Op Nat × Out)), run create [.queryCreate 7 true, .waitStart 0, .waitCancel 0, .queryDestroy 0] = .ok (s, log) ∧
    log.map (·.2) = [.query (some 0), .sleeps, .done, .sleeps] ∧
    ∀ ops t log', run s ops = .ok (t, log') → ∀ o ∈ log', (o.1 = .destroyWake ∨ (∃ q, o.1 = .queryDestroy q) ∨ ∃ h, o.1 = .respond h) → o.2 = .blocked := by
  obtain ⟨s, log, h1, h2, h3⟩ : ∃ s log, run (create : State Nat) [.queryCreate 7 true, .waitStart 0, .waitCancel 0, .queryDestroy 0] = .ok (s, log) ∧
      log.map (·.2) = [.query (some 0), .sleeps, .done, .sleeps] ∧ s.holder = some (.stuck 0) := ⟨_, _, rfl, by decide, rfl⟩
  refine ⟨s, log, h1, h2, fun ops => ?_⟩
  clear h1 h2
  induction ops generalizing s with
  | nil => intro t log' h; cases h; simp
  | cons op ops ih =>
    intro t log' h
    simp only [run] at h
    cases hst : step s op with
    | ub => rw [hst] at h; cases h
    | ok r =>
      rw [hst] at h
      simp only [Outcome.bind_ok] at h
      cases hrr : run r.1 ops with
      | ub => rw [hrr] at h; cases h
      | ok r2 =>
        rw [hrr] at h
        cases h
        obtain ⟨g1, g2, g3, _, g5⟩ := stuck_step h3 hst
        intro o ho hop
        rcases List.mem_cons.mp ho with rfl | ho
        · rcases hop with rfl | ⟨q, rfl⟩ | ⟨x, rfl⟩
          · exact g2 (.inr rfl)
          · exact g5 q rfl
          · exact g3 x rfl
        · exact ih r.1 g1 _ _ hrr o ho hop

end Ouro.ShimData
