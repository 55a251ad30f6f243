import Verif.Proof.IrmdMsg

/-!
# C61: flow requests handled by the IRM daemon, over all interleavings
-/

namespace Ouro.IrmdFlow

open Ouro.Registry Spec.FiniteMap Spec.IrmdFlow

variable {e : Env} {l : List Act} {s : Sys}

/-! ## An execution for the examples -/

/-- Keys are sums of secrets; the hash of a name is its length. -/
def e0 : Env := { pub := (· + 100), derive := fun a p => p.map (fun x => a + (x - 100)), hash := fun _ n => n.length }

/-- IPCP 9 in layer `l`, name `a` bound to process 7, process 8. -/
def setup : List Act :=
  [.table (.createIpcp ⟨1, 9, ['i'], .boot⟩), .table (.respondIpcp ⟨1, 9, ['i'], .operational⟩), .table (.setLayer ⟨1, 9, ['i'], .bootstrapped⟩ ⟨['l'], 3⟩),
   .table (.createName ['a'] .rr), .table (.createProc 7 ['p']), .table (.createProc 8 ['q']), .table (.bindProc ['a'] 7)]

/-- What process `p` asks for, encrypted if `c` is not 0. -/
def ask (p c : Nat) : FlowInfo := ⟨0, p, 0, 0, 0, c, .init⟩

/-- A request from IPCP 9. -/
def incoming (c : Nat) : FlowInfo := ⟨0, 0, 9, 60, 0, c, .init⟩

/-- Process 7 accepts (request 1, secret 3) while the request of IPCP 9 with public key 105 comes in (request 2). -/
def acceptActs (c : Nat) : List Act :=
  setup ++ [.start 1 (.accept (ask 7 0) false) {}, .go 1 { sk := 3 }, .go 1 {}, .go 1 {}, .start 2 (.reqArr (incoming c) 1 (some 105)) {}, .go 2 {},
    .go 1 {}, .go 2 {}, .go 1 {}, .go 1 {}, .go 1 {}]

/-- Process 8 asks for an encrypted flow (request 3, secret 5); IPCP 9 replies with public key 103 (request 4). -/
def allocActs (c : Nat) (id : Int) : List Act :=
  [.start 3 (.alloc (ask 8 c) ['b'] false) { sk := 5 }, .go 3 {}, .go 3 {}, .go 3 {}, .go 3 {}, .start 4 (.allocReply ⟨id, 0, 9, 60, 0, c, .init⟩ 0 (some 103)) {}, .go 3 {}]

/-! ## Leaks and ownership -/

/-- **C61: nothing leaks and nothing is lost.** Whatever the interleaving, once no request is being handled, the flows of the daemon are
exactly the flows that were given to a process and not released since. -/
theorem C61_no_leak (h : run e polite l = .ok s) (hq : Quiescent s) (id : Int) :
    (∃ f ∈ s.reg.flows, f.info.id = id) ↔ (holder s.log id).isSome := by
  have hi := run_inv (fun _ _ h => h) h
  constructor
  · rintro ⟨f, hf, hid⟩
    rcases hi.known id f ((flowAt_iff hi.own.flow.ids).mpr ⟨hf, hid⟩) with ⟨t, ht⟩ | hs
    · rcases hq t with h1 | h1 <;> rw [h1] at ht <;> cases ht
    · exact hs
  · intro hs
    obtain ⟨p, hp⟩ := Option.isSome_iff_exists.mp hs
    obtain ⟨f, hf, _⟩ := hi.live id p hp
    exact ⟨f, (flowAt_iff hi.own.flow.ids).mp hf⟩

/-- **C61: flow ids are returned.** Once no request is being handled, the ids in use are exactly those of the flows that processes have. -/
theorem C61_ids (h : run e polite l = .ok s) (hq : Quiescent s) (id : Int) : Bitmap.held s.reg.ids id ↔ (holder s.log id).isSome := by
  rw [(run_inv (fun _ _ h => h) h).own.flow.held id]
  exact C61_no_leak h hq id

/-- **C61: a flow stays with its process.** At any time, a flow that was given to a process and not released since is there, with that
process, and its id is taken. -/
theorem C61_kept (h : run e polite l = .ok s) {id : Int} {p : Nat} (hp : holder s.log id = some p) :
    (∃ f ∈ s.reg.flows, f.info.id = id ∧ f.info.npid = p) ∧ Bitmap.held s.reg.ids id := by
  have hi := run_inv (fun _ _ h => h) h
  obtain ⟨f, hf, hn, _⟩ := hi.live id p hp
  obtain ⟨h1, h2⟩ := (flowAt_iff hi.own.flow.ids).mp hf
  exact ⟨⟨f, h1, h2, hn⟩, (hi.own.flow.held id).mpr ⟨f, h1, h2⟩⟩

/-- **C61: what a process is given.** A flow is only given to a process that asked for it (accepting or allocating), is established over an
IPCP at that moment and is not one that a process already has. -/
theorem C61_grant (h : run e polite l = .ok s) {l1 l2 : List Ev} {t : Nat} {info : FlowInfo} {key : Option Nat}
    (hs : s.log = l1 ++ .granted t info key :: l2) :
    info.state = .allocated ∧ info.n1pid ≠ 0 ∧ holder l1 info.id = none ∧
    ∃ c, Ev.started t c ∈ l1 ∧ requester c = some info.npid ∧ ((∃ i b, c = .accept i b) ∨ (∃ i d b, c = .alloc i d b)) := by
  obtain ⟨h1, h2, h3, c, h4, h5, h6⟩ := (run_inv (fun _ _ h => h) h).grants l1 l2 t info key hs
  exact ⟨h1, h2, h3, c, h4, h5, h6.imp And.left And.left⟩

/-- The witness of the theorems above: two processes have flows, the first one over its whole life. -/
def lifeActs : List Act :=
  acceptActs 1 ++ allocActs 1 2 ++ [.start 5 (.dealloc ⟨1, 7, 0, 0, 0, 0, .allocated⟩) {}, .go 5 {}, .start 6 (.deallocResp ⟨1, 0, 9, 0, 0, 0, .deallocPending⟩) {}, .go 6 {}]

example : ∃ s, run e0 polite (acceptActs 1 ++ allocActs 1 2) = .ok s ∧
    (settled s && decide (holder s.log 1 = some 7 ∧ holder s.log 2 = some 8 ∧ s.log.getLast? = some (.granted 3 ⟨2, 8, 9, 60, 0, 1, .allocated⟩ (some 8)))) = true :=
  check_ex (f := fun s => settled s && decide (holder s.log 1 = some 7 ∧ holder s.log 2 = some 8 ∧ s.log.getLast? = some (.granted 3 ⟨2, 8, 9, 60, 0, 1, .allocated⟩ (some 8))))
    (by decide +kernel)

example : ∃ s, run e0 polite lifeActs = .ok s ∧ (settled s && decide (holder s.log 1 = none ∧ holder s.log 2 = some 8 ∧ s.reg.flows.map (·.info.id) = [2])) = true :=
  check_ex (f := fun s => settled s && decide (holder s.log 1 = none ∧ holder s.log 2 = some 8 ∧ s.reg.flows.map (·.info.id) = [2])) (by decide +kernel)

/-- **C61 fails when a process names a flow that is not its own**: process 8 gives up the flow of process 7, which loses it. -/
theorem C61_ownership_violated : ∃ s, run e0 (fun _ _ => true) (acceptActs 0 ++
      [.start 5 (.dealloc ⟨1, 8, 0, 0, 0, 0, .allocated⟩) {}, .go 5 {}, .start 6 (.deallocResp ⟨1, 0, 9, 0, 0, 0, .deallocPending⟩) {}, .go 6 {}]) = .ok s ∧
    (decide (Ev.granted 1 ⟨1, 7, 9, 60, 0, 0, .allocated⟩ none ∈ s.log ∧ Ev.result 5 0 ∈ s.log ∧ s.reg.flows = [])) = true :=
  check_ex (f := fun s => decide (Ev.granted 1 ⟨1, 7, 9, 60, 0, 0, .allocated⟩ none ∈ s.log ∧ Ev.result 5 0 ∈ s.log ∧ s.reg.flows = [])) (by decide +kernel)

/-! ## Keys -/

/-- **C61: the key of an accepted flow** is derived from the secret whose public key was sent with the answer and from the public key that came
with the request that was matched to the flow. -/
theorem C61_accept_key (h : run e polite l = .ok s) {l1 l2 : List Ev} {t : Nat} {info i : FlowInfo} {b : Bool} {key : Option Nat}
    (hs : s.log = l1 ++ .granted t info key :: l2) (hc : Ev.started t (.accept i b) ∈ l1) :
    KeyFor e info.cypher (latest (sentPk info.id) l1) (latest (handedPk info.id) l1) key := by
  obtain ⟨_, _, _, c, h4, _, h6⟩ := (run_inv (fun _ _ h => h) h).grants l1 l2 t info key hs
  rcases h6 with ⟨_, h6⟩ | ⟨⟨i', d, b', rfl⟩, _⟩
  · exact h6
  · cases run_same (fun _ _ h => h) h t _ _ (by rw [hs]; exact List.mem_append_left _ hc) (by rw [hs]; exact List.mem_append_left _ h4)

/-- **C61: the key of an allocated flow** is derived from the secret whose public key was sent with the request and from the public key that came
with the reply. -/
theorem C61_alloc_key (h : run e polite l = .ok s) {l1 l2 : List Ev} {t : Nat} {info i : FlowInfo} {d : Str} {b : Bool} {key : Option Nat}
    (hs : s.log = l1 ++ .granted t info key :: l2) (hc : Ev.started t (.alloc i d b) ∈ l1) :
    KeyFor e info.cypher (latest (sentPk info.id) l1) (latest (answeredPk info.id) l1) key := by
  obtain ⟨_, _, _, c, h4, _, h6⟩ := (run_inv (fun _ _ h => h) h).grants l1 l2 t info key hs
  rcases h6 with ⟨⟨i', b', rfl⟩, _⟩ | ⟨_, h6⟩
  · cases run_same (fun _ _ h => h) h t _ _ (by rw [hs]; exact List.mem_append_left _ hc) (by rw [hs]; exact List.mem_append_left _ h4)
  · exact h6

/-- **C61: both ends of an encrypted flow have the same key.** Two daemons, each with any execution; one gives a flow to a process that
allocates, the other to a process that accepts. If the IPCPs brought the public key each sent to the other, the keys are equal. -/
theorem C61_same_key {la lb : List Act} {sa sb : Sys} (hagree : Agree e.pub e.derive)
    (ha : run e polite la = .ok sa) (hb : run e polite lb = .ok sb) {a1 a2 b1 b2 : List Ev} {t u : Nat} {ia ib i j : FlowInfo} {d : Str}
    {ba bb : Bool} {ka kb : Option Nat}
    (hsa : sa.log = a1 ++ .granted t ia ka :: a2) (hca : Ev.started t (.alloc i d ba) ∈ a1)
    (hsb : sb.log = b1 ++ .granted u ib kb :: b2) (hcb : Ev.started u (.accept j bb) ∈ b1)
    (hea : ia.cypher ≠ 0) (heb : ib.cypher ≠ 0)
    (hab : latest (handedPk ib.id) b1 = latest (sentPk ia.id) a1) (hba : latest (answeredPk ia.id) a1 = latest (sentPk ib.id) b1) :
    ka = kb ∧ ka ≠ none := by
  rcases C61_alloc_key ha hsa hca with ⟨h, _⟩ | ⟨_, sk, pk, k, rfl, h1, h2, h3⟩
  · exact absurd h hea
  rcases C61_accept_key hb hsb hcb with ⟨h, _⟩ | ⟨_, sk', pk', k', rfl, h1', h2', h3'⟩
  · exact absurd h heb
  rw [h3', h2] at hab
  rw [h3, h2'] at hba
  cases Option.some.inj hab
  cases Option.some.inj hba
  have := hagree sk sk'
  rw [h1, h1'] at this
  cases Option.some.inj this
  exact ⟨rfl, by simp⟩

/-- Both daemons of the theorem: process 7 accepts with secret 3, process 8 allocates with secret 5, both get the key 8. -/
example : Agree e0.pub e0.derive := by
  intro a b
  simp [e0, Nat.add_comm]

example : ∃ s, run e0 polite (acceptActs 1) = .ok s ∧
    (s.log = s.log.dropLast ++ [.granted 1 ⟨1, 7, 9, 60, 0, 1, .allocated⟩ (some 8)] ∧ Ev.started 1 (.accept (ask 7 0) false) ∈ s.log.dropLast ∧
      latest (handedPk 1) s.log.dropLast = some (some 105) ∧ latest (sentPk 1) s.log.dropLast = some (some 103)) :=
  check_prop (by decide +kernel)

example : ∃ s, run e0 polite (setup ++ allocActs 1 1) = .ok s ∧
    (s.log = s.log.dropLast ++ [.granted 3 ⟨1, 8, 9, 60, 0, 1, .allocated⟩ (some 8)] ∧ Ev.started 3 (.alloc (ask 8 1) ['b'] false) ∈ s.log.dropLast ∧
      latest (answeredPk 1) s.log.dropLast = some (some 103) ∧ latest (sentPk 1) s.log.dropLast = some (some 105)) :=
  check_prop (by decide +kernel)

/-! ## Answers -/

/-- **C61: one answer per request.** A request is answered at most once, and it has been answered once it is done. -/
theorem C61_one_answer (h : run e polite l = .ok s) (t : Nat) :
    (s.log.filter (isReply t)).length ≤ 1 ∧ (s.pc t = .done → (s.log.filter (isReply t)).length = 1) := by
  have := (run_inv (fun _ _ h => h) h).once t
  constructor
  · rw [this]; split <;> omega
  · intro hd; rw [this, if_pos hd]

/-- **C61: a request that sets no time limit is not told that the time is up**. -/
theorem C61_no_timeout (h : run e polite l = .ok s) {t : Nat} {c : Cmd} (hs : Ev.started t c ∈ s.log) (hu : untimed c = true) :
    Ev.result t (-ETIMEDOUT) ∉ s.log :=
  (run_inv (fun _ _ h => h) h).timeo t c hs hu

/-- Both cases: a request without a limit that fails because the reply never comes, and one with a limit that times out. -/
def lateActs (timed : Bool) : List Act :=
  setup ++ [.start 3 (.alloc (ask 8 0) ['b'] timed) { sk := 5 }, .go 3 {}, .go 3 {}, .go 3 {}, .go 3 {}, .go 3 { timeo := true }, .go 3 {}]

example : ∃ s, run e0 polite (lateActs false) = .ok s ∧ (s.pc 3 = .done ∧ Ev.result 3 (-EPERM) ∈ s.log) := check_prop (by decide +kernel)
example : ∃ s, run e0 polite (lateActs true) = .ok s ∧ (s.pc 3 = .done ∧ Ev.result 3 (-ETIMEDOUT) ∈ s.log) := check_prop (by decide +kernel)

/-- **C61, part: an IPCP whose request was matched to a process is told what became of it**, if nobody limits the time it waits for flows: once no
request is being handled, the answer for this flow has been sent to the IPCP that asked. Missing: requests that are matched just when the
time of the accepting process is up, see `C61_answered_violated`. -/
theorem C61_answered_partial (h : run e patient l = .ok s) (hq : Quiescent s) {l1 l2 : List Ev} {u : Nat} {info : FlowInfo} {pk : Option Nat}
    (hs : s.log = l1 ++ .handed u info pk :: l2) : ∃ r pk', Ev.toIpcp info.n1pid (.allocResp info.id info.npid r pk') ∈ l2 := by
  obtain ⟨_, hp⟩ := run_pinv h
  rcases hp.owed l1 l2 u info pk hs with h1 | ⟨t, f, _, _, _, hw⟩
  · exact h1
  · rcases hq t with h1 | h1 <;> rw [h1] at hw <;> exact hw.elim

example : ∃ s, run e0 patient (acceptActs 1) = .ok s ∧ (settled s = true ∧ Ev.handed 2 ⟨1, 7, 9, 60, 0, 1, .allocated⟩ (some 105) ∈ s.log ∧
    Ev.toIpcp 9 (.allocResp 1 7 0 (some 103)) ∈ s.log) := check_prop (by decide +kernel)

/-- Messages to an IPCP. -/
def sentTo (n : Nat) (v : Ev) : Bool := match v with | .toIpcp m _ => m == n | _ => false

/-- **C61 fails when the time of an accepting process is up just as a request is matched to it**: IPCP 9 is told that its request was matched, all
requests are done, the flow is gone and IPCP 9 was never sent anything. -/
theorem C61_answered_violated : ∃ s, run e0 polite (setup ++ [.start 1 (.accept (ask 7 0) true) {}, .go 1 { sk := 3 }, .go 1 {}, .go 1 {},
      .start 2 (.reqArr (incoming 0) 1 none) {}, .go 2 {}, .go 2 {}, .go 1 { timeo := true }, .go 1 {}]) = .ok s ∧
    (settled s = true ∧ Ev.handed 2 ⟨1, 7, 9, 60, 0, 0, .allocated⟩ none ∈ s.log ∧ Ev.result 1 (-ETIMEDOUT) ∈ s.log ∧ s.reg.flows = [] ∧ s.log.filter (sentTo 9) = []) :=
  check_prop (by decide +kernel)

/-- **C61 fails when an allocation times out**: the flow is gone at the daemon, and the IPCP, which was asked for it and set it up, is not told to
deallocate it. -/
theorem C61_timeout_violated : ∃ s, run e0 polite (setup ++ [.start 3 (.alloc (ask 8 0) ['b'] true) {}, .go 3 {}, .go 3 {}, .go 3 {}, .go 3 {},
      .start 4 (.allocReply ⟨1, 0, 9, 60, 0, 0, .init⟩ 0 none) {}, .go 3 { timeo := true }, .go 3 {}]) = .ok s ∧
    (settled s = true ∧ Ev.answered 4 1 0 none ∈ s.log ∧ Ev.result 3 (-ETIMEDOUT) ∈ s.log ∧ s.reg.flows = [] ∧
      s.log.filter (sentTo 9) = [.toIpcp 9 (.alloc 1 8 3 ['b'] 0 none)]) :=
  check_prop (by decide +kernel)

/-- **C61 fails when a reply comes late**: the request of process 8 for `b` has timed out and its id is used again for the request of process 7 for `c`,
which has not been sent to IPCP 9 but to IPCP 10. The late reply of IPCP 9 makes process 7 believe that its flow is established. -/
theorem C61_late_reply_violated : ∃ s, run e0 polite (setup ++
      [.table (.createIpcp ⟨1, 10, ['j'], .boot⟩), .table (.respondIpcp ⟨1, 10, ['j'], .operational⟩), .table (.setLayer ⟨1, 10, ['j'], .bootstrapped⟩ ⟨['m'], 3⟩),
       .start 3 (.alloc (ask 8 0) ['b'] true) {}, .go 3 { query := (· == 9) }, .go 3 {}, .go 3 {}, .go 3 {}, .go 3 { timeo := true }, .go 3 {},
       .start 5 (.alloc (ask 7 0) ['c'] false) {}, .go 5 { query := (· == 10) }, .go 5 {}, .go 5 {}, .go 5 {},
       .start 6 (.allocReply ⟨1, 0, 9, 60, 0, 0, .init⟩ 0 none) {}, .go 5 {}]) = .ok s ∧
    (s.log.filter (sentTo 9) = [.toIpcp 9 (.alloc 1 8 3 ['b'] 0 none)] ∧ s.log.filter (sentTo 10) = [.toIpcp 10 (.alloc 1 7 3 ['c'] 0 none)] ∧
      Ev.result 3 (-ETIMEDOUT) ∈ s.log ∧ Ev.granted 5 ⟨1, 7, 10, 60, 0, 0, .allocated⟩ none ∈ s.log) :=
  check_prop (by decide +kernel)

/-- **C61 fails when two requests come in for one accepting process**: both are matched to the same flow and the daemon stops at an assertion (built
without assertions it goes on with the flow of the second request and the first one is never answered). -/
theorem C61_double_match_violated : run e0 polite (setup ++ [.start 1 (.accept (ask 7 0) false) {}, .go 1 { sk := 3 }, .go 1 {}, .go 1 {},
      .start 2 (.reqArr (incoming 0) 1 none) {}, .start 3 (.reqArr (incoming 0) 1 none) {}, .go 2 {}, .go 3 {}, .go 2 {}, .go 3 {}]) = .ub :=
  fails_ub (by decide +kernel)

/-- The execution above is fine up to the last piece. -/
example : ∃ s, run e0 polite (setup ++ [.start 1 (.accept (ask 7 0) false) {}, .go 1 { sk := 3 }, .go 1 {}, .go 1 {},
      .start 2 (.reqArr (incoming 0) 1 none) {}, .start 3 (.reqArr (incoming 0) 1 none) {}, .go 2 {}, .go 3 {}, .go 2 {}]) = .ok s ∧
    Ev.handed 2 ⟨1, 7, 9, 60, 0, 0, .allocated⟩ none ∈ s.log := check_prop (by decide +kernel)

/-- **C61 fails when a request comes in before the process has started to wait**: process 7 accepts twice; the request is matched to the second
flow while its thread has only just prepared it, and the daemon stops at an assertion. -/
theorem C61_early_match_violated : ∃ l, run e0 polite (setup ++ l) = .ub ∧ ∃ s, run e0 polite (setup ++ l.dropLast) = .ok s ∧
      ∃ i, Ev.handed 3 i none ∈ s.log ∧ holds (s.pc 2) = some i.id := by
  refine ⟨[.start 1 (.accept (ask 7 0) false) {}, .start 2 (.accept (ask 7 0) false) {}, .go 1 { sk := 3 }, .go 2 { sk := 3 }, .go 1 {}, .go 1 {},
    .go 2 {}, .start 3 (.reqArr (incoming 0) 1 none) {}, .go 3 {}, .go 3 {}, .go 2 {}], fails_ub (by decide +kernel), ?_⟩
  obtain ⟨s, h1, h2⟩ := check_prop (e := e0) (al := polite) (l := setup ++ [.start 1 (.accept (ask 7 0) false) {}, .start 2 (.accept (ask 7 0) false) {}, .go 1 { sk := 3 }, .go 2 { sk := 3 }, .go 1 {}, .go 1 {},
    .go 2 {}, .start 3 (.reqArr (incoming 0) 1 none) {}, .go 3 {}, .go 3 {}]) (P := fun s => Ev.handed 3 ⟨2, 7, 9, 60, 0, 0, .allocated⟩ none ∈ s.log ∧ holds (s.pc 2) = some 2) (by decide +kernel)
  exact ⟨s, h1, _, h2⟩

/-! ## Where the messages come from -/

/-- **C61: a flow handed to an IPCP carries what this IPCP asked for**: its process id, quality of service, encryption, packet lifetime and public key. -/
theorem C61_handed (h : run e polite l = .ok s) {l1 l2 : List Ev} {u : Nat} {info : FlowInfo} {pk : Option Nat} (hs : s.log = l1 ++ .handed u info pk :: l2) :
    ∃ i h, Ev.started u (.reqArr i h pk) ∈ l1 ∧ info.n1pid = i.n1pid ∧ info.qs = i.qs ∧ info.cypher = i.cypher ∧ info.mpl = i.mpl :=
  (run_minv h).msgs l1 _ l2 hs

/-- **C61: an IPCP is only asked for a flow on behalf of a process that asked for it**, with the destination and the encryption it asked for. -/
theorem C61_alloc_msg (h : run e polite l = .ok s) {l1 l2 : List Ev} {n npid algo cypher : Nat} {id : Int} {dst : Str} {pk : Option Nat}
    (hs : s.log = l1 ++ .toIpcp n (.alloc id npid algo dst cypher pk) :: l2) :
    ∃ t i b, Ev.started t (.alloc i dst b) ∈ l1 ∧ i.npid = npid ∧ i.cypher = cypher :=
  (run_minv h).msgs l1 _ l2 hs

/-- **C61: an IPCP is only told to deallocate a flow that was established over it**, when the process that has the flow asked for that. -/
theorem C61_dealloc_msg (h : run e polite l = .ok s) {l1 l2 : List Ev} {n : Nat} {id : Int} (hs : s.log = l1 ++ .toIpcp n (.dealloc id) :: l2) :
    latest (grantN id) l1 = some n ∧ ∃ t i, Ev.started t (.dealloc i) ∈ l1 ∧ i.id = id ∧ holder l1 id = some i.npid :=
  (run_minv h).msgs l1 _ l2 hs

/-- All three kinds of message in one execution. -/
example : ∃ s, run e0 polite lifeActs = .ok s ∧ (Ev.handed 2 ⟨1, 7, 9, 60, 0, 1, .allocated⟩ (some 105) ∈ s.log ∧
    Ev.toIpcp 9 (.alloc 2 8 3 ['b'] 1 (some 105)) ∈ s.log ∧ Ev.toIpcp 9 (.dealloc 1) ∈ s.log) := check_prop (by decide +kernel)

/-! ## The choice of the IPCP, and joining a layer -/

/-- **C61: the IPCP that is asked for a flow** is the first in the list of the daemon that is not a broadcast IPCP, is in a layer and says it knows the destination;
there is none only if no IPCP is like that. -/
theorem C61_ipcp (query : Nat → Bool) (ipcps : List Ipcp) :
    ipcpByDst query ipcps = ipcps.find? (fun i => i.info.type ≠ 2 && i.layer.name ≠ "Not enrolled.".toList && query i.info.pid) := by
  induction ipcps with
  | nil => rfl
  | cons i r ih =>
    unfold ipcpByDst
    rw [List.find?_cons, ← ih]
    generalize "Not enrolled.".toList = str
    generalize ipcpByDst query r = x
    by_cases h1 : i.info.type = IPCP_BROADCAST
    · rw [if_pos h1, decide_eq_false (show ¬ i.info.type ≠ 2 from fun h => h h1)]; rfl
    · rw [if_neg h1, decide_eq_true (show i.info.type ≠ 2 from h1)]
      by_cases h2 : i.layer.name = str
      · rw [if_pos h2, decide_eq_false (show ¬ i.layer.name ≠ str from fun h => h h2)]; rfl
      · rw [if_neg h2, decide_eq_true (show i.layer.name ≠ str from h2)]
        cases h3 : query i.info.pid <;> rfl

/-- **C61: the order of the types is not used** (include/ouroboros/ipcp.h:45 says that the daemon uses it to select an IPCP): a UDP IPCP (type 5) is preferred to a local
one (type 0) that knows the destination as well, because its process id is higher. -/
theorem C61_preference_violated : ∃ s, run e0 polite [.table (.createIpcp ⟨0, 9, ['i'], .boot⟩), .table (.respondIpcp ⟨0, 9, ['i'], .operational⟩),
      .table (.setLayer ⟨0, 9, ['i'], .bootstrapped⟩ ⟨['l'], 3⟩), .table (.createIpcp ⟨5, 10, ['j'], .boot⟩), .table (.respondIpcp ⟨5, 10, ['j'], .operational⟩),
      .table (.setLayer ⟨5, 10, ['j'], .bootstrapped⟩ ⟨['m'], 3⟩), .start 3 (.alloc (ask 8 0) ['b'] false) {}, .go 3 {}, .go 3 {}] = .ok s ∧
    s.log.filter (sentTo 9) = [] ∧ s.log.filter (sentTo 10) = [.toIpcp 10 (.alloc 1 8 3 ['b'] 0 none)] :=
  check_prop (by decide +kernel)

/-- **C61 fails for joining a layer**: in no execution is a process that asks to join a layer given a flow. -/
theorem C61_join_violated (h : run e polite l = .ok s) {t : Nat} {i : FlowInfo} {d : Str} {b : Bool} (hs : Ev.started t (.join i d b) ∈ s.log) (info : FlowInfo)
    (key : Option Nat) : Ev.granted t info key ∉ s.log := by
  intro hm
  obtain ⟨l1, l2, hl⟩ := List.append_of_mem hm
  obtain ⟨_, _, _, c, h4, _, h6⟩ := C61_grant h hl
  have := run_same (fun _ _ h => h) h t _ c hs (by rw [hl]; exact List.mem_append_left _ h4)
  subst this
  rcases h6 with ⟨_, _, h6⟩ | ⟨_, _, _, h6⟩ <;> cases h6

/-- The reason: the IPCP found is not recorded, and an assertion about it stops the daemon. -/
example : ∃ s, run e0 polite (setup ++ [.start 3 (.join (ask 8 0) ['l'] false) {}, .go 3 {}]) = .ok s ∧ Ev.started 3 (.join (ask 8 0) ['l'] false) ∈ s.log := check_prop (by decide +kernel)
example : run e0 polite (setup ++ [.start 3 (.join (ask 8 0) ['l'] false) {}, .go 3 {}, .go 3 {}]) = .ub := fails_ub (by decide +kernel)

end Ouro.IrmdFlow
