import Verif.Proof.DhtReq

/-!
# C65: answers of the directory belong to questions
-/

namespace Ouro.DhtReq

/-! ## Every run -/

/-- **C65, own cookies.** Whatever arrives, in every run, a lookup is given only responses that carry a cookie one of its own questions carried, and
its addresses come from responses it was given. -/
theorem C65_cookie {ok : St → Op → Prop} {s : St} (h : Reach ok s) :
    (∀ p ∈ s.given, ∃ (q : Nat) (x : Q), s.qs[q]? = some x ∧ x.lk = p.1 ∧ x.cookie = p.2.cookie) ∧
      ∀ l, ∀ a ∈ (s.lk l).addrs, ∃ m, (l, m) ∈ s.given ∧ a ∈ m.addrs :=
  ⟨(own_reach h).given, (own_reach h).addrs⟩

/-- **C65, cookies.** As long as responses to others can be sent, the questions that wait for a response have distinct cookies between 1 and 2048, and
nothing goes wrong in memory. -/
theorem C65_distinct_partial {s : St} (h : Reach NoFail s) :
    (∀ q ∈ s.reqs, ∀ q' ∈ s.reqs, s.cookie q = s.cookie q' → q = q') ∧ (∀ q ∈ s.reqs, 1 ≤ s.cookie q ∧ s.cookie q ≤ 2048) ∧
      ∀ op, NoFail s op → ∃ s', step s op = .ok s' := by
  have U := uniq_reach (ok := NoFail) (fun _ _ h => h) h
  refine ⟨fun q hq q' hq' e => ?_, fun q hq => ?_, fun op ho => step_total U (by rintro c rfl; exact ho)⟩
  · obtain ⟨x, hx, _⟩ := U.req q hq
    obtain ⟨x', hx', _⟩ := U.req q' hq'
    rw [cookie_eq hx, cookie_eq hx'] at e
    exact U.uniq q q' x x' ⟨hx, .inr hq⟩ ⟨hx', .inr hq'⟩ e
  · obtain ⟨x, hx, _⟩ := U.req q hq
    rw [cookie_eq hx]; exact U.range q x hx

/-- **C65, limit.** A question is asked with the lowest free cookie; it is refused only if all 2048 are in use. -/
theorem C65_ask (s : St) {l : Nat} (addr : Nat) (hl : l ∈ s.lks) :
    (∃ s' c, step s (.ask l addr) = .ok s' ∧ s'.qs = s.qs ++ [⟨l, addr, c, .allocated⟩] ∧ s.used c = false ∧ 1 ≤ c ∧ c ≤ 2048) ∨
      (step s (.ask l addr) = .ok s ∧ ∀ c, 1 ≤ c → c ≤ 2048 → s.used c = true) := by
  cases hc : freeCookie s.used with
  | none => exact .inr ⟨by simp only [step, if_pos hl, hc], fun c h1 h2 => freeCookie_none hc h1 h2⟩
  | some c =>
    obtain ⟨h1, h2, h3⟩ := freeCookie_some hc
    exact .inl ⟨_, c, by simp only [step, if_pos hl, hc]; rfl, rfl, h1, h2, h3⟩

/-! ## Timely responses -/

/-- **C65, answers.** As long as responses are timely, every response given to a lookup answers a question of that lookup. -/
theorem C65_answer_partial {s : St} (h : Reach Timely s) : Right s := (inv_reach h).right

/-- **C65, no answer is lost.** As long as responses are timely, a response whose request was found is given to the lookup that asked, if that has
not ended: the lookup gets its addresses if it has none and is not complete. -/
theorem C65_given_partial {s : St} (h : Reach Timely s) {i q : Nat} {m : Resp} (hm : s.hands[i]? = some (q, m)) {x : Q} (hx : s.qs[m.ans]? = some x)
    (hl : x.lk ∈ s.lks) : ∃ s', step s (.deliver i) = .ok s' ∧ s'.given = s.given ++ [(x.lk, m)] ∧ s'.lk x.lk = update (s.lk x.lk) m := by
  have I := inv_reach h
  obtain ⟨y, hy, hst, ha, hc, -⟩ := I.hand _ (List.mem_of_getElem? hm)
  dsimp only at hy ha hc
  obtain rfl : x = y := by rw [ha, hy] at hx; cases hx; rfl
  have hw : Waits s q := .inr ⟨m, List.mem_of_getElem? hm⟩
  have hin := I.has q x hy hst hl hw
  have key : findLookup { s with hands := s.hands.eraseIdx i } m.cookie = some x.lk := by
    cases hf : findLookup { s with hands := s.hands.eraseIdx i } m.cookie with
    | none =>
      have := List.find?_eq_none.mp hf x.lk hl
      simp only [decide_eq_true_eq] at this
      exact absurd (hc ▸ hin) this
    | some l =>
      have hl' := List.mem_of_find?_eq_some hf
      have hc' := List.find?_some hf
      simp only [decide_eq_true_eq] at hc'
      obtain ⟨k, z, h1, h2, h3, h4, h5⟩ := I.mine l hl' _ hc'
      have := waits_uniq I h5 hw h1 hy (by rw [h3, hc])
      subst this
      rw [hy] at h1; cases h1; rw [h2]
  refine ⟨_, by simp only [step, hm, key]; rfl, rfl, ?_⟩
  simp [setLk]

/-- **C65, a timely response finds its request.** -/
theorem C65_found_partial {s : St} (h : Reach Timely s) {m : Resp} (hm : Timely s (.reply m)) :
    ∃ s', step s (.reply m) = .ok s' ∧ s'.hands = (m.ans, m) :: s.hands ∧ m.ans ∉ s'.reqs := by
  have I := inv_reach h
  obtain ⟨x, hx, hc, hst, hr⟩ := hm
  cases hf : s.reqs.find? (fun q => s.cookie q = m.cookie) with
  | none =>
    have := List.find?_eq_none.mp hf m.ans hr
    simp only [decide_eq_true_eq, cookie_eq hx] at this
    exact absurd hc this
  | some q =>
    have hq := List.mem_of_find?_eq_some hf
    have hqc := List.find?_some hf
    simp only [decide_eq_true_eq] at hqc
    obtain ⟨y, hy, _⟩ := I.u.req q hq
    rw [cookie_eq hy] at hqc
    have e := I.u.uniq q m.ans y x ⟨hy, .inr hq⟩ ⟨hx, .inr hr⟩ (by rw [hqc, hc])
    subst e
    refine ⟨_, by simp only [step, hf, cookie_eq hx, release_ok (I.u.range _ x hx).1 (I.u.range _ x hx).2]; rfl, rfl, ?_⟩
    intro hin
    exact ((List.Nodup.mem_erase_iff I.u.nd).mp hin).1 rfl

/-- **C65, what a query returns.** As long as responses are timely and members answer truthfully, the addresses a lookup ends with are addresses
registered for its key. -/
theorem C65_query_partial {reg : Nat → Nat → Prop} {s : St} (h : Reach (fun s op => Timely s op ∧ Truthful reg s op) s) (l : Nat) :
    ∀ a ∈ (s.lk l).addrs, reg (s.lk l).key a := by
  obtain ⟨I, T⟩ := tru_reach h
  intro a ha
  obtain ⟨m, hm, ham⟩ := I.o.addrs l a ha
  obtain ⟨x, hx, hxl⟩ := I.right _ hm
  dsimp only at hx hxl
  have := T.given _ hm x hx a ham
  rwa [hxl] at this

/-! ## Witnesses -/

/-- Runs operations, checking the condition before each. -/
def play (ok : St → Op → Bool) (s : St) : List Op → Option St
  | [] => some s
  | op :: ops => if ok s op then (match step s op with | .ok s' => play ok s' ops | .ub => none) else none

theorem play_reach {ok : St → Op → Prop} {okb : St → Op → Bool} (hok : ∀ s op, okb s op = true → ok s op) :
    ∀ {ops : List Op} {s s' : St}, Reach ok s → play okb s ops = some s' → Reach ok s'
  | [], s, s', h, hp => by simp only [play, Option.some.injEq] at hp; exact hp ▸ h
  | op :: ops, s, s', h, hp => by
    simp only [play] at hp
    split at hp
    · rename_i ho
      split at hp
      · rename_i s1 h1
        exact play_reach hok (.step h (hok s op ho) h1) hp
      · cases hp
    · cases hp

/-- `Honest`, as a test. -/
def honestB (s : St) : Op → Bool
  | .reply m => match s.qs[m.ans]? with
    | some x => x.cookie == m.cookie
    | none => false
  | _ => true

theorem honestB_ok (s : St) (op : Op) (h : honestB s op = true) : Honest s op := by
  cases op <;> try trivial
  rename_i m
  simp only [honestB] at h
  simp only [Honest, Answers]
  split at h
  · rename_i x hx; exact ⟨x, hx, by simpa using h⟩
  · cases h

/-- `Timely`, as a test. -/
def timelyB (s : St) : Op → Bool
  | .reply m => match s.qs[m.ans]? with
    | some x => x.cookie == m.cookie && x.stage == .recorded && s.reqs.contains m.ans
    | none => false
  | .expire q => match s.qs[q]? with
    | some x => !s.lks.contains x.lk
    | none => true
  | .ask _ _ => s.hands.isEmpty
  | .respFail _ => false
  | _ => true

theorem timelyB_ok (s : St) (op : Op) (h : timelyB s op = true) : Timely s op := by
  cases op with
  | reply m =>
    simp only [timelyB] at h
    simp only [Timely]
    split at h
    · rename_i x hx
      simp only [Bool.and_eq_true, beq_iff_eq, List.contains_iff_mem] at h
      exact ⟨x, hx, h.1.1, h.1.2, h.2⟩
    · cases h
  | expire q =>
    simp only [timelyB] at h
    intro x hx
    rw [hx] at h
    simpa [List.contains_iff_mem] using h
  | ask l a => simpa [timelyB, Timely, List.isEmpty_iff] using h
  | respFail c => cases h
  | _ => trivial

/-- `NoFail`, as a test. -/
def noFailB (_ : St) : Op → Bool
  | .respFail _ => false
  | _ => true

theorem noFailB_ok (s : St) (op : Op) (h : noFailB s op = true) : NoFail s op := by
  cases op <;> trivial

/-- The run is possible and its end satisfies `p`. -/
def check (ok : St → Op → Bool) (ops : List Op) (p : St → Bool) : Bool := match play ok init ops with
  | some s => p s
  | none => false

theorem check_reach {ok : St → Op → Prop} {okb : St → Op → Bool} (hok : ∀ s op, okb s op = true → ok s op) {ops : List Op} {p : St → Bool}
    (h : check okb ops p = true) : ∃ s, Reach ok s ∧ p s = true := by
  simp only [check] at h
  split at h
  · rename_i s hs; exact ⟨s, play_reach hok .init hs, h⟩
  · cases h

/-- `Mixed`, as a test. -/
def wrong (l : Nat) (m : Resp) (s : St) : Bool :=
  s.given.contains (l, m) && !m.addrs.isEmpty && (s.lk l).addrs == m.addrs && (match s.qs[m.ans]? with | some x => (s.lk x.lk).key != (s.lk l).key | none => false)

theorem wrong_spec {l : Nat} {m : Resp} {s : St} (h : wrong l m s = true) : Mixed s l m := by
  simp only [wrong, Bool.and_eq_true, List.contains_iff_mem, beq_iff_eq] at h
  obtain ⟨⟨⟨h1, h2⟩, h3⟩, h4⟩ := h
  split at h4
  · rename_i x hx
    exact ⟨h1, by simpa [List.isEmpty_iff] using h2, h3, x, hx, by simpa using h4⟩
  · cases h4

theorem mixed_wrong {s : St} {l : Nat} {m : Resp} (h : Mixed s l m) : ¬ Right s := by
  obtain ⟨h1, -, -, x, hx, hk⟩ := h
  intro hr
  obtain ⟨y, hy, hyl⟩ := hr _ h1
  dsimp only at hy hyl
  rw [hx] at hy; cases hy; exact hk (by rw [hyl])

/-- Two lookups ask at the same time and get their answers. -/
def good : List Op :=
  [.start 10, .start 20, .ask 0 100, .ask 1 200, .list 0, .list 1, .record 0, .record 1, .reply ⟨2, [22], 1⟩, .deliver 0, .reply ⟨1, [11], 0⟩, .deliver 0]

example : ∃ s, Reach Timely s ∧ (s.given == [(1, ⟨2, [22], 1⟩), (0, ⟨1, [11], 0⟩)] && (s.lk 0).addrs == [11] && (s.lk 1).addrs == [22]) = true :=
  check_reach timelyB_ok (ops := good) (by decide +kernel)

example : ∃ s, Reach NoFail s ∧ (s.reqs.length == 2) = true :=
  check_reach noFailB_ok (ops := good.take 8) (by decide +kernel)

example : Truthful (fun k a => a = k + k / 10) ⟨[⟨0, 100, 1, .recorded⟩], [0], fun _ => true, [0], fun _ => ⟨10, [1], [], false⟩, 1, [], []⟩ (.reply ⟨1, [11], 0⟩) := by
  intro x hx a ha
  simp at hx ha
  subst hx ha; rfl

/-! ## What goes wrong -/

/-- **C65 fails for late responses.** A member asks for one key and gives up; the answer arrives while the same cookie is in use for another key: the
second lookup takes the address of the first key. -/
theorem C65_late_violated : ∃ s, Reach Honest s ∧ ∃ l m, Mixed s l m := by
  obtain ⟨s, h1, h2⟩ := check_reach honestB_ok (p := wrong 1 ⟨1, [11], 0⟩)
    (ops := [.start 10, .ask 0 100, .list 0, .record 0, .close 0, .finish 0, .expire 0,
      .start 20, .ask 1 200, .list 1, .record 1, .reply ⟨1, [11], 0⟩, .deliver 0]) (by decide +kernel)
  exact ⟨s, h1, 1, _, wrong_spec h2⟩

/-- **C65 fails for quick responses.** A response arrives before the cookie is known to the lookup. It is lost, the stale cookie stays with the lookup,
and the answer to a later question of an older lookup goes there. Every response arrives while its question waits for it. -/
theorem C65_quick_violated : ∃ s, Reach Honest s ∧ ∃ l m, Mixed s l m := by
  obtain ⟨s, h1, h2⟩ := check_reach honestB_ok (p := wrong 1 ⟨1, [11], 1⟩)
    (ops := [.start 10, .start 20, .ask 1 200, .list 0, .reply ⟨1, [], 0⟩, .deliver 0, .record 0,
      .ask 0 100, .list 1, .record 1, .reply ⟨1, [11], 1⟩, .deliver 0]) (by decide +kernel)
  exact ⟨s, h1, 1, _, wrong_spec h2⟩

/-- **C65 fails for lookups that take longer than the worker waits.** The cookie of an unanswered question is given to an older lookup while the newer
one still goes on: it takes the answer. -/
theorem C65_expired_violated : ∃ s, Reach Honest s ∧ ∃ l m, Mixed s l m := by
  obtain ⟨s, h1, h2⟩ := check_reach honestB_ok (p := wrong 1 ⟨1, [11], 1⟩)
    (ops := [.start 10, .start 20, .ask 1 200, .list 0, .record 0, .expire 0,
      .ask 0 100, .list 1, .record 1, .reply ⟨1, [11], 1⟩, .deliver 0]) (by decide +kernel)
  exact ⟨s, h1, 1, _, wrong_spec h2⟩

/-- **C65 fails between two handlers.** The cookie is released before the lookup is sought: another lookup uses it in between and takes the answer. -/
theorem C65_released_violated : ∃ s, Reach Honest s ∧ ∃ l m, Mixed s l m := by
  obtain ⟨s, h1, h2⟩ := check_reach honestB_ok (p := wrong 1 ⟨1, [11], 0⟩)
    (ops := [.start 10, .ask 0 100, .list 0, .record 0, .reply ⟨1, [11], 0⟩,
      .start 20, .ask 1 200, .list 1, .record 1, .deliver 0]) (by decide +kernel)
  exact ⟨s, h1, 1, _, wrong_spec h2⟩

/-- **C65 fails if a response to somebody else cannot be sent.** Their cookie is released here: two questions that wait have the same cookie ... -/
theorem C65_resp_fail_violated : ∃ s, Reach Honest s ∧ ∃ q ∈ s.reqs, ∃ q' ∈ s.reqs, q ≠ q' ∧ s.cookie q = s.cookie q' := by
  obtain ⟨s, h1, h2⟩ := check_reach honestB_ok (p := fun s => s.reqs == [1, 0] && s.cookie 0 == s.cookie 1)
    (ops := [.start 10, .ask 0 100, .list 0, .record 0, .respFail 1, .start 20, .ask 1 200, .list 1, .record 1]) (by decide +kernel)
  simp only [Bool.and_eq_true, beq_iff_eq] at h2
  exact ⟨s, h1, 0, by simp [h2.1], 1, by simp [h2.1], by decide, h2.2⟩

/-- ... and with the cookie 2049, which any member may choose, memory behind the bitmap is written. -/
theorem C65_resp_fail_crash_violated (s : St) : step s (.respFail 2049) = .ub := rfl

/-- **C65, senders are not known.** A response from whomever that carries a cookie in use is taken, whatever it says. -/
theorem C65_forged_violated {s : St} (h : Reach NoFail s) {q : Nat} (hq : q ∈ s.reqs) (addrs : List Nat) (ans : Nat) :
    ∃ s', step s (.reply ⟨s.cookie q, addrs, ans⟩) = .ok s' ∧ s'.hands = (q, ⟨s.cookie q, addrs, ans⟩) :: s.hands := by
  have U := uniq_reach (ok := NoFail) (fun _ _ h => h) h
  cases hf : s.reqs.find? (fun j => s.cookie j = s.cookie q) with
  | none =>
    have := List.find?_eq_none.mp hf q hq
    simp at this
  | some j =>
    have hj := List.mem_of_find?_eq_some hf
    have hjc := List.find?_some hf
    simp only [decide_eq_true_eq] at hjc
    obtain ⟨x, hx, _⟩ := U.req q hq
    obtain ⟨y, hy, _⟩ := U.req j hj
    have e : j = q := U.uniq j q y x ⟨hy, .inr hj⟩ ⟨hx, .inr hq⟩ (by rw [← cookie_eq hy, ← cookie_eq hx, hjc])
    subst e
    rw [cookie_eq hx] at hf ⊢
    exact ⟨_, by simp only [step, hf, cookie_eq hx, release_ok (U.range _ x hx).1 (U.range _ x hx).2]; rfl, rfl⟩

/-- **C65, responses are lost.** A response that arrives between the sending of the question and the entry of the request is ignored: nothing changes,
and the question is taken for unanswered. -/
theorem C65_lost_violated {s : St} (h : Reach NoFail s) {q : Nat} {x : Q} (hx : s.qs[q]? = some x) (hs : x.stage = .allocated) (addrs : List Nat) :
    step s (.reply ⟨x.cookie, addrs, q⟩) = .ok s := by
  have U := uniq_reach (ok := NoFail) (fun _ _ h => h) h
  have : s.reqs.find? (fun j => s.cookie j = x.cookie) = none := by
    rw [List.find?_eq_none]
    intro j hj
    simp only [decide_eq_true_eq]
    intro e
    obtain ⟨y, hy, hys⟩ := U.req j hj
    rw [cookie_eq hy] at e
    have := U.uniq j q y x ⟨hy, .inr hj⟩ ⟨hx, .inl hs⟩ e
    subst this
    rw [hx] at hy; cases hy
    rcases hys with h | h <;> rw [hs] at h <;> cases h
  simp only [step, this]

end Ouro.DhtReq
