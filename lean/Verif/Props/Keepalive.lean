import Verif.Proof.Keepalive

/-!
# C71: keepalives
-/

namespace Ouro.Keepalive

/-- No end of a healthy flow is ever declared dead: if the monitors pass at least every `τ`, what an end
sends is heard by the other within `d`, and a quarter of the timeout plus `τ` plus `d` fits in the
timeout, then after any history neither end is closed and no `FLOW_PEER` event was raised. -/
theorem C71_alive_partial (timeo : Nat) (τ d : Int) (hτ : 0 ≤ τ) (hd : 0 ≤ d)
    (hsum : (timeo : Int) * 250000 + τ + d ≤ (timeo : Int) * 1000000) (h : List (Int × Ev)) (ho : Ordered h)
    (hroom : Roomy h) (hh : Healthy timeo τ d h) (x : Bool) :
    ((run timeo h).at x).closed = false ∧ ((run timeo h).at x).events = 0 :=
  healthy_open hτ hd hsum ho hroom hh x

/-- A flow with a timeout of 4 ms whose only packets are keepalives, over 7 ms (newest first). -/
def sample : List (Int × Ev) :=
  [(7000000, .tick false .ok), (7000000, .tick true .ok), (6500000, .read false), (6500000, .read true),
   (6000000, .tick false .ok), (6000000, .tick true .ok),
   (5000000, .tick false .ok), (5000000, .tick true .ok), (4500000, .read false), (4500000, .read true),
   (4000000, .tick false .ok), (4000000, .tick true .ok),
   (3000000, .tick false .ok), (3000000, .tick true .ok), (2500000, .read false), (2500000, .read true),
   (2000000, .tick false .ok), (2000000, .tick true .ok),
   (1000000, .tick false .ok), (1000000, .tick true .ok)]

example : Ordered sample ∧ Roomy sample ∧ Healthy 4 1500000 1000000 sample ∧
    ((run 4 sample).at true).sends = [6000000, 4000000, 2000000] ∧ readTimes 4 true sample = [6500000, 4500000, 2500000] :=
  ⟨by decide +kernel, roomyB_sound (by decide +kernel), healthyB_sound (by decide +kernel), by decide +kernel, by decide +kernel⟩

/-- A peer that is gone is found out: when an end has read nothing after time `q`, the first pass of its
monitor later than the timeout after `q` closes the flow, and it stays closed. -/
theorem C71_detects (timeo : Nat) (ht : timeo ≠ 0) (h : List (Int × Ev)) (x : Bool) (q n : Int) (r : Room) (hq : 0 ≤ q)
    (hread : ∀ t ∈ readTimes timeo x h, t ≤ q) (hn : q + (timeo : Int) * 1000000 < n) (later : List (Int × Ev)) :
    ((run timeo (later ++ (n, .tick x r) :: h)).at x).closed = true := by
  induction later with
  | nil =>
    have hle := rcvAct_le hq hread
    simp only [List.nil_append, run, step]
    by_cases hc : ((run timeo h).at x).closed = true
    · rw [show keepalive timeo ((run timeo h).at x).closed ((run timeo h).at x).sndAct ((run timeo h).at x).rcvAct n = .idle by
        simp [keepalive, hc]]
      exact hc
    · rw [show keepalive timeo ((run timeo h).at x).closed ((run timeo h).at x).sndAct ((run timeo h).at x).rcvAct n = .dead by
        unfold keepalive
        rw [if_neg (by simp [ht, hc]), if_pos (by omega)]]
      simp [at_set_same]
  | cons p l ih => exact closed_mono_step timeo _ p.1 p.2 x ih

/-- An end is closed only after it has read nothing for longer than the timeout, and the application is
told with exactly one `FLOW_PEER` event. -/
theorem C71_sound (timeo : Nat) (h : List (Int × Ev)) (ho : Ordered h) (n : Int) (e : Ev) (x : Bool)
    (hopen : ((run timeo h).at x).closed = false) (hclosed : ((run timeo ((n, e) :: h)).at x).closed = true) :
    timeo ≠ 0 ∧ (∃ r, e = .tick x r) ∧ (∀ t ∈ readTimes timeo x h, t + (timeo : Int) * 1000000 < n) ∧
      ((run timeo ((n, e) :: h)).at x).events = ((run timeo h).at x).events + 1 := by
  by_cases he : ∀ y r, e ≠ .tick y r
  · simp only [run] at hclosed
    rw [sndAct_step_closed timeo _ n e x he, hopen] at hclosed; cases hclosed
  · push Not at he
    obtain ⟨y, r, rfl⟩ := he
    simp only [run, step] at hclosed ⊢
    rcases hk : keepalive timeo ((run timeo h).at y).closed ((run timeo h).at y).sndAct ((run timeo h).at y).rcvAct n
      with _ | _ | _
    · rw [hk] at hclosed; simp only [hopen] at hclosed; cases hclosed
    · rw [hk] at hclosed
      simp only [at_set] at hclosed
      by_cases hxy : x = y
      · subst hxy
        unfold keepalive at hk
        split at hk
        · cases hk
        · rename_i hne
          simp only [not_or] at hne
          split at hk
          · rename_i hgt
            refine ⟨hne.1, ⟨r, rfl⟩, ?_, by simp [at_set_same]⟩
            intro t htm
            have := readTimes_le ho htm
            omega
          · split at hk <;> cases hk
      · simp only [hxy, if_false, hopen] at hclosed; cases hclosed
    · rw [hk] at hclosed
      simp only [put_closed, hopen] at hclosed; cases hclosed

/-- An application is told at most once that the peer is gone, and exactly when the end is closed. -/
theorem C71_once (timeo : Nat) (h : List (Int × Ev)) (x : Bool) :
    ((run timeo h).at x).events = ((run timeo h).at x).closed.toNat := by
  induction h with
  | nil => cases x <;> rfl
  | cons p h ih =>
    obtain ⟨now, ev⟩ := p
    have hput : ∀ y r, ((put (run timeo h) y now r).at x).events = ((run timeo h).at x).events := by
      intro y r; cases x <;> cases y <;> cases r <;> rfl
    cases ev with
    | tick y r =>
      simp only [run, step]
      rcases hk : keepalive timeo ((run timeo h).at y).closed ((run timeo h).at y).sndAct ((run timeo h).at y).rcvAct now
        with _ | _ | _
      · exact ih
      · have hopen : ((run timeo h).at y).closed = false := by
          unfold keepalive at hk
          split at hk
          · cases hk
          · rename_i hne; simp only [not_or, Bool.not_eq_true] at hne; exact hne.2
        simp only [at_set]
        by_cases e : x = y
        · subst e; rw [hopen] at ih; simp [ih]
        · simp only [e, if_false]; exact ih
      · simp only [put_closed, hput]; exact ih
    | write y r => simp only [run, step, put_closed, hput]; exact ih
    | read y =>
      simp only [run, step]; split
      · exact ih
      · rw [at_set]; split
        · rename_i e; subst e; exact ih
        · exact ih
    | lose y =>
      simp only [run, step]; rw [at_set]; split
      · rename_i e; subst e; exact ih
      · exact ih

/-- A flow without a timeout is left alone: the monitor never changes anything. -/
theorem C71_no_timeout (s : St) (n : Int) (x : Bool) (r : Room) : step 0 s n (.tick x r) = s := by
  simp [step, keepalive]

/-- Keepalives are sent often enough: at any pass of the monitor of an end that is open later on, that end
has sent a packet within the last quarter of the timeout. -/
theorem C71_rate (timeo : Nat) (ht : timeo ≠ 0) (x : Bool) (h : List (Int × Ev)) (ho : Ordered h) (hr : Roomy h)
    (hopen : ((run timeo h).at x).closed = false) (m : Int) (r : Room) (hm : (m, Ev.tick x r) ∈ h) :
    m ≤ (timeo : Int) * 250000 ∨ ∃ e ∈ ((run timeo h).at x).sends, m - (timeo : Int) * 250000 ≤ e ∧ e ≤ m :=
  tick_sent ht ho hr hopen hm

/-- ... and not more often than needed: a pass sends a packet only when the last one is more than a quarter
of the timeout ago, and at most one. -/
theorem C71_sparing (timeo : Nat) (x : Bool) (h : List (Int × Ev)) (ho : Ordered h) (n : Int) (r : Room) :
    ((run timeo ((n, .tick x r) :: h)).at x).sends = ((run timeo h).at x).sends ∨
      (((run timeo ((n, .tick x r) :: h)).at x).sends = n :: ((run timeo h).at x).sends ∧
        ∀ e ∈ ((run timeo h).at x).sends, e + (timeo : Int) * 250000 < n) := by
  simp only [run, step]
  rcases hk : keepalive timeo ((run timeo h).at x).closed ((run timeo h).at x).sndAct ((run timeo h).at x).rcvAct n
    with _ | _ | _
  · exact Or.inl rfl
  · left; simp [at_set_same]
  · simp only [put_sends, true_and]
    by_cases hr : r = .ok
    · right
      rw [if_pos hr]
      refine ⟨rfl, ?_⟩
      intro e he
      have := sends_le_sndAct ho he
      unfold keepalive at hk
      split at hk
      · cases hk
      · split at hk
        · cases hk
        · split at hk
          · omega
          · cases hk
    · left; rw [if_neg hr]

/-! ## Where the code departs from the property -/

/-- The activity time is that of the last packet *read by the application*, not of the last packet that
arrived: for every timeout there is a run in which the peer's keepalives arrive in time, wait in the ring,
and the end is declared dead because its application did not read (src/lib/dev.c:317, 1328). -/
theorem C71_idle_reader_violated (timeo : Nat) (ht : timeo ≠ 0) :
    let q : Int := (timeo : Int) * 250000
    let h : List (Int × Ev) := [(3 * q + 3, .tick true .ok), (2 * q + 2, .tick true .ok), (q + 1, .tick true .ok)]
    ((run timeo h).at false).wire = [q + 1, 2 * q + 2, 3 * q + 3] ∧
      ((run timeo ((4 * q + 1, .tick false .ok) :: h)).at false).closed = true ∧
      ((run timeo ((4 * q + 1, .tick false .ok) :: h)).at true).closed = false := by
  intro q h
  have hq : 0 < q := by
    have : (0 : Int) < timeo := by exact_mod_cast Nat.pos_of_ne_zero ht
    simp only [q]; omega
  have hT : (timeo : Int) * 1000000 = 4 * q := by simp only [q]; omega
  have k : ∀ s r n : Int, n - r ≤ 4 * q → n - s > q → keepalive timeo false s r n = .send := by
    intro s r n h1 h2
    unfold keepalive
    rw [if_neg (by simp [ht]), if_neg (by omega), if_pos h2]
  have kd : ∀ s r n : Int, n - r > 4 * q → keepalive timeo false s r n = .dead := by
    intro s r n h1
    unfold keepalive
    rw [if_neg (by simp [ht]), if_pos (by omega)]
  have h1 : run timeo [(q + 1, .tick true .ok)] = ⟨⟨q + 1, 0, false, 0, [], [q + 1]⟩, ⟨0, 0, false, 0, [q + 1], []⟩⟩ := by
    simp only [run, step, start, St.at, if_true]
    rw [k 0 0 (q + 1) (by omega) (by omega)]; rfl
  have h2 : run timeo [(2 * q + 2, .tick true .ok), (q + 1, .tick true .ok)]
      = ⟨⟨2 * q + 2, 0, false, 0, [], [2 * q + 2, q + 1]⟩, ⟨0, 0, false, 0, [q + 1, 2 * q + 2], []⟩⟩ := by
    rw [run, h1]
    simp only [step, St.at, if_true]
    rw [k (q + 1) 0 (2 * q + 2) (by omega) (by omega)]; rfl
  have h3 : run timeo h
      = ⟨⟨3 * q + 3, 0, false, 0, [], [3 * q + 3, 2 * q + 2, q + 1]⟩, ⟨0, 0, false, 0, [q + 1, 2 * q + 2, 3 * q + 3], []⟩⟩ := by
    show step timeo (run timeo [(2 * q + 2, .tick true .ok), (q + 1, .tick true .ok)]) (3 * q + 3) (.tick true .ok) = _
    rw [h2]
    simp only [step, St.at, if_true]
    by_cases hc : 3 * q + 3 ≤ 4 * q
    · rw [k (2 * q + 2) 0 (3 * q + 3) (by omega) (by omega)]; rfl
    · omega
  have h4 : run timeo ((4 * q + 1, .tick false .ok) :: h) =
      ⟨⟨3 * q + 3, 0, false, 0, [], [3 * q + 3, 2 * q + 2, q + 1]⟩, ⟨0, 0, true, 1, [q + 1, 2 * q + 2, 3 * q + 3], []⟩⟩ := by
    rw [run, h3]
    simp only [step, St.at, Bool.false_eq_true, if_false]
    rw [kd 0 0 (4 * q + 1) (by omega)]; rfl
  rw [h4, h3]
  exact ⟨rfl, rfl, rfl⟩

/-- ... and since a closed end sends no more keepalives, its peer is declared dead by the other end too,
although both processes are there, their monitors run, nothing is lost, and that other end reads
everything at once (4 ms timeout, newest event first). -/
theorem C71_idle_reader_spreads_violated :
    let h : List (Int × Ev) :=
      [(9000000, .tick true .ok), (9000000, .tick false .ok), (8000000, .tick true .ok), (8000000, .tick false .ok),
       (7000000, .tick true .ok), (7000000, .tick false .ok), (6000000, .tick true .ok), (6000000, .tick false .ok),
       (5000000, .tick true .ok), (5000000, .tick false .ok), (4000000, .read true),
       (4000000, .tick true .ok), (4000000, .tick false .ok), (3000000, .tick true .ok), (3000000, .tick false .ok),
       (2000000, .read true), (2000000, .tick true .ok), (2000000, .tick false .ok),
       (1000000, .tick true .ok), (1000000, .tick false .ok)]
    Ordered h ∧ ((run 4 h).at false).closed = true ∧ ((run 4 h).at true).closed = true ∧ ((run 4 h).at true).wire = [] := by
  decide +kernel

/-- A packet that the ring refuses counts as activity: for the next quarter of the timeout the monitor sends
nothing although nothing was sent (src/lib/dev.c:285-288, 1191, 1216-1219). -/
theorem C71_full_ring_violated (timeo : Nat) (s : St) (x : Bool) (t n : Int) (r : Room)
    (hn : n - t ≤ (timeo : Int) * 250000) :
    ((step timeo (step timeo s t (.write x .full)) n (.tick x r)).at x).sends = (s.at x).sends := by
  have hs : ((put s x t .full).at x).sndAct = t := by rw [put_sndAct]; simp
  have hss : ((put s x t .full).at x).sends = (s.at x).sends := by rw [put_sends]; simp
  simp only [step]
  rw [← hss]
  unfold keepalive
  rw [hs]
  split <;> rename_i hk
  · rfl
  · simp [at_set_same]
  · exfalso
    split at hk
    · cases hk
    · split at hk
      · cases hk
      · rw [if_neg (by omega)] at hk; cases hk

/-- The monitor passes over the flows only when it saw no event for a tick: as long as events keep coming
there is no pass, however long that lasts (src/lib/dev.c:364-372). -/
theorem C71_busy_violated (k : Nat) : passes (List.replicate k .events) = 0 := by
  induction k with
  | zero => rfl
  | succ k ih => rw [List.replicate_succ]; exact ih

end Ouro.Keepalive
