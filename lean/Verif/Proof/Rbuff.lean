import Verif.Model.Rbuff
import Verif.Spec.BoundedQueue

/-! Helper lemmas and the invariant for the ring buffer. -/

namespace Ouro.Rbuff

/-- The ring is well formed: the size is a power of two, the indices are in range. -/
structure WF (r : Ring) : Prop where
  pow : ∃ k, r.size = 2 ^ k
  len : r.cells.length = r.size
  hd : r.head < r.size
  tl : r.tail < r.size
  nn : ∀ x ∈ r.cells, 0 ≤ x

theorem WF.pos {r : Ring} (h : WF r) : 0 < r.size := Nat.lt_of_le_of_lt (Nat.zero_le _) h.hd

theorem WF.mask {r : Ring} (h : WF r) (n : Nat) : n &&& (r.size - 1) = n % r.size := by
  obtain ⟨k, hk⟩ := h.pow
  rw [hk, Nat.and_two_pow_sub_one_eq_mod]

/-- number of queued elements -/
theorem WF.used_eq {r : Ring} (h : WF r) :
    r.used = if r.tail ≤ r.head then r.head - r.tail else r.head + r.size - r.tail := by
  have h1 := h.hd
  have h2 := h.tl
  unfold Ring.used
  rw [h.mask]
  split
  · rw [show r.head + r.size - r.tail = (r.head - r.tail) + r.size by omega, Nat.add_mod_right,
      Nat.mod_eq_of_lt (by omega)]
  · rw [Nat.mod_eq_of_lt (by omega)]

theorem WF.used_cases {r : Ring} (h : WF r) :
    (r.tail ≤ r.head ∧ r.used = r.head - r.tail) ∨ (r.head < r.tail ∧ r.used = r.head + r.size - r.tail) := by
  rw [h.used_eq]; split <;> omega

theorem WF.used_lt {r : Ring} (h : WF r) : r.used < r.size := by
  rw [h.used_eq]; have := h.hd; have := h.tl; split <;> omega

theorem WF.empty_iff {r : Ring} (h : WF r) : r.empty = true ↔ r.used = 0 := by
  rw [h.used_eq]; have := h.hd; have := h.tl; unfold Ring.empty; simp only [beq_iff_eq]; split <;> omega

theorem WF.free_iff {r : Ring} (h : WF r) : r.free = true ↔ r.used < r.size - 1 := by
  have := h.pos; unfold Ring.free; simp only [decide_eq_true_eq]; omega

/-- The queued elements, oldest first. -/
def contents (r : Ring) : List Int := (List.range r.used).map (fun i => r.cells.getD ((r.tail + i) % r.size) 0)

@[simp] theorem contents_length (r : Ring) : (contents r).length = r.used := by simp [contents]

theorem step_cases {a n : Nat} (h : a < n) : ((a + 1) % n = 0 ∧ a + 1 = n) ∨ ((a + 1) % n = a + 1 ∧ a + 1 < n) := by
  by_cases e : a + 1 = n
  · left; exact ⟨by rw [e, Nat.mod_self], e⟩
  · right; exact ⟨Nat.mod_eq_of_lt (by omega), by omega⟩

theorem off_cases {a i n : Nat} (h : a < n) (hi : i < n) :
    ((a + i) % n = a + i ∧ a + i < n) ∨ ((a + i) % n = a + i - n ∧ n ≤ a + i) := by
  by_cases e : a + i < n
  · left; exact ⟨Nat.mod_eq_of_lt e, e⟩
  · right; exact ⟨by rw [Nat.mod_eq_sub_mod (by omega), Nat.mod_eq_of_lt (by omega)], by omega⟩

/-- the ring after a push -/
def pushed (r : Ring) (x : Nat) : Ring := { r with cells := r.cells.set r.head x, head := (r.head + 1) % r.size }
/-- the ring after a pop -/
def popped (r : Ring) : Ring := { r with tail := (r.tail + 1) % r.size }

theorem pushed_wf {r : Ring} (h : WF r) (x : Nat) : WF (pushed r x) := by
  refine ⟨h.pow, by simp [pushed, h.len], Nat.mod_lt _ h.pos, h.tl, ?_⟩
  intro y hy
  rcases List.mem_or_eq_of_mem_set hy with hy | hy
  · exact h.nn y hy
  · subst hy; exact Int.natCast_nonneg x

theorem pushed_used {r : Ring} (h : WF r) (x : Nat) :
    (r.used < r.size - 1 → (pushed r x).used = r.used + 1) ∧ (r.used = r.size - 1 → (pushed r x).used = 0) := by
  have h1 := h.hd
  have h2 := h.tl
  have a := h.used_cases
  have b := (pushed_wf h x).used_cases
  have c := step_cases h1
  simp only [show (pushed r x).tail = r.tail from rfl, show (pushed r x).size = r.size from rfl,
    show (pushed r x).head = (r.head + 1) % r.size from rfl] at b
  omega

theorem pushed_contents {r : Ring} (h : WF r) (x : Nat) (hu : r.used < r.size - 1) :
    contents (pushed r x) = contents r ++ [(x : Int)] := by
  have h1 := h.hd
  have h2 := h.tl
  have hc := h.used_cases
  unfold contents
  rw [(pushed_used h x).1 hu, List.range_succ, List.map_append]
  congr 1
  · apply List.map_congr_left
    intro i hi
    have hi' : i < r.used := List.mem_range.mp hi
    have hne : r.head ≠ (r.tail + i) % r.size := by
      have := off_cases h2 (show i < r.size by omega)
      omega
    simp only [pushed, List.getD_eq_getElem?_getD, List.getElem?_set, if_neg hne]
  · have he : (r.tail + r.used) % r.size = r.head := by
      have := off_cases h2 h.used_lt
      omega
    simp only [pushed, List.map_cons, List.map_nil, he, List.getD_eq_getElem?_getD,
      List.getElem?_set_self (h.len ▸ h1), Option.getD_some]

theorem push_spec {r : Ring} (h : WF r) (x : Nat) : r.push x = .ok (pushed r x) := by
  simp only [Ring.push, wr, h.len, if_pos h.hd, Outcome.bind_ok, Outcome.pure_eq, h.mask, pushed]

theorem popped_wf {r : Ring} (h : WF r) : WF (popped r) := ⟨h.pow, h.len, h.hd, Nat.mod_lt _ h.pos, h.nn⟩

theorem popped_used {r : Ring} (h : WF r) (hne : r.used ≠ 0) : r.used = (popped r).used + 1 := by
  have h1 := h.hd
  have h2 := h.tl
  have a := h.used_cases
  have b := (popped_wf h).used_cases
  have c := step_cases h2
  simp only [show (popped r).tail = (r.tail + 1) % r.size from rfl, show (popped r).size = r.size from rfl,
    show (popped r).head = r.head from rfl] at b
  omega

theorem pop_spec {r : Ring} (h : WF r) (hne : r.used ≠ 0) :
    ∃ x, r.pop = .ok (popped r, x) ∧ contents r = x :: contents (popped r) ∧ 0 ≤ x := by
  have h2 := h.tl
  have hx : r.cells[r.tail]? = some (r.cells.getD r.tail 0) := by
    rw [List.getD_eq_getElem?_getD, List.getElem?_eq_getElem (by rw [h.len]; exact h2)]; rfl
  refine ⟨r.cells.getD r.tail 0, ?_, ?_, ?_⟩
  · simp only [Ring.pop, rd, hx, Outcome.bind_ok, Outcome.pure_eq, h.mask, popped]
  · unfold contents
    rw [popped_used h hne, List.range_succ_eq_map, List.map_cons, List.map_map]
    congr 1
    · simp [Nat.mod_eq_of_lt h2]
    · apply List.map_congr_left
      intro i hi
      simp only [Function.comp_apply, Nat.succ_eq_add_one, popped, Nat.mod_add_mod]
      congr 2
      omega
  · exact h.nn _ (List.mem_of_getElem? hx)

theorem create_wf (k : Nat) : WF (create (2 ^ k)) := by
  refine ⟨⟨k, rfl⟩, by simp [create], Nat.two_pow_pos k, Nat.two_pow_pos k, ?_⟩
  intro x hx
  have := List.eq_of_mem_replicate hx
  omega

theorem create_contents (k : Nat) : contents (create (2 ^ k)) = [] := by
  have : (create (2 ^ k)).used = 0 := by rw [← (create_wf k).empty_iff]; rfl
  unfold contents; rw [this]; rfl

end Ouro.Rbuff

namespace Ouro.Rbuff

/-- An empty ring of `2^k` cells and nobody waiting. -/
def init (k : Nat) : Sys := { ring := create (2 ^ k), waiting := [] }

@[simp] theorem broadcast_ring (s : Sys) (a : Bool) : (s.broadcast a).ring = s.ring := rfl

/-- after the conditional broadcast of both writes -/
def signalled (s : Sys) : Sys := if s.ring.empty then s.broadcast true else s

@[simp] theorem signalled_ring (s : Sys) : (signalled s).ring = s.ring := by unfold signalled; split <;> rfl

theorem write_eq {s : Sys} (h : WF s.ring) (idx : Nat) :
    write s idx = .ok (if s.ring.acl ≠ ACL_RDWR then (s, .ret s.ring.denyCode)
      else if !s.ring.free then (s, .ret (-EAGAIN))
      else ({ signalled s with ring := pushed s.ring idx }, .ret 0)) := by
  unfold write
  split
  · rfl
  · split
    · rfl
    · have : (signalled s).ring.push idx = .ok (pushed s.ring idx) := by rw [signalled_ring]; exact push_spec h idx
      simp only [signalled] at this
      simp only [this, Outcome.bind_ok, Outcome.pure_eq, signalled]

theorem writeBLoop_eq {s : Sys} (h : WF s.ring) (idx : Nat) (ret : Int) :
    writeBLoop s idx ret = .ok (
      if !s.ring.free && ret != -ETIMEDOUT && (s.ring.acl &&& ACL_FLOWDOWN == 0) then
        ({ s with waiting := s.waiting ++ [(.writer idx, false)] }, .sleep)
      else if ret ≠ -ETIMEDOUT then ({ signalled s with ring := pushed s.ring idx }, .ret ret)
      else (s, .ret ret)) := by
  unfold writeBLoop
  split
  · rfl
  · split
    · have : (signalled s).ring.push idx = .ok (pushed s.ring idx) := by rw [signalled_ring]; exact push_spec h idx
      simp only [signalled] at this
      simp only [this, Outcome.bind_ok, Outcome.pure_eq, signalled]
    · rfl

theorem read_eq {s : Sys} (h : WF s.ring) : (s.ring.empty = true → read s = .ok (s, .ret s.ring.checkAcl)) ∧
    (s.ring.empty = false → ∃ x, read s = .ok ({ s with ring := popped s.ring }.broadcast false, .ret x) ∧
      contents s.ring = x :: contents (popped s.ring) ∧ 0 ≤ x) := by
  refine ⟨fun e => by simp [read, e], fun e => ?_⟩
  have hu : s.ring.used ≠ 0 := by rw [Ne, ← h.empty_iff, e]; simp
  obtain ⟨x, h1, h2, h3⟩ := pop_spec h hu
  exact ⟨x, by simp [read, e, h1], h2, h3⟩

theorem checkAcl_cases (r : Ring) : r.checkAcl = -EAGAIN ∧ r.acl &&& ACL_FLOWDOWN = 0 ∧ r.acl &&& ACL_FLOWPEER = 0 ∨
    r.checkAcl = -EFLOWDOWN ∧ r.acl &&& ACL_FLOWDOWN ≠ 0 ∨
    r.checkAcl = -EFLOWPEER ∧ r.acl &&& ACL_FLOWPEER ≠ 0 ∧ r.acl &&& ACL_FLOWDOWN = 0 := by
  unfold Ring.checkAcl
  by_cases h1 : r.acl &&& ACL_FLOWDOWN = 0 <;> by_cases h2 : r.acl &&& ACL_FLOWPEER = 0 <;> simp [h1, h2]

/-- what the reading tail of `read_b` does -/
theorem readBLoop_eq {s : Sys} (h : WF s.ring) (idx : Int) :
    (s.ring.empty = true → idx ≠ -ETIMEDOUT → s.ring.checkAcl = -EAGAIN →
      readBLoop s idx = .ok ({ s with waiting := s.waiting ++ [(.reader, false)] }, .sleep)) ∧
    (s.ring.empty = true → idx ≠ -ETIMEDOUT → s.ring.checkAcl ≠ -EAGAIN →
      readBLoop s idx = .ok (s, .ret s.ring.checkAcl)) ∧
    (s.ring.empty = true → idx = -ETIMEDOUT → readBLoop s idx = .ok (s, .ret (-ETIMEDOUT))) ∧
    (s.ring.empty = false → ∃ x, readBLoop s idx = .ok ({ s with ring := popped s.ring }.broadcast false, .ret x) ∧
      contents s.ring = x :: contents (popped s.ring) ∧ 0 ≤ x) := by
  refine ⟨fun e h1 h2 => by simp [readBLoop, e, h1, h2], fun e h1 h2 => by simp [readBLoop, e, h1, h2], fun e h1 => ?_,
    fun e => ?_⟩
  · subst h1
    simp [readBLoop, e, ETIMEDOUT, EAGAIN]
  · have hu : s.ring.used ≠ 0 := by rw [Ne, ← h.empty_iff, e]; simp
    obtain ⟨x, h1, h2, h3⟩ := pop_spec h hu
    refine ⟨x, ?_, h2, h3⟩
    have : x ≠ -EAGAIN := by unfold EAGAIN; omega
    simp [readBLoop, e, h1, this]

theorem broadcast_mk (r : Ring) (w : List (Waiter × Bool)) (a : Bool) :
    (Sys.broadcast ⟨r, w⟩ a).ring = r := rfl

/-- No step is undefined behaviour, and every step keeps the ring well formed and its size. -/
theorem step_wf {s : Sys} (h : WF s.ring) (op : Op) :
    ∃ s' o, step s op = .ok (s', o) ∧ WF s'.ring ∧ s'.ring.size = s.ring.size := by
  have hwb : ∀ (s : Sys) (idx : Nat) (ret : Int), WF s.ring →
      ∃ s' o, writeBLoop s idx ret = .ok (s', o) ∧ WF s'.ring ∧ s'.ring.size = s.ring.size := by
    intro s idx ret h
    rw [writeBLoop_eq h]
    split
    · exact ⟨_, _, rfl, h, rfl⟩
    · split
      · exact ⟨_, _, rfl, pushed_wf h idx, rfl⟩
      · exact ⟨_, _, rfl, h, rfl⟩
  have hrb : ∀ (s : Sys) (idx : Int), WF s.ring →
      ∃ s' o, readBLoop s idx = .ok (s', o) ∧ WF s'.ring ∧ s'.ring.size = s.ring.size := by
    intro s idx h
    obtain ⟨a, b, c, d⟩ := readBLoop_eq h idx
    cases e : s.ring.empty with
    | false => obtain ⟨x, h1, _, _⟩ := d e; exact ⟨_, _, h1, popped_wf h, rfl⟩
    | true =>
      by_cases h1 : idx = -ETIMEDOUT
      · exact ⟨_, _, c e h1, h, rfl⟩
      · by_cases h2 : s.ring.checkAcl = -EAGAIN
        · exact ⟨_, _, a e h1 h2, h, rfl⟩
        · exact ⟨_, _, b e h1 h2, h, rfl⟩
  cases op with
  | write i =>
    simp only [step]; rw [write_eq h]
    split
    · exact ⟨_, _, rfl, h, rfl⟩
    · split
      · exact ⟨_, _, rfl, h, rfl⟩
      · exact ⟨_, _, rfl, pushed_wf h i, rfl⟩
  | read =>
    simp only [step]
    obtain ⟨a, b⟩ := read_eq h
    cases e : s.ring.empty with
    | false => obtain ⟨x, h1, _, _⟩ := b e; exact ⟨_, _, h1, popped_wf h, rfl⟩
    | true => exact ⟨_, _, a e, h, rfl⟩
  | writeB i =>
    simp only [step, writeB]
    split
    · exact ⟨_, _, rfl, h, rfl⟩
    · exact hwb s i 0 h
  | readB =>
    simp only [step, readB]
    split
    · exact ⟨_, _, rfl, h, rfl⟩
    · exact hrb s _ h
  | setAcl f => exact ⟨_, _, rfl, ⟨h.pow, h.len, h.hd, h.tl, h.nn⟩, rfl⟩
  | getAcl => exact ⟨_, _, rfl, h, rfl⟩
  | queued => exact ⟨_, _, rfl, h, rfl⟩
  | fini => simp only [step, finiLoop]; split <;> exact ⟨_, _, rfl, h, rfl⟩
  | wake i rc =>
    simp only [step, wake]
    split
    · exact ⟨_, _, rfl, h, rfl⟩
    · next w b hw =>
      cases w with
      | writer idx => exact hwb _ idx _ h
      | reader => exact hrb _ _ h
      | finisher => simp only [finiLoop]; split <;> exact ⟨_, _, rfl, h, rfl⟩

/-- Every interleaving runs, and keeps the ring well formed. -/
theorem run_wf (ops : List Op) : ∀ (s : Sys), WF s.ring →
    ∃ s' os, run s ops = .ok (s', os) ∧ WF s'.ring ∧ s'.ring.size = s.ring.size := by
  induction ops with
  | nil => intro s h; exact ⟨s, [], rfl, h, rfl⟩
  | cons op ops ih =>
    intro s h
    obtain ⟨s1, o, h1, h2, h3⟩ := step_wf h op
    obtain ⟨s2, os, h4, h5, h6⟩ := ih s1 h2
    exact ⟨s2, o :: os, by simp [run, h1, h4], h5, h6.trans h3⟩

theorem reach_wf {k : Nat} {ops : List Op} {s : Sys} {os : List Out} (h : run (init k) ops = .ok (s, os)) :
    WF s.ring ∧ s.ring.size = 2 ^ k := by
  obtain ⟨s', os', h1, h2, h3⟩ := run_wf ops (init k) (create_wf k)
  rw [h] at h1
  cases h1
  exact ⟨h2, h3⟩

end Ouro.Rbuff
