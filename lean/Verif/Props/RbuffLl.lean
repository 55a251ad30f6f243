import Verif.Proof.RbuffLl

/-!
# C81: the lockless ring
-/

namespace Ouro.RbuffLl

/-- With one writer and one reader, in every schedule, what is read is what was written, in order: nothing is lost, doubled, made up or swapped. -/
theorem C81_fifo_partial (n : Nat) (hn : 2 ≤ n) (l : List (Nat × Act)) (h : Two l) : gotten (run n l).log <+: written (run n l).log :=
  (inv_run n hn l h).pre

/-- At most a ring of values is on its way. -/
theorem C81_bounded (n : Nat) (hn : 2 ≤ n) (l : List (Nat × Act)) (h : Two l) : (written (run n l).log).length ≤ (gotten (run n l).log).length + n := by
  have hi := inv_run n hn l h
  have hc := hi.cap
  have : taken (run n l) ≤ (gotten (run n l).log).length + 1 := by unfold taken; split <;> omega
  omega

/-- A read on its own gives the oldest value that was not read, and finds the ring empty only if all were read. -/
theorem C81_read (n : Nat) (hn : 2 ≤ n) (l : List (Nat × Act)) (h : Two l) (hp : (run n l).pc 1 = .idle) :
    (run n (l ++ (1, .read) :: List.replicate 5 (1, .go))).log = (run n l).log ++
      [if h : (gotten (run n l).log).length < (written (run n l).log).length then .got ((written (run n l).log)[(gotten (run n l).log).length]) else .empty] := by
  have hi := inv_run n hn l h
  have e : run n (l ++ (1, .read) :: List.replicate 5 (1, .go)) = ((1, .read) :: List.replicate 5 (1, .go)).foldl (step n) (run n l) := by
    unfold run
    rw [List.foldl_append]
  rw [e]
  generalize run n l = s at *
  have htk : taken s = (gotten s.log).length := by unfold taken; rw [hp]; rfl
  have hc := hi.cap
  have hle := hi.le
  by_cases hlt : (gotten s.log).length < (written s.log).length
  · rw [dif_pos hlt]
    have hne : s.head ≠ s.tail := by
      rw [hi.head, hi.tail]
      exact (mod_ne n _ _ (by omega) (by omega)).symm
    have hv := hi.cells _ (Nat.le_refl _) hlt
    rw [show (gotten s.log).length % n = s.tail by rw [hi.tail, htk]] at hv
    rw [← hv]
    simp [List.replicate, step, go, St.at, St.ret, hp, hne]
  · rw [dif_neg hlt]
    have hne : s.head = s.tail := by
      rw [hi.head, hi.tail, show (written s.log).length = taken s by omega]
    simp [List.replicate, step, go, St.at, St.ret, hp, hne]

/-- A write on its own is accepted, unless all but one of the cells hold values that were not read. -/
theorem C81_write (n : Nat) (hn : 2 ≤ n) (l : List (Nat × Act)) (h : Two l) (hp : (run n l).pc 0 = .idle) (hq : (run n l).pc 1 = .idle) (v : Nat) :
    (run n (l ++ (0, .write v) :: List.replicate 8 (0, .go))).log = (run n l).log ++
      [if (written (run n l).log).length + 1 < (gotten (run n l).log).length + n then .wrote v else .full v] := by
  have hi := inv_run n hn l h
  have e : run n (l ++ (0, .write v) :: List.replicate 8 (0, .go)) = ((0, .write v) :: List.replicate 8 (0, .go)).foldl (step n) (run n l) := by
    unfold run
    rw [List.foldl_append]
  rw [e]
  generalize run n l = s at *
  have htk : taken s = (gotten s.log).length := by unfold taken; rw [hq]; rfl
  have hc := hi.cap
  have hle := hi.le
  have hu := used_eq n _ _ hi.le hi.cap
  rw [← hi.head, ← hi.tail] at hu
  by_cases hlt : (written s.log).length + 1 < (gotten s.log).length + n
  · rw [if_pos hlt]
    have hf : (s.head + n - s.tail) % n + 1 < n := by omega
    have hf' : 1 < n := by omega
    by_cases hw : s.head = s.tail <;> simp [List.replicate, step, go, St.at, St.ret, St.wake, hp, hf, hf', hw]
  · rw [if_neg hlt]
    have hf : ¬ (s.head + n - s.tail) % n + 1 < n := by omega
    simp [List.replicate, step, go, St.at, St.ret, hp, hf]

/-- A write is refused only when the ring is full, whatever the reader does meanwhile. -/
theorem C81_full (n : Nat) (hn : 2 ≤ n) (l : List (Nat × Act)) (h : Two l) (v : Nat) (hf : (step n (run n l) (0, .go)).log = (run n l).log ++ [.full v]) :
    (gotten (run n l).log).length + n ≤ (written (run n l).log).length + 1 := by
  have hi := inv_run n hn l h
  generalize run n l = s at *
  have hw := hi.w
  unfold WInv at hw
  simp only [step] at hf
  unfold go at hf
  have hcon : ∀ x : List Ev, x = s.log ++ [.full v] → x ≠ s.log := by
    rintro x rfl h
    have := congrArg List.length h
    simp at this
  cases hp : s.pc 0 <;> rw [hp] at hf hw <;> simp only at hf hw
  case wTail v' h' =>
    split at hf
    · exact absurd rfl (hcon _ hf)
    · rename_i hnf
      subst hw
      have hu := used_eq n _ _ hi.le hi.cap
      rw [← hi.head, ← hi.tail] at hu
      rw [hu] at hnf
      have hg : (gotten s.log).length ≤ taken s := by unfold taken; omega
      have := hi.le
      omega
  case wCas v' o we =>
    split at hf
    · simp at hf
    · exact absurd rfl (hcon _ hf)
  case wWake we =>
    cases we <;> exact absurd rfl (hcon _ hf)
  all_goals exact absurd rfl (hcon _ hf)

/-- A read finds the ring empty only if all that was accepted before it was called has been read, whatever the writer does meanwhile. -/
theorem C81_empty (n : Nat) (hn : 2 ≤ n) (l l' : List (Nat × Act)) (h : Two l) (h' : Two l') (hp : (run n l).pc 1 = .idle)
    (he : (step n (run n (l ++ l')) (1, .go)).log = (run n (l ++ l')).log ++ [.empty]) :
    written (run n l).log <+: gotten (run n (l ++ l')).log := by
  have hi := inv_run n hn l h
  have e : run n (l ++ l') = l'.foldl (step n) (run n l) := by unfold run; rw [List.foldl_append]
  have hpre : written (run n l).log <+: written (run n (l ++ l')).log := written_mono n l l'
  rw [e] at he hpre ⊢
  obtain ⟨hj, hs⟩ := saw_run n (written (run n l).log).length hn l' (run n l) h' hi (saw_of_ne _ _ _ (Nat.le_refl _) (by simp [hp]))
  generalize run n l = s at *
  generalize l'.foldl (step n) s = t at *
  have hcon : ∀ x : List Ev, x = t.log ++ [.empty] → x ≠ t.log := by
    rintro x rfl h
    have := congrArg List.length h
    simp at this
  have hlen : (written s.log).length ≤ (gotten t.log).length := by
    have hr := hj.r
    unfold RInv at hr
    have hs2 := hs.2
    simp only [step] at he
    unfold go at he
    cases hq : t.pc 1 <;> rw [hq] at he hr hs2 <;> simp only at he hr hs2
    case rTail b h0 =>
      split at he
      · rename_i heq
        obtain ⟨k, k1, k2, k3, k4⟩ := hs2
        have htk : taken t = (gotten t.log).length := by unfold taken; rw [hq]; rfl
        have hc := hj.cap
        by_cases hlt : taken t < k
        · exact absurd (by rw [← hj.tail, ← heq, k4]) (mod_ne n k (taken t) hlt (by omega))
        · omega
      · exact absurd rfl (hcon _ he)
    case rCas t0 =>
      split at he <;> exact absurd rfl (hcon _ he)
    case rLockT h0 =>
      split at he <;> exact absurd rfl (hcon _ he)
    case rGet t0 => simp [St.ret] at he
    all_goals exact absurd rfl (hcon _ he)
  exact List.prefix_of_prefix_length_le hpre hj.pre hlen

/-- A schedule: three writes interleaved with two reads, in a ring of four. -/
def sample : List (Nat × Act) :=
  (0, .write 7) :: List.replicate 4 (0, .go) ++ (1, .read) :: List.replicate 2 (1, .go) ++ List.replicate 4 (0, .go) ++ (0, .write 8) :: List.replicate 3 (0, .go) ++
  (1, .readB) :: List.replicate 3 (1, .go) ++ List.replicate 5 (0, .go) ++ List.replicate 2 (1, .go) ++ (0, .write 9) :: List.replicate 8 (0, .go) ++
  (1, .read) :: List.replicate 5 (1, .go)

example : Two sample ∧ (run 4 sample).log = [.empty, .wrote 7, .wrote 8, .got 7, .wrote 9, .got 8] ∧ (run 4 sample).pc 0 = .idle ∧ (run 4 sample).pc 1 = .idle := by
  refine ⟨?_, by decide +kernel⟩
  intro x hx
  simp [sample] at hx
  rcases hx with rfl | rfl | rfl | rfl | rfl | rfl | rfl | rfl | rfl | rfl | rfl | rfl | rfl | rfl | rfl <;> simp

/-- The ring is full, and says so. -/
example : ∃ l, (step 2 (run 2 l) (0, .go)).log = (run 2 l).log ++ [.full 9] :=
  ⟨(0, .write 7) :: List.replicate 8 (0, .go) ++ [(0, .write 9), (0, .go)], by decide +kernel⟩

/-- The ring is empty, and says so. -/
example : ∃ l l', (run 4 l).pc 1 = .idle ∧ written (run 4 l).log = [7] ∧ (step 4 (run 4 (l ++ l')) (1, .go)).log = (run 4 (l ++ l')).log ++ [.empty] :=
  ⟨(0, .write 7) :: List.replicate 8 (0, .go), (1, .read) :: List.replicate 5 (1, .go) ++ [(1, .read), (1, .go)], by decide +kernel⟩

/-- Two threads that write at the same time lose a value: both calls succeed, with 7 and 8, and the reader gets 8 and a 0 that nobody wrote. -/
theorem C81_two_writers_violated : ∃ l, (∀ x ∈ l, x.1 = 0 ∨ x.1 = 1 → x.2 ≠ .read ∧ x.2 ≠ .readB) ∧ (∀ x ∈ l, x.1 < 3) ∧
    written (run 1024 l).log = [7, 8] ∧ gotten (run 1024 l).log = [8, 0] := by
  refine ⟨(0, .write 7) :: (1, .write 8) :: List.replicate 5 (0, .go) ++ List.replicate 5 (1, .go) ++ List.replicate 1 (0, .go) ++ List.replicate 1 (1, .go) ++
    List.replicate 2 (0, .go) ++ List.replicate 3 (1, .go) ++ (2, .read) :: List.replicate 5 (2, .go) ++ (2, .read) :: List.replicate 5 (2, .go), ?_⟩
  decide +kernel

/-- Two threads that read at the same time get more than was written: 7 was written once, one gets 7 and the other a 0 that nobody wrote; and the ring then
counts as full: the next write is refused although nothing is in it. -/
theorem C81_two_readers_violated : ∃ l, (∀ x ∈ l, x.1 < 3) ∧ (∀ x ∈ l, x.1 = 1 ∨ x.1 = 2 → ∀ v, x.2 ≠ .write v) ∧
    (run 1024 l).log = [.wrote 7, .got 7, .got 0, .full 8] := by
  refine ⟨(0, .write 7) :: List.replicate 8 (0, .go) ++ (1, .read) :: (2, .read) :: List.replicate 3 (1, .go) ++ List.replicate 3 (2, .go) ++
    List.replicate 2 (1, .go) ++ List.replicate 3 (2, .go) ++ (0, .write 8) :: List.replicate 2 (0, .go), ?_, ?_, ?_⟩
  · decide +kernel
  · intro x hx
    simp at hx
    rcases hx with rfl | rfl | rfl | rfl | rfl | rfl | rfl | rfl | rfl | rfl | rfl <;> simp
  · decide +kernel

/-- A blocking read can sleep for ever beside a value: it finds the ring empty, the write then stores the value and wakes nobody, the reader goes to sleep, and
no later write wakes it, as the ring is not empty any more. -/
theorem C81_wakeup_violated : ∃ l, Two l ∧ (run 1024 l).log = [.wrote 7] ∧ ∀ l', Two l' →
    (run 1024 (l ++ l')).pc 1 = .waiting ∧ (gotten (run 1024 (l ++ l')).log).length < (written (run 1024 (l ++ l')).log).length := by
  have h2 : Two ((1, .readB) :: List.replicate 3 (1, .go) ++ (0, .write 7) :: List.replicate 8 (0, .go) ++ [(1, .go)]) := by
    intro x hx
    simp at hx
    rcases hx with rfl | rfl | rfl | rfl | rfl <;> simp
  refine ⟨_, h2, by decide +kernel, ?_⟩
  intro l' hl'
  have hi := inv_run 1024 (by decide) _ h2
  have hst : Stuck 1024 (run 1024 ((1, .readB) :: List.replicate 3 (1, .go) ++ (0, .write 7) :: List.replicate 8 (0, .go) ++ [(1, .go)])) := by
    refine ⟨by decide +kernel, by decide +kernel, ?_⟩
    rw [show (run 1024 ((1, .readB) :: List.replicate 3 (1, .go) ++ (0, .write 7) :: List.replicate 8 (0, .go) ++ [(1, .go)])).pc 0 = .idle by decide +kernel]
    trivial
  have e : ∀ l, run 1024 (l ++ l') = l'.foldl (step 1024) (run 1024 l) := by intro l; unfold run; rw [List.foldl_append]
  rw [e]
  have := stuck_run 1024 (by decide) l' _ hl' hi hst
  exact ⟨this.1, this.2.1⟩

/-- A write that finds the reader asleep beside an empty ring wakes it. -/
example : (run 1024 ((1, .readB) :: List.replicate 4 (1, .go) ++ (0, .write 7) :: List.replicate 8 (0, .go) ++ List.replicate 7 (1, .go))).log = [.wrote 7, .got 7] := by
  decide +kernel

end Ouro.RbuffLl
