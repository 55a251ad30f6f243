import Verif.Spec.Startup
import Verif.Proof.Tac

namespace Ouro.Startup

/-- `s` with `acc` in use too. -/
def plus (s : St) (b : Bool) (acc : List Res) : St := ⟨fun r => s.held r || decide (r ∈ acc), s.bad || b⟩

/-- All the ways `c` can end, when of the resources it names `acc` are in use. -/
def outs : Cmd → Bool → List Res → List (Bool × Bool × List Res)
  | .ok, b, acc => [(true, b, acc)]
  | .fail, b, acc => [(false, b, acc)]
  | .acq r no yes, b, acc => outs yes (b || decide (r ∈ acc)) (r :: acc) ++ outs no b acc
  | .reg r no yes, b, acc => (if r ∈ acc then [] else outs yes b (r :: acc)) ++ outs no b acc
  | .put r no yes, b, acc => outs yes b (r :: acc) ++ outs no b acc
  | .may no yes, b, acc => outs yes b acc ++ outs no b acc
  | .rel r next, b, acc => outs next (b || !decide (r ∈ acc)) (acc.filter (· ≠ r))
  | .unr r next, b, acc => outs next b (acc.filter (· ≠ r))
  | .has r yes no, b, acc => if r ∈ acc then outs yes b acc else outs no b acc

theorem set_true (s : St) (b : Bool) (acc : List Res) (r : Res) : (plus s b acc).set r true = plus s b (r :: acc) := by
  simp only [plus, St.set, St.mk.injEq, and_true]
  funext q
  by_cases h : q = r <;> simp [h]

theorem set_false (s : St) (b : Bool) (acc : List Res) (r : Res) (h : s.held r = false) :
    (plus s b acc).set r false = plus s b (acc.filter (· ≠ r)) := by
  simp only [plus, St.set, St.mk.injEq, and_true]
  funext q
  by_cases h' : q = r <;> simp [h', h]

theorem plus_bad (s : St) (b b' : Bool) (acc : List Res) : { plus s b acc with bad := (plus s b acc).bad || b' } = plus s (b || b') acc := by
  simp [plus, Bool.or_assoc]

theorem plus_held (s : St) (b : Bool) (acc : List Res) (r : Res) (h : s.held r = false) : (plus s b acc).held r = decide (r ∈ acc) := by
  simp [plus, h]

theorem bad_set (s : St) (r : Res) (x b : Bool) : ({ s.set r x with bad := b } : St) = { s with bad := b }.set r x := rfl

/-- Every run ends in one of `outs`. -/
theorem run_outs (s : St) (c : Cmd) : ∀ (orc : List Bool) (b : Bool) (acc : List Res), Fresh s c →
    ∃ o ∈ outs c b acc, run c orc (plus s b acc) = (o.1, plus s o.2.1 o.2.2) := by
  induction c with
  | ok => intro orc b acc _; exact ⟨_, List.mem_singleton.2 rfl, rfl⟩
  | fail => intro orc b acc _; exact ⟨_, List.mem_singleton.2 rfl, rfl⟩
  | acq r no yes ihn ihy =>
    intro orc b acc h
    have hr : s.held r = false := h r (by simp [objs])
    have hn : Fresh s no := fun q hq => h q (by simp [objs, hq])
    have hy : Fresh s yes := fun q hq => h q (by simp [objs, hq])
    simp only [run, outs]
    split
    · rw [bad_set, plus_held _ _ _ _ hr, plus_bad, set_true]
      obtain ⟨o, ho, e⟩ := ihy orc.tail (b || decide (r ∈ acc)) (r :: acc) hy
      exact ⟨o, List.mem_append_left _ ho, e⟩
    · obtain ⟨o, ho, e⟩ := ihn orc.tail b acc hn
      exact ⟨o, List.mem_append_right _ ho, e⟩
  | reg r no yes ihn ihy =>
    intro orc b acc h
    have hr : s.held r = false := h r (by simp [objs])
    have hn : Fresh s no := fun q hq => h q (by simp [objs, hq])
    have hy : Fresh s yes := fun q hq => h q (by simp [objs, hq])
    simp only [run, outs]
    rw [plus_held _ _ _ _ hr]
    by_cases hc : (orc.headD true && !decide (r ∈ acc)) = true
    · have hm : r ∉ acc := by
        simp only [Bool.and_eq_true, Bool.not_eq_true', decide_eq_false_iff_not] at hc
        exact hc.2
      rw [if_pos hc, set_true, if_neg hm]
      obtain ⟨o, ho, e⟩ := ihy orc.tail b (r :: acc) hy
      exact ⟨o, List.mem_append_left _ ho, e⟩
    · rw [if_neg hc]
      obtain ⟨o, ho, e⟩ := ihn orc.tail b acc hn
      exact ⟨o, List.mem_append_right _ ho, e⟩
  | put r no yes ihn ihy =>
    intro orc b acc h
    have hn : Fresh s no := fun q hq => h q (by simp [objs, hq])
    have hy : Fresh s yes := fun q hq => h q (by simp [objs, hq])
    simp only [run, outs]
    split
    · rw [set_true]
      obtain ⟨o, ho, e⟩ := ihy orc.tail b (r :: acc) hy
      exact ⟨o, List.mem_append_left _ ho, e⟩
    · obtain ⟨o, ho, e⟩ := ihn orc.tail b acc hn
      exact ⟨o, List.mem_append_right _ ho, e⟩
  | may no yes ihn ihy =>
    intro orc b acc h
    have hn : Fresh s no := fun q hq => h q (by simp [objs, hq])
    have hy : Fresh s yes := fun q hq => h q (by simp [objs, hq])
    simp only [run, outs]
    split
    · obtain ⟨o, ho, e⟩ := ihy orc.tail b acc hy
      exact ⟨o, List.mem_append_left _ ho, e⟩
    · obtain ⟨o, ho, e⟩ := ihn orc.tail b acc hn
      exact ⟨o, List.mem_append_right _ ho, e⟩
  | rel r next ih =>
    intro orc b acc h
    have hr : s.held r = false := h r (by simp [objs])
    simp only [run, outs]
    rw [bad_set, plus_held _ _ _ _ hr, plus_bad, set_false _ _ _ _ hr]
    exact ih orc _ _ (fun q hq => h q (by simp [objs, hq]))
  | unr r next ih =>
    intro orc b acc h
    have hr : s.held r = false := h r (by simp [objs])
    simp only [run, outs]
    rw [set_false _ _ _ _ hr]
    exact ih orc _ _ (fun q hq => h q (by simp [objs, hq]))
  | has r yes no ihy ihn =>
    intro orc b acc h
    have hr : s.held r = false := h r (by simp [objs])
    simp only [run, outs]
    rw [plus_held _ _ _ _ hr]
    by_cases hm : r ∈ acc
    · simp only [hm, decide_true, if_true]
      exact ihy orc _ _ (fun q hq => h q (by simp [objs, hq]))
    · simp only [hm, decide_false, if_false, Bool.false_eq_true]
      exact ihn orc _ _ (fun q hq => h q (by simp [objs, hq]))

theorem plus_nil (s : St) : plus s false [] = s := by simp [plus]

theorem run_outs' (s : St) (c : Cmd) (orc : List Bool) (h : Fresh s c) :
    ∃ o ∈ outs c false [], run c orc s = (o.1, plus s o.2.1 o.2.2) := by
  have := run_outs s c orc false [] h
  rwa [plus_nil] at this

/-- The check behind `Clean`. -/
def cleanB (init : Cmd → Cmd → Cmd) (fini : Cmd → Cmd) : Bool :=
  (outs (init .fail .ok) false []).all fun o =>
    !o.2.1 && if o.1 then (outs (fini .ok) false o.2.2).all (fun p => p.1 && !p.2.1 && p.2.2.isEmpty) else o.2.2.isEmpty

theorem clean_of (init : Cmd → Cmd → Cmd) (fini : Cmd → Cmd) (h : cleanB init fini = true) : Clean init fini := by
  intro s orc orc' hi hf
  obtain ⟨⟨a, bad, acc⟩, ho, e⟩ := run_outs' s _ orc hi
  have hc := List.all_eq_true.1 h _ ho
  simp only [Bool.and_eq_true, Bool.not_eq_true'] at hc
  obtain ⟨hb, hc⟩ := hc
  subst hb
  rw [e]
  refine ⟨fun ha => ?_, fun ha => ?_⟩
  · simp only at ha
    subst ha
    simp only [Bool.false_eq_true, if_false, List.isEmpty_iff] at hc
    subst hc
    exact plus_nil s
  · simp only at ha
    subst ha
    simp only [if_true] at hc
    refine ⟨by simp [plus], ?_⟩
    obtain ⟨⟨a', bad', acc'⟩, ho', e'⟩ := run_outs s (fini .ok) orc' false acc hf
    have hc' := List.all_eq_true.1 hc _ ho'
    simp only [Bool.and_eq_true, Bool.not_eq_true', List.isEmpty_iff] at hc'
    obtain ⟨⟨h1, h2⟩, h3⟩ := hc'
    subst h1 h2 h3
    simp only
    rw [e', plus_nil]

/-- The check behind `FailLeaves`. -/
def leavesB (init : Cmd → Cmd → Cmd) (strict : Bool) (l : List Res) : Bool :=
  (outs (init .fail .ok) false []).all fun o => o.1 || ((!strict || !o.2.1) && o.2.2.all (fun r => decide (r ∈ l)))

theorem plus_notin (s : St) (b : Bool) (acc l : List Res) (h : acc.all (fun r => decide (r ∈ l)) = true) (r : Res) (hr : r ∉ l) :
    (plus s b acc).held r = s.held r := by
  have : r ∉ acc := fun hm => hr (by simpa using List.all_eq_true.1 h r hm)
  simp [plus, this]

theorem failLeaves_of (init : Cmd → Cmd → Cmd) (l : List Res) (h : leavesB init true l = true) : FailLeaves init l := by
  intro s orc hi hf
  obtain ⟨⟨a, bad, acc⟩, ho, e⟩ := run_outs' s _ orc hi
  have hc := List.all_eq_true.1 h _ ho
  rw [e] at hf ⊢
  simp only at hf
  subst hf
  simp only [Bool.false_or, Bool.not_true, Bool.and_eq_true, Bool.not_eq_true'] at hc
  obtain ⟨rfl, hc⟩ := hc
  exact ⟨by simp [plus], plus_notin s _ acc l hc⟩

theorem failLeavesOnly_of (init : Cmd → Cmd → Cmd) (l : List Res) (h : leavesB init false l = true) : FailLeavesOnly init l := by
  intro s orc hi hf
  obtain ⟨⟨a, bad, acc⟩, ho, e⟩ := run_outs' s _ orc hi
  have hc := List.all_eq_true.1 h _ ho
  rw [e] at hf ⊢
  simp only at hf
  subst hf
  simp only [Bool.false_or, Bool.not_false, Bool.true_or, Bool.true_and] at hc
  exact plus_notin s _ acc l hc

/-- When `r` is left nothing was ended twice. -/
theorem once_of (c : Cmd) (r : Res) (h : ((outs c false []).all fun o => !o.2.1 || !decide (r ∈ o.2.2)) = true) (s : St) (orc : List Bool)
    (hi : Fresh s c) (hr : s.held r = false) (hh : (run c orc s).2.held r = true) : (run c orc s).2.bad = s.bad := by
  obtain ⟨⟨a, bad, acc⟩, ho, e⟩ := run_outs' s _ orc hi
  have hc := List.all_eq_true.1 h _ ho
  rw [e] at hh ⊢
  have hm : r ∈ acc := by simpa [plus, hr] using hh
  have : bad = false := by simpa [hm] using hc
  simp [plus, this]

/-- The check behind `FiniLeaves`. -/
def finiB (init : Cmd → Cmd → Cmd) (fini : Cmd → Cmd) (l : List Res) : Bool :=
  (outs (init .fail .ok) false []).all fun o => !o.1 || (!o.2.1 && (outs (fini .ok) false o.2.2).all
    (fun p => !p.2.1 && p.2.2.all (fun r => decide (r ∈ l)) && l.all (fun r => decide (r ∈ p.2.2))))

theorem finiLeaves_of (init : Cmd → Cmd → Cmd) (fini : Cmd → Cmd) (l : List Res) (h : finiB init fini l = true) : FiniLeaves init fini l := by
  intro s orc orc' hi hf hs
  obtain ⟨⟨a, bad, acc⟩, ho, e⟩ := run_outs' s _ orc hi
  have hc := List.all_eq_true.1 h _ ho
  rw [e] at hs ⊢
  simp only at hs
  subst hs
  simp only [Bool.not_true, Bool.false_or, Bool.and_eq_true, Bool.not_eq_true'] at hc
  obtain ⟨rfl, hc⟩ := hc
  obtain ⟨⟨a', bad', acc'⟩, ho', e'⟩ := run_outs s (fini .ok) orc' false acc hf
  have hc' := List.all_eq_true.1 hc _ ho'
  simp only [Bool.and_eq_true, Bool.not_eq_true'] at hc'
  obtain ⟨⟨rfl, h2⟩, h3⟩ := hc'
  simp only
  rw [e']
  refine ⟨by simp [plus], fun r => ?_⟩
  have : decide (r ∈ acc') = decide (r ∈ l) := by
    apply decide_eq_decide.2
    exact ⟨fun hm => by simpa using List.all_eq_true.1 h2 r hm, fun hm => by simpa using List.all_eq_true.1 h3 r hm⟩
  simp [plus, this]

/-- `c` cannot succeed. -/
def never : Cmd → Bool
  | .ok => false
  | .fail => true
  | .acq _ no yes => never no && never yes
  | .reg _ no yes => never no && never yes
  | .put _ no yes => never no && never yes
  | .may no yes => never no && never yes
  | .rel _ next => never next
  | .unr _ next => never next
  | .has _ yes no => never yes && never no

/-- `c` cannot succeed while `r` is in use. -/
def needs (r : Res) : Cmd → Bool
  | .ok => false
  | .fail => true
  | .acq _ no yes => needs r no && needs r yes
  | .reg q no yes => needs r no && (decide (q = r) || needs r yes)
  | .put _ no yes => needs r no && needs r yes
  | .may no yes => needs r no && needs r yes
  | .rel q next => if q = r then never next else needs r next
  | .unr q next => if q = r then never next else needs r next
  | .has _ yes no => needs r yes && needs r no

/-- `c` does not end `r`. -/
def keeps (r : Res) : Cmd → Bool
  | .ok => true
  | .fail => true
  | .acq _ no yes => keeps r no && keeps r yes
  | .reg _ no yes => keeps r no && keeps r yes
  | .put _ no yes => keeps r no && keeps r yes
  | .may no yes => keeps r no && keeps r yes
  | .rel q next => decide (q ≠ r) && keeps r next
  | .unr q next => decide (q ≠ r) && keeps r next
  | .has _ yes no => keeps r yes && keeps r no

theorem run_never (c : Cmd) : ∀ (orc : List Bool) (s : St), never c = true → (run c orc s).1 = false := by
  induction c <;> intro orc s h <;> simp only [never, Bool.and_eq_true, Bool.false_eq_true] at h <;> simp only [run] <;> (try split) <;>
    simp_all

theorem run_needs (r : Res) (c : Cmd) : ∀ (orc : List Bool) (s : St), s.held r = true → needs r c = true → (run c orc s).1 = false := by
  induction c with
  | ok => intro orc s _ h; simp [needs] at h
  | fail => intros; rfl
  | acq q no yes ihn ihy =>
    intro orc s hs h
    simp only [needs, Bool.and_eq_true] at h
    simp only [run]
    split
    · exact ihy _ _ (by simp [St.set, hs]) h.2
    · exact ihn _ _ hs h.1
  | reg q no yes ihn ihy =>
    intro orc s hs h
    simp only [needs, Bool.and_eq_true, Bool.or_eq_true, decide_eq_true_eq] at h
    simp only [run]
    split
    · rename_i hc
      rcases h.2 with rfl | h2
      · simp [hs] at hc
      · exact ihy _ _ (by simp [St.set, hs]) h2
    · exact ihn _ _ hs h.1
  | put q no yes ihn ihy =>
    intro orc s hs h
    simp only [needs, Bool.and_eq_true] at h
    simp only [run]
    split
    · exact ihy _ _ (by simp [St.set, hs]) h.2
    · exact ihn _ _ hs h.1
  | may no yes ihn ihy =>
    intro orc s hs h
    simp only [needs, Bool.and_eq_true] at h
    simp only [run]
    split
    · exact ihy _ _ hs h.2
    · exact ihn _ _ hs h.1
  | rel q next ih =>
    intro orc s hs h
    simp only [needs] at h
    simp only [run]
    split at h
    · exact run_never _ _ _ h
    · rename_i hq
      exact ih _ _ (by simp [St.set, hs, Ne.symm hq]) h
  | unr q next ih =>
    intro orc s hs h
    simp only [needs] at h
    simp only [run]
    split at h
    · exact run_never _ _ _ h
    · rename_i hq
      exact ih _ _ (by simp [St.set, hs, Ne.symm hq]) h
  | has q yes no ihy ihn =>
    intro orc s hs h
    simp only [needs, Bool.and_eq_true] at h
    simp only [run]
    split
    · exact ihy _ _ hs h.1
    · exact ihn _ _ hs h.2

theorem run_keeps (r : Res) (c : Cmd) : ∀ (orc : List Bool) (s : St), s.held r = true → keeps r c = true → (run c orc s).2.held r = true := by
  induction c with
  | ok => intro orc s hs _; exact hs
  | fail => intro orc s hs _; exact hs
  | acq q no yes ihn ihy =>
    intro orc s hs h
    simp only [keeps, Bool.and_eq_true] at h
    simp only [run]
    split
    · exact ihy _ _ (by simp [St.set, hs]) h.2
    · exact ihn _ _ hs h.1
  | reg q no yes ihn ihy =>
    intro orc s hs h
    simp only [keeps, Bool.and_eq_true] at h
    simp only [run]
    split
    · exact ihy _ _ (by simp [St.set, hs]) h.2
    · exact ihn _ _ hs h.1
  | put q no yes ihn ihy =>
    intro orc s hs h
    simp only [keeps, Bool.and_eq_true] at h
    simp only [run]
    split
    · exact ihy _ _ (by simp [St.set, hs]) h.2
    · exact ihn _ _ hs h.1
  | may no yes ihn ihy =>
    intro orc s hs h
    simp only [keeps, Bool.and_eq_true] at h
    simp only [run]
    split
    · exact ihy _ _ hs h.2
    · exact ihn _ _ hs h.1
  | rel q next ih =>
    intro orc s hs h
    simp only [keeps, Bool.and_eq_true, decide_eq_true_eq] at h
    simp only [run]
    exact ih _ _ (by simp [St.set, hs, Ne.symm h.1]) h.2
  | unr q next ih =>
    intro orc s hs h
    simp only [keeps, Bool.and_eq_true, decide_eq_true_eq] at h
    simp only [run]
    exact ih _ _ (by simp [St.set, hs, Ne.symm h.1]) h.2
  | has q yes no ihy ihn =>
    intro orc s hs h
    simp only [keeps, Bool.and_eq_true] at h
    simp only [run]
    split
    · exact ihy _ _ hs h.1
    · exact ihn _ _ hs h.2

theorem attempts_fail (l : List Try) : ∀ (s : St), s.held ⟨.notif, nDht⟩ = true → ∀ b ∈ attempts l s, b = false := by
  have hb : needs ⟨.notif, nDht⟩ (bootstrap .fail .ok) = true := by decide +kernel
  have he : needs ⟨.notif, nDht⟩ (enroll .fail .ok) = true := by decide +kernel
  have kb : keeps ⟨.notif, nDht⟩ (bootstrap .fail .ok) = true := by decide +kernel
  have ke : keeps ⟨.notif, nDht⟩ (enroll .fail .ok) = true := by decide +kernel
  induction l with
  | nil => intro s _ b h; simp [attempts] at h
  | cons a l ih =>
    intro s hs b h
    have hn : needs ⟨.notif, nDht⟩ a.cmd = true := by unfold Try.cmd; split <;> assumption
    have hk : keeps ⟨.notif, nDht⟩ a.cmd = true := by unfold Try.cmd; split <;> assumption
    simp only [attempts, List.mem_cons] at h
    rcases h with rfl | h
    · exact run_needs _ _ _ _ hs hn
    · exact ih _ (run_keeps _ _ _ _ hs hk) b h

/-- `s` with the first `n` of the array in use. -/
def upto (s : St) (mk : Nat → Res) (i n : Nat) : St := ⟨fun r => s.held r || (List.range' i n).any (fun j => decide (r = mk j)), s.bad⟩

theorem run_relFrom (mk : Nat → Res) (inj : ∀ i j, mk i = mk j → i = j) (next : Cmd) (orc : List Bool) (s : St) (hs : ∀ i, s.held (mk i) = false) :
    ∀ n i, run (relFrom mk next i n) orc (upto s mk i n) = run next orc s := by
  intro n
  induction n with
  | zero => intro i; simp [relFrom, upto]
  | succ n ih =>
    intro i
    simp only [relFrom, run]
    rw [← ih (i + 1)]
    congr 1
    simp only [upto, St.set, List.range'_succ, List.any_cons, St.mk.injEq]
    refine ⟨funext fun q => ?_, by simp⟩
    by_cases hq : q = mk i
    · subst hq
      simp only [if_true, hs, Bool.false_or]
      symm
      rw [List.any_eq_false]
      intro j hj
      have := (List.mem_range'_1.1 hj).1
      simp only [decide_eq_true_eq]
      intro e
      have := inj _ _ e
      omega
    · simp [hq]

theorem run_acqFrom (mk : Nat → Res) (inj : ∀ i j, mk i = mk j → i = j) (s : St) (hs : ∀ i, s.held (mk i) = false) :
    ∀ n i orc, (run (acqFrom mk .fail .ok i n) orc (upto s mk 0 i) = (false, s)) ∨
      (run (acqFrom mk .fail .ok i n) orc (upto s mk 0 i) = (true, upto s mk 0 (i + n))) := by
  intro n
  induction n with
  | zero => intro i orc; right; rfl
  | succ n ih =>
    intro i orc
    simp only [acqFrom, run]
    split
    · have : ({ (upto s mk 0 i).set (mk i) true with bad := (upto s mk 0 i).bad || (upto s mk 0 i).held (mk i) } : St) = upto s mk 0 (i + 1) := by
        simp only [upto, St.set, St.mk.injEq]
        constructor
        · funext q
          rw [List.range'_1_concat, List.any_append]
          by_cases hq : q = mk i <;> simp [hq]
        · simp only [hs, Bool.false_or, Bool.or_eq_left_iff_imp, List.any_eq_true, decide_eq_true_eq]
          rintro ⟨j, hj, e⟩
          have := (List.mem_range'_1.1 hj).2
          have := inj _ _ e
          omega
      rw [this]
      have := ih (i + 1) orc.tail
      rwa [Nat.add_right_comm, Nat.add_assoc] at this
    · left
      rw [run_relFrom mk inj .fail _ s hs]
      rfl

theorem upto_zero (s : St) (mk : Nat → Res) (i : Nat) : upto s mk i 0 = s := by simp [upto]

end Ouro.Startup
