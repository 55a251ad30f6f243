import Verif.Proof.Pff

/-!
# C27 — forwarding functions return a configured next hop
-/

namespace Ouro.Pff

open Ouro.Pft Spec.FiniteMap Spec.NextHop

/-! ## Simple -/

/-- C27 (simple policy). Every history is answered exactly as specified: the configured next hop, -1 exactly without one. -/
theorem C27_simple (n : BitVec 64) (h0 : n ≠ 0) (h1 : n.toNat ≤ 2 ^ 63) (p : Pft)
    (hcr : create n none = some p) (ops : List Op) (hv : ∀ op ∈ ops, Valid op) :
    ∃ p', run Simple.step p ops = .ok (p', simpleRun empty (ops.map Op.req)) := by
  obtain ⟨_, ec, hp, he⟩ := create_wf n none h0 h1
  cases ec.symm.trans hcr
  have key : ∀ (ops : List Op) (p : Pft) (c : Conf), RefS p c → (∀ op ∈ ops, Valid op) →
      ∃ p', run Simple.step p ops = .ok (p', simpleRun c (ops.map Op.req)) := by
    intro ops
    induction ops with
    | nil => intro p c _ _; exact ⟨p, rfl⟩
    | cons op ops ih =>
      intro p c h hv
      obtain ⟨p1, e1, h1⟩ := simple_step h op (hv op (by simp))
      obtain ⟨p2, e2⟩ := ih p1 _ h1 (fun o ho => hv o (by simp [ho]))
      exact ⟨p2, by simp [run, e1, e2, simpleRun]⟩
  refine key ops p empty ⟨hp, ?_, ?_⟩ hv
  · intro a l h; cases h
  · intro a; rw [he]; rfl

/-! ## Multipath -/

/-- C27 (multipath policy, partial: `pff_update` only with a single next hop). Every history is answered as specified: the `n`-th
lookup since the destination was configured gets next hop number `n mod length`, -1 exactly if it is not configured. -/
theorem C27_multipath_partial (n : BitVec 64) (h0 : n ≠ 0) (h1 : n.toNat ≤ 2 ^ 63) (p : Pft)
    (hcr : create n none = some p) (ops : List Op) (hv : ∀ op ∈ ops, ValidM op) :
    ∃ p', run Multipath.step p ops = .ok (p', multiRun empty (ops.map Op.req)) := by
  obtain ⟨_, ec, hp, he⟩ := create_wf n none h0 h1
  cases ec.symm.trans hcr
  have key : ∀ (ops : List Op) (p : Pft) (c : MConf), RefM p c → (∀ op ∈ ops, ValidM op) →
      ∃ p', run Multipath.step p ops = .ok (p', multiRun c (ops.map Op.req)) := by
    intro ops
    induction ops with
    | nil => intro p c _ _; exact ⟨p, rfl⟩
    | cons op ops ih =>
      intro p c h hv
      obtain ⟨p1, e1, h1⟩ := multi_step h op (hv op (by simp))
      obtain ⟨p2, e2⟩ := ih p1 _ h1 (fun o ho => hv o (by simp [ho]))
      exact ⟨p2, by simp [run, e1, e2, multiRun]⟩
  refine key ops p empty ⟨hp, ?_, ?_⟩ hv
  · intro a l n h; cases h
  · intro a; rw [he]; rfl

/-- C27 fails for the multipath policy when a destination is updated with more than one next hop: the copy overruns its buffer. -/
theorem C27_multipath_update_violated (p : Pft) (a : BitVec 64) (fd1 fd2 : Int) (fds : List Int) (ops : List Op) :
    run Multipath.step p (.update a (fd1 :: fd2 :: fds) :: ops) = .ub := rfl

/-- Fairness, from the specification: over any `length` consecutive lookups of a destination, every next hop is used exactly once
(as a multiset: the results are a rotation of the configured list). -/
theorem C27_multipath_fair (l : List Int) (n : Nat) :
    (List.range l.length).map (fun i => l.getD ((n + i) % l.length) (-1)) = l.rotate n := by
  apply List.ext_getElem
  · simp
  · intro i h1 h2
    simp only [List.length_map, List.length_range] at h1
    rw [List.getElem_map, List.getElem_range, List.getElem_rotate, List.getD_eq_getElem _ _ (Nat.mod_lt _ (by omega))]
    congr 1
    rw [Nat.add_comm]

/-! ## Alternate -/

/-- C27 (alternate policy). After every history, a lookup returns -1 if the destination is not configured and otherwise one of its
configured next hops; no history is undefined behaviour. -/
theorem C27_alternate_configured (n : BitVec 64) (h0 : n ≠ 0) (h1 : n.toNat ≤ 2 ^ 63) (p : Pft)
    (hcr : create n none = some p) (ops : List Op) (hv : ∀ op ∈ ops, Valid op)
    (a : BitVec 64) :
    ∃ s rs r, run Alternate.step (altInit p) ops = .ok (s, rs) ∧ Alternate.nhop s a = .ok r ∧
      (confAfter (ops.map Op.req) a = none → r = -1) ∧ (∀ l, confAfter (ops.map Op.req) a = some l → r ∈ l) := by
  obtain ⟨_, ec, hp, he⟩ := create_wf n none h0 h1
  cases ec.symm.trans hcr
  obtain ⟨s, rs, e, h⟩ := alt_reachable p hp he ops hv
  obtain ⟨s', r, e1, _, h1⟩ := alt_step h (.nhop a) trivial
  simp only [Alternate.step] at e1
  cases hn : Alternate.nhop s a with
  | ub => rw [hn] at e1; cases e1
  | ok x =>
    rw [hn] at e1
    cases e1
    exact ⟨s, rs, r, e, hn, h1 a rfl⟩

/-- C27 (alternate policy, partial: per report). After any history, a report that `fd` went down moves every destination using `fd`
to a next hop that is up, unless all its next hops are down, and leaves the other destinations alone; a (matching) report that `fd`
came up moves every destination whose primary is `fd` back to it and leaves the others alone. -/
theorem C27_alternate_switch_partial (n : BitVec 64) (h0 : n ≠ 0) (h1 : n.toNat ≤ 2 ^ 63) (p : Pft)
    (hcr : create n none = some p) (ops : List Op) (hv : ∀ op ∈ ops, Valid op)
    (fd : Int) (up : Bool) (hup : up = true → 0 < downAfter (ops.map Op.req) fd)
    (a : BitVec 64) (l : List Int) (hc : confAfter (ops.map Op.req) a = some l) :
    ∃ s s' rs x x', run Alternate.step (altInit p) ops = .ok (s, rs) ∧
      run Alternate.step (altInit p) (ops ++ [.flow fd up]) = .ok (s', rs ++ [0]) ∧
      Alternate.nhop s a = .ok x ∧ Alternate.nhop s' a = .ok x' ∧
      (up = true → (l.head? = some fd → x' = fd) ∧ (l.head? ≠ some fd → x' = x)) ∧
      (up = false → (x ≠ fd → x' = x) ∧
        (x = fd → downAfter ((ops ++ [Op.flow fd false]).map Op.req) x' = 0 ∨
          ∀ y ∈ l, 0 < downAfter ((ops ++ [Op.flow fd false]).map Op.req) y)) := by
  obtain ⟨_, ec, hp, he⟩ := create_wf n none h0 h1
  cases ec.symm.trans hcr
  obtain ⟨s, rs, e, h⟩ := alt_reachable p hp he ops hv
  obtain ⟨s', e', h', hq⟩ := flow_spec h fd up hup
  obtain ⟨x, x', e1, e2, _, _, h3, h4⟩ := hq a l hc
  refine ⟨s, s', rs, x, x', e, ?_, e1, e2, h3, ?_⟩
  · rw [run_append, e]
    simp [run, Alternate.step, e']
  · intro hu
    obtain ⟨b1, b2⟩ := h4 hu
    refine ⟨b1, fun hx => ?_⟩
    rcases b2 hx with b | b
    · left; simpa [downAfter, Op.req] using b
    · right; intro y hy; simpa [downAfter, Op.req] using b.1 y hy

/-- C27 (alternate policy). A destination uses its primary from the moment it is configured until a report that the primary went
down (as long as it is not configured anew). -/
theorem C27_alternate_primary (n : BitVec 64) (h0 : n ≠ 0) (h1 : n.toNat ≤ 2 ^ 63) (p : Pft)
    (hcr : create n none = some p) (ops ops2 : List Op) (a : BitVec 64) (l : List Int)
    (fd : Int) (hl : l.head? = some fd) (op : Op) (hop : op = .add a l ∨ op = .update a l)
    (hv : ∀ o ∈ ops ++ op :: ops2, Valid o)
    (hconf : confAfter ((ops ++ [op]).map Op.req) a = some l)
    (hno : ∀ o ∈ ops2, (∀ l', o ≠ .update a l') ∧ o ≠ .del a ∧ o ≠ .flush ∧ o ≠ .flow fd false)
    (hfresh : op = .add a l → confAfter (ops.map Op.req) a = none) :
    ∃ s rs, run Alternate.step (altInit p) (ops ++ op :: ops2) = .ok (s, rs) ∧ Alternate.nhop s a = .ok fd := by
  obtain ⟨_, ec, hp, he⟩ := create_wf n none h0 h1
  cases ec.symm.trans hcr
  -- right after the configuration
  have base : ∃ s rs, run Alternate.step (altInit p) (ops ++ [op]) = .ok (s, rs) ∧ Alternate.nhop s a = .ok fd := by
    obtain ⟨s, rs, e, h⟩ := alt_reachable p hp he ops (fun o ho => hv o (by simp [ho]))
    have hlne : l ≠ [] := by rintro rfl; cases hl
    obtain ⟨fd', l', rfl⟩ : ∃ fd' l', l = fd' :: l' := by
      cases l with
      | nil => exact absurd rfl hlne
      | cons x y => exact ⟨x, y, rfl⟩
    simp only [List.head?_cons, Option.some.injEq] at hl
    subst hl
    rcases hop with rfl | rfl
    · obtain ⟨p', e1, w, g⟩ := refA_addToPft h.wf a fd' l'
      have hn := h.none a (hfresh rfl)
      rw [hn] at e1 g
      refine ⟨{ s with pft := p', addrs := a :: s.addrs }, rs ++ [0], ?_, ?_⟩
      · rw [run_append, e]; simp [run, Alternate.step, Alternate.add, e1]
      · simp [Alternate.nhop, lookup_eq w, g, put, rd]
    · obtain ⟨p1, r1, e1, w1, e2, g1⟩ := delete_spec h.wf a
      rw [refA_isSome h] at e2
      have hs : (confAfter (ops.map Op.req) a).isSome := by
        cases hcc : confAfter (ops.map Op.req) a with
        | some _ => rfl
        | none =>
          have : confAfter ((ops ++ [Op.update a (fd' :: l')]).map Op.req) a = none := by
            simp only [List.map_append, List.map_cons, List.map_nil, Op.req, confAfter, List.foldl_append, List.foldl_cons,
              List.foldl_nil, confStep] at hcc ⊢
            rw [hcc]; simp [hcc]
          rw [this] at hconf; cases hconf
      rw [hs] at e2
      simp at e2
      obtain ⟨p2, e3, w2, g2⟩ := refA_addToPft w1 a fd' l'
      have hg1 : get p1 a = none := by rw [g1]; simp [remove]
      rw [hg1] at e3 g2
      refine ⟨{ s with pft := p2 }, rs ++ [0], ?_, ?_⟩
      · rw [run_append, e]; simp [run, Alternate.step, Alternate.update, e1, e2, e3]
      · simp [Alternate.nhop, lookup_eq w2, g2, put, rd]
  -- kept by all further calls
  induction ops2 using List.reverseRecOn with
  | nil => exact base
  | append_singleton ops2 o ih =>
    have hv1 : ∀ o ∈ ops ++ op :: ops2, Valid o := by
      intro x hx; apply hv; rw [← List.cons_append, ← List.append_assoc]; exact List.mem_append_left _ hx
    have hno1 : ∀ o ∈ ops2, (∀ l', o ≠ .update a l') ∧ o ≠ .del a ∧ o ≠ .flush ∧ o ≠ .flow fd false :=
      fun x hx => hno x (by simp [hx])
    obtain ⟨s, rs, e, hn⟩ := ih hv1 hno1
    obtain ⟨s0, rs0, e0, h⟩ := alt_reachable p hp he (ops ++ op :: ops2) hv1
    rw [e] at e0
    cases e0
    -- `a` is still configured with `l`
    have hca : confAfter ((ops ++ op :: ops2).map Op.req) a = some l := by
      have : ∀ (xs : List Op) (c : Conf), c a = some l →
          (∀ o ∈ xs, (∀ l', o ≠ .update a l') ∧ o ≠ .del a ∧ o ≠ .flush ∧ o ≠ .flow fd false) →
          (xs.map Op.req).foldl confStep c a = some l := by
        intro xs
        induction xs with
        | nil => intro c hc _; exact hc
        | cons x xs ih =>
          intro c hc hx
          simp only [List.map_cons, List.foldl_cons]
          apply ih _ _ (fun o ho => hx o (by simp [ho]))
          obtain ⟨h1, h2, h3, h4⟩ := hx x (by simp)
          cases x with
          | add b m =>
            simp only [Op.req, confStep]
            split
            · rename_i hb
              unfold put
              split
              · rename_i e; subst e; rw [hc] at hb; cases hb
              · exact hc
            · exact hc
          | update b m =>
            simp only [Op.req, confStep]
            split
            · unfold put
              split
              · rename_i e; subst e; exact absurd rfl (h1 m)
              · exact hc
            · exact hc
          | del b =>
            simp only [Op.req, confStep, remove]
            split
            · rename_i e; subst e; exact absurd rfl h2
            · exact hc
          | flush => exact absurd rfl h3
          | nhop b => exact hc
          | flow x u => exact hc
      have h1 := this ops2 (confAfter ((ops ++ [op]).map Op.req)) hconf hno1
      have : confAfter ((ops ++ op :: ops2).map Op.req) =
          (ops2.map Op.req).foldl confStep (confAfter ((ops ++ [op]).map Op.req)) := by
        simp [confAfter]
      rw [this]; exact h1
    obtain ⟨h1, h2, h3, h4⟩ := hno o (by simp)
    obtain ⟨s', r, e', h', _⟩ := alt_step h o (hv o (by simp))
    have e3 : run Alternate.step (altInit p) (ops ++ op :: (ops2 ++ [o])) = .ok (s', rs ++ [r]) := by
      rw [show ops ++ op :: (ops2 ++ [o]) = (ops ++ op :: ops2) ++ [o] by simp, run_append, e]
      simp [run, e']
    refine ⟨s', rs ++ [r], e3, ?_⟩
    -- the entry of `a` only changes by a report
    have same : get s'.pft a = get s.pft a → Alternate.nhop s' a = .ok fd := by
      intro hg
      rw [← hn]
      simp only [Alternate.nhop, lookup_eq h.wf, lookup_eq h'.wf, hg]
    cases o with
    | add b m =>
      apply same
      cases m with
      | nil => exact absurd rfl (hv (.add b []) (by simp))
      | cons x m =>
        obtain ⟨p', e1, w, g⟩ := refA_addToPft h.wf b x m
        have hsp : s'.pft = p' := by
          simp only [Alternate.step, Alternate.add, e1, Outcome.bind_ok] at e'
          split at e' <;> (cases e'; rfl)
        rw [hsp, g]
        split
        · rename_i hb
          unfold put
          split
          · rename_i e; subst e
            have := refA_isSome h a
            rw [hca] at this
            rw [Option.isNone_iff_eq_none] at hb
            rw [hb] at this; cases this
          · rfl
        · rfl
    | update b m =>
      apply same
      cases m with
      | nil => exact absurd rfl (hv (.update b []) (by simp))
      | cons x m =>
        have hab : a ≠ b := fun e => h1 (x :: m) (by rw [e])
        obtain ⟨p1, r1, e1, w1, e2, g1⟩ := delete_spec h.wf b
        obtain ⟨p2, e3, w2, g2⟩ := refA_addToPft w1 b x m
        have hsp : s'.pft = p1 ∨ s'.pft = p2 := by
          simp only [Alternate.step, Alternate.update, e1, e3, Outcome.bind_ok] at e'
          rw [if_neg (by simp)] at e'
          split at e' <;> cases e'
          · left; rfl
          · right; rfl
        have hg1 : get p1 a = get s.pft a := by rw [g1]; simp [remove, hab]
        rcases hsp with hsp | hsp
        · rw [hsp]; exact hg1
        · rw [hsp, g2]
          split
          · simp [put, hab, hg1]
          · exact hg1
    | del b =>
      apply same
      have hab : a ≠ b := fun e => h2 (by rw [e])
      obtain ⟨p1, r1, e1, w1, e2, g1⟩ := delete_spec h.wf b
      have hsp : s'.pft = p1 := by
        simp only [Alternate.step, Alternate.del, e1, Outcome.bind_ok] at e'
        cases e'; rfl
      rw [hsp, g1]; simp [remove, hab]
    | flush => exact absurd rfl h3
    | nhop b =>
      apply same
      simp only [Alternate.step] at e'
      cases hnb : Alternate.nhop s b with
      | ub => rw [hnb] at e'; cases e'
      | ok x => rw [hnb] at e'; cases e'; rfl
    | flow x u =>
      by_cases hd : u = true ∧ downAfter ((ops ++ op :: ops2).map Op.req) x = 0
      · apply same
        have : x ∉ s.down := by rw [← List.count_eq_zero, h.down]; exact hd.2
        simp only [Alternate.step, Alternate.flow, hd.1, this, not_false_iff, and_self, if_true] at e'
        cases e'; rfl
      · have : u = true → 0 < downAfter ((ops ++ op :: ops2).map Op.req) x := by
          intro hu
          rcases Nat.eq_zero_or_pos (downAfter ((ops ++ op :: ops2).map Op.req) x) with h0 | h0
          · exact absurd ⟨hu, h0⟩ hd
          · exact h0
        obtain ⟨s2, e2, _, hq⟩ := flow_spec h x u this
        simp only [Alternate.step] at e'
        rw [e2] at e'
        cases e'
        obtain ⟨y, y', q1, q2, _, _, q5, q6⟩ := hq a l hca
        rw [hn] at q1
        cases q1
        rw [q2]
        congr 1
        cases u with
        | true =>
          by_cases hx : x = fd
          · subst hx; exact (q5 rfl).1 hl
          · exact (q5 rfl).2 (by rw [hl]; simpa using fun e => hx e.symm)
        | false =>
          exact (q6 rfl).1 (fun e => h4 (by rw [e]))

/-- C27 fails for the alternate policy: an alternate that comes up again is not used although the next hop in use is down, and
a destination configured while its primary is down uses it although its alternate is up. -/
theorem C27_alternate_violated (p : Pft) (hp : create 4 none = some p) :
    (∃ s rs, run Alternate.step (altInit p) [.add 1 [10, 11], .flow 11 false, .flow 10 false, .flow 11 true] = .ok (s, rs) ∧
      Alternate.nhop s 1 = .ok 10 ∧
      downAfter ([Op.add 1 [10, 11], .flow 11 false, .flow 10 false, .flow 11 true].map Op.req) 10 = 1 ∧
      downAfter ([Op.add 1 [10, 11], .flow 11 false, .flow 10 false, .flow 11 true].map Op.req) 11 = 0) ∧
    (∃ s rs, run Alternate.step (altInit p) [.flow 10 false, .add 1 [10, 11]] = .ok (s, rs) ∧
      Alternate.nhop s 1 = .ok 10 ∧
      downAfter ([Op.flow 10 false, .add 1 [10, 11]].map Op.req) 10 = 1 ∧
      downAfter ([Op.flow 10 false, .add 1 [10, 11]].map Op.req) 11 = 0) := by
  cases hp
  exact ⟨⟨_, _, rfl, rfl, rfl, rfl⟩, ⟨_, _, rfl, rfl, rfl, rfl⟩⟩

/-- Non-vacuity: an empty table exists; the three policies on a small history. -/
example : ∃ p, create 4096 none = some p ∧ WF p ∧ get p = empty := create_wf 4096 none (by decide) (by decide)

example : ∃ p p' s', create 4 none = some p ∧
    run Multipath.step p [.add 1 [10, 11, 12], .nhop 1, .nhop 1, .nhop 1, .nhop 1, .nhop 2] = .ok (p', [0, 10, 11, 12, 10, -1]) ∧
    run Alternate.step (altInit p) [.add 1 [10, 11], .nhop 1, .flow 10 false, .nhop 1, .flow 10 true, .nhop 1] =
      .ok (s', [0, 10, 0, 11, 0, 10]) :=
  ⟨_, _, _, rfl, rfl, rfl⟩

example : (∀ op ∈ [Op.add 1 [10, 11], .nhop 1, .flow 10 false], Valid op) ∧
    confAfter ([Op.add 1 [10, 11], .nhop 1, .flow 10 false].map Op.req) 1 = some [10, 11] ∧
    0 < downAfter ([Op.add 1 [10, 11], .nhop 1, .flow 10 false].map Op.req) 10 := by
  refine ⟨by decide, rfl, by decide⟩

end Ouro.Pff
