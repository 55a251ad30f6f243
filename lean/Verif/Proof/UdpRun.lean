import Verif.Proof.UdpStep

namespace Ouro.Udp

open Ouro.FaMsg

theorem HInv.rest {used : List (Nat × Nat)} {log : List Event} {net : List Dgram} {a : Nat} {h : Host} (H : HInv used log net a h) {q : List Frame}
    (hq : q ⊆ h.queue) : HInv used log net a { h with queue := q } :=
  ⟨fun fr hf => H.queue fr (hq hf), H.busy, H.await, H.uf, H.fresh, H.pend, H.pendN, H.opn, H.ever, H.wr⟩

/-- A reply is handled. -/
theorem reply_inv {used : List (Nat × Nat)} {s : Net} (I : Inv used s) {a src f g : Nat} {dat : List Byte} {h : Host}
    (H : HInv used s.log s.net a h) (hc : Connected s.log a f src g) (hr : .responded src g dat ∈ s.log) :
    ∃ h' evs, allocReply h a src f g 0 dat = .ok (h', evs) ∧ Inv used ⟨(s.set a h').hosts, s.net, s.log ++ evs⟩ := by
  obtain ⟨n, q, d, i, c1, c2⟩ := hc
  have hc : Connected s.log a f src g := ⟨n, q, d, i, c1, c2⟩
  obtain ⟨r1, r2, r3, r4, r5, -⟩ := I.log.req c1
  unfold allocReply
  rw [if_neg (by unfold SYS_MAX_FLOWS; omega)]
  split
  · refine ⟨h, [], rfl, ?_⟩
    rw [List.append_nil]
    exact I.upd0 (fun _ h => h) I.log a h H
  · rename_i he
    simp only [ne_eq, not_not] at he
    rw [if_neg (by unfold PROG_MAX_FLOWS; omega)]
    simp only [if_true]
    have hnp : ∀ x ∈ h.pend, x.1 ≠ f := by
      intro x hx hxf
      have := (H.pend x hx).2.1
      rw [hxf, he] at this
      exact r4 this
    have H1 : HInv used s.log s.net a { h with uf := upd h.uf f ⟨g, (h.uf f).addr⟩ } := by
      refine ⟨H.queue, H.busy, H.await, ?_, ?_, ?_, H.pendN, H.opn, ?_, H.wr⟩
      · intro x
        by_cases hf : x = f
        · subst hf; simp only [upd_same]
          rw [he]
          exact .inr (.inl ⟨n, q, d, c1, .inr hc⟩)
        · simp only [upd_ne _ _ hf]; exact H.uf x
      · intro x hx
        by_cases hf : x = f
        · subst hf; exact absurd r5 hx
        · simp only [upd_ne _ _ hf]; exact H.fresh x hx
      · intro x hx
        obtain ⟨h1, h2, h3⟩ := H.pend x hx
        refine ⟨h1, ?_, h3⟩
        simp only [upd_ne _ _ (hnp x hx)]; exact h2
      · intro x hx
        by_cases hf : x = f
        · subst hf; simp only [upd_same]
          rw [he]
          exact .inr (.inl hc)
        · simp only [upd_ne _ _ hf]; exact H.ever x hx
    split
    · refine ⟨_, _, rfl, ?_⟩
      have hop : ∀ c x, Opened (s.log ++ [.replied a f 0 dat]) c x → (c = a ∧ x = f) ∨ Opened s.log c x := by
        intro c x h
        rcases opened_snoc_iff.1 h with h | ⟨d, h⟩ | ⟨d, h⟩
        · exact .inr h
        · cases h; exact .inl ⟨rfl, rfl⟩
        · cases h
      have hl : s.log ⊆ s.log ++ [.replied a f 0 dat] := List.subset_append_left _ _
      have := I.upd (fun _ h => h) a { h with uf := upd h.uf f ⟨g, (h.uf f).addr⟩, opened := upd h.opened f true } [] [.replied a f 0 dat]
        (I.log.other ⟨rfl, src, g, hc, hr⟩) (by simp) ?_ ?_
      · simp only [List.append_nil] at this; exact this
      · intro c x hca ho
        rcases hop c x ho with ⟨h1, -⟩ | h1
        · exact absurd h1 hca
        · exact h1
      · rw [List.append_nil]
        refine ⟨?_, ?_, ?_, ?_, H1.fresh, ?_, H.pendN, ?_, ?_, ?_⟩
        · intro fr hf
          exact ⟨(H.queue fr hf).1, (H.queue fr hf).2.mono hl⟩
        · intro x hx
          obtain ⟨n, q, d, i, h⟩ := H.busy x hx
          exact ⟨n, q, d, i, hl h⟩
        · intro x hx
          obtain ⟨b, f, n, q, d, i, h⟩ := H.await x hx
          exact ⟨b, f, n, q, d, i, hl h⟩
        · intro x
          rcases H1.uf x with h | ⟨n, q, d, h1, h2⟩ | h
          · exact .inl h
          · exact .inr (.inl ⟨n, q, d, hl h1, h2.imp id (·.mono hl)⟩)
          · exact .inr (.inr (h.mono hl))
        · intro y hy
          obtain ⟨⟨n', q', d', hr'⟩, h0', hno'⟩ := H1.pend y hy
          refine ⟨⟨n', q', d', hl hr'⟩, h0', fun hh => ?_⟩
          rcases hop _ _ hh with ⟨-, hh⟩ | hh
          · exact hnp y hy hh
          · exact hno' hh
        · intro x hx
          by_cases hf : x = f
          · subst hf; exact .inl ⟨dat, by simp⟩
          · simp only [upd_ne _ _ hf] at hx
            exact (H.opn x hx).mono hl
        · intro x hx
          rcases hop _ _ hx with ⟨-, hx⟩ | hx
          · subst hx; simp only [upd_same]
            rw [he]
            exact .inr (.inl (hc.mono hl))
          · exact (H1.ever x hx).imp id (·.mono hl)
        · intro w x hx; exact hl (H.wr w x hx)
    · refine ⟨_, [], rfl, ?_⟩
      rw [List.append_nil]
      exact I.upd0 (fun _ h => h) I.log a _ H1

theorem step_mgmt {used : List (Nat × Nat)} {s : Net} (I : Inv used s) (a : Nat) (fd : Option Nat) (hf : ∀ g, fd = some g → (a, g) ∉ used) :
    ∃ s', step s (.mgmt a fd) = .ok s' ∧ Inv (given [.mgmt a fd] ++ used) s' := by
  have hu : used ⊆ given [.mgmt a fd] ++ used := List.subset_append_right _ _
  have H := I.host a
  have hsame : Inv (given [.mgmt a fd] ++ used) { (s.set a (s.hosts a)) with log := s.log ++ [] } := by
    rw [List.append_nil]
    exact (I.upd0 (fun _ h => h) I.log a (s.hosts a) H).used hu
  simp only [step]
  unfold mgmt
  split
  · rename_i r hr
    split at hr
    · rename_i fr rest hb hq
      have hfr := H.queue fr (by rw [hq]; exact List.mem_cons_self)
      have H0 := H.rest (q := rest) (by rw [hq]; exact List.subset_cons_self _ _)
      rcases hfr.2 with ⟨f, n, q, dat, j, h1, h2, h3⟩ | ⟨f, g, dat, j, h1, h2, h3, h4⟩
      · simp only [show fr.buf = _ from h1] at hr
        obtain ⟨r1, r2, r3, r4, r5, r6, r7⟩ := I.log.req h2
        rw [parse_request (by omega) r7 r6] at hr
        simp only at hr
        split at hr
        · cases hr
        · split at hr
          · cases hr
          · split at hr <;> cases hr
      · simp only [show fr.buf = _ from h1] at hr
        have hc := h2
        obtain ⟨n, q, d, i, c1, c2⟩ := h2
        rw [parse_reply (by have := (I.log.req c1).2.1; omega) (by have := (I.log.off c2).2.1; omega) (by decide) (by decide)] at hr
        simp only at hr
        obtain ⟨h', evs, e, -⟩ := reply_inv I H0 hc h3
        rw [e] at hr; cases hr
    · cases hr
  · rename_i r hr
    split at hr
    · rename_i fr rest hb hq
      have hfr := H.queue fr (by rw [hq]; exact List.mem_cons_self)
      have H0 := H.rest (q := rest) (by rw [hq]; exact List.subset_cons_self _ _)
      have hskip : Inv (given [.mgmt a fd] ++ used) { (s.set a { s.hosts a with queue := rest }) with log := s.log ++ [] } := by
        rw [List.append_nil]
        exact (I.upd0 (fun _ h => h) I.log a _ H0).used hu
      rcases hfr.2 with ⟨f, n, q, dat, j, h1, h2, h3⟩ | ⟨f, g, dat, j, h1, h2, h3, h4⟩
      · simp only [show fr.buf = _ from h1] at hr
        obtain ⟨r1, r2, r3, r4, r5, r6, r7⟩ := I.log.req h2
        rw [parse_request (by omega) r7 r6] at hr
        simp only at hr
        split at hr
        · cases hr
          exact ⟨_, rfl, hsame⟩
        · rename_i hw
          simp only [ne_eq, not_not] at hw
          split at hr
          · cases hr
            exact ⟨_, rfl, hskip⟩
          · rename_i g
            split at hr
            · rename_i hfree
              obtain ⟨f1, f2, f3⟩ := freeFd_iff.1 hfree
              cases hr
              refine ⟨_, rfl, ?_⟩
              have hn := hf g rfl
              have hL := I.log.offered (i := fr.idx) hn f1 f2 h2
              have hO : ∀ c x, Opened (s.log ++ [.offered a g fr.src f n q dat fr.idx]) c x → Opened s.log c x := by
                intro c x h
                rcases opened_snoc_iff.1 h with h | ⟨d, h⟩ | ⟨d, h⟩
                · exact h
                · cases h
                · cases h
              have := I.upd (used' := (a, g) :: used) (List.subset_cons_self _ _) a
                { s.hosts a with queue := rest, live := upd (s.hosts a).live g true, await := some g, busy := some ⟨g, fr.src, f⟩ } []
                [.offered a g fr.src f n q dat fr.idx] hL (by simp) (fun c x _ => hO c x) ?_
              · simp only [List.append_nil] at this; exact this
              · have H' := H0.mono (List.subset_cons_self (a, g) _) (List.subset_append_left s.log [.offered a g fr.src f n q dat fr.idx])
                  (List.prefix_append s.net []) (hO a)
                refine ⟨H'.queue, ?_, ?_, H'.uf, H'.fresh, H'.pend, H'.pendN, H'.opn, H'.ever, H'.wr⟩
                · intro x hx
                  simp only [Option.some.injEq] at hx
                  subst hx
                  exact ⟨n, q, dat, fr.idx, by simp⟩
                · intro x hx
                  simp only [Option.some.injEq] at hx
                  subst hx
                  exact ⟨fr.src, f, n, q, dat, fr.idx, by simp⟩
            · cases hr
              exact ⟨_, rfl, hskip⟩
      · simp only [show fr.buf = _ from h1] at hr
        have hc := h2
        obtain ⟨n, q, d, i, c1, c2⟩ := h2
        rw [parse_reply (by have := (I.log.req c1).2.1; omega) (by have := (I.log.off c2).2.1; omega) (by decide) (by decide)] at hr
        simp only at hr
        obtain ⟨h', evs, e, hI⟩ := reply_inv I H0 hc h3
        rw [e] at hr
        cases hr
        exact ⟨_, rfl, hI.used hu⟩
    · cases hr
      exact ⟨_, rfl, hsame⟩

theorem step_inv {used : List (Nat × Nat)} {s : Net} (I : Inv used s) (op : Op) (hs : op.Sane) (hf : ∀ x ∈ given [op], x ∉ used) :
    ∃ s', step s op = .ok s' ∧ Inv (given [op] ++ used) s' := by
  cases op with
  | alloc a fd res dst q data j => exact step_alloc I hs.1 hs.2 (hf _ (by simp [given]))
  | store a fd => exact step_store I a fd
  | recv i => exact step_recv I i
  | mgmt a fd => exact step_mgmt I a fd (fun g hg => by subst hg; exact hf _ (by simp [given]))
  | mgmtStore a => exact step_mgmtStore I a
  | resp a fd r data j => obtain ⟨rfl, h2⟩ := hs; exact step_resp I h2
  | write a w fd p => exact step_write I a w fd p
  | send a w => exact step_send I a w
  | dealloc a fd => exact step_dealloc I a fd
  | inject d => exact absurd hs id

theorem init_inv : Inv [] init where
  log := by
    refine ⟨?_, ?_, ?_, ?_, ?_, ?_, ?_, ?_, ?_⟩ <;> intros <;> rename_i h <;> simp [init] at h
  net := by simp [init]
  host a := by
    refine ⟨by simp [init, Host.init], by simp [init, Host.init], by simp [init, Host.init], fun _ => .inl rfl, fun _ _ => rfl, by simp [init, Host.init],
      by simp [init, Host.init], by simp [init, Host.init], fun _ _ => .inl rfl, by simp [init, Host.init]⟩

theorem given_cons (op : Op) (l : List Op) : given (op :: l) = given [op] ++ given l := by
  cases op <;> try rfl
  rename_i a fd; cases fd <;> rfl

theorem run_inv (ops : List Op) (hs : Sane ops) : ∀ (used : List (Nat × Nat)) (s : Net), Inv used s → (given ops).Nodup → (∀ x ∈ given ops, x ∉ used) →
    ∃ s' used', run s ops = .ok s' ∧ Inv used' s' := by
  induction ops with
  | nil => intro used s I _ _; exact ⟨s, used, rfl, I⟩
  | cons op l ih =>
    intro used s I hn hd
    rw [given_cons] at hn hd
    obtain ⟨s1, h1, I1⟩ := step_inv I op (hs op List.mem_cons_self) (fun x hx => hd x (List.mem_append_left _ hx))
    have hn' := List.nodup_append.1 hn
    obtain ⟨s', used', h2, I2⟩ := ih (fun o ho => hs o (List.mem_cons_of_mem _ ho)) _ s1 I1 hn'.2.1 (by
      intro x hx hc
      rcases List.mem_append.1 hc with hc | hc
      · exact hn'.2.2 _ hc _ hx rfl
      · exact hd x (List.mem_append_right _ hx) hc)
    exact ⟨s', used', by simp only [run, h1]; exact h2, I2⟩

theorem reach_inv {ops : List Op} (hs : Sane ops) (hf : Fresh ops) : ∃ s used, run init ops = .ok s ∧ Inv used s := by
  obtain ⟨s, used, h1, h2⟩ := run_inv ops hs [] init init_inv hf (by simp)
  exact ⟨s, used, h1, h2⟩

end Ouro.Udp
