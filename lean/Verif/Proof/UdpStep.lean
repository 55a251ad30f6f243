import Verif.Proof.Udp

namespace Ouro.Udp

open Ouro.FaMsg

theorem freeFd_iff {h : Host} {fd : Nat} : freeFd h fd = true ↔ 64 ≤ fd ∧ fd < 4096 ∧ h.live fd = false := by
  unfold freeFd PROG_RES_FDS PROG_MAX_FLOWS
  rw [Bool.and_eq_true, Bool.and_eq_true, decide_eq_true_iff, decide_eq_true_iff, Bool.not_eq_true', and_assoc]

theorem step_alloc {used : List (Nat × Nat)} {s : Net} (I : Inv used s) {a fd : Nat} {res : Option Nat} {dst : List Byte} {q : Qos} {data : List Byte}
    {j : Junk} (hq : q.WF) (hd : 46 + 16 + data.length ≤ 2048) (hf : (a, fd) ∉ used) :
    ∃ s', step s (.alloc a fd res dst q data j) = .ok s' ∧ Inv ((a, fd) :: used) s' := by
  have hu : used ⊆ (a, fd) :: used := List.subset_cons_self _ _
  simp only [step]
  split
  · exact ⟨s, rfl, I.used hu⟩
  · rename_i hc
    simp only [not_or, Bool.not_eq_false, freeFd_iff, ne_eq, not_not] at hc
    obtain ⟨ha, ⟨h1, h2, h3⟩, h4⟩ := hc
    have HL : ∀ {used' log' net'} (l : Nat → Bool), HInv used' log' net' a (s.hosts a) → HInv used' log' net' a { s.hosts a with live := l } := by
      intro used' log' net' l H
      exact ⟨H.queue, H.busy, H.await, H.uf, H.fresh, H.pend, H.pendN, H.opn, H.ever, H.wr⟩
    split
    · refine ⟨_, rfl, I.upd0 hu (I.log.used hu) _ _ (HL _ ?_)⟩
      exact (I.host a).mono hu (fun _ h => h) (List.prefix_refl _) (fun _ h => h)
    · rename_i b
      split
      · refine ⟨_, rfl, I.upd0 hu (I.log.used hu) _ _ (HL _ ?_)⟩
        exact (I.host a).mono hu (fun _ h => h) (List.prefix_refl _) (fun _ h => h)
      · rename_i hb
        refine ⟨_, rfl, ?_⟩
        have hr : Event.requested a fd b dst q data ∈ s.log ++ [.requested a fd b dst q data] := by simp
        have hO : ∀ c f, Opened (s.log ++ [.requested a fd b dst q data]) c f → Opened s.log c f := by
          intro c f h
          rcases opened_snoc_iff.1 h with h | ⟨d, h⟩ | ⟨d, h⟩
          · exact h
          · cases h
          · cases h
        refine I.upd hu a _ [⟨a, b, request fd q dst data j⟩] [.requested a fd b dst q data]
          (I.log.requested hf h1 h2 ha hb h4 hq) ?_ (fun c f _ => hO c f) ?_
        · intro d hd'
          simp only [List.mem_singleton] at hd'
          subst hd'
          exact .inl (.inl ⟨fd, dst, q, data, j, rfl, hr, hd⟩)
        · have H := (I.host a).mono hu (List.subset_append_left s.log [.requested a fd b dst q data])
            (List.prefix_append s.net [⟨a, b, request fd q dst data j⟩]) (hO a)
          have hno : ¬ Opened s.log a fd := by
            rintro (⟨d, h⟩ | ⟨d, h⟩)
            · obtain ⟨-, b', g, ⟨_, _, _, _, h', -⟩, -⟩ := I.log.repl' h
              exact hf (I.log.req h').2.2.2.2.1
            · obtain ⟨a', f, h', q', dd, i, h'⟩ := I.log.resp h
              exact hf (I.log.off h').2.2.1
          refine ⟨H.queue, H.busy, H.await, H.uf, H.fresh, ?_, ?_, H.opn, H.ever, H.wr⟩
          · intro x hx
            rcases List.mem_cons.1 hx with rfl | hx
            · exact ⟨⟨dst, q, data, hr⟩, (I.host a).fresh _ hf, fun h => hno (hO a fd h)⟩
            · exact H.pend x hx
          · refine List.nodup_cons.2 ⟨fun h => ?_, H.pendN⟩
            obtain ⟨⟨n, q', d, h'⟩, -⟩ := (I.host a).pend _ h
            exact hf (I.log.req h').2.2.2.2.1

theorem step_store {used : List (Nat × Nat)} {s : Net} (I : Inv used s) (a fd : Nat) :
    ∃ s', step s (.store a fd) = .ok s' ∧ Inv used s' := by
  simp only [step]
  split
  · exact ⟨s, rfl, I⟩
  · rename_i x hx
    have hm := List.mem_of_find?_eq_some hx
    have he : x.1 = fd := by simpa using List.find?_some hx
    subst he
    have H := I.host a
    obtain ⟨⟨n, q, d, hr⟩, h0, hno⟩ := H.pend x hm
    refine ⟨_, rfl, I.upd0 (fun _ h => h) I.log _ _ ?_⟩
    refine ⟨H.queue, H.busy, H.await, ?_, ?_, ?_, H.pendN.erase _, H.opn, ?_, H.wr⟩
    · intro f
      by_cases hf : f = x.1
      · subst hf; simp only [upd_same]; exact .inr (.inl ⟨n, q, d, hr, .inl trivial⟩)
      · simp only [upd_ne _ _ hf]; exact H.uf f
    · intro f hf
      by_cases hf' : f = x.1
      · subst hf'; exact absurd (I.log.req hr).2.2.2.2.1 hf
      · simp only [upd_ne _ _ hf']; exact H.fresh f hf
    · intro y hy
      have hy' := List.mem_of_mem_erase hy
      obtain ⟨⟨n', q', d', hr'⟩, h0', hno'⟩ := H.pend y hy'
      have hne : y.1 ≠ x.1 := by
        intro hc
        rw [hc] at hr'
        obtain ⟨hb, -⟩ := I.log.reqU hr hr'
        have : y = x := Prod.ext hc hb.symm
        subst this
        exact (H.pendN.not_mem_erase) hy
      refine ⟨⟨n', q', d', hr'⟩, ?_, hno'⟩
      simp only [upd_ne _ _ hne]; exact h0'
    · intro f hf
      by_cases hf' : f = x.1
      · subst hf'; exact absurd hf hno
      · simp only [upd_ne _ _ hf']; exact H.ever f hf

theorem paired_range {used : List (Nat × Nat)} {log : List Event} (L : LInv used log) {a f b g : Nat} (h : Paired log a f b g) :
    64 ≤ f ∧ f < 4096 ∧ 64 ≤ g ∧ g < 4096 := by
  rcases h with ⟨_, _, _, _, h1, h2⟩ | ⟨_, _, _, _, h1, h2⟩
  · exact ⟨(L.req h1).1, (L.req h1).2.1, (L.off h2).1, (L.off h2).2.1⟩
  · exact ⟨(L.off h2).1, (L.off h2).2.1, (L.req h1).1, (L.req h1).2.1⟩

theorem good_bytes {used : List (Nat × Nat)} {log : List Event} (L : LInv used log) {d : Dgram} (h : GoodM log d) :
    beVal (d.bytes.take 4) = 0 ∧ 46 ≤ d.bytes.length ∧ d.bytes.length ≤ 2048 := by
  rcases h with ⟨f, n, q, dat, j, h1, h2, h3⟩ | ⟨f, g, dat, j, h1, h2, h3, h4⟩
  · rw [h1]
    refine ⟨request_head _ _ _ _ _, ?_, ?_⟩ <;> rw [length_request, (L.req h2).2.2.2.2.2.1] <;> omega
  · rw [h1]
    refine ⟨reply_head _ _ _ _ _, ?_, ?_⟩ <;> rw [length_reply] <;> omega

theorem step_recv {used : List (Nat × Nat)} {s : Net} (I : Inv used s) (i : Nat) :
    ∃ s', step s (.recv i) = .ok s' ∧ Inv used s' := by
  simp only [step]
  split
  · exact ⟨s, rfl, I⟩
  · rename_i d hd
    have H := I.host d.dst
    rcases I.net d (List.mem_of_getElem? hd) with hg | hg
    · obtain ⟨h1, h2, h3⟩ := good_bytes I.log hg
      have ht : d.bytes.take MAX_PACKET = d.bytes := List.take_of_length_le (by unfold MAX_PACKET; omega)
      have hr : reader (s.hosts d.dst) d.dst i d = .ok ({ s.hosts d.dst with queue := ⟨i, d.src, d.bytes⟩ :: (s.hosts d.dst).queue }, []) := by
        unfold reader
        simp only [ht]
        rw [if_neg (by omega), if_pos h1, if_neg (by unfold MSG_LEN; omega), if_neg (by unfold FRAME_BUF; omega)]
      rw [hr]
      refine ⟨_, rfl, ?_⟩
      have := I.upd0 (fun _ h => h) I.log d.dst { s.hosts d.dst with queue := ⟨i, d.src, d.bytes⟩ :: (s.hosts d.dst).queue } ?_
      · rw [List.append_nil]; exact this
      · refine ⟨?_, H.busy, H.await, H.uf, H.fresh, H.pend, H.pendN, H.opn, H.ever, H.wr⟩
        intro fr hf
        rcases List.mem_cons.1 hf with rfl | hf
        · exact ⟨hd, hg⟩
        · exact H.queue fr hf
    · obtain ⟨e, g, p, h1, h2, h3⟩ := hg
      have hrg := paired_range I.log h2
      have hw := (I.log.wrt h3).1
      have hbt : beVal ((d.bytes.take MAX_PACKET).take 4) = e := by
        rw [List.take_take, h1]; exact packet_head p (by omega)
      have hlen : 4 ≤ (d.bytes.take MAX_PACKET).length := by
        rw [List.length_take, h1, packet, List.length_append, length_beBytes]; unfold MAX_PACKET; omega
      have hdr : (d.bytes.take MAX_PACKET).drop 4 = p.take 8976 := by
        rw [List.drop_take, h1, packet, List.drop_left' (length_beBytes 4 e)]; rfl
      have hr : reader (s.hosts d.dst) d.dst i d =
          .ok (s.hosts d.dst, if (s.hosts d.dst).live e then [.delivered d.dst e (p.take 8976)] else []) := by
        unfold reader
        simp only [hbt, hdr]
        rw [if_neg (by omega), if_neg (by omega), if_neg (by unfold PROG_MAX_FLOWS; omega)]
        split <;> rfl
      rw [hr]
      refine ⟨_, rfl, ?_⟩
      dsimp only
      split
      · have hO : ∀ c f, Opened (s.log ++ [.delivered d.dst e (p.take 8976)]) c f → Opened s.log c f := by
          intro c f h
          rcases opened_snoc_iff.1 h with h | ⟨d, h⟩ | ⟨d, h⟩
          · exact h
          · cases h
          · cases h
        have := I.upd (fun _ h => h) d.dst (s.hosts d.dst) [] [.delivered d.dst e (p.take 8976)]
          (I.log.other ⟨d.src, g, p, h3, h2, rfl⟩) (by simp) (fun c f _ => hO c f)
          (H.mono (fun _ h => h) (List.subset_append_left _ _) (List.prefix_append _ _) (hO d.dst))
        simp only [List.append_nil] at this
        exact this
      · have := I.upd0 (fun _ h => h) I.log d.dst (s.hosts d.dst) H
        rw [List.append_nil]; exact this

theorem step_mgmtStore {used : List (Nat × Nat)} {s : Net} (I : Inv used s) (a : Nat) :
    ∃ s', step s (.mgmtStore a) = .ok s' ∧ Inv used s' := by
  simp only [step]
  split
  · exact ⟨s, rfl, I⟩
  · rename_i x hx
    have H := I.host a
    obtain ⟨n, q, d, i, ho⟩ := H.busy x hx
    have hc : Connected s.log x.src x.eid a x.fd := ⟨n, q, d, i, (I.log.off ho).2.2.2, ho⟩
    refine ⟨_, rfl, I.upd0 (fun _ h => h) I.log _ _ ?_⟩
    refine ⟨H.queue, fun y hy => (by cases hy), H.await, ?_, ?_, ?_, H.pendN, H.opn, ?_, H.wr⟩
    · intro f
      by_cases hf : f = x.fd
      · subst hf; simp only [upd_same]; exact .inr (.inr hc)
      · simp only [upd_ne _ _ hf]; exact H.uf f
    · intro f hf
      by_cases hf' : f = x.fd
      · subst hf'; exact absurd (I.log.off ho).2.2.1 hf
      · simp only [upd_ne _ _ hf']; exact H.fresh f hf
    · intro y hy
      obtain ⟨⟨n', q', d', hr'⟩, h0', hno'⟩ := H.pend y hy
      have hne : y.1 ≠ x.fd := by
        intro hc'; rw [hc'] at hr'; exact I.log.excl hr' ho
      refine ⟨⟨n', q', d', hr'⟩, ?_, hno'⟩
      simp only [upd_ne _ _ hne]; exact h0'
    · intro f hf
      by_cases hf' : f = x.fd
      · subst hf'; simp only [upd_same]; exact .inr (.inr hc)
      · simp only [upd_ne _ _ hf']; exact H.ever f hf

theorem step_resp {used : List (Nat × Nat)} {s : Net} (I : Inv used s) {a fd : Nat} {data : List Byte} {j : Junk}
    (hd : 46 + data.length ≤ 2048) : ∃ s', step s (.resp a fd 0 data j) = .ok s' ∧ Inv used s' := by
  simp only [step]
  rw [if_neg (by simp)]
  split
  · exact ⟨s, rfl, I⟩
  · rename_i hw
    simp only [ne_eq, not_not] at hw
    have H := I.host a
    obtain ⟨b, f, n, q, d, i, ho⟩ := H.await fd hw
    split
    · refine ⟨_, rfl, I.upd0 (fun _ h => h) I.log _ _ ?_⟩
      exact ⟨H.queue, H.busy, fun g hg => (by cases hg), H.uf, H.fresh, H.pend, H.pendN, H.opn, H.ever, H.wr⟩
    · rename_i hz
      have hc : Connected s.log ((s.hosts a).uf fd).addr ((s.hosts a).uf fd).dEid a fd := by
        rcases H.uf fd with h | ⟨n', q', d', h, -⟩ | h
        · exact absurd h hz
        · exact (I.log.excl h ho).elim
        · exact h
      refine ⟨_, rfl, I.upd (fun _ h => h) a _ _ [.responded a fd data] (I.log.other ⟨b, f, n, q, d, i, ho⟩) ?_ ?_ ?_⟩
      · intro x hx
        simp only [List.mem_singleton] at hx
        subst hx
        exact .inl (.inr ⟨_, fd, data, j, rfl, conn_snoc hc, by simp, hd⟩)
      · intro c f' hca h
        rcases opened_snoc_iff.1 h with h | ⟨d, h⟩ | ⟨d, h⟩
        · exact h
        · cases h
        · cases h; exact absurd rfl hca
      · have hl : s.log ⊆ s.log ++ [.responded a fd data] := List.subset_append_left _ _
        have hop : ∀ f, Opened (s.log ++ [.responded a fd data]) a f → f = fd ∨ Opened s.log a f := by
          intro f h
          rcases opened_snoc_iff.1 h with h | ⟨d, h⟩ | ⟨d, h⟩
          · exact .inr h
          · cases h
          · cases h; exact .inl rfl
        refine ⟨?_, ?_, fun g hg => (by cases hg), ?_, H.fresh, ?_, H.pendN, ?_, ?_, ?_⟩
        · intro fr hf
          obtain ⟨h1, h2⟩ := H.queue fr hf
          refine ⟨?_, h2.mono hl⟩
          rw [List.getElem?_append_left, h1]
          by_contra hcc
          rw [List.getElem?_eq_none (by omega)] at h1; cases h1
        · intro x hx
          obtain ⟨n, q, d, i, h⟩ := H.busy x hx
          exact ⟨n, q, d, i, hl h⟩
        · intro f
          rcases H.uf f with h | ⟨n, q, d, h1, h2⟩ | h
          · exact .inl h
          · exact .inr (.inl ⟨n, q, d, hl h1, h2.imp id (·.mono hl)⟩)
          · exact .inr (.inr (h.mono hl))
        · intro y hy
          obtain ⟨⟨n', q', d', hr'⟩, h0', hno'⟩ := H.pend y hy
          refine ⟨⟨n', q', d', hl hr'⟩, h0', fun hh => ?_⟩
          rcases hop _ hh with hh | hh
          · rw [hh] at hr'; exact I.log.excl hr' ho
          · exact hno' hh
        · intro f hf
          by_cases hf' : f = fd
          · subst hf'; exact .inr ⟨data, by simp⟩
          · simp only [upd_ne _ _ hf'] at hf
            exact (H.opn f hf).mono hl
        · intro f hf
          rcases hop f hf with hf | hf
          · subst hf; exact .inr (.inr (hc.mono hl))
          · exact (H.ever f hf).imp id (·.mono hl)
        · intro w x hx; exact hl (H.wr w x hx)

theorem step_write {used : List (Nat × Nat)} {s : Net} (I : Inv used s) (a w fd : Nat) (p : List Byte) :
    ∃ s', step s (.write a w fd p) = .ok s' ∧ Inv used s' := by
  simp only [step]
  split
  · rename_i hc
    obtain ⟨h1, h2, h3, h4⟩ := hc
    have H := I.host a
    have hO : ∀ c f, Opened (s.log ++ [.wrote a fd p]) c f → Opened s.log c f := by
      intro c f h
      rcases opened_snoc_iff.1 h with h | ⟨d, h⟩ | ⟨d, h⟩
      · exact h
      · cases h
      · cases h
    refine ⟨_, rfl, ?_⟩
    have := I.upd (fun _ h => h) a { s.hosts a with wr := Udp.upd (s.hosts a).wr w (some (fd, p)) } [] [.wrote a fd p]
      (I.log.other ⟨h4, H.opn fd h2⟩) (by simp) (fun c f _ => hO c f) ?_
    · simp only [List.append_nil] at this; exact this
    · have H' := H.mono (fun _ h => h) (List.subset_append_left s.log [.wrote a fd p]) (List.prefix_append s.net []) (hO a)
      refine ⟨H'.queue, H'.busy, H'.await, H'.uf, H'.fresh, H'.pend, H'.pendN, H'.opn, H'.ever, ?_⟩
      intro v x hx
      by_cases hv : v = w
      · subst hv
        simp only [upd_same, Option.some.injEq] at hx
        subst hx; simp
      · simp only [upd_ne _ _ hv] at hx
        exact H'.wr v x hx
  · exact ⟨s, rfl, I⟩

theorem step_send {used : List (Nat × Nat)} {s : Net} (I : Inv used s) (a w : Nat) :
    ∃ s', step s (.send a w) = .ok s' ∧ Inv used s' := by
  simp only [step]
  split
  · exact ⟨s, rfl, I⟩
  · rename_i x hx
    have H := I.host a
    have HW : HInv used s.log s.net a { s.hosts a with wr := Udp.upd (s.hosts a).wr w none } := by
      refine ⟨H.queue, H.busy, H.await, H.uf, H.fresh, H.pend, H.pendN, H.opn, H.ever, ?_⟩
      intro v y hy
      by_cases hv : v = w
      · subst hv; simp at hy
      · simp only [upd_ne _ _ hv] at hy
        exact H.wr v y hy
    split
    · exact ⟨_, rfl, I.upd0 (fun _ h => h) I.log _ _ HW⟩
    · rename_i hz
      have hw := H.wr w x hx
      refine ⟨_, rfl, ?_⟩
      have hp : Paired s.log a x.1 ((s.hosts a).uf x.1).addr ((s.hosts a).uf x.1).dEid := by
        rcases H.ever x.1 (I.log.wrt hw).2 with h | h
        · exact absurd h hz
        · exact h
      have := I.upd (fun _ h => h) a { s.hosts a with wr := Udp.upd (s.hosts a).wr w none }
        [⟨a, ((s.hosts a).uf x.1).addr, packet ((s.hosts a).uf x.1).dEid x.2⟩] [] (by simpa using I.log) ?_ (by simp) ?_
      · simp only [List.append_nil] at this; exact this
      · intro d hd
        simp only [List.mem_singleton] at hd
        subst hd
        rw [List.append_nil]
        exact .inr ⟨_, x.1, x.2, rfl, hp.symm, hw⟩
      · rw [List.append_nil]
        exact HW.mono (fun _ h => h) (fun _ h => h) (List.prefix_append _ _) (fun _ h => h)

theorem step_dealloc {used : List (Nat × Nat)} {s : Net} (I : Inv used s) (a fd : Nat) :
    ∃ s', step s (.dealloc a fd) = .ok s' ∧ Inv used s' := by
  simp only [step]
  split
  · have H := I.host a
    refine ⟨_, rfl, I.upd0 (fun _ h => h) I.log _ _ ?_⟩
    refine ⟨H.queue, H.busy, H.await, ?_, ?_, ?_, H.pendN, ?_, ?_, H.wr⟩
    · intro f
      by_cases hf : f = fd
      · subst hf; simp only [upd_same]; exact .inl trivial
      · simp only [upd_ne _ _ hf]; exact H.uf f
    · intro f hf
      by_cases hf' : f = fd
      · subst hf'; simp only [upd_same]
      · simp only [upd_ne _ _ hf']; exact H.fresh f hf
    · intro x hx
      obtain ⟨h1, h2, h3⟩ := H.pend x hx
      refine ⟨h1, ?_, h3⟩
      by_cases hf : x.1 = fd
      · simp only [hf, upd_same]
      · simp only [upd_ne _ _ hf]; exact h2
    · intro f hf
      by_cases hf' : f = fd
      · subst hf'; simp at hf
      · simp only [upd_ne _ _ hf'] at hf; exact H.opn f hf
    · intro f hf
      by_cases hf' : f = fd
      · subst hf'; simp only [upd_same]; exact .inl trivial
      · simp only [upd_ne _ _ hf']; exact H.ever f hf
  · exact ⟨s, rfl, I⟩

end Ouro.Udp
