import Verif.Proof.UdpRun

namespace Ouro.Udp

open Ouro.FaMsg

/-- The endpoint a request datagram comes from. -/
def reqOf (b : List Byte) : Option Nat :=
  if beVal (b.take 4) = 0 then
    match parse b with
    | .ok (.request e _ _ _) => some e
    | _ => none
  else none

theorem reqOf_request {e : Nat} (he : e < 2 ^ 32) {q : Qos} (hq : q.WF) {dst : List Byte} (hd : dst.length = 16) (data : List Byte) (j : Junk) :
    reqOf (request e q dst data j) = some e := by
  unfold reqOf
  rw [if_pos (request_head _ _ _ _ _), parse_request he hq hd]

theorem reqOf_reply {e g : Nat} (he : e < 2 ^ 32) (hg : g < 2 ^ 32) (data : List Byte) (j : Junk) : reqOf (reply e g 0 data j) = none := by
  unfold reqOf
  rw [if_pos (reply_head _ _ _ _ _), parse_reply he hg (by decide) (by decide)]

theorem reqOf_packet {e : Nat} (he : e < 2 ^ 32) (h0 : e ≠ 0) (p : List Byte) : reqOf (packet e p) = none := by
  unfold reqOf
  rw [packet_head p he, if_neg h0]

theorem net_req {used : List (Nat × Nat)} {s : Net} (I : Inv used s) {x : Dgram} (hx : x ∈ s.net) {f : Nat} (hf : reqOf x.bytes = some f) :
    (x.src, f) ∈ used := by
  rcases I.net x hx with (⟨e, n, q, dat, j, h1, h2, h3⟩ | ⟨e, g, dat, j, h1, ⟨_, _, _, _, c1, c2⟩, h3, h4⟩) | ⟨e, g, p, h1, h2, h3⟩
  · obtain ⟨r1, r2, r3, r4, r5, r6, r7⟩ := I.log.req h2
    rw [h1, reqOf_request (by omega) r7 r6] at hf
    cases hf
    exact r5
  · rw [h1, reqOf_reply (by have := (I.log.req c1).2.1; omega) (by have := (I.log.off c2).2.1; omega)] at hf
    cases hf
  · have := paired_range I.log h2
    rw [h1, reqOf_packet (by omega) (by omega)] at hf
    cases hf

structure UInv (recvd : List Nat) (s : Net) : Prop where
  nodup : ∀ b, ((s.hosts b).queue.map (·.idx)).Nodup
  queue : ∀ b, ∀ fr ∈ (s.hosts b).queue, fr.idx ∈ recvd
  off : ∀ {b g a f h q d i}, .offered b g a f h q d i ∈ s.log → i ∈ recvd ∧ ∃ x, s.net[i]? = some x ∧ x.src = a ∧ reqOf x.bytes = some f
  oq : ∀ {b g a f h q d i}, .offered b g a f h q d i ∈ s.log → ∀ c, ∀ fr ∈ (s.hosts c).queue, fr.idx ≠ i
  oo : ∀ {b g a f h q d b' g' a' f' h' q' d' i}, .offered b g a f h q d i ∈ s.log → .offered b' g' a' f' h' q' d' i ∈ s.log → b = b' ∧ g = g'
  net : ∀ {i k : Nat} {x y : Dgram} {f : Nat}, s.net[i]? = some x → s.net[k]? = some y → x.src = y.src → reqOf x.bytes = some f → reqOf y.bytes = some f → i = k

theorem getElem?_append_some {α : Type} {l t : List α} {i : Nat} {x : α} (h : l[i]? = some x) : (l ++ t)[i]? = some x := by
  rw [List.getElem?_append_left, h]
  by_contra hc
  rw [List.getElem?_eq_none (by omega)] at h; cases h

/-- Nothing that matters changes. -/
theorem UInv.same {recvd : List Nat} {s s' : Net} (U : UInv recvd s) (hq : ∀ b, (s'.hosts b).queue <:+ (s.hosts b).queue)
    (hl : ∀ {b g a f h q d i}, .offered b g a f h q d i ∈ s'.log → .offered b g a f h q d i ∈ s.log)
    (ds : List Dgram) (hn : s'.net = s.net ++ ds)
    (hds : (∀ d ∈ ds, reqOf d.bytes = none) ∨ ∃ d, ds = [d] ∧ ∀ x ∈ s.net, x.src = d.src → reqOf x.bytes ≠ reqOf d.bytes ∨ reqOf x.bytes = none) : UInv recvd s' where
  nodup b := (((hq b).sublist).map _).nodup (U.nodup b)
  queue b fr hf := U.queue b fr ((hq b).subset hf)
  off h := by
    obtain ⟨h1, x, h2, h3⟩ := U.off (hl h)
    exact ⟨h1, x, by rw [hn]; exact getElem?_append_some h2, h3⟩
  oq h c fr hf := U.oq (hl h) c fr ((hq c).subset hf)
  oo h h' := U.oo (hl h) (hl h')
  net {i k x y f} hi hk hs hx hy := by
    rw [hn] at hi hk
    have key : ∀ {i x}, (s.net ++ ds)[i]? = some x → s.net[i]? = some x ∨ (x ∈ ds ∧ ∃ m, i = s.net.length + m ∧ ds[m]? = some x) := by
      intro i x h
      by_cases hlt : i < s.net.length
      · rw [List.getElem?_append_left hlt] at h; exact .inl h
      · rw [List.getElem?_append_right (by omega)] at h
        exact .inr ⟨List.mem_of_getElem? h, i - s.net.length, by omega, h⟩
    rcases hds with hds | ⟨d, rfl, hds⟩
    · rcases key hi with h1 | ⟨h1, -⟩
      · rcases key hk with h2 | ⟨h2, -⟩
        · exact U.net h1 h2 hs hx hy
        · rw [hds _ h2] at hy; cases hy
      · rw [hds _ h1] at hx; cases hx
    · have hm : ∀ {m : Nat} {x : Dgram}, [d][m]? = some x → m = 0 := by
        intro m x h
        cases m with
        | zero => rfl
        | succ n => simp at h
      rcases key hi with h1 | ⟨h1, m, h1', h1m⟩
      · rcases key hk with h2 | ⟨h2, -⟩
        · exact U.net h1 h2 hs hx hy
        · simp only [List.mem_singleton] at h2
          subst h2
          rcases hds x (List.mem_of_getElem? h1) hs with hc | hc
          · exact absurd (hx.trans hy.symm) hc
          · rw [hc] at hx; cases hx
      · simp only [List.mem_singleton] at h1
        subst h1
        rcases key hk with h2 | ⟨h2, m', h2', h2m⟩
        · rcases hds y (List.mem_of_getElem? h2) hs.symm with hc | hc
          · exact absurd (hy.trans hx.symm) hc
          · rw [hc] at hy; cases hy
        · have := hm h1m; have := hm h2m; omega

theorem UInv.mono {r r' : List Nat} {s : Net} (U : UInv r s) (h : r ⊆ r') : UInv r' s :=
  ⟨U.nodup, fun b fr hf => h (U.queue b fr hf), fun ho => ⟨h (U.off ho).1, (U.off ho).2⟩, U.oq, U.oo, U.net⟩

theorem set_queue {s : Net} {a : Nat} {h : Host} (hq : h.queue <:+ (s.hosts a).queue) (b : Nat) : ((s.set a h).hosts b).queue <:+ (s.hosts b).queue := by
  unfold Net.set
  dsimp only
  split
  · rename_i hb; subst hb; exact hq
  · exact List.suffix_refl _

theorem allocReply_queue {h h' : Host} {a src e g : Nat} {r : Int} {d : List Byte} {evs : List Event} (hr : allocReply h a src e g r d = .ok (h', evs)) :
    h'.queue = h.queue ∧ ∀ {b g a f n q d i}, Event.offered b g a f n q d i ∉ evs := by
  unfold allocReply at hr
  split at hr
  · cases hr
  · split at hr
    · cases hr; exact ⟨rfl, by simp⟩
    · dsimp only at hr
      split at hr
      · cases hr
      · split at hr
        · cases hr
          exact ⟨by split <;> rfl, by simp⟩
        · cases hr
          exact ⟨by split <;> rfl, by simp⟩

theorem step_once {used : List (Nat × Nat)} {s s' : Net} (I : Inv used s) {recvd : List Nat} (U : UInv recvd s) (op : Op) (hs : op.Sane)
    (hf : ∀ x ∈ given [op], x ∉ used) (hr : ∀ i ∈ received [op], i ∉ recvd) (h : step s op = .ok s') : UInv (received [op] ++ recvd) s' := by
  obtain ⟨s'', e, I'⟩ := step_inv I op hs hf
  rw [h] at e; cases e
  cases op with
  | alloc a fd res dst q data j =>
    simp only [step] at h
    split at h
    · cases h; exact U
    · rename_i hc
      simp only [not_or, Bool.not_eq_false, freeFd_iff, ne_eq, not_not] at hc
      obtain ⟨ha, ⟨h1, h2, h3⟩, h4⟩ := hc
      split at h
      · cases h
        exact U.same (set_queue (List.suffix_refl _)) (fun h => h) [] (by simp [Net.set]) (.inl (by simp))
      · split at h
        · cases h
          exact U.same (set_queue (List.suffix_refl _)) (fun h => h) [] (by simp [Net.set]) (.inl (by simp))
        · cases h
          refine U.same (fun b => set_queue (s := s) (a := a) (h := { s.hosts a with live := upd (s.hosts a).live fd true, pend := (fd, _) :: (s.hosts a).pend })
            (List.suffix_refl _) b) ?_ [⟨a, _, request fd q dst data j⟩] rfl (.inr ⟨_, rfl, ?_⟩)
          · intro b g a f h q d i hm
            simpa using hm
          · intro x hx hsrc
            by_cases hn : reqOf x.bytes = none
            · exact .inr hn
            · left
              intro hc
              rw [show reqOf (request fd q dst data j) = some fd from reqOf_request (by omega) hs.1 h4 data j] at hc
              have := net_req I hx hc
              rw [hsrc] at this
              exact hf _ (by simp [given]) this
  | store a fd =>
    simp only [step] at h
    split at h
    · cases h; exact U
    · cases h
      exact U.same (set_queue (List.suffix_refl _)) (fun h => h) [] (by simp [Net.set]) (.inl (by simp))
  | recv i =>
    simp only [step] at h
    split at h
    · cases h; exact U.mono (List.subset_append_right _ _)
    · rename_i d hd
      split at h
      · cases h
      · rename_i r hrd
        cases h
        have hi : i ∉ recvd := hr i (by simp [received])
        unfold reader at hrd
        dsimp only at hrd
        have hsame : ∀ evs : List Event, (∀ {b g a f n q d i}, Event.offered b g a f n q d i ∉ evs) →
            UInv (received [.recv i] ++ recvd) { (s.set d.dst (s.hosts d.dst)) with log := s.log ++ evs } := by
          intro evs he
          refine UInv.mono ?_ (List.subset_append_right _ recvd)
          refine U.same (s' := { (s.set d.dst (s.hosts d.dst)) with log := s.log ++ evs })
            (fun b => set_queue (s := s) (a := d.dst) (h := s.hosts d.dst) (List.suffix_refl _) b) ?_ [] (by simp [Net.set]) (.inl (by simp))
          intro b g a f h q d i hm
          rcases List.mem_append.1 hm with hm | hm
          · exact hm
          · exact absurd hm he
        split at hrd
        · cases hrd; exact hsame [] (by simp)
        · split at hrd
          · split at hrd
            · cases hrd; exact hsame [] (by simp)
            · split at hrd
              · cases hrd
              · cases hrd
                rw [List.append_nil]
                have hq : ∀ b, ∀ fr ∈ (((s.set d.dst { s.hosts d.dst with queue := ⟨i, d.src, d.bytes.take MAX_PACKET⟩ :: (s.hosts d.dst).queue }).hosts b).queue),
                    (fr.idx = i ∧ b = d.dst) ∨ fr ∈ (s.hosts b).queue := by
                  intro b fr hfr
                  unfold Net.set at hfr
                  dsimp only at hfr
                  split at hfr
                  · rename_i hb
                    rcases List.mem_cons.1 hfr with hfr | hfr
                    · rw [hfr]; exact .inl ⟨rfl, hb⟩
                    · subst hb; exact .inr hfr
                  · exact .inr hfr
                refine ⟨?_, ?_, ?_, ?_, U.oo, U.net⟩
                · intro b
                  unfold Net.set
                  dsimp only
                  split
                  · refine List.nodup_cons.2 ⟨fun hc => ?_, U.nodup _⟩
                    obtain ⟨fr, h1, h2⟩ := List.mem_map.1 hc
                    have := U.queue _ fr h1
                    rw [h2] at this; exact hi this
                  · exact U.nodup b
                · intro b fr hfr
                  rcases hq b fr hfr with ⟨h1, -⟩ | h1
                  · rw [h1]; simp [received]
                  · exact List.mem_append_right _ (U.queue b fr h1)
                · intro b g a f h q d' k ho
                  exact ⟨List.mem_append_right _ (U.off ho).1, (U.off ho).2⟩
                · intro b g a f h q d' k ho c fr hfr hk
                  rcases hq c fr hfr with ⟨h1, -⟩ | h1
                  · have := (U.off ho).1
                    rw [← hk, h1] at this; exact hi this
                  · exact U.oq ho c fr h1 hk
          · split at hrd
            · cases hrd
            · split at hrd
              · cases hrd; exact hsame [_] (by simp)
              · cases hrd; exact hsame [] (by simp)
  | mgmt a fd =>
    simp only [step] at h
    split at h
    · cases h
    · rename_i r hm
      cases h
      have hsame : ∀ (h' : Host) (evs : List Event), h'.queue <:+ (s.hosts a).queue → (∀ {b g a f n q d i}, Event.offered b g a f n q d i ∉ evs) →
          UInv (received [.mgmt a fd] ++ recvd) { (s.set a h') with log := s.log ++ evs } := by
        intro h' evs hq he
        refine U.same (fun b => set_queue (s := s) (a := a) (h := h') hq b) ?_ [] (by simp [Net.set]) (.inl (by simp))
        intro b g a f h q d i hm
        rcases List.mem_append.1 hm with hm | hm
        · exact hm
        · exact absurd hm he
      unfold mgmt at hm
      split at hm
      · rename_i fr rest hb hq
        have hsuf : rest <:+ (s.hosts a).queue := by rw [hq]; exact List.suffix_cons _ _
        dsimp only at hm
        split at hm
        · cases hm
        · cases hm; exact hsame _ [] hsuf (by simp)
        · obtain ⟨h', evs⟩ := r
          obtain ⟨e1, e2⟩ := allocReply_queue hm
          exact hsame h' evs (by rw [e1]; exact hsuf) e2
        · rename_i e q dst data hp
          split at hm
          · cases hm; exact hsame _ [] (List.suffix_refl _) (by simp)
          · split at hm
            · cases hm; exact hsame _ [] hsuf (by simp)
            · rename_i g
              split at hm
              · cases hm
                have hfr : fr ∈ (s.hosts a).queue := by rw [hq]; exact List.mem_cons_self
                obtain ⟨hn, hgood⟩ := (I.host a).queue fr hfr
                have hhead := (good_bytes I.log hgood).1
                have hqq : ∀ b, ((s.set a { s.hosts a with queue := rest, live := upd (s.hosts a).live g true, await := some g, busy := some ⟨g, fr.src, e⟩ }).hosts b).queue <:+
                    (s.hosts b).queue := set_queue hsuf
                have hne : ∀ c, ∀ fr' ∈ ((s.set a { s.hosts a with queue := rest, live := upd (s.hosts a).live g true, await := some g, busy := some ⟨g, fr.src, e⟩ }).hosts c).queue,
                    fr'.idx ≠ fr.idx := by
                  intro c fr' hfr' hcc
                  by_cases hca : c = a
                  · subst hca
                    simp only [Net.set, if_true] at hfr'
                    have := U.nodup c
                    rw [hq, List.map_cons] at this
                    exact (List.nodup_cons.1 this).1 (List.mem_map.2 ⟨fr', hfr', hcc⟩)
                  · have h1 := ((I.host c).queue fr' ((hqq c).subset hfr')).1
                    rw [hcc, hn] at h1
                    simp only [Option.some.injEq, Dgram.mk.injEq] at h1
                    exact hca h1.2.1.symm
                refine ⟨fun b => (((hqq b).sublist).map _).nodup (U.nodup b), fun b fr' h' => U.queue b fr' ((hqq b).subset h'), ?_, ?_, ?_, U.net⟩
                · intro b g' a' f n q' d i ho
                  rcases List.mem_append.1 ho with ho | ho
                  · exact U.off ho
                  · simp only [List.mem_singleton, Event.offered.injEq] at ho
                    obtain ⟨rfl, rfl, rfl, rfl, rfl, rfl, rfl, rfl⟩ := ho
                    refine ⟨U.queue b fr hfr, _, hn, rfl, ?_⟩
                    unfold reqOf
                    rw [if_pos hhead]
                    dsimp only
                    rw [hp]
                · intro b g' a' f n q' d i ho c fr' hfr'
                  rcases List.mem_append.1 ho with ho | ho
                  · exact U.oq ho c fr' ((hqq c).subset hfr')
                  · simp only [List.mem_singleton, Event.offered.injEq] at ho
                    obtain ⟨rfl, rfl, rfl, rfl, rfl, rfl, rfl, rfl⟩ := ho
                    exact hne c fr' hfr'
                · intro b g1 a1 f1 n1 q1 d1 b2 g2 a2 f2 n2 q2 d2 i ho ho'
                  rcases List.mem_append.1 ho with ho1 | ho1
                  · rcases List.mem_append.1 ho' with ho2 | ho2
                    · exact U.oo ho1 ho2
                    · simp only [List.mem_singleton, Event.offered.injEq] at ho2
                      obtain ⟨rfl, rfl, rfl, rfl, rfl, rfl, rfl, rfl⟩ := ho2
                      exact absurd rfl (U.oq ho1 _ fr hfr)
                  · simp only [List.mem_singleton, Event.offered.injEq] at ho1
                    obtain ⟨rfl, rfl, rfl, rfl, rfl, rfl, rfl, rfl⟩ := ho1
                    rcases List.mem_append.1 ho' with ho' | ho'
                    · exact absurd rfl (U.oq ho' _ fr hfr)
                    · simp only [List.mem_singleton, Event.offered.injEq] at ho'
                      obtain ⟨rfl, rfl, -⟩ := ho'
                      exact ⟨rfl, rfl⟩
              · cases hm; exact hsame _ [] hsuf (by simp)
      · cases hm; exact hsame _ [] (List.suffix_refl _) (by simp)
  | mgmtStore a =>
    simp only [step] at h
    split at h
    · cases h; exact U
    · cases h
      exact U.same (set_queue (List.suffix_refl _)) (fun h => h) [] (by simp [Net.set]) (.inl (by simp))
  | resp a fd r data j =>
    obtain ⟨rfl, h2⟩ := hs
    simp only [step] at h
    rw [if_neg (by simp)] at h
    split at h
    · cases h; exact U
    · split at h
      · cases h
        exact U.same (set_queue (List.suffix_refl _)) (fun h => h) [] (by simp [Net.set]) (.inl (by simp))
      · cases h
        refine U.same (fun b => set_queue (s := s) (a := a) (h := { s.hosts a with await := none, opened := upd (s.hosts a).opened fd true }) (List.suffix_refl _) b)
          ?_ _ rfl (.inl ?_)
        · intro b g a f h q d i hm
          simpa using hm
        · intro d hd
          have hg := I'.net d (List.mem_append_right _ hd)
          simp only [List.mem_singleton] at hd
          subst hd
          cases hq : reqOf (reply ((s.hosts a).uf fd).dEid fd 0 data j) with
          | none => rfl
          | some e =>
            exfalso
            unfold reqOf at hq
            rw [if_pos (reply_head _ _ _ _ _)] at hq
            rcases hg with (⟨f, n, q, dat, j', h1, h2, h3⟩ | ⟨f, g, dat, j', h1, ⟨_, _, _, _, c1, c2⟩, h3, h4⟩) | ⟨e', g, p, h1, h2, h3⟩
            · have h12 : rd (request f q n dat j') 12 = .ok FLOW_REQ := by
                have := slice_fields [beBytes 4 0, beBytes 4 f, beBytes 4 j'.dEid.toNat, [FLOW_REQ], [j'.response], [BitVec.ofNat 8 q.availability], [BitVec.ofNat 8 q.inOrder],
                  beBytes 8 q.bandwidth, beBytes 4 q.delay, beBytes 4 q.loss, beBytes 4 q.ber, beBytes 4 q.maxGap, beBytes 4 q.timeout, beBytes 2 q.cypherS] (n ++ dat) 3 (by simp)
                change slice (request f q n dat j') _ _ = _ at this
                simp at this
                exact rd_of_slice this
              have h12' : rd (reply ((s.hosts a).uf fd).dEid fd 0 data j) 12 = .ok FLOW_REPLY := by
                have := slice_fields [beBytes 4 0, beBytes 4 ((s.hosts a).uf fd).dEid, beBytes 4 fd, [FLOW_REPLY], [BitVec.ofInt 8 0], beBytes 32 j.rest.toNat] data 3 (by simp)
                change slice (reply ((s.hosts a).uf fd).dEid fd 0 data j) _ _ = _ at this
                simp at this
                exact rd_of_slice this
              rw [show reply ((s.hosts a).uf fd).dEid fd 0 data j = _ from h1, h12] at h12'
              exact absurd h12' (by decide)
            · rw [show reply ((s.hosts a).uf fd).dEid fd 0 data j = _ from h1, parse_reply (by have := (I'.log.req c1).2.1; omega)
                (by have := (I'.log.off c2).2.1; omega) (by decide) (by decide)] at hq
              cases hq
            · have hrng := paired_range I'.log h2
              have := packet_head (e := e') p (by omega)
              rw [← show reply ((s.hosts a).uf fd).dEid fd 0 data j = _ from h1, reply_head] at this
              omega
  | write a w fd p =>
    simp only [step] at h
    split at h
    · cases h
      refine U.same (fun b => set_queue (s := s) (a := a) (h := { s.hosts a with wr := upd (s.hosts a).wr w (some (fd, p)) }) (List.suffix_refl _) b) ?_ [] (by simp [Net.set]) (.inl (by simp))
      intro b g a f h q d i hm
      simpa using hm
    · cases h; exact U
  | send a w =>
    simp only [step] at h
    split at h
    · cases h; exact U
    · rename_i x hx
      split at h
      · cases h
        exact U.same (set_queue (List.suffix_refl _)) (fun h => h) [] (by simp [Net.set]) (.inl (by simp))
      · rename_i hz
        cases h
        refine U.same (fun b => set_queue (s := s) (a := a) (h := { s.hosts a with wr := upd (s.hosts a).wr w none }) (List.suffix_refl _) b)
          (fun h => h) _ rfl (.inl ?_)
        intro d hd
        simp only [List.mem_singleton] at hd
        subst hd
        have hw := (I.host a).wr w x hx
        rcases (I.host a).ever x.1 (I.log.wrt hw).2 with h | h
        · exact absurd h hz
        · have := paired_range I.log h
          exact reqOf_packet (by omega) (by omega) _
  | dealloc a fd =>
    simp only [step] at h
    split at h
    · cases h
      exact U.same (set_queue (List.suffix_refl _)) (fun h => h) [] (by simp [Net.set]) (.inl (by simp))
    · cases h; exact U
  | inject d => exact absurd hs id

theorem received_cons (op : Op) (l : List Op) : received (op :: l) = received [op] ++ received l := by
  cases op <;> rfl

theorem run_once (ops : List Op) (hs : Sane ops) : ∀ (used : List (Nat × Nat)) (recvd : List Nat) (s s' : Net), Inv used s → UInv recvd s → (given ops).Nodup →
    (∀ x ∈ given ops, x ∉ used) → (received ops).Nodup → (∀ i ∈ received ops, i ∉ recvd) → run s ops = .ok s' →
    ∃ r' u', UInv r' s' ∧ Inv u' s' := by
  induction ops with
  | nil => intro used recvd s s' I U _ _ _ _ h; cases h; exact ⟨recvd, used, U, I⟩
  | cons op l ih =>
    intro used recvd s s' I U hn hd hr hrd h
    rw [given_cons] at hn hd
    rw [received_cons] at hr hrd
    obtain ⟨s1, h1, I1⟩ := step_inv I op (hs op List.mem_cons_self) (fun x hx => hd x (List.mem_append_left _ hx))
    have U1 := step_once I U op (hs op List.mem_cons_self) (fun x hx => hd x (List.mem_append_left _ hx)) (fun x hx => hrd x (List.mem_append_left _ hx)) h1
    have hn' := List.nodup_append.1 hn
    have hr' := List.nodup_append.1 hr
    simp only [run, h1] at h
    refine ih (fun o ho => hs o (List.mem_cons_of_mem _ ho)) _ _ s1 s' I1 U1 hn'.2.1 ?_ hr'.2.1 ?_ h
    · intro x hx hc
      rcases List.mem_append.1 hc with hc | hc
      · exact hn'.2.2 _ hc _ hx rfl
      · exact hd x (List.mem_append_right _ hx) hc
    · intro x hx hc
      rcases List.mem_append.1 hc with hc | hc
      · exact hr'.2.2 _ hc _ hx rfl
      · exact hrd x (List.mem_append_right _ hx) hc

theorem init_once : UInv [] init where
  nodup b := by simp [init, Host.init]
  queue b fr h := by simp [init, Host.init] at h
  off h := by simp [init] at h
  oq h := by simp [init] at h
  oo h := by simp [init] at h
  net h := by simp [init] at h

end Ouro.Udp
