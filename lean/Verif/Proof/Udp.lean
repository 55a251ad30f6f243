import Verif.Proof.UdpMsg

namespace Ouro.Udp

open Ouro.FaMsg

@[simp] theorem upd_same {α : Type} (f : Nat → α) (k : Nat) (v : α) : upd f k v k = v := by simp [upd]
theorem upd_ne {α : Type} (f : Nat → α) {k i : Nat} (v : α) (h : i ≠ k) : upd f k v i = f i := by simp [upd, h]

/-- The user of flow `f` of host `a` was told it can use it. -/
def Opened (log : List Event) (a f : Nat) : Prop := (∃ d, .replied a f 0 d ∈ log) ∨ (∃ d, .responded a f d ∈ log)

/-- A management datagram that is what it should be. -/
def GoodM (log : List Event) (d : Dgram) : Prop :=
  (∃ f h q dat j, d.bytes = request f q h dat j ∧ .requested d.src f d.dst h q dat ∈ log ∧ 46 + 16 + dat.length ≤ 2048) ∨
  (∃ f g dat j, d.bytes = reply f g 0 dat j ∧ Connected log d.dst f d.src g ∧ .responded d.src g dat ∈ log ∧ 46 + dat.length ≤ 2048)

/-- A data datagram that is what it should be. -/
def GoodP (log : List Event) (d : Dgram) : Prop :=
  ∃ e g p, d.bytes = packet e p ∧ Paired log d.dst e d.src g ∧ .wrote d.src g p ∈ log

theorem Connected.mono {l l' : List Event} (h : l ⊆ l') {a f b g : Nat} (c : Connected l a f b g) : Connected l' a f b g := by
  obtain ⟨n, q, d, i, h1, h2⟩ := c
  exact ⟨n, q, d, i, h h1, h h2⟩

theorem Paired.mono {l l' : List Event} (h : l ⊆ l') {a f b g : Nat} (c : Paired l a f b g) : Paired l' a f b g :=
  c.imp (·.mono h) (·.mono h)

theorem Paired.symm {l : List Event} {a f b g : Nat} (c : Paired l a f b g) : Paired l b g a f := Or.symm c

theorem GoodM.mono {l l' : List Event} (h : l ⊆ l') {d : Dgram} (c : GoodM l d) : GoodM l' d := by
  rcases c with ⟨f, n, q, dat, j, h1, h2, h3⟩ | ⟨f, g, dat, j, h1, h2, h3, h4⟩
  · exact .inl ⟨f, n, q, dat, j, h1, h h2, h3⟩
  · exact .inr ⟨f, g, dat, j, h1, h2.mono h, h h3, h4⟩

theorem GoodP.mono {l l' : List Event} (h : l ⊆ l') {d : Dgram} (c : GoodP l d) : GoodP l' d := by
  obtain ⟨e, g, p, h1, h2, h3⟩ := c
  exact ⟨e, g, p, h1, h2.mono h, h h3⟩

structure LInv (used : List (Nat × Nat)) (log : List Event) : Prop where
  req : ∀ {a f b h q d}, .requested a f b h q d ∈ log → 64 ≤ f ∧ f < 4096 ∧ a ≠ 0 ∧ b ≠ 0 ∧ (a, f) ∈ used ∧ h.length = 16 ∧ q.WF
  off : ∀ {b g a f h q d i}, .offered b g a f h q d i ∈ log → 64 ≤ g ∧ g < 4096 ∧ (b, g) ∈ used ∧ .requested a f b h q d ∈ log
  excl : ∀ {a f b h q d b' g' h' q' d' i'}, .requested a f b h q d ∈ log → .offered a f b' g' h' q' d' i' ∈ log → False
  reqU : ∀ {a f b h q d b' h' q' d'}, .requested a f b h q d ∈ log → .requested a f b' h' q' d' ∈ log → b = b' ∧ h = h' ∧ q = q' ∧ d = d'
  offU : ∀ {b g a f h q d i a' f' h' q' d' i'}, .offered b g a f h q d i ∈ log → .offered b g a' f' h' q' d' i' ∈ log →
    a = a' ∧ f = f' ∧ h = h' ∧ q = q' ∧ d = d' ∧ i = i'
  resp : ∀ {b g d}, .responded b g d ∈ log → ∃ a f h q dd i, .offered b g a f h q dd i ∈ log
  repl : ∀ {l1 l2 a f r d}, log = l1 ++ .replied a f r d :: l2 → r = 0 ∧ ∃ b g, Connected l1 a f b g ∧ .responded b g d ∈ l1
  del : ∀ {l1 l2 a f p}, log = l1 ++ .delivered a f p :: l2 → ∃ b g p', .wrote b g p' ∈ l1 ∧ Paired l1 a f b g ∧ p = p'.take 8976
  wrt : ∀ {a f p}, .wrote a f p ∈ log → p.length ≤ 8980 ∧ Opened log a f

theorem split_snoc {α : Type} {log l1 l2 : List α} {e x : α} (h : log ++ [e] = l1 ++ x :: l2) :
    (l1 = log ∧ x = e) ∨ ∃ l2', log = l1 ++ x :: l2' := by
  rcases List.eq_nil_or_concat l2 with rfl | ⟨t, y, rfl⟩
  · have := List.append_inj' h rfl
    exact .inl ⟨this.1.symm, by simpa using this.2.symm⟩
  · right
    rw [List.concat_eq_append, ← List.cons_append, ← List.append_assoc] at h
    exact ⟨t, (List.append_inj' h rfl).1⟩

theorem LInv.repl' {used : List (Nat × Nat)} {log : List Event} (L : LInv used log) {a f r d} (h : .replied a f r d ∈ log) :
    r = 0 ∧ ∃ b g, Connected log a f b g ∧ .responded b g d ∈ log := by
  obtain ⟨l1, l2, e⟩ := List.append_of_mem h
  obtain ⟨hr, b, g, h1, h2⟩ := L.repl e
  have hs : l1 ⊆ log := by rw [e]; exact List.subset_append_left _ _
  exact ⟨hr, b, g, h1.mono hs, hs h2⟩

structure HInv (used : List (Nat × Nat)) (log : List Event) (net : List Dgram) (a : Nat) (h : Host) : Prop where
  queue : ∀ fr ∈ h.queue, net[fr.idx]? = some ⟨fr.src, a, fr.buf⟩ ∧ GoodM log ⟨fr.src, a, fr.buf⟩
  busy : ∀ x, h.busy = some x → ∃ n q d i, .offered a x.fd x.src x.eid n q d i ∈ log
  await : ∀ g, h.await = some g → ∃ b f n q d i, .offered a g b f n q d i ∈ log
  uf : ∀ f, (h.uf f).addr = 0 ∨
    (∃ n q d, .requested a f (h.uf f).addr n q d ∈ log ∧ ((h.uf f).dEid = NO_EID ∨ Connected log a f (h.uf f).addr (h.uf f).dEid)) ∨
    Connected log (h.uf f).addr (h.uf f).dEid a f
  fresh : ∀ f, (a, f) ∉ used → (h.uf f).addr = 0
  pend : ∀ x ∈ h.pend, (∃ n q d, .requested a x.1 x.2 n q d ∈ log) ∧ (h.uf x.1).addr = 0 ∧ ¬ Opened log a x.1
  pendN : h.pend.Nodup
  opn : ∀ f, h.opened f = true → Opened log a f
  ever : ∀ f, Opened log a f → (h.uf f).addr = 0 ∨ Paired log a f (h.uf f).addr (h.uf f).dEid
  wr : ∀ w x, h.wr w = some x → .wrote a x.1 x.2 ∈ log

structure Inv (used : List (Nat × Nat)) (s : Net) : Prop where
  log : LInv used s.log
  net : ∀ d ∈ s.net, GoodM s.log d ∨ GoodP s.log d
  host : ∀ a, HInv used s.log s.net a (s.hosts a)

theorem HInv.mono {used used' : List (Nat × Nat)} {log log' : List Event} {net net' : List Dgram} {a : Nat} {h : Host}
    (H : HInv used log net a h) (hu : used ⊆ used') (hl : log ⊆ log') (hn : net <+: net') (hO : ∀ f, Opened log' a f → Opened log a f) :
    HInv used' log' net' a h where
  queue fr hf := by
    obtain ⟨h1, h2⟩ := H.queue fr hf
    refine ⟨?_, h2.mono hl⟩
    obtain ⟨t, rfl⟩ := hn
    rw [List.getElem?_append_left, h1]
    by_contra hc
    rw [List.getElem?_eq_none (by omega)] at h1; cases h1
  busy x hx := by obtain ⟨n, q, d, i, h⟩ := H.busy x hx; exact ⟨n, q, d, i, hl h⟩
  await g hg := by obtain ⟨b, f, n, q, d, i, h⟩ := H.await g hg; exact ⟨b, f, n, q, d, i, hl h⟩
  uf f := by
    rcases H.uf f with h | ⟨n, q, d, h1, h2⟩ | h
    · exact .inl h
    · exact .inr (.inl ⟨n, q, d, hl h1, h2.imp id (·.mono hl)⟩)
    · exact .inr (.inr (h.mono hl))
  fresh f hf := H.fresh f fun hc => hf (hu hc)
  pend x hx := by
    obtain ⟨⟨n, q, d, h1⟩, h2, h3⟩ := H.pend x hx
    exact ⟨⟨n, q, d, hl h1⟩, h2, fun hc => h3 (hO _ hc)⟩
  pendN := H.pendN
  opn f hf := by
    rcases H.opn f hf with ⟨d, h⟩ | ⟨d, h⟩
    · exact .inl ⟨d, hl h⟩
    · exact .inr ⟨d, hl h⟩
  ever f hf := (H.ever f (hO f hf)).imp id (·.mono hl)
  wr w x hx := hl (H.wr w x hx)

theorem Opened.mono {l l' : List Event} (hl : l ⊆ l') {a f : Nat} (h : Opened l a f) : Opened l' a f := by
  rcases h with ⟨d, h⟩ | ⟨d, h⟩
  · exact .inl ⟨d, hl h⟩
  · exact .inr ⟨d, hl h⟩

/-- The general form of a step: host `a` becomes `h`, datagrams and events are added. -/
theorem Inv.upd {used used' : List (Nat × Nat)} {s : Net} (I : Inv used s) (hu : used ⊆ used') (a : Nat) (h : Host) (ds : List Dgram)
    (evs : List Event) (hL : LInv used' (s.log ++ evs)) (hD : ∀ d ∈ ds, GoodM (s.log ++ evs) d ∨ GoodP (s.log ++ evs) d)
    (hO : ∀ b f, b ≠ a → Opened (s.log ++ evs) b f → Opened s.log b f)
    (hH : HInv used' (s.log ++ evs) (s.net ++ ds) a h) :
    Inv used' ⟨(s.set a h).hosts, s.net ++ ds, s.log ++ evs⟩ := by
  have hl : s.log ⊆ s.log ++ evs := List.subset_append_left _ _
  refine ⟨hL, ?_, ?_⟩
  · intro d hd
    rcases List.mem_append.1 hd with hd | hd
    · exact (I.net d hd).imp (·.mono hl) (·.mono hl)
    · exact hD d hd
  · intro b
    by_cases hb : b = a
    · subst hb; simp only [Net.set, if_true]; exact hH
    · simp only [Net.set, if_neg hb]
      exact (I.host b).mono hu hl (List.prefix_append _ _) (fun f => hO b f hb)

/-- Without events. -/
theorem Inv.upd0 {used used' : List (Nat × Nat)} {s : Net} (I : Inv used s) (hu : used ⊆ used') (hL : LInv used' s.log) (a : Nat) (h : Host)
    (hH : HInv used' s.log s.net a h) : Inv used' (s.set a h) := by
  have := I.upd hu a h [] [] (by simpa using hL) (by simp) (by simp) (by simpa using hH)
  simp only [List.append_nil] at this
  exact this

theorem LInv.used {used used' : List (Nat × Nat)} {log : List Event} (L : LInv used log) (hu : used ⊆ used') : LInv used' log where
  req h := by obtain ⟨h1, h2, h3, h4, h5, h6⟩ := L.req h; exact ⟨h1, h2, h3, h4, hu h5, h6⟩
  off h := by obtain ⟨h1, h2, h3, h4⟩ := L.off h; exact ⟨h1, h2, hu h3, h4⟩
  excl := L.excl
  reqU := L.reqU
  offU := L.offU
  resp := L.resp
  repl := L.repl
  del := L.del
  wrt := L.wrt

theorem Inv.used {used used' : List (Nat × Nat)} {s : Net} (I : Inv used s) (hu : used ⊆ used') : Inv used' s :=
  ⟨I.log.used hu, I.net, fun a => (I.host a).mono hu (fun _ h => h) (List.prefix_refl _) (fun _ h => h)⟩


theorem conn_snoc {log : List Event} {e : Event} {a f b g : Nat} (c : Connected log a f b g) : Connected (log ++ [e]) a f b g :=
  c.mono (List.subset_append_left _ _)

theorem pair_snoc {log : List Event} {e : Event} {a f b g : Nat} (c : Paired log a f b g) : Paired (log ++ [e]) a f b g :=
  c.mono (List.subset_append_left _ _)

theorem open_snoc {log : List Event} {e : Event} {a f : Nat} (c : Opened log a f) : Opened (log ++ [e]) a f :=
  c.mono (List.subset_append_left _ _)

theorem LInv.requested {used : List (Nat × Nat)} {log : List Event} (L : LInv used log) {a f b : Nat} {h : List Byte} {q : Qos} {d : List Byte}
    (hn : (a, f) ∉ used) (h1 : 64 ≤ f) (h2 : f < 4096) (h3 : a ≠ 0) (h4 : b ≠ 0) (h5 : h.length = 16) (h6 : q.WF) :
    LInv ((a, f) :: used) (log ++ [.requested a f b h q d]) where
  req hm := by
    simp only [List.mem_append, List.mem_singleton, Event.requested.injEq] at hm
    rcases hm with hm | ⟨rfl, rfl, rfl, rfl, rfl, rfl⟩
    · obtain ⟨g1, g2, g3, g4, g5, g6⟩ := L.req hm
      exact ⟨g1, g2, g3, g4, List.mem_cons_of_mem _ g5, g6⟩
    · exact ⟨h1, h2, h3, h4, List.mem_cons_self, h5, h6⟩
  off hm := by
    simp only [List.mem_append, List.mem_singleton, reduceCtorEq, or_false] at hm
    obtain ⟨g1, g2, g3, g4⟩ := L.off hm
    exact ⟨g1, g2, List.mem_cons_of_mem _ g3, List.mem_append_left _ g4⟩
  excl hm hm' := by
    simp only [List.mem_append, List.mem_singleton, Event.requested.injEq, reduceCtorEq, or_false] at hm hm'
    rcases hm with hm | ⟨rfl, rfl, rfl, rfl, rfl, rfl⟩
    · exact L.excl hm hm'
    · exact hn (L.off hm').2.2.1
  reqU hm hm' := by
    simp only [List.mem_append, List.mem_singleton, Event.requested.injEq] at hm hm'
    rcases hm with hm | ⟨rfl, rfl, rfl, rfl, rfl, rfl⟩
    · rcases hm' with hm' | ⟨rfl, rfl, rfl, rfl, rfl, rfl⟩
      · exact L.reqU hm hm'
      · exact absurd (L.req hm).2.2.2.2.1 hn
    · rcases hm' with hm' | ⟨-, -, rfl, rfl, rfl, rfl⟩
      · exact absurd (L.req hm').2.2.2.2.1 hn
      · exact ⟨rfl, rfl, rfl, rfl⟩
  offU hm hm' := by
    simp only [List.mem_append, List.mem_singleton, reduceCtorEq, or_false] at hm hm'
    exact L.offU hm hm'
  resp hm := by
    simp only [List.mem_append, List.mem_singleton, reduceCtorEq, or_false] at hm
    obtain ⟨a, f, h, q, dd, i, g⟩ := L.resp hm
    exact ⟨a, f, h, q, dd, i, List.mem_append_left _ g⟩
  repl hm := by
    rcases split_snoc hm with ⟨-, h⟩ | ⟨l, h⟩
    · cases h
    · exact L.repl h
  del hm := by
    rcases split_snoc hm with ⟨-, h⟩ | ⟨l, h⟩
    · cases h
    · exact L.del h
  wrt hm := by
    simp only [List.mem_append, List.mem_singleton, reduceCtorEq, or_false] at hm
    exact ⟨(L.wrt hm).1, open_snoc (L.wrt hm).2⟩

theorem LInv.offered {used : List (Nat × Nat)} {log : List Event} (L : LInv used log) {b g a f i : Nat} {h : List Byte} {q : Qos} {d : List Byte}
    (hn : (b, g) ∉ used) (h1 : 64 ≤ g) (h2 : g < 4096) (h3 : .requested a f b h q d ∈ log) :
    LInv ((b, g) :: used) (log ++ [.offered b g a f h q d i]) where
  req hm := by
    simp only [List.mem_append, List.mem_singleton, reduceCtorEq, or_false] at hm
    obtain ⟨g1, g2, g3, g4, g5, g6⟩ := L.req hm
    exact ⟨g1, g2, g3, g4, List.mem_cons_of_mem _ g5, g6⟩
  off hm := by
    simp only [List.mem_append, List.mem_singleton, Event.offered.injEq] at hm
    rcases hm with hm | ⟨rfl, rfl, rfl, rfl, rfl, rfl, rfl, rfl⟩
    · obtain ⟨g1, g2, g3, g4⟩ := L.off hm
      exact ⟨g1, g2, List.mem_cons_of_mem _ g3, List.mem_append_left _ g4⟩
    · exact ⟨h1, h2, List.mem_cons_self, List.mem_append_left _ h3⟩
  excl hm hm' := by
    simp only [List.mem_append, List.mem_singleton, Event.offered.injEq, reduceCtorEq, or_false] at hm hm'
    rcases hm' with hm' | ⟨rfl, rfl, rfl, rfl, rfl, rfl, rfl, rfl⟩
    · exact L.excl hm hm'
    · exact hn (L.req hm).2.2.2.2.1
  reqU hm hm' := by
    simp only [List.mem_append, List.mem_singleton, reduceCtorEq, or_false] at hm hm'
    exact L.reqU hm hm'
  offU hm hm' := by
    simp only [List.mem_append, List.mem_singleton, Event.offered.injEq] at hm hm'
    rcases hm with hm | ⟨rfl, rfl, rfl, rfl, rfl, rfl, rfl, rfl⟩
    · rcases hm' with hm' | ⟨rfl, rfl, rfl, rfl, rfl, rfl, rfl, rfl⟩
      · exact L.offU hm hm'
      · exact absurd (L.off hm).2.2.1 hn
    · rcases hm' with hm' | ⟨-, -, rfl, rfl, rfl, rfl, rfl, rfl⟩
      · exact absurd (L.off hm').2.2.1 hn
      · exact ⟨rfl, rfl, rfl, rfl, rfl, rfl⟩
  resp hm := by
    simp only [List.mem_append, List.mem_singleton, reduceCtorEq, or_false] at hm
    obtain ⟨a, f, h, q, dd, i, g⟩ := L.resp hm
    exact ⟨a, f, h, q, dd, i, List.mem_append_left _ g⟩
  repl hm := by
    rcases split_snoc hm with ⟨-, h⟩ | ⟨l, h⟩
    · cases h
    · exact L.repl h
  del hm := by
    rcases split_snoc hm with ⟨-, h⟩ | ⟨l, h⟩
    · cases h
    · exact L.del h
  wrt hm := by
    simp only [List.mem_append, List.mem_singleton, reduceCtorEq, or_false] at hm
    exact ⟨(L.wrt hm).1, open_snoc (L.wrt hm).2⟩

/-- Events that give out no descriptor. -/
theorem LInv.other {used : List (Nat × Nat)} {log : List Event} (L : LInv used log) {e : Event}
    (h : match e with
      | .requested .. => False
      | .offered .. => False
      | .responded b g _ => ∃ a f n q dd i, .offered b g a f n q dd i ∈ log
      | .replied a f r d => r = 0 ∧ ∃ b g, Connected log a f b g ∧ .responded b g d ∈ log
      | .wrote a f p => p.length ≤ 8980 ∧ Opened log a f
      | .delivered a f p => ∃ b g p', .wrote b g p' ∈ log ∧ Paired log a f b g ∧ p = p'.take 8976) :
    LInv used (log ++ [e]) where
  req hm := by
    simp only [List.mem_append, List.mem_singleton] at hm
    rcases hm with hm | rfl
    · exact L.req hm
    · exact absurd h id
  off hm := by
    simp only [List.mem_append, List.mem_singleton] at hm
    rcases hm with hm | rfl
    · obtain ⟨g1, g2, g3, g4⟩ := L.off hm
      exact ⟨g1, g2, g3, List.mem_append_left _ g4⟩
    · exact absurd h id
  excl hm hm' := by
    simp only [List.mem_append, List.mem_singleton] at hm hm'
    rcases hm with hm | rfl
    · rcases hm' with hm' | rfl
      · exact L.excl hm hm'
      · exact absurd h id
    · exact absurd h id
  reqU hm hm' := by
    simp only [List.mem_append, List.mem_singleton] at hm hm'
    rcases hm with hm | rfl
    · rcases hm' with hm' | rfl
      · exact L.reqU hm hm'
      · exact absurd h id
    · exact absurd h id
  offU hm hm' := by
    simp only [List.mem_append, List.mem_singleton] at hm hm'
    rcases hm with hm | rfl
    · rcases hm' with hm' | rfl
      · exact L.offU hm hm'
      · exact absurd h id
    · exact absurd h id
  resp hm := by
    simp only [List.mem_append, List.mem_singleton] at hm
    rcases hm with hm | rfl
    · obtain ⟨a, f, h, q, dd, i, g⟩ := L.resp hm
      exact ⟨a, f, h, q, dd, i, List.mem_append_left _ g⟩
    · obtain ⟨a, f, h, q, dd, i, g⟩ := h
      exact ⟨a, f, h, q, dd, i, List.mem_append_left _ g⟩
  repl hm := by
    rcases split_snoc hm with ⟨rfl, rfl⟩ | ⟨l, h⟩
    · exact h
    · exact L.repl h
  del hm := by
    rcases split_snoc hm with ⟨rfl, rfl⟩ | ⟨l, h⟩
    · exact h
    · exact L.del h
  wrt hm := by
    simp only [List.mem_append, List.mem_singleton] at hm
    rcases hm with hm | rfl
    · exact ⟨(L.wrt hm).1, open_snoc (L.wrt hm).2⟩
    · exact ⟨h.1, open_snoc h.2⟩

theorem opened_snoc_iff {log : List Event} {e : Event} {a f : Nat} :
    Opened (log ++ [e]) a f ↔ Opened log a f ∨ (∃ d, e = .replied a f 0 d) ∨ ∃ d, e = .responded a f d := by
  unfold Opened
  simp only [List.mem_append, List.mem_singleton]
  constructor
  · rintro (⟨d, h | rfl⟩ | ⟨d, h | rfl⟩)
    · exact .inl (.inl ⟨d, h⟩)
    · exact .inr (.inl ⟨d, rfl⟩)
    · exact .inl (.inr ⟨d, h⟩)
    · exact .inr (.inr ⟨d, rfl⟩)
  · rintro ((⟨d, h⟩ | ⟨d, h⟩) | ⟨d, rfl⟩ | ⟨d, rfl⟩)
    · exact .inl ⟨d, .inl h⟩
    · exact .inr ⟨d, .inl h⟩
    · exact .inl ⟨d, .inr rfl⟩
    · exact .inr ⟨d, .inr rfl⟩

end Ouro.Udp
