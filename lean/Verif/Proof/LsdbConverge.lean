import Verif.Proof.LsdbFlood

namespace Ouro.Lsdb

open Ouro.Graph (bind_ok')

/-- The announcement of an entry. -/
def Adj.lsa (a : Adj) : Lsa := ⟨a.dst, a.src, a.seqno⟩

/-- The operations of a network in which no announcement is withdrawn: no data transfer flow goes away, no entry is older than the
time-out when `lsupdate` runs, and no own sequence number reaches 2^64. -/
def Op.keeps (ls : Ls) : Op → Prop
  | .recv _ _ _ => False
  | .dtAdd addr _ _ => addr ≠ ls.self
  | .dtDel _ _ => False
  | .mgmtAdd _ _ => True
  | .mgmtDel _ _ => True
  | .tick now => ∀ a ∈ ls.db, now - a.stamp ≤ timeo ∧ (a.src = ls.self → a.seqno + 1 < 2 ^ 64)

instance (ls : Ls) : DecidablePred (Op.keeps ls) := fun o => by cases o <;> unfold Op.keeps <;> infer_instance

/-- One step of a network: an announcement arrives, or something happens at a node. -/
inductive NetStep (peer : Nat → Int → Nat × Int) : Net → Net → Prop where
  | deliver {n n' : Net} : Deliver peer n n' → NetStep peer n n'
  | act (n : Net) (u : Nat) (o : Op) (ls : Ls) : o.keeps (n.node u) → step (n.node u) o = .ok ls →
      NetStep peer n { node := update n.node u ls, wire := n.wire ++ put peer u (n.node u) ls }

/-- Any number of steps. -/
inductive NetSteps (peer : Nat → Int → Nat × Int) : Net → Net → Prop where
  | none (n : Net) : NetSteps peer n n
  | more {n n1 n2 : Net} : NetStep peer n n1 → NetSteps peer n1 n2 → NetSteps peer n n2

/-- What a node does in a step, seen from outside: `inp` is the announcement received, `out` those written. -/
structure Emits (ls ls' : Ls) (inp : Option (Int × Lsa)) (out : List (Int × Lsa)) : Prop where
  inv : Inv ls'
  sent : ls'.sent = ls.sent ++ out
  mono : ∀ m, Knows ls m → Knows ls' m
  outs : ∀ x ∈ out, Knows ls' x.2 ∧ x.2.src ≠ x.2.dst
  new : ∀ a ∈ ls'.db, ∀ nb ∈ ls'.nbs, nb.mgmt = true →
    (a ∈ ls.db ∧ nb ∈ ls.nbs) ∨ (nb.fd, a.lsa) ∈ out ∨ inp = some (nb.fd, a.lsa)
  inps : ∀ f m, inp = some (f, m) → Knows ls' m

theorem knows_congr {ls ls' : Ls} (h : ls'.db = ls.db) {m : Lsa} : Knows ls' m ↔ Knows ls m := by unfold Knows; rw [h]

theorem link_new {ls : Ls} {s d n now r} (h : LinkRes ls s d n now r) {a : Adj} (ha : a ∈ r.1.db) : a ∈ ls.db ∨ (a = ⟨d, s, n, now⟩ ∧ r.2 = 0) := by
  cases h with
  | newer pre b post e h1 h2 h3 =>
    dsimp only at ha
    rw [mem_mid] at ha
    rcases ha with rfl | ha
    · exact Or.inr ⟨rfl, rfl⟩
    · left; rw [e, mem_mid]; exact Or.inr ha
  | older b hb h1 h2 h3 => exact Or.inl ha
  | fresh pre post e h =>
    dsimp only at ha
    rw [mem_mid] at ha
    rcases ha with rfl | ha
    · exact Or.inr ⟨rfl, rfl⟩
    · left; rw [e]; exact ha

theorem recv_emits {ls : Ls} (I : Inv ls) (fd : Int) (m : Lsa) (now : Int) (h : m.src ≠ m.dst) :
    Emits ls (recv ls fd m now) (some (fd, m)) (if (addLink ls m.src m.dst m.seqno now).2 = 0 then forward ls.nbs m fd else []) := by
  obtain ⟨hI, hdb, hnb, hself, hsent⟩ := recv_spec I fd m now h
  have hL := (addLink_spec I m.seqno now h).1
  have hk : Knows (recv ls fd m now) m := (knows_congr hdb).2 (link_knows hL)
  refine ⟨hI, hsent, fun m' hm' => (knows_congr hdb).2 (link_mono hL hm'), ?_, ?_, ?_⟩
  · intro x hx
    split at hx
    · unfold forward at hx
      obtain ⟨nb, _, rfl⟩ := List.mem_map.1 hx
      exact ⟨hk, h⟩
    · cases hx
  · intro a ha nb hnb' hmg
    rw [hdb] at ha
    rw [hnb] at hnb'
    rcases link_new hL ha with ha | ⟨rfl, hr⟩
    · exact Or.inl ⟨ha, hnb'⟩
    · right
      rw [if_pos hr]
      by_cases hf : nb.fd = fd
      · right; rw [hf]; rfl
      · left
        unfold forward
        refine List.mem_map.2 ⟨nb, List.mem_filter.2 ⟨hnb', ?_⟩, rfl⟩
        simp [hmg, hf]
  · intro f m' e
    cases e; exact hk

theorem addNbLoop_mem (x : Nb) : ∀ (l : List Nb) (nb : Nb), nb ∈ (addNbLoop x l).1 → nb ∈ l ∨ (nb.fd = x.fd ∧ nb.mgmt = x.mgmt)
  | [], nb, h => by
    simp only [addNbLoop, List.mem_singleton] at h
    subst h; exact Or.inr ⟨rfl, rfl⟩
  | el :: l, nb, h => by
    unfold addNbLoop at h
    split at h
    · rename_i hc
      rcases List.mem_cons.1 h with rfl | h
      · exact Or.inr ⟨rfl, hc.2⟩
      · exact Or.inl (List.mem_cons_of_mem _ h)
    · split at h
      · rcases List.mem_cons.1 h with rfl | h
        · exact Or.inr ⟨rfl, rfl⟩
        · exact Or.inl h
      · rcases List.mem_cons.1 h with rfl | h
        · exact Or.inl (List.mem_cons_self ..)
        · rcases addNbLoop_mem x l nb h with h | h
          · exact Or.inl (List.mem_cons_of_mem _ h)
          · exact Or.inr h

theorem step_emits {ls ls' : Ls} (I : Inv ls) {o : Op} (ho : o.keeps ls) (e : step ls o = .ok ls') : ∃ out, Emits ls ls' none out := by
  cases o with
  | recv fd m now => exact ho.elim
  | dtDel addr fd => exact ho.elim
  | dtAdd addr fd now =>
    have e := Outcome.ok.inj e
    subst e
    obtain ⟨hI, hdb, hself, hsent⟩ := dtAdd_spec I addr fd now ho
    have hL := (addLink_spec I 0 now (Ne.symm ho)).1
    have hk : Knows (dtAdd ls addr fd now) ⟨addr, ls.self, 0⟩ := (knows_congr hdb).2 (link_knows hL)
    refine ⟨_, hI, hsent, fun m' hm' => (knows_congr hdb).2 (link_mono hL hm'), ?_, ?_, fun _ _ h => by cases h⟩
    · intro x hx
      unfold sendLsm at hx
      obtain ⟨nb, _, rfl⟩ := List.mem_map.1 hx
      exact ⟨hk, Ne.symm ho⟩
    · intro a ha nb hnb hmg
      rw [hdb] at ha
      have hnb1 : nb ∈ ls.nbs := by
        have : (dtAdd ls addr fd now).nbs = (addNbLoop { addr := addr, fd := fd, mgmt := false } ls.nbs).1 := by
          unfold dtAdd addLink addNb
          dsimp only
          split <;> rfl
        rw [this] at hnb
        rcases addNbLoop_mem _ _ _ hnb with h | h
        · exact h
        · rw [h.2] at hmg; cases hmg
      rcases link_new hL ha with ha | ⟨rfl, hr⟩
      · exact Or.inl ⟨ha, hnb1⟩
      · right; left
        unfold sendLsm
        exact List.mem_map.2 ⟨nb, List.mem_filter.2 ⟨hnb1, hmg⟩, rfl⟩
  | mgmtAdd addr fd =>
    have e := Outcome.ok.inj e
    subst e
    obtain ⟨h1, h2, h3, h4, h5⟩ := addNb_spec I { addr := addr, fd := fd, mgmt := true }
    refine ⟨ls.db.map (fun a => (fd, a.lsa)), ⟨h1.sorted, h1.rep, h1.noself, h1.dbLen, h1.nbsLen⟩, rfl, fun m h => h, ?_, ?_, fun _ _ h => by cases h⟩
    · intro x hx
      obtain ⟨a, ha, rfl⟩ := List.mem_map.1 hx
      exact ⟨⟨a, ha, rfl, rfl, Nat.le_refl _⟩, I.noself a ha⟩
    · intro a ha nb hnb hmg
      rcases addNbLoop_mem _ _ _ hnb with h | h
      · exact Or.inl ⟨ha, h⟩
      · right; left
        rw [h.1]
        exact List.mem_map.2 ⟨a, ha, rfl⟩
  | mgmtDel addr fd =>
    have e := Outcome.ok.inj e
    subst e
    obtain ⟨h1, h2, h3, h4⟩ := delNb_spec I addr fd
    refine ⟨[], h1, by simpa [mgmtDel] using h4, fun m h => (knows_congr h2).2 h, by simp, ?_, fun _ _ h => by cases h⟩
    intro a ha nb hnb hmg
    have ha : a ∈ (delNb ls addr fd).1.db := ha
    rw [h2] at ha
    refine Or.inl ⟨ha, ?_⟩
    unfold mgmtDel delNb at hnb
    split at hnb
    · exact List.mem_of_mem_eraseP hnb
    · exact hnb
  | tick now =>
    obtain ⟨ls1, e1, hI, h1, h2, h3, h4⟩ := tick_spec I now
    change tick ls now = _ at e
    rw [e1] at e
    have e := Outcome.ok.inj e
    subst e
    have hag : ∀ a ∈ ls.db, ∃ b, aged ls.self now a = some b ∧ b.src = a.src ∧ b.dst = a.dst ∧ a.seqno ≤ b.seqno ∧
        ((a.src = ls.self ∧ b.seqno = (a.seqno + 1) % 2 ^ 64) ∨ b = a) := by
      intro a ha
      obtain ⟨k1, k2⟩ := ho a ha
      unfold aged
      rw [if_neg (by omega)]
      by_cases hs : a.src = ls.self
      · rw [if_pos hs]
        refine ⟨_, rfl, rfl, rfl, ?_, Or.inl ⟨hs, rfl⟩⟩
        have := k2 hs
        dsimp only
        rw [Nat.mod_eq_of_lt this]; omega
      · rw [if_neg hs]
        exact ⟨a, rfl, rfl, rfl, Nat.le_refl _, Or.inr rfl⟩
    refine ⟨_, hI, h4, ?_, ?_, ?_, fun _ _ h => by cases h⟩
    · rintro m ⟨a, ha, k1, k2, k3⟩
      obtain ⟨b, hb, b1, b2, b3, _⟩ := hag a ha
      refine ⟨b, ?_, by omega, by omega, by omega⟩
      rw [h1]; exact List.mem_filterMap.2 ⟨a, ha, hb⟩
    · intro x hx
      obtain ⟨a, ha, hx⟩ := List.mem_flatMap.1 hx
      obtain ⟨b, hb, b1, b2, b3, hc⟩ := hag a ha
      unfold refreshed at hx
      rw [if_neg (by have := (ho a ha).1; omega)] at hx
      split at hx
      · rename_i hs
        unfold sendLsm at hx
        obtain ⟨nb, _, rfl⟩ := List.mem_map.1 hx
        refine ⟨⟨b, by rw [h1]; exact List.mem_filterMap.2 ⟨a, ha, hb⟩, b1, b2, ?_⟩, I.noself a ha⟩
        unfold aged at hb
        rw [if_neg (by have := (ho a ha).1; omega), if_pos hs] at hb
        cases hb; exact Nat.le_refl _
      · cases hx
    · intro b hb nb hnb hmg
      rw [h1] at hb
      rw [h2] at hnb
      obtain ⟨a, ha, hab⟩ := List.mem_filterMap.1 hb
      by_cases hs : a.src = ls.self
      · right; left
        refine List.mem_flatMap.2 ⟨a, ha, ?_⟩
        unfold aged at hab
        unfold refreshed
        rw [if_neg (by have := (ho a ha).1; omega), if_pos hs] at hab ⊢
        cases hab
        unfold sendLsm
        exact List.mem_map.2 ⟨nb, List.mem_filter.2 ⟨hnb, hmg⟩, rfl⟩
      · left
        unfold aged at hab
        rw [if_neg (by have := (ho a ha).1; omega), if_neg hs] at hab
        cases hab
        exact ⟨ha, hnb⟩

/-- The invariant of the network: what a node holds is known to, or on its way to, each management neighbour. -/
structure Conv (peer : Nat → Int → Nat × Int) (n : Net) : Prop where
  inv : ∀ u, Inv (n.node u)
  dom : ∀ u, ∀ a ∈ (n.node u).db, ∀ nb ∈ (n.node u).nbs, nb.mgmt = true →
    Knows (n.node (peer u nb.fd).1) a.lsa ∨ ((peer u nb.fd).1, (peer u nb.fd).2, a.lsa) ∈ n.wire
  snd : ∀ x ∈ n.wire, Knows (n.node (peer x.1 x.2.1).1) x.2.2 ∧ x.2.2.src ≠ x.2.2.dst

theorem conv_emits {peer : Nat → Int → Nat × Int} (hp : ∀ u f, peer (peer u f).1 (peer u f).2 = (u, f)) {n : Net} (C : Conv peer n)
    (u : Nat) (ls' : Ls) (inp : Option (Int × Lsa)) (out : List (Int × Lsa)) (E : Emits (n.node u) ls' inp out) (w : List (Nat × Int × Lsa))
    (hw : ∀ x ∈ w, x ∈ n.wire) (hw' : ∀ x ∈ n.wire, x ∈ w ∨ ∃ fd m, inp = some (fd, m) ∧ x = (u, fd, m))
    (hin : ∀ fd m, inp = some (fd, m) → (u, fd, m) ∈ n.wire) :
    Conv peer { node := update n.node u ls', wire := w ++ put peer u (n.node u) ls' } := by
  have hput : put peer u (n.node u) ls' = out.map (fun x => ((peer u x.1).1, (peer u x.1).2, x.2)) := by
    unfold put; rw [E.sent, List.drop_left]
  have hmono : ∀ v m, Knows (n.node v) m → Knows (update n.node u ls' v) m := by
    intro v m hk
    simp only [update]
    split
    · rename_i hv; subst hv; exact E.mono m hk
    · exact hk
  have hold : ∀ v f m, (Knows (n.node v) m ∨ (v, f, m) ∈ n.wire) → Knows (update n.node u ls' v) m ∨ (v, f, m) ∈ w ++ put peer u (n.node u) ls' := by
    intro v f m h
    rcases h with h | h
    · exact Or.inl (hmono _ _ h)
    · rcases hw' _ h with h | ⟨fd, m', h1, h2⟩
      · exact Or.inr (List.mem_append_left _ h)
      · left
        cases h2
        simp only [update, if_true]
        exact E.inps _ _ h1
  refine ⟨?_, ?_, ?_⟩
  · intro v
    simp only [update]
    split
    · exact E.inv
    · exact C.inv v
  · intro v a ha nb hnb hmg
    dsimp only at ha hnb ⊢
    by_cases hv : v = u
    · subst hv
      simp only [update, if_true] at ha hnb
      rcases E.new a ha nb hnb hmg with ⟨h1, h2⟩ | h | h
      · exact hold _ _ _ (C.dom v a h1 nb h2 hmg)
      · right
        rw [hput]
        exact List.mem_append_right _ (List.mem_map.2 ⟨_, h, rfl⟩)
      · left
        exact hmono _ _ (C.snd _ (hin _ _ h)).1
    · simp only [update, if_neg hv] at ha hnb
      exact hold _ _ _ (C.dom v a ha nb hnb hmg)
  · intro x hx
    dsimp only at hx ⊢
    rcases List.mem_append.1 hx with hx | hx
    · have := C.snd x (hw x hx)
      exact ⟨hmono _ _ this.1, this.2⟩
    · rw [hput] at hx
      obtain ⟨y, hy, rfl⟩ := List.mem_map.1 hx
      have := E.outs y hy
      dsimp only
      rw [hp]
      simp only [update, if_true]
      exact this

theorem conv_step {peer : Nat → Int → Nat × Int} (hp : ∀ u f, peer (peer u f).1 (peer u f).2 = (u, f)) {n n' : Net} (C : Conv peer n)
    (h : NetStep peer n n') : Conv peer n' := by
  cases h with
  | deliver h =>
    cases h with
    | mk w1 w2 u fd m now e =>
      have hs := C.snd (u, fd, m) (by rw [e]; simp)
      refine conv_emits hp C u _ (some (fd, m)) _ (recv_emits (C.inv u) fd m now hs.2) (w1 ++ w2) ?_ ?_ ?_
      · intro x hx; rw [e, mem_mid]; exact Or.inr hx
      · intro x hx
        rw [e, mem_mid] at hx
        rcases hx with rfl | hx
        · exact Or.inr ⟨fd, m, rfl, rfl⟩
        · exact Or.inl hx
      · intro fd' m' h
        cases h
        rw [e]; simp
  | act u o ls ho e =>
    obtain ⟨out, E⟩ := step_emits (C.inv u) ho e
    exact conv_emits hp C u _ none out E n.wire (fun x h => h) (fun x h => Or.inl h) (fun _ _ h => by cases h)

theorem conv_steps {peer : Nat → Int → Nat × Int} (hp : ∀ u f, peer (peer u f).1 (peer u f).2 = (u, f)) {n n' : Net}
    (h : NetSteps peer n n') (C : Conv peer n) : Conv peer n' := by
  induction h with
  | none n => exact C
  | more h _ ih => exact ih (conv_step hp C h)

theorem conv_init (peer : Nat → Int → Nat × Int) (addr : Nat → Nat) : Conv peer { node := fun u => init (addr u), wire := [] } :=
  ⟨fun u => inv_init _, fun u a ha => (by cases ha), fun x hx => (by cases hx)⟩

/-- `v` is a management neighbour of `u` and the other way around. -/
def Linked (peer : Nat → Int → Nat × Int) (n : Net) (u v : Nat) : Prop :=
  (∃ nb ∈ (n.node u).nbs, nb.mgmt = true ∧ (peer u nb.fd).1 = v) ∧ (∃ nb ∈ (n.node v).nbs, nb.mgmt = true ∧ (peer v nb.fd).1 = u)

theorem conv_linked {peer : Nat → Int → Nat × Int} {n : Net} (C : Conv peer n) (hw : n.wire = []) {u v : Nat} (h : Linked peer n u v) (m : Lsa) :
    (∃ a ∈ (n.node u).db, a.lsa = m) ↔ ∃ a ∈ (n.node v).db, a.lsa = m := by
  have key : ∀ u v, Linked peer n u v → ∀ a ∈ (n.node u).db, Knows (n.node v) a.lsa := by
    rintro u v ⟨⟨nb, h1, h2, h3⟩, _⟩ a ha
    rcases C.dom u a ha nb h1 h2 with h | h
    · rw [h3] at h; exact h
    · rw [hw] at h; cases h
  have half : ∀ u v, Linked peer n u v → (∃ a ∈ (n.node u).db, a.lsa = m) → ∃ a ∈ (n.node v).db, a.lsa = m := by
    rintro u v h ⟨a, ha, rfl⟩
    obtain ⟨b, hb, b1, b2, b3⟩ := key u v h a ha
    obtain ⟨c, hc, c1, c2, c3⟩ := key v u ⟨h.2, h.1⟩ b hb
    have : a = c := sorted_uniq (C.inv u).sorted ha hc
      ⟨by unfold Adj.lsa at *; dsimp only at *; omega, by unfold Adj.lsa at *; dsimp only at *; omega⟩
    subst this
    refine ⟨b, hb, ?_⟩
    unfold Adj.lsa at *
    dsimp only at *
    simp only [Lsa.mk.injEq]
    omega
  exact ⟨half u v h, half v u ⟨h.2, h.1⟩⟩

/-- Announcements come from nodes of the network. -/
structure Srcs (addr : Nat → Nat) (n : Net) : Prop where
  self : ∀ u, (n.node u).self = addr u
  inv : ∀ u, Inv (n.node u)
  db : ∀ u, ∀ x ∈ (n.node u).db, ∃ v, addr v = x.src
  wire : ∀ x ∈ n.wire, (∃ v, addr v = x.2.2.src) ∧ x.2.2.src ≠ x.2.2.dst

theorem srcs_update {addr : Nat → Nat} {peer : Nat → Int → Nat × Int} {n : Net} (S : Srcs addr n) (u : Nat) (ls : Ls) (w : List (Nat × Int × Lsa))
    (out : List (Int × Lsa)) (hs : ls.self = (n.node u).self) (hi : Inv ls) (hdb : ∀ x ∈ ls.db, ∃ v, addr v = x.src)
    (hsent : ls.sent = (n.node u).sent ++ out) (hout : ∀ x ∈ out, (∃ v, addr v = x.2.src) ∧ x.2.src ≠ x.2.dst) (hw : ∀ x ∈ w, x ∈ n.wire) :
    Srcs addr { node := update n.node u ls, wire := w ++ put peer u (n.node u) ls } := by
  refine ⟨?_, ?_, ?_, ?_⟩
  · intro v
    simp only [update]
    split
    · rename_i hv; subst hv; rw [hs]; exact S.self v
    · exact S.self v
  · intro v
    simp only [update]
    split
    · exact hi
    · exact S.inv v
  · intro v x hx
    simp only [update] at hx
    split at hx
    · exact hdb x hx
    · exact S.db v x hx
  · intro x hx
    rcases List.mem_append.1 hx with hx | hx
    · exact S.wire x (hw x hx)
    · unfold put at hx
      rw [hsent, List.drop_left] at hx
      obtain ⟨y, hy, rfl⟩ := List.mem_map.1 hx
      exact hout y hy

theorem srcs_step {addr : Nat → Nat} {peer : Nat → Int → Nat × Int} {n n' : Net} (S : Srcs addr n) (h : NetStep peer n n') : Srcs addr n' := by
  cases h with
  | deliver h =>
    cases h with
    | mk w1 w2 u fd m now e =>
      have hm := S.wire (u, fd, m) (by rw [e]; simp)
      obtain ⟨hI, hdb, hnb, hself, hsent⟩ := recv_spec (S.inv u) fd m now hm.2
      refine srcs_update S u _ _ _ hself hI ?_ hsent ?_ ?_
      · intro x hx
        rw [hdb] at hx
        rcases link_new (addLink_spec (S.inv u) m.seqno now hm.2).1 hx with hx | ⟨rfl, _⟩
        · exact S.db u x hx
        · exact hm.1
      · intro x hx
        split at hx
        · unfold forward at hx
          obtain ⟨nb, _, rfl⟩ := List.mem_map.1 hx
          exact hm
        · cases hx
      · intro x hx; rw [e, mem_mid]; exact Or.inr hx
  | act u o ls ho e =>
    cases o with
    | recv fd m now => exact ho.elim
    | dtDel a fd => exact ho.elim
    | dtAdd a fd now =>
      have e := Outcome.ok.inj e
      subst e
      obtain ⟨hI, hdb, hself, hsent⟩ := dtAdd_spec (S.inv u) a fd now ho
      refine srcs_update S u _ _ _ hself hI ?_ hsent ?_ (fun x hx => hx)
      · intro x hx
        rw [hdb] at hx
        rcases link_new (addLink_spec (S.inv u) 0 now (Ne.symm ho)).1 hx with hx | ⟨rfl, _⟩
        · exact S.db u x hx
        · exact ⟨u, (S.self u).symm⟩
      · intro x hx
        unfold sendLsm at hx
        obtain ⟨nb, _, rfl⟩ := List.mem_map.1 hx
        exact ⟨⟨u, (S.self u).symm⟩, Ne.symm ho⟩
    | mgmtAdd a fd =>
      have hE := step_emits (S.inv u) ho e
      have e := Outcome.ok.inj e
      subst e
      obtain ⟨out, E⟩ := hE
      refine srcs_update S u _ _ ((n.node u).db.map (fun x => (fd, x.lsa))) rfl E.inv (fun x hx => S.db u x hx) rfl ?_ (fun x hx => hx)
      intro x hx
      obtain ⟨y, hy, rfl⟩ := List.mem_map.1 hx
      exact ⟨S.db u y hy, (S.inv u).noself y hy⟩
    | mgmtDel a fd =>
      have e := Outcome.ok.inj e
      subst e
      obtain ⟨h1, h2, h3, h4⟩ := delNb_spec (S.inv u) a fd
      refine srcs_update S u _ _ [] h3 h1 ?_ (by rw [List.append_nil]; exact h4) (by simp) (fun x hx => hx)
      intro x hx
      have hx : x ∈ (delNb (n.node u) a fd).1.db := hx
      rw [h2] at hx
      exact S.db u x hx
    | tick now =>
      obtain ⟨ls1, e1, hI, h1, h2, h3, h4⟩ := tick_spec (S.inv u) now
      change tick (n.node u) now = _ at e
      rw [e1] at e
      have e := Outcome.ok.inj e
      subst e
      refine srcs_update S u _ _ _ h3 hI ?_ h4 ?_ (fun x hx => hx)
      · intro x hx
        rw [h1] at hx
        obtain ⟨y, hy, hxy⟩ := List.mem_filterMap.1 hx
        rw [← (aged_same hxy).2]
        exact S.db u y hy
      · intro x hx
        obtain ⟨y, hy, hx⟩ := List.mem_flatMap.1 hx
        unfold refreshed at hx
        split at hx
        · cases hx
        · split at hx
          · unfold sendLsm at hx
            obtain ⟨nb, _, rfl⟩ := List.mem_map.1 hx
            exact ⟨S.db u y hy, (S.inv u).noself y hy⟩
          · cases hx

theorem srcs_steps {addr : Nat → Nat} {peer : Nat → Int → Nat × Int} {n n' : Net} (h : NetSteps peer n n') (S : Srcs addr n) : Srcs addr n' := by
  induction h with
  | none n => exact S
  | more h _ ih => exact ih (srcs_step S h)

theorem srcs_init (addr : Nat → Nat) : Srcs addr { node := fun u => init (addr u), wire := [] } :=
  ⟨fun _ => rfl, fun _ => inv_init _, fun _ x hx => (by cases hx), fun x hx => (by cases hx)⟩

end Ouro.Lsdb
