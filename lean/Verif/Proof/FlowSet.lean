import Verif.Model.FlowSet
import Verif.Spec.FlowSetHistory
import Verif.Proof.Tac

/-! Helper definitions and lemmas for the flow set properties (C19, C20). -/

namespace Ouro.FlowSet

open Spec.FlowSets

/-- Link between the process and the bookkeeping, membership part. -/
structure Inv (p : Proc) (t : Track) : Prop where
  neg : ∀ fd : Int, fd < 0 → t.user.open_ fd = none
  big : ∀ fd : Int, (progMaxFlows : Int) ≤ fd → t.user.open_ fd = none
  openEq : ∀ fd : Nat, t.user.open_ fd = (p.flows fd).map Flow.id
  fdOf : ∀ id, t.user.fdOf id = (p.idToFd id).map fun (n : Nat) => (n : Int)
  link : ∀ fd id, (p.flows fd).map Flow.id = some id ↔ p.idToFd id = some fd
  idLt : ∀ fd f, p.flows fd = some f → f.id < sysMaxFlows
  setOpen : ∀ fd, t.user.open_ fd = none → t.user.set fd = none
  setUse : ∀ fd s, t.user.set fd = some s → s ≠ 0 ∧ s < maxSets ∧ t.inUse s = true
  member : ∀ fd f, p.flows fd = some f →
    match t.user.set (fd : Int) with
    | some s => p.shm.mtable f.id = some s
    | none => p.shm.mtable f.id = none ∨ (p.shm.mtable f.id = some 0 ∧ f.frct = true)
  gone : ∀ id, p.idToFd id = none → p.shm.mtable id = t.stale id
  staleUse : ∀ id s, t.stale id = some s → id < sysMaxFlows ∧ s ≠ 0 ∧ s < maxSets ∧ t.inUse s = true
  staleGone : ∀ id, p.idToFd id ≠ none → t.stale id = none
  sets : p.sets = t.inUse
  zeroUse : t.inUse 0 = true
  heads : ∀ s, p.shm.heads s ≤ qSize
  idle : ∀ s, t.inUse s = false → p.shm.heads s = 0
  fqNext : ∀ s, (p.fq s).next ≤ (p.fq s).evs.length

theorem Inv.frame {p q : Proc} {t u : Track} (i : Inv p t) (hf : q.flows = p.flows) (hi : q.idToFd = p.idToFd)
    (hs : q.sets = p.sets) (hm : q.shm.mtable = p.shm.mtable) (hu : u.user = t.user) (hn : u.inUse = t.inUse)
    (hst : u.stale = t.stale) (hh : ∀ s, q.shm.heads s ≤ qSize) (hd : ∀ s, t.inUse s = false → q.shm.heads s = 0)
    (hq : ∀ s, (q.fq s).next ≤ (q.fq s).evs.length) : Inv q u where
  neg := by rw [hu]; exact i.neg
  big := by rw [hu]; exact i.big
  openEq := by rw [hu, hf]; exact i.openEq
  fdOf := by rw [hu, hi]; exact i.fdOf
  link := by rw [hf, hi]; exact i.link
  idLt := by rw [hf]; exact i.idLt
  setOpen := by rw [hu]; exact i.setOpen
  setUse := by rw [hu, hn]; exact i.setUse
  member := by rw [hu, hf, hm]; exact i.member
  gone := by rw [hi, hm, hst]; exact i.gone
  staleUse := by rw [hst, hn]; exact i.staleUse
  staleGone := by rw [hi, hst]; exact i.staleGone
  sets := by rw [hs, hn]; exact i.sets
  zeroUse := by rw [hn]; exact i.zeroUse
  heads := hh
  idle := by rw [hn]; exact hd
  fqNext := hq

@[simp] theorem upd_same {α : Type} (f : Nat → α) (i : Nat) (a : α) : upd f i a i = a := by simp [upd]

theorem upd_ne {α : Type} (f : Nat → α) {i j : Nat} (a : α) (h : j ≠ i) : upd f i a j = f j := by simp [upd, h]

theorem Track.notified_frame (t : Track) (id ev : Nat) : (t.notified id ev).user = t.user ∧
    (t.notified id ev).inUse = t.inUse ∧ (t.notified id ev).stale = t.stale ∧ (t.notified id ev).out = t.out ∧
    (t.notified id ev).dead = t.dead := by
  unfold notified; split <;> simp

/-- The set of an entry of the membership table is a set in use. -/
theorem Inv.mtable_use {p : Proc} {t : Track} (i : Inv p t) {id s : Nat} (h : p.shm.mtable id = some s) :
    s < maxSets ∧ t.inUse s = true := by
  cases hid : p.idToFd id with
  | none =>
    rw [i.gone id hid] at h
    exact (i.staleUse id s h).2.2
  | some fd =>
    have hl := (i.link fd id).mpr hid
    cases hf : p.flows fd with
    | none => rw [hf] at hl; simp at hl
    | some f =>
      rw [hf] at hl
      have hfid : f.id = id := by simpa using hl
      have hm := i.member fd f hf
      rw [hfid] at hm
      cases hs : t.user.set (fd : Int) with
      | none =>
        rw [hs] at hm
        rcases hm with hm | ⟨hm, _⟩
        · rw [hm] at h; cases h
        · rw [hm] at h; cases h
          exact ⟨by decide, i.zeroUse⟩
      | some s' =>
        rw [hs] at hm
        change p.shm.mtable id = some s' at hm
        rw [hm] at h; cases h
        exact (i.setUse fd s hs).2

/-- A notification in a queue with room changes only the queue. -/
theorem shmNotify_ok {m : Shm} {id ev : Nat} (hid : id < sysMaxFlows)
    (hr : ∀ s, m.mtable id = some s → s < maxSets ∧ m.heads s < qSize) :
    ∃ m', shmNotify m id ev = .ok m' ∧ m'.mtable = m.mtable ∧
      (∀ s, m'.heads s = if m.mtable id = some s then m.heads s + 1 else m.heads s) ∧
      (∀ s j, j < m.heads s → m.heads s ≤ qSize → m'.mem (qSize * s + j) = m.mem (qSize * s + j)) ∧
      (∀ s, m.mtable id = some s → m'.mem (qSize * s + m.heads s) = ⟨id, ev⟩) := by
  unfold shmNotify
  rw [if_pos hid]
  cases hs : m.mtable id with
  | none =>
    exact ⟨m, rfl, rfl, fun s => by simp, fun _ _ _ _ => rfl, fun s h => by cases h⟩
  | some s =>
    obtain ⟨h1, h2⟩ := hr s hs
    dsimp only
    have hq : qSize = 16384 := rfl
    have hms : maxSets = 32 := rfl
    rw [hq] at h2 ⊢
    rw [hms] at h1 ⊢
    rw [if_pos (by omega)]
    refine ⟨_, rfl, rfl, ?_, ?_, ?_⟩
    · intro s'
      dsimp only [upd]
      by_cases h : s' = s
      · subst h; simp
      · simp [h, Ne.symm h]
    · intro s' j hj hle
      dsimp only [upd]
      rw [if_neg]
      intro hc
      have : s' = s := by omega
      subst this; omega
    · intro s' h
      cases h
      simp [upd]

theorem flows_some {p : Proc} {t : Track} (i : Inv p t) {fd : Nat} {id : Nat} (h : t.user.open_ fd = some id) :
    ∃ f, p.flows fd = some f ∧ f.id = id := by
  have := i.openEq fd
  rw [h] at this
  cases hf : p.flows fd with
  | none => rw [hf] at this; simp at this
  | some f => rw [hf] at this; exact ⟨f, rfl, by simpa using this.symm⟩

theorem badFd_eq (fd : Int) : badFd fd = true ↔ fd < 0 ∨ (sysMaxFlows : Int) ≤ fd := by
  unfold badFd; rw [decide_eq_true_eq]

/-- The descriptor argument: rejected, closed, or a flow. -/
theorem fd_cases {p : Proc} {t : Track} (i : Inv p t) {fd : Int} (h : FdOk fd) :
    (badFd fd = true ∧ t.user.open_ fd = none ∧ t.user.set fd = none) ∨
    (badFd fd = false ∧ t.user.open_ fd = none ∧ t.user.set fd = none ∧ flowAt p fd = .ok none) ∨
    ∃ (n : Nat) (f : Flow), fd = n ∧ badFd fd = false ∧ p.flows n = some f ∧ flowAt p fd = .ok (some f) ∧
      t.user.open_ fd = some f.id := by
  have hs : (sysMaxFlows : Int) = 10240 := rfl
  have hp : (progMaxFlows : Int) = 4096 := rfl
  by_cases hb : badFd fd = true
  · left
    have := (badFd_eq fd).mp hb
    have hopen : t.user.open_ fd = none := by
      rcases this with h | h
      · exact i.neg fd h
      · exact i.big fd (by omega)
    exact ⟨hb, hopen, i.setOpen fd hopen⟩
  · right
    have hb' : badFd fd = false := by simpa using hb
    rw [badFd_eq] at hb
    have hlt : fd < progMaxFlows := by
      rcases h with h | h
      · exact h
      · omega
    obtain ⟨n, rfl⟩ : ∃ n : Nat, fd = n := ⟨fd.toNat, by omega⟩
    have hfa : flowAt p n = .ok (p.flows n) := by
      unfold flowAt; rw [if_pos hlt]; simp
    have hoe := i.openEq n
    cases hf : p.flows n with
    | none =>
      left
      rw [hf] at hoe hfa
      exact ⟨hb', hoe, i.setOpen _ hoe, hfa⟩
    | some f =>
      right
      rw [hf] at hoe hfa
      exact ⟨n, f, rfl, hb', hf, hfa, hoe⟩

/-- `fset_has` answers what the user expects. -/
theorem Inv.has {p : Proc} {t : Track} (i : Inv p t) {s : Nat} {fd : Int} (h0 : s ≠ 0) (hs : s < maxSets)
    (hfd : FdOk fd) : fsetHas p s fd = .ok (decide (t.user.set fd = some s)) := by
  unfold fsetHas
  rcases fd_cases i hfd with ⟨hb, _, h2⟩ | ⟨hb, _, h2, h3⟩ | ⟨n, f, rfl, hb, hf, h3, _⟩
  · rw [if_pos hb, h2]; simp
  · rw [hb, h3, h2]; simp
  · rw [hb, h3]
    have hlt := i.idLt n f hf
    have hm := i.member n f hf
    rw [if_neg Bool.false_ne_true, Outcome.bind_ok]
    dsimp only
    unfold shmHas
    rw [if_pos ⟨hlt, hs⟩, Outcome.bind_ok, Outcome.pure_eq]
    refine congrArg Outcome.ok ?_
    cases hset : t.user.set (n : Int) with
    | none =>
      rw [hset] at hm
      rcases hm with hm | ⟨hm, _⟩
      · rw [hm]; simp
      · rw [hm]
        have : ¬ (some 0 = some s) := by simp; omega
        rw [if_neg this]; simp
    | some s' =>
      rw [hset] at hm
      change p.shm.mtable f.id = some s' at hm
      rw [hm]
      by_cases h : some s' = some s
      · rw [if_pos h]; simp [Option.some.inj h]
      · rw [if_neg h]; simp at h; simp [h]

theorem shmDel_eq {m : Shm} {s id : Nat} (hid : id < sysMaxFlows) (hs : s < maxSets) :
    shmDel m s id = .ok (if m.mtable id = some s then { m with mtable := upd m.mtable id none } else m) := by
  unfold shmDel; rw [if_pos ⟨hid, hs⟩]; split <;> rfl

theorem shmAdd_eq {m : Shm} {s id : Nat} (hid : id < sysMaxFlows) (hs : s < maxSets) :
    shmAdd m s id = .ok (if m.mtable id ≠ none then (m, -EPERM)
      else ({ m with mtable := upd m.mtable id (some s) }, 0)) := by
  unfold shmAdd; rw [if_pos ⟨hid, hs⟩]; split <;> rfl

theorem zero_lt_maxSets : 0 < maxSets := by decide

/-- Replacing the membership entry of an open flow. -/
theorem Inv.setEntry {p : Proc} {t : Track} (i : Inv p t) {n : Nat} {f : Flow} (hf : p.flows n = some f)
    {us : Int → Option Nat} {m : Shm} (hm : ∀ id, id ≠ f.id → m.mtable id = p.shm.mtable id)
    (hus : ∀ fd, fd ≠ (n : Int) → us fd = t.user.set fd)
    (hnew : match us n with
      | some s => m.mtable f.id = some s ∧ s ≠ 0 ∧ s < maxSets ∧ t.inUse s = true
      | none => m.mtable f.id = none ∨ (m.mtable f.id = some 0 ∧ f.frct = true))
    (hh : ∀ s, m.heads s ≤ qSize) (hd : ∀ s, t.inUse s = false → m.heads s = 0) :
    Inv { p with shm := m } { t with user := { t.user with set := us } } := by
  have hne : ∀ fd g, p.flows fd = some g → fd ≠ n → g.id ≠ f.id := by
    intro fd g hg hfd hc
    have h1 := (i.link fd f.id).mp (by rw [hg]; simp [hc])
    have h2 := (i.link n f.id).mp (by rw [hf]; simp)
    rw [h1] at h2; exact hfd (Option.some.inj h2)
  have hopenN : t.user.open_ (n : Int) = some f.id := by rw [i.openEq, hf]; rfl
  refine ⟨i.neg, i.big, i.openEq, i.fdOf, i.link, i.idLt, ?_, ?_, ?_, ?_, i.staleUse, i.staleGone, i.sets, i.zeroUse, hh, hd,
    i.fqNext⟩
  · intro fd h
    change us fd = none
    by_cases hfd : fd = (n : Int)
    · subst hfd; change t.user.open_ _ = none at h; rw [hopenN] at h; cases h
    · rw [hus fd hfd]; exact i.setOpen fd h
  · intro fd s h
    change us fd = some s at h
    by_cases hfd : fd = (n : Int)
    · subst hfd; rw [h] at hnew; exact hnew.2
    · rw [hus fd hfd] at h; exact i.setUse fd s h
  · intro fd g hg
    change p.flows fd = some g at hg
    by_cases hfd : fd = n
    · subst hfd
      rw [hf] at hg; cases hg
      change match us (fd : Int) with
        | some s => m.mtable f.id = some s
        | none => _
      cases hu : us (fd : Int) with
      | none => rw [hu] at hnew; exact hnew
      | some s => rw [hu] at hnew; exact hnew.1
    · have := i.member fd g hg
      change match us (fd : Int) with
        | some s => m.mtable g.id = some s
        | none => m.mtable g.id = none ∨ (m.mtable g.id = some 0 ∧ g.frct = true)
      rw [hus fd (by omega), hm g.id (hne fd g hg hfd)]
      exact this
  · intro id h
    change p.idToFd id = none at h
    change m.mtable id = t.stale id
    rw [hm id]
    · exact i.gone id h
    · intro hc
      have := (i.link n f.id).mp (by rw [hf]; rfl)
      rw [hc, this] at h; cases h

/-- `fset_add`: what it returns and does. -/
theorem Inv.add {p : Proc} {t : Track} (i : Inv p t) {s : Nat} {fd : Int} (h0 : s ≠ 0) (hs : s < maxSets)
    (hu : t.inUse s = true) (hfd : FdOk fd) (hroom : p.shm.heads s < qSize) :
    (t.user.open_ fd = none ∧ fsetAdd p s fd = .ok (p, -EINVAL)) ∨
    (t.user.open_ fd ≠ none ∧ t.user.set fd ≠ none ∧ fsetAdd p s fd = .ok (p, -EPERM)) ∨
    (∃ (n : Nat) (f : Flow) (m : Shm), fd = n ∧ p.flows n = some f ∧ t.user.open_ fd = some f.id ∧ t.user.set fd = none ∧
      m.mtable = upd p.shm.mtable f.id (some s) ∧ m.heads = p.shm.heads ∧ m.mem = p.shm.mem ∧
      if p.rx f.id ≠ [] then
        ∃ m', shmNotify m f.id FLOW_PKT = .ok m' ∧ fsetAdd p s fd = .ok ({ p with shm := m' }, 0)
      else fsetAdd p s fd = .ok ({ p with shm := m }, 0)) := by
  unfold fsetAdd
  rcases fd_cases i hfd with ⟨hb, h1, h2⟩ | ⟨hb, h1, h2, h3⟩ | ⟨n, f, rfl, hb, hf, h3, h4⟩
  · left; rw [if_pos hb]; exact ⟨h1, rfl⟩
  · left; rw [hb, h3]; exact ⟨h1, rfl⟩
  · right
    rw [hb, h3]
    have hlt := i.idLt n f hf
    have hmem := i.member n f hf
    rw [if_neg Bool.false_ne_true, Outcome.bind_ok]
    dsimp only
    have hneg : (-EPERM : Int) < 0 := by decide
    cases hset : t.user.set (n : Int) with
    | some s' =>
      left
      rw [hset] at hmem
      change p.shm.mtable f.id = some s' at hmem
      have hs' := i.setUse _ _ hset
      refine ⟨by rw [h4]; simp, by simp, ?_⟩
      have hdel : leaveFrct p.shm f = Outcome.ok p.shm := by
        unfold leaveFrct
        split
        · rw [shmDel_eq hlt zero_lt_maxSets, if_neg]
          rw [hmem]; simp; exact hs'.1
        · rfl
      rw [hdel, Outcome.bind_ok, shmAdd_eq hlt hs, if_pos (by rw [hmem]; simp), Outcome.bind_ok]
      dsimp only
      rw [if_pos hneg]
      rfl
    | none =>
      right
      rw [hset] at hmem
      obtain ⟨m0, hm0, hmt, hmn, hmh, hmm⟩ : ∃ m0 : Shm, leaveFrct p.shm f = Outcome.ok m0 ∧ upd m0.mtable f.id (some s) = upd p.shm.mtable f.id (some s) ∧ m0.mtable f.id = none ∧
          m0.heads = p.shm.heads ∧ m0.mem = p.shm.mem := by
        unfold leaveFrct
        split
        · rw [shmDel_eq hlt zero_lt_maxSets]
          split
          · refine ⟨_, rfl, ?_, by simp, rfl, rfl⟩
            funext x; simp only [upd]; split <;> rfl
          · next hn =>
            refine ⟨_, rfl, rfl, ?_, rfl, rfl⟩
            rcases hmem with h | h
            · exact h
            · exact absurd h.1 hn
        · next hn =>
          refine ⟨_, rfl, rfl, ?_, rfl, rfl⟩
          rcases hmem with h | h
          · exact h
          · exact absurd h.2 hn
      refine ⟨n, f, { m0 with mtable := upd m0.mtable f.id (some s) }, rfl, hf, h4, rfl, hmt, hmh, hmm, ?_⟩
      rw [hm0, Outcome.bind_ok, shmAdd_eq hlt hs, if_neg (c := m0.mtable f.id ≠ none) (by rw [hmn]; simp), Outcome.bind_ok]
      dsimp only
      rw [if_neg (c := (0 : Int) < 0) (by decide)]
      unfold notifyQueued
      by_cases hrx : p.rx f.id ≠ []
      · rw [if_pos hrx, if_pos hrx]
        obtain ⟨m', hm', -⟩ := shmNotify_ok (m := { m0 with mtable := upd m0.mtable f.id (some s) }) (id := f.id)
          (ev := FLOW_PKT) hlt (by
            intro s' h
            dsimp only at h
            rw [upd_same] at h
            cases h
            refine ⟨hs, ?_⟩
            dsimp only
            rw [hmh]; exact hroom)
        refine ⟨m', hm', ?_⟩
        rw [hm']; rfl
      · rw [if_neg hrx, if_neg hrx]; rfl

/-- The bookkeeping after `fset_add`, as far as membership goes. -/
theorem after_add_user (t : Track) (qd : Nat → Bool) (r : Ret) (e : Option Ev) (s : Nat) (fd : Int) :
    (t.after qd r e (.add s fd)).user = Spec.FlowSets.after t.user (.add s fd) ∧
    (t.after qd r e (.add s fd)).inUse = t.inUse ∧ (t.after qd r e (.add s fd)).stale = t.stale := by
  unfold Track.after
  dsimp only
  split
  · exact ⟨rfl, rfl, rfl⟩
  · split
    · have := Track.notified_frame { t with user := Spec.FlowSets.after t.user (.add s fd) } (by assumption) FLOW_PKT
      exact ⟨this.1, this.2.1, this.2.2.1⟩
    · exact ⟨rfl, rfl, rfl⟩

theorem Inv.stepAdd {p : Proc} {t : Track} (i : Inv p t) {s : Nat} {fd : Int} (hv : Valid p t (.add s fd)) :
    ∃ q r, fsetAdd p s fd = .ok (q, r) ∧ ∀ e, Inv q (t.after (queuedOf p) (.int r) e (.add s fd)) := by
  obtain ⟨h0, hs, hu, hfd, hroom⟩ := hv
  rcases i.add h0 hs hu hfd hroom with ⟨h1, h2⟩ | ⟨h1, h2, h3⟩ | ⟨n, f, m, rfl, hf, ho, hset, hm, hh, hmem, hr⟩
  · refine ⟨_, _, h2, fun e => ?_⟩
    obtain ⟨a, b, c⟩ := after_add_user t (queuedOf p) (.int (-EINVAL)) e s fd
    refine i.frame rfl rfl rfl rfl ?_ b c i.heads i.idle i.fqNext
    rw [a]; unfold Spec.FlowSets.after; dsimp only
    rw [if_neg (by simp [h1])]
  · refine ⟨_, _, h3, fun e => ?_⟩
    obtain ⟨a, b, c⟩ := after_add_user t (queuedOf p) (.int (-EPERM)) e s fd
    refine i.frame rfl rfl rfl rfl ?_ b c i.heads i.idle i.fqNext
    rw [a]; unfold Spec.FlowSets.after; dsimp only
    rw [if_neg (by simp [h2])]
  · obtain ⟨m', hm', hmt', hle', hid', hq⟩ : ∃ m' : Shm, fsetAdd p s n = .ok ({ p with shm := m' }, 0) ∧ m'.mtable = m.mtable ∧
        (∀ s, m'.heads s ≤ qSize) ∧ (∀ s, t.inUse s = false → m'.heads s = 0) ∧ True := by
      split at hr
      · obtain ⟨m', h1, h2⟩ := hr
        obtain ⟨m'', g1, g2, g3, -⟩ := shmNotify_ok (m := m) (id := f.id) (ev := FLOW_PKT) (i.idLt n f hf) (by
          intro s' h; rw [hm, upd_same] at h; cases h; exact ⟨hs, by rw [hh]; exact hroom⟩)
        rw [h1] at g1; cases g1
        refine ⟨m', h2, g2, ?_, ?_, trivial⟩
        · intro x
          rw [g3]
          split
          · next h => rw [hm, upd_same] at h; cases h; rw [hh]; exact hroom
          · rw [hh]; exact i.heads x
        · intro x hx
          rw [g3]
          split
          · next h => rw [hm, upd_same] at h; cases h; rw [hu] at hx; cases hx
          · rw [hh]; exact i.idle x hx
      · exact ⟨m, hr, rfl, by rw [hh]; exact i.heads, by rw [hh]; exact i.idle, trivial⟩
    refine ⟨_, _, hm', fun e => ?_⟩
    obtain ⟨a, b, c⟩ := after_add_user t (queuedOf p) (.int 0) e s n
    have hinv := i.setEntry hf (us := fun x => if x = (n : Int) then some s else t.user.set x) (m := m')
      (fun id hid => by rw [hmt', hm, upd_ne _ _ hid]) (fun fd hfd => by simp [hfd]) (by
        simp only [if_true]
        rw [hmt', hm, upd_same]
        exact ⟨rfl, h0, hs, hu⟩) hle' hid'
    refine hinv.frame rfl rfl rfl rfl ?_ b c hinv.heads hinv.idle hinv.fqNext
    rw [a]; unfold Spec.FlowSets.after; dsimp only
    rw [if_pos ⟨by rw [ho]; simp, hset⟩]

theorem Inv.stepDel {p : Proc} {t : Track} (i : Inv p t) {s : Nat} {fd : Int} (hv : Valid p t (.del s fd)) :
    ∃ m, fsetDel p s fd = .ok { p with shm := m } ∧ m.heads = p.shm.heads ∧ m.mem = p.shm.mem ∧
      Inv { p with shm := m } { t with user := Spec.FlowSets.after t.user (.del s fd) } := by
  obtain ⟨h0, hs, hu, hfd⟩ := hv
  unfold fsetDel
  have hsame : t.user.set fd ≠ some s → Spec.FlowSets.after t.user (.del s fd) = t.user := by
    intro h
    unfold Spec.FlowSets.after
    have : (fun x => if x = fd ∧ t.user.set x = some s then none else t.user.set x) = t.user.set := by
      funext x
      split
      · next hx => rw [hx.1] at hx; exact absurd hx.2 h
      · rfl
    simp only [this]
  rcases fd_cases i hfd with ⟨hb, h1, h2⟩ | ⟨hb, h1, h2, h3⟩ | ⟨n, f, rfl, hb, hf, h3, h4⟩
  · rw [if_pos hb]
    exact ⟨p.shm, rfl, rfl, rfl, by rw [hsame (by simp [h2])]; exact i⟩
  · rw [hb, h3]
    exact ⟨p.shm, rfl, rfl, rfl, by rw [hsame (by simp [h2])]; exact i⟩
  · rw [hb, h3, if_neg Bool.false_ne_true, Outcome.bind_ok]
    dsimp only
    have hlt := i.idLt n f hf
    have hmem := i.member n f hf
    rw [shmDel_eq hlt hs, Outcome.bind_ok]
    have hj : ∀ m : Shm, joinFrct m f = .ok (if f.frct = true ∧ m.mtable f.id = none then
        { m with mtable := upd m.mtable f.id (some 0) } else m) := by
      intro m
      unfold joinFrct
      by_cases hfr : f.frct = true
      · rw [if_pos hfr, shmAdd_eq hlt zero_lt_maxSets]
        by_cases hn : m.mtable f.id = none
        · rw [if_pos (c := f.frct = true ∧ m.mtable f.id = none) ⟨hfr, hn⟩, if_neg (by simp [hn])]; rfl
        · rw [if_neg (c := f.frct = true ∧ m.mtable f.id = none) (by simp [hn]), if_pos hn]; rfl
      · rw [if_neg hfr, if_neg (by simp [hfr])]
    rw [hj, Outcome.bind_ok]
    by_cases hset : t.user.set (n : Int) = some s
    · rw [hset] at hmem
      change p.shm.mtable f.id = some s at hmem
      rw [if_pos (c := p.shm.mtable f.id = some s) hmem]
      refine ⟨_, rfl, ?_, ?_, ?_⟩
      · split <;> rfl
      · split <;> rfl
      · unfold Spec.FlowSets.after
        refine i.setEntry hf ?_ ?_ ?_ ?_ ?_
        · intro id hid
          split <;> simp [upd, hid]
        · intro fd hfd; simp [hfd]
        · simp only [hset, and_self, if_true]
          split
          · next h => right; exact ⟨by simp, h.1⟩
          · left; simp
        · split <;> exact i.heads
        · split <;> exact i.idle
    · rw [hsame hset]
      cases hc : t.user.set (n : Int) with
      | some s' =>
        rw [hc] at hmem
        change p.shm.mtable f.id = some s' at hmem
        have hss : s' ≠ s := fun h => hset (by rw [hc, h])
        rw [if_neg (c := p.shm.mtable f.id = some s) (by rw [hmem]; simpa using hss), if_neg (by simp [hmem])]
        exact ⟨p.shm, rfl, rfl, rfl, i⟩
      | none =>
        rw [hc] at hmem
        have hns : ¬ p.shm.mtable f.id = some s := by
          rcases hmem with h | h
          · simp [h]
          · rw [h.1]; simpa using Ne.symm h0
        rw [if_neg (c := p.shm.mtable f.id = some s) hns]
        refine ⟨_, rfl, ?_, ?_, ?_⟩
        · split <;> rfl
        · split <;> rfl
        · refine i.setEntry (us := t.user.set) hf ?_ (fun _ _ => rfl) ?_ ?_ ?_
          · intro id hid
            split <;> simp [upd, hid]
          · rw [hc]
            dsimp only
            split
            · next h => right; exact ⟨by simp, h.1⟩
            · exact hmem
          · split <;> exact i.heads
          · split <;> exact i.idle

theorem Inv.stepZero {p : Proc} {t : Track} (i : Inv p t) {s : Nat} (h0 : s ≠ 0) (hs : s < maxSets) :
    ∃ m, fsetZero p s = .ok { p with shm := m } ∧ m.heads = upd p.shm.heads s 0 ∧ m.mem = p.shm.mem ∧
      Inv { p with shm := m } (t.zeroed s) ∧ ∀ id, m.mtable id ≠ some s := by
  have hlt : ∀ id, p.shm.mtable id = some s → id < sysMaxFlows := by
    intro id h
    cases hid : p.idToFd id with
    | none => rw [i.gone id hid] at h; exact (i.staleUse id s h).1
    | some fd =>
      have hl := (i.link fd id).mpr hid
      cases hf : p.flows fd with
      | none => rw [hf] at hl; cases hl
      | some f =>
        rw [hf] at hl
        have := i.idLt fd f hf
        have hh : f.id = id := by simpa using hl
        rwa [hh] at this
  have hmt : (fun j => if j < sysMaxFlows ∧ p.shm.mtable j = some s then none else p.shm.mtable j) =
      fun j => if p.shm.mtable j = some s then none else p.shm.mtable j := by
    funext j
    by_cases h : p.shm.mtable j = some s
    · simp [h, hlt j h]
    · simp [h]
  unfold fsetZero shmZero
  rw [if_pos hs, Outcome.bind_ok, hmt]
  refine ⟨_, rfl, rfl, rfl, ?_, ?_⟩
  · refine ⟨i.neg, i.big, i.openEq, i.fdOf, i.link, i.idLt, ?_, ?_, ?_, ?_, ?_, ?_, i.sets, i.zeroUse, ?_, ?_, i.fqNext⟩
    · intro fd h
      change (if t.user.set fd = some s then none else t.user.set fd) = none
      rw [i.setOpen fd h]; simp
    · intro fd s' h
      change (if t.user.set fd = some s then none else t.user.set fd) = some s' at h
      split at h
      · cases h
      · exact i.setUse fd s' h
    · intro fd f hf
      have := i.member fd f hf
      change match (if t.user.set (fd : Int) = some s then none else t.user.set fd) with
        | some s' => (if p.shm.mtable f.id = some s then none else p.shm.mtable f.id) = some s'
        | none => (if p.shm.mtable f.id = some s then none else p.shm.mtable f.id) = none ∨
            ((if p.shm.mtable f.id = some s then none else p.shm.mtable f.id) = some 0 ∧ f.frct = true)
      cases hc : t.user.set (fd : Int) with
      | none =>
        rw [hc] at this
        simp only [reduceCtorEq, if_false]
        rcases this with h | ⟨h, g⟩
        · left; rw [h]; simp
        · right; rw [h]; simp [Ne.symm h0, g]
      | some s' =>
        rw [hc] at this
        change p.shm.mtable f.id = some s' at this
        by_cases hss : s' = s
        · subst hss; simp [this]
        · simp only [this, Option.some.injEq, hss, if_false]
    · intro id h
      change (if p.shm.mtable id = some s then none else p.shm.mtable id) =
        if t.stale id = some s then none else t.stale id
      rw [i.gone id h]
    · intro id s' h
      change (if t.stale id = some s then none else t.stale id) = some s' at h
      split at h
      · cases h
      · exact i.staleUse id s' h
    · intro id h
      change (if t.stale id = some s then none else t.stale id) = none
      rw [i.staleGone id h]; simp
    · intro x
      change upd p.shm.heads s 0 x ≤ _
      unfold upd; split
      · omega
      · exact i.heads x
    · intro x hx
      change upd p.shm.heads s 0 x = 0
      unfold upd; split
      · rfl
      · exact i.idle x hx
  · intro id
    dsimp only
    split
    · simp
    · assumption

theorem Inv.stepInit {p : Proc} {t : Track} (i : Inv p t) {fd id : Nat} {frct : Bool}
    (hv : Valid p t (.flowInit fd id frct)) :
    ∃ q, flowInit p fd id frct = .ok (q, true) ∧ q.shm.heads = p.shm.heads ∧ q.shm.mem = p.shm.mem ∧ q.fq = p.fq ∧
      q.idToFd = upd p.idToFd id (some fd) ∧ q.flows = upd p.flows fd (some ⟨id, frct⟩) ∧
      Inv q { t with user := Spec.FlowSets.after t.user (.opened fd id) } := by
  obtain ⟨hfd, hid, hop, hof, hst⟩ := hv
  have hno : p.idToFd id = none := by
    have := i.fdOf id
    rw [hof] at this
    cases h : p.idToFd id with
    | none => rfl
    | some x => rw [h] at this; cases this
  have hmt : p.shm.mtable id = none := by rw [i.gone id hno, hst]
  have hnf : p.flows fd = none := by
    have := i.openEq fd
    rw [hop] at this
    cases h : p.flows fd with
    | none => rfl
    | some x => rw [h] at this; cases this
  have hset : t.user.set (fd : Int) = none := i.setOpen _ hop
  -- the new process with either membership
  have key : ∀ m : Shm, (∀ j, j ≠ id → m.mtable j = p.shm.mtable j) →
      (m.mtable id = none ∨ (m.mtable id = some 0 ∧ frct = true)) → m.heads = p.shm.heads →
      Inv { p with flows := upd p.flows fd (some ⟨id, frct⟩), idToFd := upd p.idToFd id (some fd),
                   ready := upd p.ready id false, rx := upd p.rx id [], shm := m }
        { t with user := Spec.FlowSets.after t.user (.opened fd id) } := by
    intro m hm1 hm2 hm3
    refine ⟨?_, ?_, ?_, ?_, ?_, ?_, ?_, ?_, ?_, ?_, i.staleUse, ?_, i.sets, i.zeroUse, ?_, ?_, i.fqNext⟩
    · intro x hx
      change (if x = (fd : Int) then some id else t.user.open_ x) = none
      rw [if_neg (by omega)]; exact i.neg x hx
    · intro x hx
      change (if x = (fd : Int) then some id else t.user.open_ x) = none
      rw [if_neg (by omega)]; exact i.big x hx
    · intro x
      change (if (x : Int) = (fd : Int) then some id else t.user.open_ x) = (upd p.flows fd (some ⟨id, frct⟩) x).map Flow.id
      by_cases h : x = fd
      · subst h; simp
      · rw [if_neg (by omega), upd_ne _ _ h]; exact i.openEq x
    · intro j
      change (if j = id then some (fd : Int) else t.user.fdOf j) = (upd p.idToFd id (some fd) j).map _
      by_cases h : j = id
      · subst h; simp
      · rw [if_neg h, upd_ne _ _ h]; exact i.fdOf j
    · intro x j
      change (upd p.flows fd (some ⟨id, frct⟩) x).map Flow.id = some j ↔ upd p.idToFd id (some fd) j = some x
      by_cases h1 : x = fd
      · subst h1
        rw [upd_same]
        by_cases h2 : j = id
        · subst h2; simp
        · rw [upd_ne _ _ h2, ← i.link x j, hnf]
          simp [Ne.symm h2]
      · rw [upd_ne _ _ h1]
        by_cases h2 : j = id
        · subst h2
          rw [upd_same, i.link x j, hno]
          simp [Ne.symm h1]
        · rw [upd_ne _ _ h2]; exact i.link x j
    · intro x f h
      change upd p.flows fd (some ⟨id, frct⟩) x = some f at h
      by_cases h1 : x = fd
      · subst h1; rw [upd_same] at h; cases h; exact hid
      · rw [upd_ne _ _ h1] at h; exact i.idLt x f h
    · intro x h
      change (if x = (fd : Int) then some id else t.user.open_ x) = none at h
      change (if x = (fd : Int) then none else t.user.set x) = none
      split at h
      · cases h
      · next hx => rw [if_neg hx]; exact i.setOpen x h
    · intro x s h
      change (if x = (fd : Int) then none else t.user.set x) = some s at h
      split at h
      · cases h
      · exact i.setUse x s h
    · intro x f h
      change upd p.flows fd (some ⟨id, frct⟩) x = some f at h
      change match (if (x : Int) = (fd : Int) then none else t.user.set x) with
        | some s => m.mtable f.id = some s
        | none => m.mtable f.id = none ∨ (m.mtable f.id = some 0 ∧ f.frct = true)
      by_cases h1 : x = fd
      · subst h1; rw [upd_same] at h; cases h
        simp only [if_true]; exact hm2
      · rw [upd_ne _ _ h1] at h
        rw [if_neg (by omega)]
        have hne : f.id ≠ id := by
          intro hc
          have := (i.link x id).mp (by rw [h]; simp [hc])
          rw [hno] at this; cases this
        rw [hm1 _ hne]
        exact i.member x f h
    · intro j h
      change upd p.idToFd id (some fd) j = none at h
      have h2 : j ≠ id := by rintro rfl; rw [upd_same] at h; cases h
      rw [upd_ne _ _ h2] at h
      change m.mtable j = _
      rw [hm1 j h2]; exact i.gone j h
    · intro j h
      change upd p.idToFd id (some fd) j ≠ none at h
      by_cases h2 : j = id
      · subst h2; exact hst
      · rw [upd_ne _ _ h2] at h; exact i.staleGone j h
    · intro s; change m.heads s ≤ _; rw [hm3]; exact i.heads s
    · intro s hs; change m.heads s = 0; rw [hm3]; exact i.idle s hs
  unfold flowInit
  by_cases hfr : frct = true
  · dsimp only
    rw [if_pos hfr, shmAdd_eq hid zero_lt_maxSets, if_neg (by simp [hmt]), Outcome.bind_ok]
    dsimp only
    rw [if_neg (by decide)]
    exact ⟨_, rfl, rfl, rfl, rfl, rfl, rfl, key _ (fun j hj => upd_ne _ _ hj) (.inr ⟨upd_same _ _ _, hfr⟩) rfl⟩
  · dsimp only
    rw [if_neg hfr]
    exact ⟨_, rfl, rfl, rfl, rfl, rfl, rfl, key _ (fun _ _ => rfl) (.inl hmt) rfl⟩

theorem Inv.stepFini {p : Proc} {t : Track} (i : Inv p t) (fd : Nat) (qd : Nat → Bool) (r : Ret) (e : Option Ev) :
    ∃ q, flowFini p fd = .ok q ∧ q.shm.heads = p.shm.heads ∧ q.shm.mem = p.shm.mem ∧ q.fq = p.fq ∧
      (q = p ∨ ∃ f, p.flows fd = some f ∧ q.idToFd = upd p.idToFd f.id none ∧ q.flows = upd p.flows fd none) ∧
      Inv q (t.after qd r e (.flowFini fd)) := by
  unfold flowFini Track.after
  dsimp only
  have hoe := i.openEq fd
  cases hf : p.flows fd with
  | none =>
    rw [hf] at hoe
    rw [hoe]
    exact ⟨p, rfl, rfl, rfl, rfl, .inl rfl, i⟩
  | some f =>
    rw [hf] at hoe
    rw [hoe]
    have hlt := i.idLt fd f hf
    have hmem := i.member fd f hf
    have hlnk := (i.link fd f.id).mp (by rw [hf]; rfl)
    obtain ⟨m, hm, hmh, hmm, hme, hmo⟩ : ∃ m, leaveFrct p.shm f = .ok m ∧ m.heads = p.shm.heads ∧ m.mem = p.shm.mem ∧
        m.mtable f.id = t.user.set (fd : Int) ∧ ∀ j, j ≠ f.id → m.mtable j = p.shm.mtable j := by
      unfold leaveFrct
      by_cases hfr : f.frct = true
      · rw [if_pos hfr, shmDel_eq hlt zero_lt_maxSets]
        refine ⟨_, rfl, ?_, ?_, ?_, ?_⟩
        · split <;> rfl
        · split <;> rfl
        · cases hc : t.user.set (fd : Int) with
          | none =>
            rw [hc] at hmem
            rcases hmem with h | h
            · simp [h]
            · simp [h.1]
          | some s =>
            have := i.setUse _ _ hc
            rw [hc] at hmem
            change p.shm.mtable f.id = some s at hmem
            rw [if_neg (by rw [hmem]; simpa using this.1)]
            exact hmem
        · intro j hj
          split
          · exact upd_ne _ _ hj
          · rfl
      · rw [if_neg hfr]
        refine ⟨_, rfl, rfl, rfl, ?_, fun _ _ => rfl⟩
        cases hc : t.user.set (fd : Int) with
        | none =>
          rw [hc] at hmem
          rcases hmem with h | h
          · exact h
          · exact absurd h.2 hfr
        | some s => rw [hc] at hmem; exact hmem
    dsimp only
    rw [hm, Outcome.bind_ok]
    refine ⟨_, rfl, hmh, hmm, rfl, .inr ⟨f, rfl, rfl, rfl⟩, ?_⟩
    have hfdOf : ∀ j, t.user.fdOf j = some (fd : Int) ↔ j = f.id := by
      intro j
      rw [i.fdOf j]
      constructor
      · intro h
        cases hj : p.idToFd j with
        | none => rw [hj] at h; cases h
        | some x =>
          rw [hj] at h
          have hx : x = fd := by simpa using h
          subst hx
          have := (i.link x j).mpr hj
          rw [hf] at this
          simpa using this.symm
      · rintro rfl; rw [hlnk]; rfl
    refine ⟨?_, ?_, ?_, ?_, ?_, ?_, ?_, ?_, ?_, ?_, ?_, ?_, i.sets, i.zeroUse, ?_, ?_, i.fqNext⟩
    · intro x hx
      change (if x = (fd : Int) then none else t.user.open_ x) = none
      split
      · rfl
      · exact i.neg x hx
    · intro x hx
      change (if x = (fd : Int) then none else t.user.open_ x) = none
      split
      · rfl
      · exact i.big x hx
    · intro x
      change (if (x : Int) = (fd : Int) then none else t.user.open_ x) = (upd p.flows fd none x).map Flow.id
      by_cases h : x = fd
      · subst h; simp
      · rw [if_neg (by omega), upd_ne _ _ h]; exact i.openEq x
    · intro j
      change (if t.user.fdOf j = some (fd : Int) then none else t.user.fdOf j) = (upd p.idToFd f.id none j).map _
      by_cases h : j = f.id
      · rw [if_pos ((hfdOf j).mpr h), h, upd_same]; rfl
      · rw [if_neg (fun hc => h ((hfdOf j).mp hc)), upd_ne _ _ h]; exact i.fdOf j
    · intro x j
      change (upd p.flows fd none x).map Flow.id = some j ↔ upd p.idToFd f.id none j = some x
      by_cases h1 : x = fd
      · subst h1
        rw [upd_same]
        by_cases h2 : j = f.id
        · subst h2; simp
        · rw [upd_ne _ _ h2, ← i.link x j, hf]
          simp [Ne.symm h2]
      · rw [upd_ne _ _ h1]
        by_cases h2 : j = f.id
        · subst h2
          rw [upd_same, i.link, hlnk]
          simp [Ne.symm h1]
        · rw [upd_ne _ _ h2]; exact i.link x j
    · intro x g h
      change upd p.flows fd none x = some g at h
      by_cases h1 : x = fd
      · subst h1; rw [upd_same] at h; cases h
      · rw [upd_ne _ _ h1] at h; exact i.idLt x g h
    · intro x h
      change (if x = (fd : Int) then none else t.user.open_ x) = none at h
      change (if x = (fd : Int) then none else t.user.set x) = none
      split at h
      · next hx => rw [if_pos hx]
      · next hx => rw [if_neg hx]; exact i.setOpen x h
    · intro x s h
      change (if x = (fd : Int) then none else t.user.set x) = some s at h
      split at h
      · cases h
      · exact i.setUse x s h
    · intro x g h
      change upd p.flows fd none x = some g at h
      change match (if (x : Int) = (fd : Int) then none else t.user.set x) with
        | some s => m.mtable g.id = some s
        | none => m.mtable g.id = none ∨ (m.mtable g.id = some 0 ∧ g.frct = true)
      have h1 : x ≠ fd := by rintro rfl; rw [upd_same] at h; cases h
      rw [upd_ne _ _ h1] at h
      rw [if_neg (by omega)]
      have hne : g.id ≠ f.id := by
        intro hc
        have := (i.link x f.id).mp (by rw [h]; simp [hc])
        rw [hlnk] at this; exact h1 (Option.some.inj this).symm
      rw [hmo _ hne]
      exact i.member x g h
    · intro j h
      change upd p.idToFd f.id none j = none at h
      change m.mtable j = upd t.stale f.id (t.user.set fd) j
      by_cases h2 : j = f.id
      · subst h2; rw [upd_same]; exact hme
      · rw [upd_ne _ _ h2] at h ⊢
        rw [hmo j h2]; exact i.gone j h
    · intro j s h
      change upd t.stale f.id (t.user.set fd) j = some s at h
      by_cases h2 : j = f.id
      · subst h2; rw [upd_same] at h
        exact ⟨hlt, i.setUse _ _ h⟩
      · rw [upd_ne _ _ h2] at h; exact i.staleUse j s h
    · intro j h
      change upd p.idToFd f.id none j ≠ none at h
      change upd t.stale f.id (t.user.set fd) j = none
      have h2 : j ≠ f.id := by rintro rfl; rw [upd_same] at h; exact h rfl
      rw [upd_ne _ _ h2] at h ⊢; exact i.staleGone j h
    · intro s; change m.heads s ≤ _; rw [hmh]; exact i.heads s
    · intro s hs; change m.heads s = 0; rw [hmh]; exact i.idle s hs

/-- Same process up to the receive side of flows. -/
def SameSets (p q : Proc) : Prop :=
  q.flows = p.flows ∧ q.idToFd = p.idToFd ∧ q.sets = p.sets ∧ q.shm = p.shm ∧ q.fq = p.fq

theorem filter_ok : ∀ (es : List Ev) (p : Proc) (n : Nat),
    (∀ id fd, p.idToFd id = some fd → p.flows fd ≠ none) →
    ∃ q n' r, filter p es n = .ok (q, n', r) ∧ SameSets p q ∧ n ≤ n' ∧ n' ≤ n + es.length ∧ (r = true → n' < n + es.length)
  | [], p, n, _ => ⟨p, n, false, rfl, ⟨rfl, rfl, rfl, rfl, rfl⟩, Nat.le_refl _, Nat.le_add_right _ _, by simp⟩
  | e :: es, p, n, h => by
    have stop : ∀ (q : Proc) (r : Bool), SameSets p q → ∃ q' n' r', (Outcome.ok (q, n, r) : Outcome (Proc × Nat × Bool)) =
        .ok (q', n', r') ∧ SameSets p q' ∧ n ≤ n' ∧ n' ≤ n + (e :: es).length ∧ (r' = true → n' < n + (e :: es).length) :=
      fun q r hq => ⟨q, n, r, rfl, hq, Nat.le_refl _, Nat.le_add_right _ _, fun _ => by simp⟩
    have same : SameSets p p := ⟨rfl, rfl, rfl, rfl, rfl⟩
    have go : ∀ q : Proc, SameSets p q → ∃ q' n' r', filter q es (n + 1) = .ok (q', n', r') ∧ SameSets p q' ∧ n ≤ n' ∧
        n' ≤ n + (e :: es).length ∧ (r' = true → n' < n + (e :: es).length) := by
      intro q hq
      obtain ⟨q', n', r, h1, h2, h3, h4, h5⟩ := filter_ok es q (n + 1) (by rw [hq.1, hq.2.1]; exact h)
      refine ⟨q', n', r, h1, ?_, by omega, by simp only [List.length_cons]; omega, ?_⟩
      · obtain ⟨a1, a2, a3, a4, a5⟩ := hq
        obtain ⟨b1, b2, b3, b4, b5⟩ := h2
        exact ⟨b1.trans a1, b2.trans a2, b3.trans a3, b4.trans a4, b5.trans a5⟩
      · intro hr; have := h5 hr; simp only [List.length_cons]; omega
    unfold filter
    split
    · exact stop p true same
    · split
      · exact go p same
      · next fd hfd =>
        split
        · next hf => exact absurd hf (h _ _ hfd)
        · split
          · exact stop p true same
          · split
            · exact stop p true same
            · split
              · exact stop p false same
              · exact stop _ false ⟨rfl, rfl, rfl, rfl, rfl⟩
              · exact stop _ true ⟨rfl, rfl, rfl, rfl, rfl⟩
              · exact go _ ⟨rfl, rfl, rfl, rfl, rfl⟩

theorem Inv.linked {p : Proc} {t : Track} (i : Inv p t) : ∀ id fd, p.idToFd id = some fd → p.flows fd ≠ none := by
  intro id fd h hc
  have := (i.link fd id).mpr h
  rw [hc] at this; cases this

theorem fqueueFilter_ok {p : Proc} (hl : ∀ id fd, p.idToFd id = some fd → p.flows fd ≠ none) (s : Nat)
    (hn : (p.fq s).next ≤ (p.fq s).evs.length) :
    ∃ q n' r, fqueueFilter p s = .ok (q, r) ∧ q.flows = p.flows ∧ q.idToFd = p.idToFd ∧ q.sets = p.sets ∧ q.shm = p.shm ∧
      q.fq = upd p.fq s { p.fq s with next := n' } ∧ (p.fq s).next ≤ n' ∧ n' ≤ (p.fq s).evs.length ∧
      (r = true → n' < (p.fq s).evs.length) := by
  obtain ⟨q, n', r, h1, ⟨a1, a2, a3, a4, a5⟩, h3, h4, h5⟩ := filter_ok ((p.fq s).evs.drop (p.fq s).next) p (p.fq s).next hl
  rw [List.length_drop] at h4 h5
  refine ⟨{ q with fq := upd q.fq s { q.fq s with next := n' } }, n', r, ?_, a1, a2, a3, a4, by dsimp only; rw [a5], h3,
    by omega, fun hr => by have := h5 hr; omega⟩
  unfold fqueueFilter
  rw [h1]; rfl

theorem Inv.stepFevent {p : Proc} {t : Track} (i : Inv p t) {s : Nat} (hs : s < maxSets) :
    ∃ q r, fevent p s = .ok (q, r) ∧ Inv q t := by
  unfold fevent
  dsimp only
  split
  · exact ⟨p, _, rfl, i⟩
  · unfold shmWait
    rw [if_pos hs]
    split
    · rw [Outcome.bind_ok]
      refine ⟨_, _, rfl, i.frame rfl rfl rfl rfl rfl rfl rfl i.heads i.idle ?_⟩
      intro x
      dsimp only [upd]
      split
      · next hx => subst hx; exact i.fqNext x
      · exact i.fqNext x
    · rw [if_pos (i.heads s), Outcome.bind_ok]
      dsimp only
      obtain ⟨q, n', r, h1, h2, h3, h4, h5, h6, h7, h8, h9⟩ := fqueueFilter_ok (p := { p with
          shm := { p.shm with heads := upd p.shm.heads s 0 },
          fq := upd p.fq s { evs := (List.range (p.shm.heads s)).map fun j => p.shm.mem (qSize * s + j), next := 0,
                             looping := false } }) i.linked s (by dsimp only; rw [upd_same]; exact Nat.zero_le _)
      rw [h1, Outcome.bind_ok]
      have base : Inv q t := by
        refine i.frame h2 h3 h4 (by rw [h5]) rfl rfl rfl ?_ ?_ ?_
        · intro x
          rw [h5]; dsimp only [upd]; split
          · exact Nat.zero_le _
          · exact i.heads x
        · intro x hx
          rw [h5]; dsimp only [upd]; split
          · rfl
          · exact i.idle x hx
        · intro x
          rw [h6]
          by_cases hx : x = s
          · subst hx; rw [upd_same]; exact h8
          · rw [upd_ne _ _ hx]; dsimp only; rw [upd_ne _ _ hx]; exact i.fqNext x
      dsimp only
      split
      · exact ⟨_, _, rfl, base⟩
      · refine ⟨_, _, rfl, base.frame rfl rfl rfl rfl rfl rfl rfl base.heads base.idle ?_⟩
        intro x
        dsimp only
        by_cases hx : x = s
        · subst hx; rw [upd_same]; exact base.fqNext x
        · rw [upd_ne _ _ hx]; exact base.fqNext x

theorem Inv.stepNext {p : Proc} {t : Track} (i : Inv p t) (s : Nat) :
    ∃ q r e, fqueueNext p s = .ok (q, r, e) ∧ Inv q t := by
  unfold fqueueNext
  dsimp only
  split
  · exact ⟨p, _, _, rfl, i⟩
  · next hne =>
    have hn := i.fqNext s
    obtain ⟨q, n', r, h1, h2, h3, h4, h5, h6, h7, h8, h9⟩ : ∃ q n' r, filterNext p s = .ok (q, r) ∧ q.flows = p.flows ∧
        q.idToFd = p.idToFd ∧ q.sets = p.sets ∧ q.shm = p.shm ∧ q.fq = upd p.fq s { p.fq s with next := n' } ∧
        (p.fq s).next ≤ n' ∧ n' ≤ (p.fq s).evs.length ∧ (r = true → n' < (p.fq s).evs.length) := by
      unfold filterNext
      split
      · exact fqueueFilter_ok i.linked s (i.fqNext s)
      · refine ⟨p, (p.fq s).next, true, rfl, rfl, rfl, rfl, rfl, ?_, Nat.le_refl _, hn, fun _ => by omega⟩
        funext x; dsimp only [upd]; split
        · next hx => subst hx; rfl
        · rfl
    rw [h1, Outcome.bind_ok]
    have base : Inv q t := by
      refine i.frame h2 h3 h4 (by rw [h5]) rfl rfl rfl (by rw [h5]; exact i.heads) (by rw [h5]; exact i.idle) ?_
      intro x
      rw [h6]
      by_cases hx : x = s
      · subst hx; rw [upd_same]; exact h8
      · rw [upd_ne _ _ hx]; exact i.fqNext x
    dsimp only
    split
    · exact ⟨_, _, _, rfl, base⟩
    · next hr =>
      have hlt := h9 (by simpa using hr)
      have hq : (q.fq s) = { p.fq s with next := n' } := by rw [h6, upd_same]
      have hrd : rd (q.fq s).evs (q.fq s).next = .ok ((p.fq s).evs[n']) := by
        rw [hq]; unfold rd; dsimp only; rw [List.getElem?_eq_getElem hlt]
      rw [hrd, Outcome.bind_ok]
      refine ⟨_, _, _, rfl, base.frame rfl rfl rfl rfl rfl rfl rfl base.heads base.idle ?_⟩
      intro x
      dsimp only
      by_cases hx : x = s
      · subst hx; rw [upd_same, hq]; exact hlt
      · rw [upd_ne _ _ hx]; exact base.fqNext x

theorem Inv.room {p : Proc} {t : Track} (i : Inv p t) {id : Nat} (h : Room p id) :
    ∀ s, p.shm.mtable id = some s → s < maxSets ∧ p.shm.heads s < qSize := by
  intro s hs
  unfold Room at h
  rw [hs] at h
  exact ⟨(i.mtable_use hs).1, h⟩

/-- No valid operation runs into undefined behaviour, and the bookkeeping stays in step. -/
theorem Inv.step {p : Proc} {t : Track} (i : Inv p t) (o : Op) (hv : Valid p t o) :
    ∃ q r e, step p o = .ok (q, r, e) ∧ Inv q (t.after (queuedOf p) r e o) := by
  cases o with
  | create s =>
    refine ⟨_, _, _, rfl, ?_⟩
    have hne : ∀ x, t.inUse x = true → x ≠ s := by
      intro x hx hc; subst hc; rw [hv.2] at hx; cases hx
    refine ⟨i.neg, i.big, i.openEq, i.fdOf, i.link, i.idLt, i.setOpen, ?_, i.member, i.gone, ?_, i.staleGone, ?_, ?_, i.heads,
      ?_, ?_⟩
    · intro fd s' h
      obtain ⟨a, b, c⟩ := i.setUse fd s' h
      exact ⟨a, b, by change upd t.inUse s true s' = true; rw [upd_ne _ _ (hne s' c)]; exact c⟩
    · intro fd s' h
      obtain ⟨a, b, c, d⟩ := i.staleUse fd s' h
      exact ⟨a, b, c, by change upd t.inUse s true s' = true; rw [upd_ne _ _ (hne s' d)]; exact d⟩
    · change upd p.sets s true = upd t.inUse s true
      rw [i.sets]
    · change upd t.inUse s true 0 = true
      rw [upd_ne _ _ (hne 0 i.zeroUse)]; exact i.zeroUse
    · intro x hx
      change upd t.inUse s true x = false at hx
      have hxs : x ≠ s := by rintro rfl; rw [upd_same] at hx; cases hx
      rw [upd_ne _ _ hxs] at hx; exact i.idle x hx
    · intro x
      change (upd p.fq s fqCreate x).next ≤ (upd p.fq s fqCreate x).evs.length
      by_cases hx : x = s
      · subst hx; rw [upd_same]; exact Nat.le_refl _
      · rw [upd_ne _ _ hx]; exact i.fqNext x
  | destroy s =>
    obtain ⟨m, h1, h2, h3, h4, h5⟩ := i.stepZero hv.1 hv.2.1
    refine ⟨{ p with shm := m, sets := upd p.sets s false }, _, _, by
      change (fsetDestroy p s >>= _) = _
      unfold fsetDestroy; rw [h1]; rfl, ?_⟩
    refine ⟨h4.neg, h4.big, h4.openEq, h4.fdOf, h4.link, h4.idLt, h4.setOpen, ?_, h4.member, h4.gone, ?_, h4.staleGone, ?_, ?_,
      h4.heads, ?_, h4.fqNext⟩
    · intro fd s' h
      obtain ⟨a, b, c⟩ := h4.setUse fd s' h
      refine ⟨a, b, ?_⟩
      change upd t.inUse s false s' = true
      rw [upd_ne]
      · exact c
      · rintro rfl
        change (if t.user.set fd = some s' then none else t.user.set fd) = some s' at h
        split at h
        · cases h
        · contradiction
    · intro id s' h
      obtain ⟨a, b, c, d⟩ := h4.staleUse id s' h
      refine ⟨a, b, c, ?_⟩
      change upd t.inUse s false s' = true
      rw [upd_ne]
      · exact d
      · rintro rfl
        change (if t.stale id = some s' then none else t.stale id) = some s' at h
        split at h
        · cases h
        · contradiction
    · change upd p.sets s false = upd t.inUse s false
      rw [i.sets]
    · change upd t.inUse s false 0 = true
      rw [upd_ne _ _ (Ne.symm hv.1)]; exact i.zeroUse
    · intro x hx
      change upd t.inUse s false x = false at hx
      change m.heads x = 0
      by_cases hxs : x = s
      · subst hxs; rw [h2, upd_same]
      · rw [upd_ne _ _ hxs] at hx
        exact h4.idle x hx
  | zero s =>
    obtain ⟨m, h1, h2, h3, h4, h5⟩ := i.stepZero hv.1 hv.2.1
    exact ⟨_, _, _, by change (fsetZero p s >>= _) = _; rw [h1]; rfl, h4⟩
  | add s fd =>
    obtain ⟨q, r, h1, h2⟩ := i.stepAdd hv
    exact ⟨q, .int r, none, by change (fsetAdd p s fd >>= _) = _; rw [h1]; rfl, h2 _⟩
  | del s fd =>
    obtain ⟨m, h1, h2, h3, h4⟩ := i.stepDel hv
    exact ⟨_, _, _, by change (fsetDel p s fd >>= _) = _; rw [h1]; rfl, h4⟩
  | has s fd =>
    have := i.has hv.1 hv.2.1 hv.2.2.2
    exact ⟨_, _, _, by change (fsetHas p s fd >>= _) = _; rw [this]; rfl, i⟩
  | flowInit fd id frct =>
    obtain ⟨q, h1, h2, h3, h4, h5, h6, h7⟩ := i.stepInit hv
    refine ⟨q, .bool true, none, by change (flowInit p fd id frct >>= _) = _; rw [h1]; rfl, ?_⟩
    unfold Track.after
    dsimp only
    rw [if_pos rfl]; exact h7
  | flowFini fd =>
    obtain ⟨q, h1, h2, h3, h4, h5, h6⟩ := i.stepFini fd (queuedOf p) .unit none
    exact ⟨q, .unit, none, by change (flowFini p fd >>= _) = _; rw [h1]; rfl, h6⟩
  | push id k => exact ⟨_, _, _, rfl, i.frame rfl rfl rfl rfl rfl rfl rfl i.heads i.idle i.fqNext⟩
  | read id => exact ⟨_, _, _, rfl, i.frame rfl rfl rfl rfl rfl rfl rfl i.heads i.idle i.fqNext⟩
  | notify id ev =>
    obtain ⟨m, h1, h2, h3, h4, h5⟩ := shmNotify_ok (m := p.shm) (ev := ev) hv.1 (i.room hv.2.1)
    refine ⟨{ p with shm := m }, .unit, none, by change (shmNotify p.shm id ev >>= _) = _; rw [h1]; rfl, ?_⟩
    obtain ⟨a, b, c, -⟩ := t.notified_frame id ev
    refine i.frame rfl rfl rfl h2 a b c ?_ ?_ i.fqNext
    · intro x
      change m.heads x ≤ _
      rw [h3]
      split
      · next h => exact (i.room hv.2.1 x h).2
      · exact i.heads x
    · intro x hx
      change m.heads x = 0
      rw [h3]
      split
      · next h => have := (i.mtable_use h).2; rw [this] at hx; cases hx
      · exact i.idle x hx
  | fevent s =>
    obtain ⟨q, r, h1, h2⟩ := i.stepFevent hv
    exact ⟨q, r, none, by change (fevent p s >>= _) = _; rw [h1]; rfl, h2⟩
  | next s =>
    obtain ⟨q, r, e, h1, h2⟩ := i.stepNext s
    refine ⟨q, .int r, e, by change (fqueueNext p s >>= _) = _; rw [h1]; rfl, ?_⟩
    unfold Track.after
    dsimp only
    split
    · exact h2
    · exact h2.frame rfl rfl rfl rfl rfl rfl rfl h2.heads h2.idle h2.fqNext

theorem init_inv (mem : Nat → Ev) : Inv (init mem) Track.init where
  neg := fun _ _ => rfl
  big := fun _ _ => rfl
  openEq := fun _ => rfl
  fdOf := fun _ => rfl
  link := fun _ _ => by simp [init]
  idLt := fun _ _ h => by cases h
  setOpen := fun _ _ => rfl
  setUse := fun _ _ h => by cases h
  member := fun _ _ h => by cases h
  gone := fun _ _ => rfl
  staleUse := fun _ _ h => by cases h
  staleGone := fun _ _ => rfl
  sets := rfl
  zeroUse := rfl
  heads := fun _ => Nat.zero_le _
  idle := fun _ _ => rfl
  fqNext := fun _ => Nat.le_refl _

end Ouro.FlowSet
