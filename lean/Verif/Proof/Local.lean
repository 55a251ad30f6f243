import Verif.Spec.Local
import Verif.Proof.Tac

/-! # Proofs about the local IPCP -/

namespace Ouro.Local

theorem upd_same {α : Type} (f : Nat → α) (i : Nat) (x : α) : upd f i x i = x := by simp [upd]
theorem upd_ne {α : Type} (f : Nat → α) {i j : Nat} (x : α) (h : j ≠ i) : upd f i x j = f j := by simp [upd, h]

/-- Invariant of careful histories. -/
structure Inv (s : State) : Prop where
  home : ∀ fd e, s.ends fd = some e → s.home e.num = fd ∧ e.num < s.next
  sym : ∀ n m, s.peer n = some m → s.peer m = some n ∧ n < s.next
  entry : ∀ f, s.inOut f ≠ -1 → 0 ≤ s.inOut f ∧ ∃ n m, s.ends f = some ⟨n, false⟩ ∧ s.peer n = some m ∧ (s.home m : Int) = s.inOut f
  alloc : ∀ a ∈ s.allocs, s.ends a.fd = some ⟨a.num, false⟩ ∧ s.inOut a.fd = -1 ∧ s.peer a.num = none
  allocOut : ∀ a ∈ s.allocs, ∀ o m, a.out = some (o, m) → s.ends o = some ⟨m, false⟩ ∧ s.inOut o = -1 ∧ s.peer m = none
  nodup : (s.allocs.flatMap fds).Nodup
  keeps : ∀ n m, s.peer n = some m → IsOpen s n → ∀ e, s.ends (s.home m) = some e → e.num = m
  got : ∀ fd n p, s.loop = .got fd n p → ∀ e, s.ends fd = some e → e.num = n
  dest : ∀ t n p, s.loop = .to t n p → 0 ≤ t ∧ ∃ m, s.peer n = some m ∧ ∀ e, s.ends t.toNat = some e → e.num = m

theorem init_inv : Inv init := by
  constructor <;> simp [init]

theorem isOpen_ends {s : State} (hi : Inv s) {fd : Nat} {n : Nat} (h : s.ends fd = some ⟨n, false⟩) : IsOpen s n := by
  unfold IsOpen
  have := (hi.home fd _ h).1
  dsimp only at this
  rw [this]; exact h

theorem flatMap_erase_perm (l : List Alloc) {a : Alloc} (h : a ∈ l) : (l.flatMap fds).Perm (fds a ++ (l.erase a).flatMap fds) := by
  have := (List.perm_cons_erase h).flatMap_right fds
  simpa using this

theorem not_mem_fds {s : State} (hi : Inv s) {fd : Nat} (h : s.ends fd = none) : fd ∉ s.allocs.flatMap fds := by
  intro hm
  obtain ⟨a, ha, hf⟩ := List.mem_flatMap.mp hm
  rcases List.mem_cons.mp hf with rfl | hf
  · rw [(hi.alloc a ha).1] at h; cases h
  · obtain ⟨⟨o, m⟩, ho, rfl⟩ := List.mem_map.mp hf
    have ho : a.out = some (o, m) := by
      cases hao : a.out with
      | none => rw [hao] at ho; simp at ho
      | some x => rw [hao] at ho; simp at ho; rw [ho]
    rw [(hi.allocOut a ha o m ho).1] at h; cases h

/-- The parts of the invariant that concern ends, after a new end is opened on `fd`. -/
theorem open_inv {s : State} (hi : Inv s) {fd : Nat} (hfree : s.ends fd = none) (hr : Reusable s fd) : Inv (openEnd s fd) := by
  have hne : ∀ {f : Nat} {e : End}, s.ends f = some e → f ≠ fd := by rintro f e h rfl; rw [hfree] at h; cases h
  have hnum : ∀ {f : Nat} {e : End}, s.ends f = some e → e.num ≠ s.next := fun h => by have := (hi.home _ _ h).2; omega
  have hpn : ∀ {n m : Nat}, s.peer n = some m → n ≠ s.next := fun h => by have := (hi.sym _ _ h).2; omega
  have hpm : ∀ {n m : Nat}, s.peer n = some m → m ≠ s.next := fun h => by have := (hi.sym _ _ (hi.sym _ _ h).1).2; omega
  have hpnone : s.peer s.next = none := by
    cases h : s.peer s.next with
    | none => rfl
    | some m => exact absurd rfl (hpn h)
  have hio : ∀ {n : Nat}, n ≠ s.next → IsOpen (openEnd s fd) n → IsOpen s n := by
    intro n hn h
    unfold IsOpen openEnd at h
    dsimp only at h
    rw [upd_ne _ _ hn] at h
    by_cases hh : s.home n = fd
    · rw [hh, upd_same] at h; cases h; exact absurd rfl hn
    · rwa [upd_ne _ _ hh] at h
  constructor
  · intro f e h
    unfold openEnd at h ⊢
    dsimp only at h ⊢
    by_cases hf : f = fd
    · subst hf; rw [upd_same] at h; cases h; exact ⟨upd_same _ _ _, by simp⟩
    · rw [upd_ne _ _ hf] at h
      have := hi.home f e h
      rw [upd_ne _ _ (hnum h)]
      exact ⟨this.1, by omega⟩
  · intro n m h
    have := hi.sym n m h
    exact ⟨this.1, by show n < s.next + 1; omega⟩
  · intro f h
    obtain ⟨h1, n, m, h2, h3, h4⟩ := hi.entry f h
    refine ⟨h1, n, m, ?_, h3, ?_⟩
    · show upd s.ends fd _ f = _
      rw [upd_ne _ _ (hne h2)]; exact h2
    · show ((upd s.home s.next fd m : Nat) : Int) = _
      rw [upd_ne _ _ (hpm h3)]; exact h4
  · intro a ha
    have := hi.alloc a ha
    refine ⟨?_, this.2⟩
    show upd s.ends fd _ a.fd = _
    rw [upd_ne _ _ (hne this.1)]; exact this.1
  · intro a ha o m ho
    have := hi.allocOut a ha o m ho
    refine ⟨?_, this.2⟩
    show upd s.ends fd _ o = _
    rw [upd_ne _ _ (hne this.1)]; exact this.1
  · exact hi.nodup
  · intro n m hp ho e he
    have hn := hpn hp
    have hm := hpm hp
    have ho' := hio hn ho
    change upd s.ends fd _ (upd s.home s.next fd m) = some e at he
    rw [upd_ne _ _ hm] at he
    by_cases hh : s.home m = fd
    · exact absurd ho' (hr.1 m n hh (hi.sym n m hp).1)
    · rw [upd_ne _ _ hh] at he
      exact hi.keeps n m hp ho' e he
  · intro f n p hl e he
    change upd s.ends fd _ f = some e at he
    by_cases hf : f = fd
    · subst hf; exact absurd hl (hr.2.1 n p)
    · rw [upd_ne _ _ hf] at he; exact hi.got f n p hl e he
  · intro t n p hl
    obtain ⟨h1, m, h2, h3⟩ := hi.dest t n p hl
    refine ⟨h1, m, h2, ?_⟩
    intro e he
    change upd s.ends fd _ t.toNat = some e at he
    by_cases hf : t.toNat = fd
    · exfalso
      apply hr.2.2 n p
      have hl' : s.loop = .to t n p := hl
      rw [hl', ← hf, Int.toNat_of_nonneg h1]
    · rw [upd_ne _ _ hf] at he; exact h3 e he

theorem erase_inv {s : State} (hi : Inv s) (a : Alloc) : Inv { s with allocs := s.allocs.erase a } where
  home := hi.home
  sym := hi.sym
  entry := hi.entry
  alloc := fun b hb => hi.alloc b (List.mem_of_mem_erase hb)
  allocOut := fun b hb => hi.allocOut b (List.mem_of_mem_erase hb)
  nodup := by
    by_cases h : a ∈ s.allocs
    · have := (flatMap_erase_perm s.allocs h).nodup_iff.mp hi.nodup
      exact (List.nodup_append.mp this).2.1
    · dsimp only; rw [List.erase_of_not_mem h]; exact hi.nodup
  keeps := hi.keeps
  got := hi.got
  dest := hi.dest

theorem link_inv {s : State} (hi : Inv s) {a : Alloc} (ha : a ∈ s.allocs) {o m : Nat} (ho : a.out = some (o, m)) :
    Inv { s with
      inOut := upd (upd s.inOut a.fd o) o a.fd
      peer := upd (upd s.peer a.num (some m)) m (some a.num)
      allocs := s.allocs.erase a } := by
  obtain ⟨hA1, hA2, hA3⟩ := hi.alloc a ha
  obtain ⟨hB1, hB2, hB3⟩ := hi.allocOut a ha o m ho
  have hperm := flatMap_erase_perm s.allocs ha
  have hnd := hperm.nodup_iff.mp hi.nodup
  have hfa : fds a = [a.fd, o] := by simp [fds, ho]
  rw [hfa] at hnd
  obtain ⟨hnd1, hnd2, hnd3⟩ := List.nodup_append.mp hnd
  have hfo : a.fd ≠ o := by simpa using hnd1
  have hh1 := (hi.home _ _ hA1)
  have hh2 := (hi.home _ _ hB1)
  dsimp only at hh1 hh2
  have hnm : a.num ≠ m := by intro h; rw [h, hh2.1] at hh1; exact hfo hh1.1.symm
  have hpeer : ∀ n, n ≠ a.num → n ≠ m → upd (upd s.peer a.num (some m)) m (some a.num) n = s.peer n := by
    intro n h1 h2; rw [upd_ne _ _ h2, upd_ne _ _ h1]
  have hpa : upd (upd s.peer a.num (some m)) m (some a.num) a.num = some m := by rw [upd_ne _ _ hnm, upd_same]
  have hpm : upd (upd s.peer a.num (some m)) m (some a.num) m = some a.num := upd_same _ _ _
  have notin : ∀ b ∈ s.allocs.erase a, ∀ f ∈ fds b, f ≠ a.fd ∧ f ≠ o := by
    intro b hb f hf
    have hmem : f ∈ (s.allocs.erase a).flatMap fds := List.mem_flatMap.mpr ⟨b, hb, hf⟩
    exact ⟨fun h => hnd3 a.fd (by simp) f hmem h.symm, fun h => hnd3 o (by simp) f hmem h.symm⟩
  -- the peers of others do not change
  have hother : ∀ n k, s.peer n = some k → n ≠ a.num ∧ n ≠ m := by
    intro n k h
    constructor
    · rintro rfl; rw [hA3] at h; cases h
    · rintro rfl; rw [hB3] at h; cases h
  constructor
  · exact hi.home
  · intro n k h
    change upd (upd s.peer a.num (some m)) m (some a.num) n = some k at h
    show upd (upd s.peer a.num (some m)) m (some a.num) k = some n ∧ n < s.next
    by_cases h1 : n = m
    · subst h1; rw [hpm] at h; cases h; exact ⟨hpa, hh2.2⟩
    · by_cases h2 : n = a.num
      · subst h2; rw [hpa] at h; cases h; exact ⟨hpm, hh1.2⟩
      · rw [hpeer n h2 h1] at h
        have := hi.sym n k h
        have hk := hother k n this.1
        rw [hpeer k hk.1 hk.2]
        exact this
  · intro f h
    change upd (upd s.inOut a.fd o) o a.fd f ≠ -1 at h
    show 0 ≤ upd (upd s.inOut a.fd o) o a.fd f ∧ ∃ n k, s.ends f = some ⟨n, false⟩ ∧
      upd (upd s.peer a.num (some m)) m (some a.num) n = some k ∧ ((s.home k : Nat) : Int) = upd (upd s.inOut a.fd o) o a.fd f
    by_cases h1 : f = o
    · subst h1; rw [upd_same]
      exact ⟨by omega, m, a.num, hB1, hpm, by rw [hh1.1]⟩
    · by_cases h2 : f = a.fd
      · subst h2; rw [upd_ne _ _ h1, upd_same]
        exact ⟨by omega, a.num, m, hA1, hpa, by rw [hh2.1]⟩
      · rw [upd_ne _ _ h1, upd_ne _ _ h2] at h ⊢
        obtain ⟨h3, n, k, h4, h5, h6⟩ := hi.entry f h
        have := hother n k h5
        exact ⟨h3, n, k, h4, by rw [hpeer n this.1 this.2]; exact h5, h6⟩
  · intro b hb
    have := hi.alloc b (List.mem_of_mem_erase hb)
    have hn := notin b hb b.fd (by simp [fds])
    show s.ends b.fd = _ ∧ upd (upd s.inOut a.fd o) o a.fd b.fd = -1 ∧ upd (upd s.peer a.num (some m)) m (some a.num) b.num = none
    have hb1 := (hi.home _ _ this.1).1
    dsimp only at hb1
    refine ⟨this.1, by rw [upd_ne _ _ hn.2, upd_ne _ _ hn.1]; exact this.2.1, ?_⟩
    rw [hpeer _ (by intro h; rw [h, hh1.1] at hb1; exact hn.1 hb1.symm) (by intro h; rw [h, hh2.1] at hb1; exact hn.2 hb1.symm)]
    exact this.2.2
  · intro b hb o' m' ho'
    have := hi.allocOut b (List.mem_of_mem_erase hb) o' m' ho'
    have hn := notin b hb o' (by simp [fds, ho'])
    show s.ends o' = _ ∧ upd (upd s.inOut a.fd o) o a.fd o' = -1 ∧ upd (upd s.peer a.num (some m)) m (some a.num) m' = none
    have hb1 := (hi.home _ _ this.1).1
    dsimp only at hb1
    refine ⟨this.1, by rw [upd_ne _ _ hn.2, upd_ne _ _ hn.1]; exact this.2.1, ?_⟩
    rw [hpeer _ (by intro h; rw [h, hh1.1] at hb1; exact hn.1 hb1.symm) (by intro h; rw [h, hh2.1] at hb1; exact hn.2 hb1.symm)]
    exact this.2.2
  · exact hnd2
  · intro n k hp ho' e he
    change upd (upd s.peer a.num (some m)) m (some a.num) n = some k at hp
    change s.ends (s.home k) = some e at he
    by_cases h1 : n = m
    · subst h1; rw [hpm] at hp; cases hp
      rw [hh1.1, hA1] at he; cases he; rfl
    · by_cases h2 : n = a.num
      · subst h2; rw [hpa] at hp; cases hp
        rw [hh2.1, hB1] at he; cases he; rfl
      · rw [hpeer n h2 h1] at hp
        exact hi.keeps n k hp ho' e he
  · exact hi.got
  · intro t n p hl
    obtain ⟨h1, k, h2, h3⟩ := hi.dest t n p hl
    have := hother n k h2
    exact ⟨h1, k, by show upd (upd s.peer a.num (some m)) m (some a.num) n = _; rw [hpeer n this.1 this.2]; exact h2, h3⟩

theorem clear_inv {s : State} (hi : Inv s) {fd : Nat} {e : End} (he : s.ends fd = some e) (hc : ∀ a ∈ s.allocs, fd ∉ fds a) :
    Inv { s with inOut := upd s.inOut fd (-1), ends := upd s.ends fd (some { e with closing := true }) } := by
  have hends : ∀ {f : Nat} {x : End}, upd s.ends fd (some { e with closing := true }) f = some x → ∃ y, s.ends f = some y ∧ y.num = x.num := by
    intro f x h
    by_cases hf : f = fd
    · subst hf; rw [upd_same] at h; cases h; exact ⟨e, he, rfl⟩
    · rw [upd_ne _ _ hf] at h; exact ⟨x, h, rfl⟩
  have hopen : ∀ n, IsOpen { s with inOut := upd s.inOut fd (-1), ends := upd s.ends fd (some { e with closing := true }) } n → IsOpen s n := by
    intro n h
    unfold IsOpen at h ⊢
    dsimp only at h
    by_cases hf : s.home n = fd
    · rw [hf, upd_same] at h; simp at h
    · rwa [upd_ne _ _ hf] at h
  constructor
  · intro f x h
    obtain ⟨y, h1, h2⟩ := hends h
    have := hi.home f y h1
    rw [h2] at this; exact this
  · exact hi.sym
  · intro f h
    change upd s.inOut fd (-1) f ≠ -1 at h
    have hf : f ≠ fd := by rintro rfl; rw [upd_same] at h; exact h rfl
    rw [upd_ne _ _ hf] at h
    obtain ⟨h1, n, m, h2, h3, h4⟩ := hi.entry f h
    show 0 ≤ upd s.inOut fd (-1) f ∧ ∃ n m, upd s.ends fd _ f = some ⟨n, false⟩ ∧ s.peer n = some m ∧ (s.home m : Int) = upd s.inOut fd (-1) f
    rw [upd_ne _ _ hf, upd_ne _ _ hf]
    exact ⟨h1, n, m, h2, h3, h4⟩
  · intro a ha
    have := hi.alloc a ha
    have hf : a.fd ≠ fd := by rintro rfl; exact hc a ha (by simp [fds])
    show upd s.ends fd _ a.fd = _ ∧ upd s.inOut fd (-1) a.fd = -1 ∧ _
    rw [upd_ne _ _ hf, upd_ne _ _ hf]; exact this
  · intro a ha o m ho
    have := hi.allocOut a ha o m ho
    have hf : o ≠ fd := by rintro rfl; exact hc a ha (by simp [fds, ho])
    show upd s.ends fd _ o = _ ∧ upd s.inOut fd (-1) o = -1 ∧ _
    rw [upd_ne _ _ hf, upd_ne _ _ hf]; exact this
  · exact hi.nodup
  · intro n m hp ho x hx
    obtain ⟨y, h1, h2⟩ := hends hx
    rw [← h2]; exact hi.keeps n m hp (hopen n ho) y h1
  · intro f n p hl x hx
    obtain ⟨y, h1, h2⟩ := hends hx
    rw [← h2]; exact hi.got f n p hl y h1
  · intro t n p hl
    obtain ⟨h1, m, h2, h3⟩ := hi.dest t n p hl
    refine ⟨h1, m, h2, ?_⟩
    intro x hx
    obtain ⟨y, h4, h5⟩ := hends hx
    rw [← h5]; exact h3 y h4

theorem free_inv {s : State} (hi : Inv s) {fd : Nat} {e : End} (he : s.ends fd = some e) (hcl : e.closing = true) :
    Inv { s with ends := upd s.ends fd none } := by
  have hends : ∀ {f : Nat} {x : End}, upd s.ends fd none f = some x → s.ends f = some x := by
    intro f x h
    by_cases hf : f = fd
    · subst hf; rw [upd_same] at h; cases h
    · rwa [upd_ne _ _ hf] at h
  have hkeep : ∀ {f : Nat} {n : Nat}, s.ends f = some ⟨n, false⟩ → upd s.ends fd none f = some ⟨n, false⟩ := by
    intro f n h
    have hf : f ≠ fd := by rintro rfl; rw [he] at h; cases h; cases hcl
    rw [upd_ne _ _ hf]; exact h
  constructor
  · intro f x h; exact hi.home f x (hends h)
  · exact hi.sym
  · intro f h
    obtain ⟨h1, n, m, h2, h3, h4⟩ := hi.entry f h
    exact ⟨h1, n, m, hkeep h2, h3, h4⟩
  · intro a ha
    have := hi.alloc a ha
    exact ⟨hkeep this.1, this.2⟩
  · intro a ha o m ho
    have := hi.allocOut a ha o m ho
    exact ⟨hkeep this.1, this.2⟩
  · exact hi.nodup
  · intro n m hp ho x hx
    exact hi.keeps n m hp (hends ho) x (hends hx)
  · intro f n p hl x hx; exact hi.got f n p hl x (hends hx)
  · intro t n p hl
    obtain ⟨h1, m, h2, h3⟩ := hi.dest t n p hl
    exact ⟨h1, m, h2, fun x hx => h3 x (hends hx)⟩

theorem loop_inv {s : State} (hi : Inv s) {l : Loop} (hg : ∀ fd n p, l = .got fd n p → ∀ e, s.ends fd = some e → e.num = n)
    (ht : ∀ t n p, l = .to t n p → 0 ≤ t ∧ ∃ m, s.peer n = some m ∧ ∀ e, s.ends t.toNat = some e → e.num = m) : Inv { s with loop := l } where
  home := hi.home
  sym := hi.sym
  entry := hi.entry
  alloc := hi.alloc
  allocOut := hi.allocOut
  nodup := hi.nodup
  keeps := hi.keeps
  got := hg
  dest := ht

/-- The entry of a descriptor leads to the other end of its flow. -/
theorem entry_peer {s : State} (hi : Inv s) {f : Nat} {e : End} (he : s.ends f = some e) (h : s.inOut f ≠ -1) :
    0 ≤ s.inOut f ∧ ∃ m, s.peer e.num = some m ∧ ∀ x, s.ends (s.inOut f).toNat = some x → x.num = m := by
  obtain ⟨h1, n, m, h2, h3, h4⟩ := hi.entry f h
  rw [he] at h2; cases h2
  refine ⟨h1, m, h3, ?_⟩
  intro x hx
  rw [← h4] at hx
  simp only [Int.toNat_natCast] at hx
  exact hi.keeps n m h3 (isOpen_ends hi he) x hx

theorem step_inv {s : State} (hi : Inv s) {op : Op} {r : State × Out} (h : step s op = .ok r) (hc : CarefulStep s op) :
    Inv r.1 ∧ (∀ n m p, r.2 = .delivered n m p → s.peer n = some m) ∧ (∀ fd m, op = .respond fd → r.2 = .replied m →
      ∃ e, s.ends fd = some e ∧ s.peer e.num = some m) := by
  cases op with
  | alloc fd =>
    simp only [step] at h
    split at h
    · rename_i hf
      cases h
      refine ⟨?_, by simp, by simp⟩
      have ho := open_inv hi hf.2 hc
      have hin : s.inOut fd = -1 := by
        by_contra hne
        obtain ⟨_, n, m, h2, _⟩ := hi.entry fd hne
        rw [hf.2] at h2; cases h2
      have hp : s.peer s.next = none := by
        cases hpn : s.peer s.next with
        | none => rfl
        | some m => have := (hi.sym _ _ hpn).2; omega
      exact {
        home := ho.home, sym := ho.sym, entry := ho.entry, keeps := ho.keeps, got := ho.got, dest := ho.dest
        alloc := by
          intro a ha
          rcases List.mem_cons.mp ha with rfl | ha
          · exact ⟨upd_same _ _ _, hin, hp⟩
          · exact ho.alloc a ha
        allocOut := by
          intro a ha
          rcases List.mem_cons.mp ha with rfl | ha
          · intro o m hom; cases hom
          · exact ho.allocOut a ha
        nodup := by
          show (fds _ ++ s.allocs.flatMap fds).Nodup
          simp only [fds, Option.toList_none, List.map_nil, List.cons_append, List.nil_append, List.nodup_cons]
          exact ⟨not_mem_fds hi hf.2, hi.nodup⟩ }
    · cases h; exact ⟨hi, by simp, by simp⟩
  | arrived fd out =>
    simp only [step] at h
    split at h
    · cases h; exact ⟨hi, by simp, by simp⟩
    · rename_i a hfind
      have ha : a ∈ s.allocs := List.mem_of_find?_eq_some hfind
      have hafd : a.fd = fd ∧ a.out = none := by simpa using List.find?_some hfind
      split at h
      · cases h; exact ⟨erase_inv hi a, by simp, by simp⟩
      · rename_i o
        split at h
        · rename_i hf
          cases h
          refine ⟨?_, by simp, by simp⟩
          have ho := open_inv (erase_inv hi a) (fd := o) hf.2 hc
          have hin : s.inOut o = -1 := by
            by_contra hne
            obtain ⟨_, n, m, h2, _⟩ := hi.entry o hne
            rw [hf.2] at h2; cases h2
          have hp : s.peer s.next = none := by
            cases hpn : s.peer s.next with
            | none => rfl
            | some m => have := (hi.sym _ _ hpn).2; omega
          have hal := hi.alloc a ha
          have hne : a.fd ≠ o := by intro h; rw [h, hf.2] at hal; cases hal.1
          exact {
            home := ho.home, sym := ho.sym, entry := ho.entry, keeps := ho.keeps, got := ho.got, dest := ho.dest
            alloc := by
              intro b hb
              rcases List.mem_cons.mp hb with rfl | hb
              · show upd s.ends o _ fd = _ ∧ s.inOut fd = -1 ∧ s.peer a.num = none
                rw [← hafd.1, upd_ne _ _ hne]; exact hal
              · exact ho.alloc b hb
            allocOut := by
              intro b hb
              rcases List.mem_cons.mp hb with rfl | hb
              · intro o' m' hom
                cases hom
                exact ⟨upd_same _ _ _, hin, hp⟩
              · exact ho.allocOut b hb
            nodup := by
              show (fds _ ++ (s.allocs.erase a).flatMap fds).Nodup
              have h1 := (flatMap_erase_perm s.allocs ha).nodup_iff.mp hi.nodup
              have h2 := not_mem_fds hi hf.2
              have h3 : o ∉ fds a ++ (s.allocs.erase a).flatMap fds := fun hm => h2 ((flatMap_erase_perm s.allocs ha).mem_iff.mpr hm)
              simp only [fds, hafd.2, Option.toList_none, List.map_nil, List.cons_append, List.nil_append, hafd.1] at h1 h3
              simp only [fds, Option.toList_some, List.map_cons, List.map_nil, List.cons_append, List.nil_append]
              rw [List.nodup_cons] at h1 ⊢
              simp only [List.mem_cons, not_or] at h3 ⊢
              rw [List.nodup_cons]
              exact ⟨⟨fun h => h3.1 h.symm, h1.1⟩, h3.2, h1.2⟩ }
        · cases h; exact ⟨hi, by simp, by simp⟩
  | link fd =>
    simp only [step] at h
    split at h
    · rename_i a hfind
      have ha : a ∈ s.allocs := List.mem_of_find?_eq_some hfind
      have hafd : a.fd = fd ∧ ¬ a.out = none := by simpa using List.find?_some hfind
      split at h
      · rename_i o m ho
        cases h
        refine ⟨?_, by simp, by simp⟩
        have := link_inv hi ha ho
        rw [hafd.1] at this
        exact this
      · cases h; exact ⟨hi, by simp, by simp⟩
    · cases h; exact ⟨hi, by simp, by simp⟩
  | respond fd =>
    simp only [step] at h
    split at h
    · cases h; exact ⟨hi, by simp, by simp⟩
    · rename_i e he
      split at h
      · cases h; exact ⟨hi, by simp, by simp⟩
      · rename_i hne
        obtain ⟨_, m, hm1, hm2⟩ := entry_peer hi he hne
        split at h
        · cases h; exact ⟨hi, by simp, by simp⟩
        · rename_i x hx
          cases h
          refine ⟨hi, by simp, ?_⟩
          intro fd' m' hfd hm'
          cases hfd; cases hm'
          exact ⟨e, he, by rw [hm2 x hx]; exact hm1⟩
  | reject => cases h
  | clear fd =>
    simp only [step] at h
    split at h
    · rename_i e he
      split at h
      · cases h; exact ⟨hi, by simp, by simp⟩
      · cases h; exact ⟨clear_inv hi he hc, by simp, by simp⟩
    · cases h; exact ⟨hi, by simp, by simp⟩
  | free fd =>
    simp only [step] at h
    split at h
    · rename_i e he
      split at h
      · cases h; exact ⟨free_inv hi he (by assumption), by simp, by simp⟩
      · cases h; exact ⟨hi, by simp, by simp⟩
    · cases h; exact ⟨hi, by simp, by simp⟩
  | read fd p =>
    simp only [step] at h
    split at h
    · rename_i e hl he
      split at h
      · cases h; exact ⟨hi, by simp, by simp⟩
      · cases h
        refine ⟨loop_inv hi ?_ (by simp), by simp, by simp⟩
        intro f n q hq x hx
        cases hq
        rw [he] at hx; cases hx; rfl
    · cases h; exact ⟨hi, by simp, by simp⟩
  | look =>
    simp only [step] at h
    split at h
    · rename_i f n p hl
      split at h
      · cases h; exact ⟨loop_inv hi (by simp) (by simp), by simp, by simp⟩
      · rename_i hne
        cases h
        refine ⟨loop_inv hi (by simp) ?_, by simp, by simp⟩
        intro t n' p' ht
        cases ht
        obtain ⟨_, k, m, h2, h3, h4⟩ := hi.entry f hne
        have hk := hi.got f n p hl _ h2
        have := entry_peer hi h2 hne
        dsimp only at hk this
        rw [hk] at this; exact this
    · cases h; exact ⟨hi, by simp, by simp⟩
  | write =>
    simp only [step] at h
    split at h
    · rename_i t n p hl
      obtain ⟨h1, m, h2, h3⟩ := hi.dest t n p hl
      split at h
      · rename_i e he
        split at h
        · cases h; exact ⟨loop_inv hi (by simp) (by simp), by simp, by simp⟩
        · cases h
          refine ⟨loop_inv hi (by simp) (by simp), ?_, by simp⟩
          intro n' m' p' hd
          cases hd
          rw [h3 e he]; exact h2
      · cases h; exact ⟨loop_inv hi (by simp) (by simp), by simp, by simp⟩
    · cases h; exact ⟨hi, by simp, by simp⟩

/-! ## Histories -/

theorem run_cons {s : State} {op : Op} {ops : List Op} {x : State × List (Op × Out)} (h : run s (op :: ops) = .ok x) :
    ∃ r, step s op = .ok r ∧ run r.1 ops = .ok (x.1, x.2.tail) ∧ x.2 = (op, r.2) :: x.2.tail := by
  simp only [run] at h
  cases hs : step s op with
  | ub => rw [hs] at h; cases h
  | ok r =>
    rw [hs] at h
    simp only [Outcome.bind_ok] at h
    cases hr : run r.1 ops with
    | ub => rw [hr] at h; cases h
    | ok y =>
      rw [hr] at h
      simp only [Outcome.bind_ok, Outcome.pure_eq] at h
      cases h
      exact ⟨r, rfl, hr, rfl⟩

theorem step_peer {s : State} {op : Op} {r : State × Out} (h : step s op = .ok r) (n m : Nat) (hp : r.1.peer n = some m) :
    s.peer n = some m ∨ r.2 = .linked n m ∨ r.2 = .linked m n := by
  cases op <;> simp only [step] at h
  case link fd =>
    split at h
    · rename_i a hfind
      split at h
      · rename_i o k ho
        cases h
        dsimp only at hp
        by_cases h1 : n = k
        · subst h1; rw [upd_same] at hp; cases hp; right; right; rfl
        · rw [upd_ne _ _ h1] at hp
          by_cases h2 : n = a.num
          · subst h2; rw [upd_same] at hp; cases hp; right; left; rfl
          · rw [upd_ne _ _ h2] at hp; exact .inl hp
      · cases h; exact .inl hp
    · cases h; exact .inl hp
  all_goals
    (repeat' split at h) <;> cases h <;> exact .inl hp

/-- In a careful history every packet goes to the other end of its flow. -/
theorem run_delivered {s : State} (hi : Inv s) (ops : List Op) (hc : Careful s ops) {x : State × List (Op × Out)} (h : run s ops = .ok x)
    (log0 : List (Op × Out)) (hp : ∀ n m, s.peer n = some m → SameFlow log0 n m) {pre post : List (Op × Out)} {op : Op} {n m p : Nat}
    (hd : x.2 = pre ++ (op, .delivered n m p) :: post) : SameFlow (log0 ++ pre) n m := by
  induction ops generalizing s x log0 pre with
  | nil => simp only [run] at h; cases h; simp at hd
  | cons o ops ih =>
    obtain ⟨r, h1, h2, h3⟩ := run_cons h
    obtain ⟨hi', hdel, _⟩ := step_inv hi h1 hc.1
    rw [h3] at hd
    cases pre with
    | nil =>
      simp only [List.nil_append, List.cons.injEq, Prod.mk.injEq] at hd
      rw [List.append_nil]
      exact hp n m (hdel n m p hd.1.2)
    | cons e pre =>
      simp only [List.cons_append, List.cons.injEq] at hd
      have := ih hi' (hc.2 r h1) h2 (log0 ++ [e]) (by
        intro a b hab
        rcases step_peer h1 a b hab with hab | hab
        · obtain ⟨y, hy1, hy2⟩ := hp a b hab
          exact ⟨y, by simp [hy1], hy2⟩
        · exact ⟨e, by simp, by rw [← hd.1]; exact hab⟩) hd.2
      simpa using this

/-- What the packet loop holds of end `n` and packet `p`. -/
def held (n p : Nat) : Loop → Nat
  | .idle => 0
  | .got _ k q => if k = n ∧ q = p then 1 else 0
  | .to _ k q => if k = n ∧ q = p then 1 else 0

theorem step_held {s : State} {op : Op} {r : State × Out} (h : step s op = .ok r) (n p : Nat) :
    held n p s.loop + (if isTook n p (op, r.2) then 1 else 0) = held n p r.1.loop + (if isGone n p (op, r.2) then 1 else 0) := by
  cases op <;> simp only [step] at h
  case read fd q =>
    split at h
    · rename_i e hl he
      split at h <;> cases h
      · simp [isTook, isGone]
      · simp [isTook, isGone, hl, held]
    · cases h; simp [isTook, isGone]
  case look =>
    split at h
    · rename_i f k q hl
      split at h <;> cases h
      · simp [isTook, isGone, hl, held]
      · simp [isTook, isGone, hl, held]
    · cases h; simp [isTook, isGone]
  case write =>
    split at h
    · rename_i f k q hl
      split at h
      · split at h <;> cases h <;> simp [isTook, isGone, hl, held]
      · cases h; simp [isTook, isGone, hl, held]
    · cases h; simp [isTook, isGone]
  all_goals
    (repeat' split at h) <;> cases h <;> simp [isTook, isGone, openEnd]

theorem run_held {s : State} (ops : List Op) {x : State × List (Op × Out)} (h : run s ops = .ok x) (n p : Nat) :
    held n p s.loop + x.2.countP (isTook n p) = held n p x.1.loop + x.2.countP (isGone n p) := by
  induction ops generalizing s x with
  | nil => simp only [run] at h; cases h; simp
  | cons o ops ih =>
    obtain ⟨r, h1, h2, h3⟩ := run_cons h
    have := ih h2
    have h4 := step_held h1 n p
    rw [h3, List.countP_cons, List.countP_cons]
    dsimp only at this
    omega

theorem careful_append {s : State} {l1 l2 : List Op} (h : Careful s (l1 ++ l2)) : Careful s l1 := by
  induction l1 generalizing s with
  | nil => trivial
  | cons o l1 ih => exact ⟨h.1, fun r hr => ih (h.2 r hr)⟩

theorem run_careful_inv {s : State} (hi : Inv s) (ops : List Op) (hc : Careful s ops) {x : State × List (Op × Out)} (h : run s ops = .ok x) : Inv x.1 := by
  induction ops generalizing s x with
  | nil => simp only [run] at h; cases h; exact hi
  | cons o ops ih =>
    obtain ⟨r, h1, h2, h3⟩ := run_cons h
    have := ih (step_inv hi h1 hc.1).1 (hc.2 r h1) h2
    exact this

theorem run_peer {s : State} (ops : List Op) {x : State × List (Op × Out)} (h : run s ops = .ok x) (log0 : List (Op × Out))
    (hp : ∀ n m, s.peer n = some m → SameFlow log0 n m) (n m : Nat) (hx : x.1.peer n = some m) : SameFlow (log0 ++ x.2) n m := by
  induction ops generalizing s x log0 with
  | nil => simp only [run] at h; cases h; simpa using hp n m hx
  | cons o ops ih =>
    obtain ⟨r, h1, h2, h3⟩ := run_cons h
    have := ih h2 (log0 ++ [(o, r.2)]) (by
      intro a b hab
      rcases step_peer h1 a b hab with hab | hab
      · obtain ⟨y, hy1, hy2⟩ := hp a b hab
        exact ⟨y, by simp [hy1], hy2⟩
      · exact ⟨(o, r.2), by simp, hab⟩) hx
    rw [h3]
    simpa using this

/-- While an end is open its entry leads to the other end. -/
def Linked (s : State) : Prop := ∀ n m, s.peer n = some m → IsOpen s n → s.inOut (s.home n) = s.home m

theorem open_linked {s : State} (hi : Inv s) (hl : Linked s) {fd : Nat} : Linked (openEnd s fd) := by
  intro n m hp ho
  have hn : n ≠ s.next := by have := (hi.sym _ _ hp).2; omega
  have hm : m ≠ s.next := by have := (hi.sym _ _ (hi.sym _ _ hp).1).2; omega
  have ho' : IsOpen s n := by
    unfold IsOpen openEnd at ho
    dsimp only at ho
    rw [upd_ne _ _ hn] at ho
    by_cases hh : s.home n = fd
    · rw [hh, upd_same] at ho; cases ho; exact absurd rfl hn
    · rwa [upd_ne _ _ hh] at ho
  show s.inOut (upd s.home s.next fd n) = (upd s.home s.next fd m : Nat)
  rw [upd_ne _ _ hn, upd_ne _ _ hm]
  exact hl n m hp ho'

theorem step_linked {s : State} (hi : Inv s) (hl : Linked s) {op : Op} {r : State × Out} (h : step s op = .ok r) (_hc : CarefulStep s op) :
    Linked r.1 ∧ (∀ n m, s.peer n = some m → r.1.peer n = some m) ∧
      (∀ n m, r.2 = .linked n m → r.1.peer n = some m ∧ r.1.peer m = some n) := by
  cases op <;> simp only [step] at h
  case alloc fd =>
    split at h <;> cases h
    · exact ⟨open_linked hi hl, fun _ _ hp => hp, by simp⟩
    · exact ⟨hl, fun _ _ hp => hp, by simp⟩
  case arrived fd out =>
    split at h
    · cases h; exact ⟨hl, fun _ _ hp => hp, by simp⟩
    · split at h
      · cases h; exact ⟨hl, fun _ _ hp => hp, by simp⟩
      · split at h <;> cases h
        · exact ⟨open_linked hi hl, fun _ _ hp => hp, by simp⟩
        · exact ⟨hl, fun _ _ hp => hp, by simp⟩
  case link fd =>
    split at h
    · rename_i a hfind
      have ha : a ∈ s.allocs := List.mem_of_find?_eq_some hfind
      have hafd : a.fd = fd ∧ ¬ a.out = none := by simpa using List.find?_some hfind
      split at h
      · rename_i o m ho
        cases h
        obtain ⟨hA1, hA2, hA3⟩ := hi.alloc a ha
        obtain ⟨hB1, hB2, hB3⟩ := hi.allocOut a ha o m ho
        have hh1 := (hi.home _ _ hA1).1
        have hh2 := (hi.home _ _ hB1).1
        dsimp only at hh1 hh2
        have hnd := (flatMap_erase_perm s.allocs ha).nodup_iff.mp hi.nodup
        rw [show fds a = [a.fd, o] by simp [fds, ho]] at hnd
        have hfo : a.fd ≠ o := by simpa using (List.nodup_append.mp hnd).1
        have hnm : a.num ≠ m := by intro h; rw [h, hh2] at hh1; exact hfo hh1.symm
        have hpa : upd (upd s.peer a.num (some m)) m (some a.num) a.num = some m := by rw [upd_ne _ _ hnm, upd_same]
        have hpm : upd (upd s.peer a.num (some m)) m (some a.num) m = some a.num := upd_same _ _ _
        refine ⟨?_, ?_, ?_⟩
        · intro n k hp ho'
          change upd (upd s.peer a.num (some m)) m (some a.num) n = some k at hp
          show upd (upd s.inOut fd o) o fd (s.home n) = s.home k
          by_cases h1 : n = m
          · subst h1; rw [hpm] at hp; cases hp
            rw [hh2, upd_same, hh1, hafd.1]
          · by_cases h2 : n = a.num
            · subst h2; rw [hpa] at hp; cases hp
              rw [hh1, upd_ne _ _ hfo, hafd.1, upd_same, hh2]
            · rw [upd_ne _ _ h1, upd_ne _ _ h2] at hp
              have ho2 : IsOpen s n := ho'
              have e1 : s.home n ≠ o := by
                intro hh; unfold IsOpen at ho2; rw [hh, hB1] at ho2; cases ho2; exact h1 rfl
              have e2 : s.home n ≠ fd := by
                intro hh; unfold IsOpen at ho2; rw [hh, ← hafd.1, hA1] at ho2; cases ho2; exact h2 rfl
              rw [upd_ne _ _ e1, upd_ne _ _ e2]
              exact hl n k hp ho2
        · intro n k hp
          show upd (upd s.peer a.num (some m)) m (some a.num) n = some k
          have h1 : n ≠ m := by rintro rfl; rw [hB3] at hp; cases hp
          have h2 : n ≠ a.num := by rintro rfl; rw [hA3] at hp; cases hp
          rw [upd_ne _ _ h1, upd_ne _ _ h2]; exact hp
        · intro n k hout
          cases hout
          exact ⟨hpa, hpm⟩
      · cases h; exact ⟨hl, fun _ _ hp => hp, by simp⟩
    · cases h; exact ⟨hl, fun _ _ hp => hp, by simp⟩
  case clear fd =>
    split at h
    · rename_i e he
      split at h
      · cases h; exact ⟨hl, fun _ _ hp => hp, by simp⟩
      · cases h
        refine ⟨?_, fun _ _ hp => hp, by simp⟩
        intro n m hp ho
        unfold IsOpen at ho
        dsimp only at ho ⊢
        by_cases hh : s.home n = fd
        · rw [hh, upd_same] at ho; simp at ho
        · rw [upd_ne _ _ hh] at ho ⊢
          exact hl n m hp ho
    · cases h; exact ⟨hl, fun _ _ hp => hp, by simp⟩
  case free fd =>
    split at h
    · rename_i e he
      split at h
      · cases h
        refine ⟨?_, fun _ _ hp => hp, by simp⟩
        intro n m hp ho
        unfold IsOpen at ho
        dsimp only at ho ⊢
        by_cases hh : s.home n = fd
        · rw [hh, upd_same] at ho; simp at ho
        · rw [upd_ne _ _ hh] at ho
          exact hl n m hp ho
      · cases h; exact ⟨hl, fun _ _ hp => hp, by simp⟩
    · cases h; exact ⟨hl, fun _ _ hp => hp, by simp⟩
  all_goals
    (repeat' split at h) <;> cases h <;> exact ⟨hl, fun _ _ hp => hp, by simp⟩

theorem run_linked {s : State} (hi : Inv s) (hl : Linked s) (ops : List Op) (hc : Careful s ops) {x : State × List (Op × Out)} (h : run s ops = .ok x) :
    Linked x.1 ∧ (∀ n m, s.peer n = some m → x.1.peer n = some m) ∧ (∀ n m, SameFlow x.2 n m → x.1.peer n = some m) := by
  induction ops generalizing s x with
  | nil => simp only [run] at h; cases h; exact ⟨hl, fun _ _ hp => hp, by simp [SameFlow]⟩
  | cons o ops ih =>
    obtain ⟨r, h1, h2, h3⟩ := run_cons h
    obtain ⟨hl', hk, hn⟩ := step_linked hi hl h1 hc.1
    obtain ⟨h4, h5, h6⟩ := ih (step_inv hi h1 hc.1).1 hl' (hc.2 r h1) h2
    refine ⟨h4, fun n m hp => h5 n m (hk n m hp), ?_⟩
    rintro n m ⟨e, he, hm⟩
    rw [h3] at he
    rcases List.mem_cons.mp he with rfl | he
    · rcases hm with hm | hm
      · exact h5 n m (hn n m hm).1
      · exact h5 n m (hn m n hm).2
    · exact h6 n m ⟨e, he, hm⟩

theorem run_append_ok {s : State} (l1 l2 : List Op) {x : State × List (Op × Out)} (h : run s l1 = .ok x) {y : State × List (Op × Out)}
    (h2 : run x.1 l2 = .ok y) : run s (l1 ++ l2) = .ok (y.1, x.2 ++ y.2) := by
  induction l1 generalizing s x with
  | nil => simp only [run] at h; cases h; simpa using h2
  | cons o l1 ih =>
    obtain ⟨r, h3, h4, h5⟩ := run_cons h
    have := ih h4 h2
    simp only [List.cons_append, run, h3, Outcome.bind_ok, this, Outcome.pure_eq]
    rw [h5]; rfl

end Ouro.Local
