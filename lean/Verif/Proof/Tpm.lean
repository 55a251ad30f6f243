import Verif.Spec.Tpm
import Verif.Proof.Tac
import Mathlib.Data.List.Nodup

namespace Ouro.Tpm

theorem upd_same (f : Nat → Bool) (i : Nat) (b : Bool) : upd f i b i = b := by simp [upd]
theorem upd_ne (f : Nat → Bool) {i j : Nat} (b : Bool) (h : j ≠ i) : upd f i b j = f j := by simp [upd, h]

/-- The ids of the elements that are not to be killed. -/
def kept (l : List El) : List Nat := (l.filter (fun e => !e.kill)).map (·.id)

/-- Holds for every history. -/
structure Inv (s : State) : Prop where
  cur : s.cur = (s.pool.countP (fun e => !e.kill) : Int)
  kept : (kept s.pool).Perm (s.live.filter (fun t => !s.cancelled t))
  nodup : (s.pool.map (·.id)).Nodup
  nodupL : s.live.Nodup
  lt : ∀ e ∈ s.pool, e.id < s.next
  ltL : ∀ t ∈ s.live, t < s.next
  fresh : ∀ t, s.next ≤ t → s.cancelled t = false ∧ s.working t = false
  gone : ∀ t ∈ s.live, s.cancelled t = true → (∃ e ∈ s.pool, e.id = t ∧ e.kill = true) ∨ ∃ b, s.mgr = .joining t b
  canc : ∀ e ∈ s.pool, e.kill = s.cancelled e.id
  busy : ∀ e ∈ s.pool, e.busy = s.working e.id
  all : ∀ t, s.mgr = .joining t true → ∀ e ∈ s.pool, e.kill = true
  off : s.mgr = .off → s.live = [] ∧ s.pool = []
  zero : s.next = 0 → s.wrk = 0

theorem create_inv (m i : Nat) : Inv (create m i) where
  cur := rfl
  kept := List.Perm.refl _
  nodup := List.nodup_nil
  nodupL := List.nodup_nil
  lt := by simp [create]
  ltL := by simp [create]
  fresh := by simp [create]
  gone := by simp [create]
  canc := by simp [create]
  busy := by simp [create]
  all := by simp [create]
  off := by simp [create]
  zero := by simp [create]

theorem nodup_eq {l : List El} (h : (l.map (·.id)).Nodup) {a b : El} (ha : a ∈ l) (hb : b ∈ l) (hab : a.id = b.id) : a = b :=
  List.inj_on_of_nodup_map h ha hb hab

theorem grow_inv {s : State} (hi : Inv s) (n : Nat) (hg : ∀ t ∈ s.live, s.cancelled t = true → ∃ e ∈ s.pool, e.id = t ∧ e.kill = true) : Inv (grow s n).1 := by
  unfold grow
  split
  · rename_i hid
    set k := Nat.min n s.inc
    have hmem : ∀ t, t ∈ (List.range' s.next k).reverse → s.next ≤ t ∧ t < s.next + k := by
      intro t ht
      rw [List.mem_reverse, List.mem_range'] at ht
      obtain ⟨i, h1, rfl⟩ := ht; omega
    have hkn : kept ((List.range' s.next k).reverse.map (fun i => (⟨i, false, false⟩ : El))) = (List.range' s.next k).reverse := by
      simp [kept, List.filter_map, Function.comp_def]
    refine ⟨?_, ?_, ?_, ?_, ?_, ?_, ?_, ?_, ?_, ?_, ?_, ?_, ?_⟩ <;> dsimp only
    · rw [List.countP_append, hi.cur]
      have : ((List.range' s.next k).reverse.map (fun i => (⟨i, false, false⟩ : El))).countP (fun e => !e.kill) = k := by
        rw [List.countP_map]; simp [Function.comp_def]
      rw [this]; push_cast; ring
    · have h2 : ((List.range' s.next k).reverse ++ s.live).filter (fun t => !s.cancelled t) = (List.range' s.next k).reverse ++ s.live.filter (fun t => !s.cancelled t) := by
        rw [List.filter_append]
        congr 1
        rw [List.filter_eq_self]
        intro t ht
        simp [(hi.fresh t (hmem t ht).1).1]
      rw [h2]
      have h1 : ∀ a b, kept (a ++ b) = kept a ++ kept b := by simp [kept]
      rw [h1, hkn]
      exact hi.kept.append_left _
    · rw [List.map_append, List.map_map]
      have : ((fun e : El => e.id) ∘ fun i => (⟨i, false, false⟩ : El)) = id := rfl
      rw [this, List.map_id, List.nodup_append]
      refine ⟨List.nodup_reverse.mpr (List.nodup_range' ..), hi.nodup, ?_⟩
      intro a ha b hb hab
      obtain ⟨e, he, rfl⟩ := List.mem_map.mp hb
      have := (hmem a ha).1
      have := hi.lt e he
      omega
    · rw [List.nodup_append]
      refine ⟨List.nodup_reverse.mpr (List.nodup_range' ..), hi.nodupL, ?_⟩
      intro a ha b hb hab
      have := (hmem a ha).1
      have := hi.ltL b hb
      omega
    · intro e he
      rcases List.mem_append.mp he with he | he
      · obtain ⟨i, hi', rfl⟩ := List.mem_map.mp he
        exact (hmem i hi').2
      · have := hi.lt e he; omega
    · intro t ht
      rcases List.mem_append.mp ht with ht | ht
      · exact (hmem t ht).2
      · have := hi.ltL t ht; omega
    · intro t ht; exact hi.fresh t (by omega)
    · intro t ht hc
      rcases List.mem_append.mp ht with ht | ht
      · rw [(hi.fresh t (hmem t ht).1).1] at hc; cases hc
      · obtain ⟨e, he, h⟩ := hg t ht hc
        exact .inl ⟨e, List.mem_append_right _ he, h⟩
    · intro e he
      rcases List.mem_append.mp he with he | he
      · obtain ⟨i, hi', rfl⟩ := List.mem_map.mp he
        exact (hi.fresh i (hmem i hi').1).1.symm
      · exact hi.canc e he
    · intro e he
      rcases List.mem_append.mp he with he | he
      · obtain ⟨i, hi', rfl⟩ := List.mem_map.mp he
        exact (hi.fresh i (hmem i hi').1).2.symm
      · exact hi.busy e he
    · simp
    · simp
    · intro h; exact hi.zero (by omega)
  · exact ⟨hi.cur, hi.kept, hi.nodup, hi.nodupL, hi.lt, hi.ltL, hi.fresh, fun t ht hc => .inl (hg t ht hc), hi.canc, hi.busy, by simp, by simp, hi.zero⟩

/-- Before `joinNext` the manager is not joining a live thread. -/
theorem joinNext_inv {s : State} (hi : Inv s) (all : Bool) (n : Nat) (hg : ∀ t ∈ s.live, s.cancelled t = true → ∃ e ∈ s.pool, e.id = t ∧ e.kill = true)
    (ha : all = true → ∀ e ∈ s.pool, e.kill = true) : Inv (joinNext s all n).1 := by
  unfold joinNext
  split
  · rename_i e he
    have hm := List.mem_of_find?_eq_some he
    have hk : e.kill = true := by simpa using List.find?_some he
    have hp := List.perm_cons_erase hm
    have hsub : ∀ x ∈ s.pool.erase e, x ∈ s.pool := fun x hx => List.mem_of_mem_erase hx
    refine ⟨?_, ?_, ?_, hi.nodupL, fun x hx => hi.lt x (hsub x hx), hi.ltL, hi.fresh, ?_, fun x hx => hi.canc x (hsub x hx), fun x hx => hi.busy x (hsub x hx),
      ?_, by simp, hi.zero⟩ <;> dsimp only
    · rw [hi.cur, hp.countP_eq, List.countP_cons]; simp [hk]
    · refine List.Perm.trans ?_ hi.kept
      have := (hp.filter (fun e => !e.kill)).map (·.id)
      simp only [List.filter_cons, hk, Bool.not_true, Bool.false_eq_true, if_false] at this
      exact this.symm
    · exact ((hp.map (·.id)).nodup_iff.mp hi.nodup |> List.nodup_cons.mp).2
    · intro t ht hc
      obtain ⟨x, hx, h1, h2⟩ := hg t ht hc
      by_cases hxe : x = e
      · subst hxe; exact .inr ⟨all, by rw [h1]⟩
      · exact .inl ⟨x, (List.mem_erase_of_ne hxe).mpr hx, h1, h2⟩
    · intro t ht x hx
      cases ht
      exact ha rfl x (hsub x hx)
  · rename_i hnone
    have hno : ∀ e ∈ s.pool, e.kill = false := by
      intro e he
      have := List.find?_eq_none.mp hnone e he
      simpa using this
    split
    · rename_i hall
      have hpool : s.pool = [] := by
        cases hp : s.pool with
        | nil => rfl
        | cons e l =>
          have h1 := ha hall e (by simp [hp])
          have h2 := hno e (by simp [hp])
          rw [h1] at h2; cases h2
      have hlive : s.live = [] := by
        cases hp : s.live with
        | nil => rfl
        | cons t l =>
          exfalso
          have ht : t ∈ s.live := by simp [hp]
          cases hc : s.cancelled t with
          | true => obtain ⟨e, he, _⟩ := hg t ht hc; rw [hpool] at he; simp at he
          | false =>
            have := hi.kept.mem_iff.mpr (List.mem_filter.mpr ⟨ht, by simp [hc]⟩)
            simp [kept, hpool] at this
      exact ⟨hi.cur, hi.kept, hi.nodup, hi.nodupL, hi.lt, hi.ltL, hi.fresh, fun t ht hc => .inl (hg t ht hc), hi.canc, hi.busy, by simp, fun _ => ⟨hlive, hpool⟩, hi.zero⟩
    · exact grow_inv hi n hg

theorem mem_kept {s : State} (hi : Inv s) {t : Nat} (ht : t ∈ s.live) (hc : s.cancelled t = false) : ∃ e ∈ s.pool, e.id = t ∧ e.kill = false := by
  have := hi.kept.mem_iff.mpr (List.mem_filter.mpr ⟨ht, by simp [hc]⟩)
  simp only [kept, List.mem_map, List.mem_filter] at this
  obtain ⟨e, ⟨h1, h2⟩, h3⟩ := this
  exact ⟨e, h1, h3, by simpa using h2⟩

theorem killAll_inv {s : State} (hi : Inv s) (hmgr : s.mgr = .top) : Inv (killAll s) ∧ (∀ e ∈ (killAll s).pool, e.kill = true) ∧
    ∀ t ∈ s.live, ∃ e ∈ (killAll s).pool, e.id = t ∧ e.kill = true := by
  have hall : ∀ e ∈ (killAll s).pool, e.kill = true := by
    intro e he
    simp only [killAll, List.mem_map] at he
    obtain ⟨x, _, rfl⟩ := he; rfl
  have hlive : ∀ t ∈ s.live, ∃ e ∈ s.pool, e.id = t := by
    intro t ht
    cases hc : s.cancelled t with
    | true =>
      rcases hi.gone t ht hc with ⟨e, he, h, _⟩ | ⟨b, hb⟩
      · exact ⟨e, he, h⟩
      · rw [hmgr] at hb; cases hb
    | false => obtain ⟨e, he, h, _⟩ := mem_kept hi ht hc; exact ⟨e, he, h⟩
  have hlive2 : ∀ t ∈ s.live, ∃ e ∈ (killAll s).pool, e.id = t ∧ e.kill = true := by
    intro t ht
    obtain ⟨e, he, h⟩ := hlive t ht
    exact ⟨{ e with kill := true }, by simp only [killAll, List.mem_map]; exact ⟨e, he, rfl⟩, h, rfl⟩
  have hcanc : ∀ e ∈ s.pool, (killAll s).cancelled e.id = true := by
    intro e he
    simp only [killAll, Bool.or_eq_true, List.any_eq_true]
    cases hk : e.kill with
    | true => left; rw [← hi.canc e he, hk]
    | false => right; exact ⟨e, he, by simp [hk]⟩
  refine ⟨⟨?_, ?_, ?_, hi.nodupL, ?_, hi.ltL, ?_, ?_, ?_, ?_, ?_, ?_, hi.zero⟩, hall, hlive2⟩
  · show s.cur - _ = _
    have : (killAll s).pool.countP (fun e => !e.kill) = 0 := by
      rw [List.countP_eq_zero]
      intro e he; simp [hall e he]
    rw [this, hi.cur]; simp
  · have h1 : kept (killAll s).pool = [] := by
      simp only [kept, List.map_eq_nil_iff, List.filter_eq_nil_iff]
      intro e he; simp [hall e he]
    have h2 : (killAll s).live.filter (fun t => !(killAll s).cancelled t) = [] := by
      rw [List.filter_eq_nil_iff]
      intro t ht
      obtain ⟨e, he, h⟩ := hlive t ht
      simp [← h, hcanc e he]
    rw [h1, h2]
  · show ((s.pool.map _).map _).Nodup
    rw [List.map_map]; exact hi.nodup
  · intro e he
    simp only [killAll, List.mem_map] at he
    obtain ⟨x, hx, rfl⟩ := he; exact hi.lt x hx
  · intro t ht
    refine ⟨?_, (hi.fresh t ht).2⟩
    simp only [killAll, (hi.fresh t ht).1, Bool.false_or]
    rw [List.any_eq_false]
    intro e he
    have h1 := hi.lt e he
    have h2 : s.next ≤ t := ht
    have : e.id ≠ t := by omega
    simp [this]
  · intro t ht _; exact .inl (hlive2 t ht)
  · intro e he
    rw [hall e he]
    simp only [killAll, List.mem_map] at he
    obtain ⟨x, hx, rfl⟩ := he
    exact (hcanc x hx).symm
  · intro e he
    simp only [killAll, List.mem_map] at he
    obtain ⟨x, hx, rfl⟩ := he
    exact hi.busy x hx
  · intro t ht; exact hall
  · intro h; rw [show (killAll s).mgr = s.mgr from rfl, hmgr] at h; cases h

theorem kill_inv {s : State} (hi : Inv s) (hm : s.mgr ≠ .off) : Inv (kill s).1 := by
  unfold kill
  split
  · rename_i e he
    have hme := List.mem_of_find?_eq_some he
    have hke : e.busy = false ∧ e.kill = false := by simpa using List.find?_some he
    set f : El → El := fun x => if x.id = e.id then { x with kill := true } else x with hf
    have hfid : ∀ x, (f x).id = x.id := by intro x; simp only [hf]; split <;> rfl
    have hfb : ∀ x, (f x).busy = x.busy := by intro x; simp only [hf]; split <;> rfl
    have hfe : ∀ x ∈ s.pool, x ≠ e → f x = x := by
      intro x hx hne
      have : x.id ≠ e.id := fun h => hne (nodup_eq hi.nodup hx hme h)
      simp [hf, this]
    have hids : (s.pool.map f).map (·.id) = s.pool.map (·.id) := by
      rw [List.map_map]; exact List.map_congr_left (fun x _ => hfid x)
    have hp := List.perm_cons_erase hme
    have hnd : (e :: s.pool.erase e).Nodup := hp.nodup_iff.mp (List.Nodup.of_map _ hi.nodup)
    have herase : (s.pool.erase e).map f = s.pool.erase e := by
      conv_rhs => rw [← List.map_id (s.pool.erase e)]
      refine List.map_congr_left ?_
      intro x hx
      refine hfe x (List.mem_of_mem_erase hx) ?_
      rintro rfl
      exact (List.nodup_cons.mp hnd).1 hx
    have hpm : (s.pool.map f).Perm (f e :: s.pool.erase e) := by
      have := hp.map f
      rwa [List.map_cons, herase] at this
    have hfek : (f e).kill = true := by simp [hf]
    refine ⟨?_, ?_, ?_, hi.nodupL, ?_, hi.ltL, ?_, ?_, ?_, ?_, ?_, ?_, hi.zero⟩ <;> dsimp only
    · rw [hpm.countP_eq, hi.cur, hp.countP_eq]
      simp [hfek, hke.2]
    · have h1 : (kept (s.pool.map f)).Perm (kept (s.pool.erase e)) := by
        have := (hpm.filter (fun e => !e.kill)).map (·.id)
        simpa [kept, hfek] using this
      have h2 : (e.id :: kept (s.pool.erase e)).Perm (s.live.filter (fun t => !s.cancelled t)) := by
        refine List.Perm.trans ?_ hi.kept
        have := (hp.filter (fun e => !e.kill)).map (·.id)
        simp only [List.filter_cons, hke.2, Bool.not_false, if_true, List.map_cons] at this
        exact this.symm
      refine h1.trans ?_
      have h3 : s.live.filter (fun t => !upd s.cancelled e.id true t) = (s.live.filter (fun t => !s.cancelled t)).erase e.id := by
        rw [List.Nodup.erase_eq_filter (hi.nodupL.filter _), List.filter_filter]
        refine List.filter_congr ?_
        intro t _
        by_cases ht : t = e.id
        · subst ht; simp [upd_same]
        · rw [upd_ne _ _ ht]; simp [ht]
      rw [h3]
      have := h2.erase e.id
      simpa using this
    · rw [hids]; exact hi.nodup
    · intro x hx
      obtain ⟨y, hy, rfl⟩ := List.mem_map.mp hx
      rw [hfid]; exact hi.lt y hy
    · intro t ht
      have : t ≠ e.id := by have := hi.lt e hme; omega
      rw [upd_ne _ _ this]; exact hi.fresh t ht
    · intro t ht hc
      by_cases hte : t = e.id
      · exact .inl ⟨f e, List.mem_map_of_mem hme, by rw [hfid, hte], hfek⟩
      · rw [upd_ne _ _ hte] at hc
        rcases hi.gone t ht hc with ⟨x, hx, h1, h2⟩ | h
        · refine .inl ⟨f x, List.mem_map_of_mem hx, by rw [hfid, h1], ?_⟩
          rw [hfe x hx (by rintro rfl; exact hte h1.symm), h2]
        · exact .inr h
    · intro x hx
      obtain ⟨y, hy, rfl⟩ := List.mem_map.mp hx
      rw [hfid]
      by_cases hye : y = e
      · subst hye; rw [hfek, upd_same]
      · rw [hfe y hy hye, upd_ne _ _ (fun h => hye (nodup_eq hi.nodup hy hme h)), hi.canc y hy]
    · intro x hx
      obtain ⟨y, hy, rfl⟩ := List.mem_map.mp hx
      rw [hfid, hfb]; exact hi.busy y hy
    · intro t ht x hx
      obtain ⟨y, hy, rfl⟩ := List.mem_map.mp hx
      have := hi.all t ht y hy
      by_cases hye : y = e
      · subst hye; exact hfek
      · rw [hfe y hy hye, this]
    · intro h; exact absurd h hm
  · exact hi

theorem setBusy_ids (l : List El) (t : Nat) (b : Bool) : (setBusy l t b).map (·.id) = l.map (·.id) := by
  unfold setBusy; rw [List.map_map]
  refine List.map_congr_left ?_
  intro x _; simp only [Function.comp]; split <;> rfl

theorem mem_setBusy {l : List El} {t : Nat} {b : Bool} {x : El} (h : x ∈ setBusy l t b) :
    ∃ y ∈ l, x.id = y.id ∧ x.kill = y.kill ∧ x.busy = if y.id = t then b else y.busy := by
  unfold setBusy at h
  obtain ⟨y, hy, rfl⟩ := List.mem_map.mp h
  refine ⟨y, hy, ?_⟩
  split <;> simp

theorem setBusy_mem {l : List El} {t : Nat} {b : Bool} {y : El} (h : y ∈ l) : ∃ x ∈ setBusy l t b, x.id = y.id ∧ x.kill = y.kill := by
  refine ⟨_, List.mem_map_of_mem (f := fun e : El => if e.id = t then { e with busy := b } else e) h, ?_, ?_⟩ <;> (split <;> rfl)

theorem setBusy_kept (l : List El) (t : Nat) (b : Bool) : kept (setBusy l t b) = kept l := by
  unfold kept setBusy
  rw [List.filter_map, List.map_map]
  have h1 : ((fun e : El => !e.kill) ∘ fun e : El => if e.id = t then { e with busy := b } else e) = fun e => !e.kill := by
    funext e; simp only [Function.comp]; split <;> rfl
  rw [h1]
  refine List.map_congr_left ?_
  intro x _; simp only [Function.comp]; split <;> rfl

theorem setBusy_count (l : List El) (t : Nat) (b : Bool) : (setBusy l t b).countP (fun e => !e.kill) = l.countP (fun e => !e.kill) := by
  have h : ∀ l : List El, l.countP (fun e => !e.kill) = (kept l).length := by
    intro l; simp [kept, List.countP_eq_length_filter]
  rw [h, h, setBusy_kept]

theorem busy_inv {s : State} (hi : Inv s) (t : Nat) (ht : t ∈ s.live) (b : Bool) (w : Int) (m : Mgr)
    (hm : ∀ u c, (m = .joining u c ↔ s.mgr = .joining u c)) (hoff : m = .off ↔ s.mgr = .off) :
    Inv { s with working := upd s.working t b, pool := setBusy s.pool t b, wrk := w, mgr := m } where
  cur := by show s.cur = _; rw [setBusy_count]; exact hi.cur
  kept := by show (kept (setBusy s.pool t b)).Perm _; rw [setBusy_kept]; exact hi.kept
  nodup := by show ((setBusy s.pool t b).map _).Nodup; rw [setBusy_ids]; exact hi.nodup
  nodupL := hi.nodupL
  lt := by
    intro e he
    obtain ⟨y, hy, h1, _⟩ := mem_setBusy he
    rw [h1]; exact hi.lt y hy
  ltL := hi.ltL
  fresh := by
    intro u hu
    have h1 := hi.ltL t ht
    have h2 : s.next ≤ u := hu
    have : u ≠ t := by omega
    refine ⟨(hi.fresh u hu).1, ?_⟩
    show upd s.working t b u = false
    rw [upd_ne _ _ this]; exact (hi.fresh u hu).2
  gone := by
    intro u hu hc
    rcases hi.gone u hu hc with ⟨e, he, h1, h2⟩ | ⟨c, hc⟩
    · obtain ⟨x, hx, h3, h4⟩ := setBusy_mem (t := t) (b := b) he
      exact .inl ⟨x, hx, by rw [h3, h1], by rw [h4, h2]⟩
    · exact .inr ⟨c, (hm u c).mpr hc⟩
  canc := by
    intro e he
    obtain ⟨y, hy, h1, h2, _⟩ := mem_setBusy he
    show e.kill = s.cancelled e.id
    rw [h1, h2]; exact hi.canc y hy
  busy := by
    intro e he
    obtain ⟨y, hy, h1, _, h3⟩ := mem_setBusy he
    show e.busy = upd s.working t b e.id
    rw [h1, h3]
    by_cases h : y.id = t
    · rw [if_pos h, h, upd_same]
    · rw [if_neg h, upd_ne _ _ h]; exact hi.busy y hy
  all := by
    intro u hu e he
    obtain ⟨y, hy, _, h2, _⟩ := mem_setBusy he
    rw [h2]; exact hi.all u ((hm u true).mp hu) y hy
  off := by
    intro h
    have := hi.off (hoff.mp h)
    exact ⟨this.1, by show setBusy s.pool t b = []; rw [this.2]; rfl⟩
  zero := by
    intro h
    have h2 : s.next = 0 := h
    have := hi.ltL t ht
    omega

theorem mgr_inv {s : State} (hi : Inv s) (m : Mgr) (hg : ∀ t b, s.mgr = .joining t b → t ∉ s.live ∨ m = .joining t b) (ha : ∀ t, m ≠ .joining t true) (ho : m ≠ .off) (r : Bool) :
    Inv { s with mgr := m, running := r } :=
  ⟨hi.cur, hi.kept, hi.nodup, hi.nodupL, hi.lt, hi.ltL, hi.fresh, by
    intro t ht hc
    rcases hi.gone t ht hc with h | ⟨b, hb⟩
    · exact .inl h
    · rcases hg t b hb with h | h
      · exact absurd ht h
      · exact .inr ⟨b, h⟩, hi.canc, hi.busy, fun t h => absurd h (ha t), fun h => absurd h ho, hi.zero⟩

theorem gone_of {s : State} (hi : Inv s) (h : ∀ t b, s.mgr = .joining t b → t ∉ s.live) : ∀ t ∈ s.live, s.cancelled t = true → ∃ e ∈ s.pool, e.id = t ∧ e.kill = true := by
  intro t ht hc
  rcases hi.gone t ht hc with h' | ⟨b, hb⟩
  · exact h'
  · exact absurd ht (h t b hb)

theorem step_inv {s : State} (hi : Inv s) (op : Op) : Inv (step s op).1 := by
  cases op with
  | start =>
    simp only [step]
    split
    · rename_i h; exact mgr_inv hi .top (by simp [h]) (by simp) (by simp) true
    · exact hi
  | stop => exact ⟨hi.cur, hi.kept, hi.nodup, hi.nodupL, hi.lt, hi.ltL, hi.fresh, hi.gone, hi.canc, hi.busy, hi.all, hi.off, hi.zero⟩
  | mgr n =>
    simp only [step]
    cases hm : s.mgr with
    | off => exact hi
    | top =>
      simp only
      split
      · obtain ⟨h1, h2, h3⟩ := killAll_inv hi hm
        exact joinNext_inv h1 true n (fun t ht _ => h3 t ht) (fun _ => h2)
      · exact joinNext_inv hi false n (gone_of hi (by simp [hm])) (by simp)
    | joining t b =>
      simp only
      split
      · exact hi
      · rename_i ht
        refine joinNext_inv hi b n (gone_of hi ?_) ?_
        · intro u c h; rw [hm] at h; cases h; exact ht
        · rintro rfl; exact hi.all t hm
    | waiting b => exact mgr_inv hi .top (by simp [hm]) (by simp) (by simp) s.running
  | timeout =>
    simp only [step]
    cases hm : s.mgr with
    | waiting b =>
      have h1 : Inv { s with mgr := .top } := mgr_inv hi .top (by simp [hm]) (by simp) (by simp) s.running
      simp only
      split
      · exact kill_inv h1 (by simp)
      · exact h1
    | _ => exact hi
  | dec t =>
    simp only [step]
    split
    · rename_i h
      refine busy_inv hi t h.1 true _ _ ?_ ?_ <;> cases s.mgr <;> simp
    · exact hi
  | inc t =>
    simp only [step]
    split
    · rename_i h
      exact busy_inv hi t h.1 false _ s.mgr (by simp) Iff.rfl
    · exact hi
  | exit t =>
    simp only [step]
    split
    · rename_i h
      have hsub : ∀ u ∈ s.live.erase t, u ∈ s.live := fun u hu => List.mem_of_mem_erase hu
      refine ⟨hi.cur, ?_, hi.nodup, hi.nodupL.erase t, hi.lt, fun u hu => hi.ltL u (hsub u hu), hi.fresh, fun u hu hc => hi.gone u (hsub u hu) hc, hi.canc, hi.busy, hi.all, ?_, hi.zero⟩ <;> dsimp only
      · have : (s.live.erase t).filter (fun u => !s.cancelled u) = s.live.filter (fun u => !s.cancelled u) := by
          rw [List.Nodup.erase_eq_filter hi.nodupL, List.filter_filter]
          refine List.filter_congr ?_
          intro u _
          by_cases hu : u = t
          · subst hu; simp [h.2]
          · simp [hu]
        rw [this]; exact hi.kept
      · intro ho
        have := hi.off ho
        rw [this.1] at h; simp at h
    · exact hi

theorem run_inv {s : State} (hi : Inv s) (ops : List Op) : Inv (run s ops).1 := by
  induction ops generalizing s with
  | nil => exact hi
  | cons op l ih => exact ih (step_inv hi op)

/-- The manager is at work for a pool that was not stopped. -/
def Active (s : State) : Prop := (∀ t, s.mgr ≠ .joining t true) ∧ (s.mgr = .off → s.next = 0)

/-- The counter of working threads is right. -/
def Right (s : State) : Prop := s.wrk = (s.pool.countP (·.busy) : Int) ∧ ∀ e ∈ s.pool, e.busy = true → e.kill = false

theorem right_zero {s : State} (hi : Inv s) (h : s.next = 0) : Right s := by
  have hp : s.pool = [] := by
    cases hp : s.pool with
    | nil => rfl
    | cons e l => have := hi.lt e (by simp [hp]); omega
  refine ⟨by rw [hi.zero h, hp]; rfl, by simp [hp]⟩

theorem grow_right {s : State} (hr : Right s) (n : Nat) : Right (grow s n).1 := by
  unfold grow
  split
  · refine ⟨?_, ?_⟩ <;> dsimp only
    · rw [List.countP_append, hr.1]
      have : ((List.range' s.next (Nat.min n s.inc)).reverse.map (fun i => (⟨i, false, false⟩ : El))).countP (·.busy) = 0 := by
        rw [List.countP_map]; simp [Function.comp_def]
      rw [this]; simp
    · intro e he hb
      rcases List.mem_append.mp he with he | he
      · obtain ⟨i, _, rfl⟩ := List.mem_map.mp he; rfl
      · exact hr.2 e he hb
  · exact hr

theorem joinNext_right {s : State} (hr : Right s) (n : Nat) : Right (joinNext s false n).1 := by
  unfold joinNext
  split
  · rename_i e he
    have hm := List.mem_of_find?_eq_some he
    have hk : e.kill = true := by simpa using List.find?_some he
    have hb : e.busy = false := by
      cases h : e.busy with
      | false => rfl
      | true => rw [hr.2 e hm h] at hk; cases hk
    refine ⟨?_, fun x hx => hr.2 x (List.mem_of_mem_erase hx)⟩
    show s.wrk = _
    rw [hr.1, (List.perm_cons_erase hm).countP_eq, List.countP_cons]; simp [hb]
  · exact grow_right hr n

theorem joinNext_all (s : State) (n : Nat) : (∃ t, (joinNext s true n).1.mgr = .joining t true) ∨ ((joinNext s true n).1.mgr = .off) := by
  unfold joinNext
  split
  · exact .inl ⟨_, rfl⟩
  · exact .inr rfl

theorem count_setBusy (l : List El) (hn : (l.map (·.id)).Nodup) (t : Nat) (b : Bool) (h : ∀ e ∈ l, e.id = t → e.busy = !b) :
    ((setBusy l t b).countP (·.busy) : Int) = l.countP (·.busy) + (if has l t then (if b then 1 else -1) else 0) := by
  induction l with
  | nil => simp [setBusy, has]
  | cons e l ih =>
    have hn' := List.nodup_cons.mp hn
    have hih := ih hn'.2 (fun x hx => h x (List.mem_cons_of_mem _ hx))
    by_cases het : e.id = t
    · have hno : has l t = false := by
        simp only [has, List.any_eq_false]
        intro x hx hxt
        apply hn'.1
        show e.id ∈ _
        rw [het, List.mem_map]
        exact ⟨x, hx, by simpa using hxt⟩
      have hb := h e (by simp) het
      have h1 : has (e :: l) t = true := by simp [has, het]
      rw [hno] at hih
      rw [h1]
      simp only [Bool.false_eq_true, if_false, add_zero] at hih
      have h2 : setBusy (e :: l) t b = { e with busy := b } :: setBusy l t b := by simp [setBusy, het]
      rw [h2, List.countP_cons, List.countP_cons, hb]
      cases b <;> simp only [Bool.not_true, Bool.not_false, if_true, Bool.false_eq_true, if_false] <;> push_cast <;> omega
    · have h1 : has (e :: l) t = has l t := by simp [has, het]
      rw [h1]
      have h2 : setBusy (e :: l) t b = e :: setBusy l t b := by simp [setBusy, het]
      rw [h2, List.countP_cons, List.countP_cons]
      push_cast
      omega

theorem step_right {s : State} (hi : Inv s) (hr : Active s → Right s) (op : Op) (hc : CalmStep s op) : Active (step s op).1 → Right (step s op).1 := by
  intro ha
  have hi' := step_inv hi op
  by_cases hz : (step s op).1.next = 0
  · exact right_zero hi' hz
  have hoff : (step s op).1.mgr ≠ .off := fun h => hz (ha.2 h)
  cases op with
  | start =>
    simp only [step] at hz ⊢
    simp only [CalmStep] at hc
    split at hz <;> exact absurd hc hz
  | stop =>
    exact hr ha
  | mgr n =>
    simp only [step] at ha hoff hz ⊢
    cases hm : s.mgr with
    | off => simp [hm] at hoff
    | top =>
      have hr' := hr ⟨by simp [hm], by simp [hm]⟩
      simp only [hm] at ha hoff ⊢
      split
      · rename_i hrun
        rw [if_pos hrun] at ha hoff
        rcases joinNext_all (killAll s) n with ⟨t, h⟩ | h
        · exact absurd h (ha.1 t)
        · exact absurd h hoff
      · exact joinNext_right hr' n
    | joining t b =>
      simp only [hm] at ha hoff ⊢
      cases b with
      | true =>
        split at ha
        · exact absurd hm (ha.1 t)
        · rename_i ht
          rw [if_neg ht] at hoff ⊢
          rcases joinNext_all s n with ⟨t, h⟩ | h
          · exact absurd h (ha.1 t)
          · exact absurd h hoff
      | false =>
        have hr' := hr ⟨by simp [hm], by simp [hm]⟩
        split
        · exact hr'
        · exact joinNext_right hr' n
    | waiting b =>
      exact hr ⟨by simp [hm], by simp [hm]⟩
  | timeout =>
    simp only [step] at ha hoff hz ⊢
    cases hm : s.mgr with
    | waiting b =>
      have hr' := hr ⟨by simp [hm], by simp [hm]⟩
      simp only
      split
      · unfold kill
        split
        · rename_i e he
          have hme := List.mem_of_find?_eq_some he
          have hke : e.busy = false ∧ e.kill = false := by simpa using List.find?_some he
          refine ⟨?_, ?_⟩ <;> dsimp only
          · rw [hr'.1, List.countP_map]
            congr 1
            refine List.countP_congr ?_
            intro x _; simp only [Function.comp]; split <;> simp
          · intro x hx hb
            obtain ⟨y, hy, rfl⟩ := List.mem_map.mp hx
            split at hb
            · rename_i hid
              have hye := nodup_eq hi.nodup hy hme hid
              rw [hye, hke.1] at hb; cases hb
            · rename_i hid
              rw [if_neg hid]; exact hr'.2 y hy hb
        · exact hr'
      · exact hr'
    | _ => 
      simp only [hm] at ha hoff ⊢
      refine hr ⟨by simpa [hm] using ha.1, by simpa [hm] using ha.2⟩
  | dec t =>
    simp only [step] at ha hoff hz ⊢
    simp only [CalmStep] at hc
    split at ha
    · rename_i h
      rw [if_pos h] at hoff hz ⊢
      have hact : Active s := by
        refine ⟨?_, ?_⟩
        · intro u hu; have := ha.1 u; simp [hu] at this
        · intro hu; simp [hu] at hoff
      have hr' := hr hact
      obtain ⟨e, he, h1, h2⟩ := mem_kept hi h.1 hc
      have hhas : has s.pool t = true := by simp only [has, List.any_eq_true]; exact ⟨e, he, by simp [h1]⟩
      refine ⟨?_, ?_⟩ <;> dsimp only
      · rw [count_setBusy s.pool hi.nodup t true, hhas, hr'.1]
        · simp
        · intro x hx hxt
          rw [hi.busy x hx, hxt]; simp [h.2]
      · intro x hx hb
        obtain ⟨y, hy, h3, h4, h5⟩ := mem_setBusy hx
        rw [h4]
        by_cases hyt : y.id = t
        · rw [hi.canc y hy, hyt, hc]
        · rw [if_neg hyt] at h5; exact hr'.2 y hy (by rw [← h5, hb])
    · rename_i h; rw [if_neg h]; exact hr ha
  | inc t =>
    simp only [step] at ha hoff hz ⊢
    split at ha
    · rename_i h
      rw [if_pos h]
      have hr' := hr ha
      refine ⟨?_, ?_⟩ <;> dsimp only
      · rw [count_setBusy s.pool hi.nodup t false, hr'.1]
        · cases has s.pool t <;> simp <;> omega
        · intro x hx hxt
          rw [hi.busy x hx, hxt]; simp [h.2]
      · intro x hx hb
        obtain ⟨y, hy, h3, h4, h5⟩ := mem_setBusy hx
        rw [h4]
        by_cases hyt : y.id = t
        · rw [if_pos hyt, hb] at h5; cases h5
        · rw [if_neg hyt] at h5; exact hr'.2 y hy (by rw [← h5, hb])
    · rename_i h; rw [if_neg h]; exact hr ha
  | exit t =>
    simp only [step] at ha ⊢
    split at ha
    · rename_i h; rw [if_pos h]; exact hr ha
    · rename_i h; rw [if_neg h]; exact hr ha

theorem run_right {s : State} (hi : Inv s) (hr : Active s → Right s) (ops : List Op) (hc : Calm s ops) : Active (run s ops).1 → Right (run s ops).1 := by
  induction ops generalizing s with
  | nil => exact hr
  | cons op l ih => exact ih (step_inv hi op) (step_right hi hr op hc.1) hc.2

/-- The counters in terms of threads. -/
theorem counts {s : State} (hi : Inv s) (hr : Right s) :
    s.cur = (liveThreads s : Int) ∧ s.wrk = (workingThreads s : Int) ∧ liveThreads s = workingThreads s + idleThreads s := by
  have h1 : s.cur = (liveThreads s : Int) := by
    rw [hi.cur, liveThreads, ← hi.kept.length_eq]
    simp [kept, List.countP_eq_length_filter]
  have h2 : s.wrk = (workingThreads s : Int) := by
    rw [hr.1, workingThreads, ← (hi.kept.filter _).length_eq, kept, List.filter_map, List.length_map, List.filter_filter, ← List.countP_eq_length_filter]
    congr 1
    refine List.countP_congr ?_
    intro x hx
    simp only [Function.comp, Bool.and_eq_true, Bool.not_eq_true', ← hi.busy x hx]
    constructor
    · intro h; exact ⟨h, hr.2 x hx h⟩
    · exact fun h => h.1
  refine ⟨h1, h2, ?_⟩
  unfold liveThreads workingThreads idleThreads
  generalize s.live.filter (fun t => !s.cancelled t) = l
  rw [← List.countP_eq_length_filter, ← List.countP_eq_length_filter]
  simpa using List.length_eq_countP_add_countP (l := l) (p := s.working)

theorem idle64_le {s : State} (hi : Inv s) (hr : Right s) : idle64 s ≤ idleThreads s := by
  obtain ⟨h1, h2, h3⟩ := counts hi hr
  unfold idle64
  rw [h1, h2, h3]
  push_cast
  rw [show ((workingThreads s : Int) + idleThreads s - workingThreads s) = ((idleThreads s : Nat) : Int) by ring]
  omega

theorem grow_idle {s : State} (hi : Inv s) (n : Nat) : idle64 s < s.min → idleThreads (grow s n).1 = idleThreads s + Nat.min n s.inc := by
  intro h
  unfold grow
  rw [if_pos h]
  unfold idleThreads
  dsimp only
  have hmem : ∀ t, t ∈ (List.range' s.next (Nat.min n s.inc)).reverse → s.next ≤ t := by
    intro t ht
    rw [List.mem_reverse, List.mem_range'] at ht
    obtain ⟨i, h1, rfl⟩ := ht; omega
  rw [List.filter_append, List.filter_append, List.length_append]
  have h1 : (List.range' s.next (Nat.min n s.inc)).reverse.filter (fun t => !s.cancelled t) = (List.range' s.next (Nat.min n s.inc)).reverse := by
    rw [List.filter_eq_self]; intro t ht; simp [(hi.fresh t (hmem t ht)).1]
  have h2 : (List.range' s.next (Nat.min n s.inc)).reverse.filter (fun t => !s.working t) = (List.range' s.next (Nat.min n s.inc)).reverse := by
    rw [List.filter_eq_self]; intro t ht; simp [(hi.fresh t (hmem t ht)).2]
  rw [h1, h2, List.length_reverse, List.length_range']
  omega

/-- At the end of a round. -/
theorem grow_enough {s : State} (hi : Inv s) (hr : Right s) (n : Nat) : s.min ≤ idleThreads (grow s n).1 ∨ (grow s n).1.short = true ∨ s.inc < s.min := by
  by_cases h : idle64 s < s.min
  · have := grow_idle hi n h
    by_cases hk : Nat.min n s.inc < s.inc
    · right; left; simp [grow, h, hk]
    · by_cases hm : s.inc < s.min
      · exact .inr (.inr hm)
      · left; omega
  · left
    have h1 := idle64_le hi hr
    have h2 : idleThreads (grow s n).1 = idleThreads s := by simp [grow, h, idleThreads]
    omega

/-- Where a round ends. -/
theorem round_from {s : State} (hi : Inv s) (hr : Active s → Right s) (op : Op) (k : Nat) (h : (step s op).2 = .created k) :
    ∃ s' n, Inv s' ∧ Right s' ∧ (step s op) = grow s' n ∧ s'.min = s.min ∧ s'.inc = s.inc := by
  have hjn : ∀ s' b n, (joinNext s' b n).2 = .created k → b = false ∧ joinNext s' b n = grow s' n := by
    intro s' b n hj
    unfold joinNext at hj ⊢
    split at hj
    · cases hj
    · split at hj
      · cases hj
      · rename_i hb; exact ⟨by simpa using hb, by rw [if_neg hb]⟩
  cases op with
  | mgr n =>
    simp only [step] at h ⊢
    cases hm : s.mgr with
    | off => simp [hm] at h
    | top =>
      simp only [hm] at h ⊢
      split at h
      · have := (hjn _ _ _ h).1; cases this
      · rename_i hrun
        rw [if_neg hrun]
        exact ⟨s, n, hi, hr ⟨by simp [hm], by simp [hm]⟩, (hjn _ _ _ h).2, rfl, rfl⟩
    | joining t b =>
      simp only [hm] at h ⊢
      split at h
      · cases h
      · rename_i ht
        rw [if_neg ht]
        have := hjn _ _ _ h
        have hb := this.1
        subst hb
        exact ⟨s, n, hi, hr ⟨by simp [hm], by simp [hm]⟩, this.2, rfl, rfl⟩
    | waiting b => simp [hm] at h
  | start => simp only [step] at h; split at h <;> cases h
  | stop => simp only [step] at h; cases h
  | timeout =>
    simp only [step] at h
    split at h
    · split at h
      · unfold kill at h; split at h <;> cases h
      · cases h
    · cases h
  | dec t => simp only [step] at h; split at h <;> cases h
  | inc t => simp only [step] at h; split at h <;> cases h
  | exit t => simp only [step] at h; split at h <;> cases h

theorem step_cfg (s : State) (op : Op) : (step s op).1.min = s.min ∧ (step s op).1.inc = s.inc := by
  have hg : ∀ (s : State) n, (grow s n).1.min = s.min ∧ (grow s n).1.inc = s.inc := by
    intro s n; unfold grow; split <;> exact ⟨rfl, rfl⟩
  have hj : ∀ (s : State) b n, (joinNext s b n).1.min = s.min ∧ (joinNext s b n).1.inc = s.inc := by
    intro s b n; unfold joinNext
    split
    · exact ⟨rfl, rfl⟩
    · split
      · exact ⟨rfl, rfl⟩
      · exact hg s n
  have hk : ∀ s : State, (kill s).1.min = s.min ∧ (kill s).1.inc = s.inc := by
    intro s; unfold kill; split <;> exact ⟨rfl, rfl⟩
  cases op <;> simp only [step]
  case mgr n =>
    split
    · exact ⟨rfl, rfl⟩
    · split
      · exact hj (killAll s) true n
      · exact hj s false n
    · split
      · exact ⟨rfl, rfl⟩
      · exact hj _ _ _
    · exact ⟨rfl, rfl⟩
  case timeout =>
    split
    · split
      · exact hk _
      · exact ⟨rfl, rfl⟩
    · exact ⟨rfl, rfl⟩
  all_goals first | exact ⟨trivial, trivial⟩ | exact ⟨rfl, rfl⟩ | (split <;> exact ⟨rfl, rfl⟩)

theorem run_cfg (s : State) (ops : List Op) : (run s ops).1.min = s.min ∧ (run s ops).1.inc = s.inc := by
  induction ops generalizing s with
  | nil => exact ⟨rfl, rfl⟩
  | cons op l ih =>
    have h1 := ih (step s op).1
    have h2 := step_cfg s op
    exact ⟨h1.1.trans h2.1, h1.2.trans h2.2⟩

/-- While the manager sleeps and was not signalled there are enough idle threads. -/
def Enough (s : State) : Prop := s.mgr = .waiting false → s.min ≤ idleThreads s ∨ s.short = true ∨ s.inc < s.min

theorem idle_mono {s : State} {live : List Nat} {w : Nat → Bool} (hl : ∀ p : Nat → Bool, (live.filter p).length = (s.live.filter p).length) (hw : ∀ t, w t = true → s.working t = true) :
    idleThreads s ≤ ((live.filter (fun t => !s.cancelled t)).filter (fun t => !w t)).length := by
  unfold idleThreads
  rw [List.filter_filter, List.filter_filter, hl, ← List.countP_eq_length_filter, ← List.countP_eq_length_filter]
  refine List.countP_mono_left ?_
  intro t _ h
  simp only [Bool.and_eq_true, Bool.not_eq_true'] at h ⊢
  refine ⟨?_, h.2⟩
  cases hwt : w t with
  | false => rfl
  | true => rw [hw t hwt] at h; exact absurd h.1 (by simp)

theorem grow_created (s : State) (n : Nat) : ∃ k, (grow s n).2 = .created k := by
  unfold grow; split <;> exact ⟨_, rfl⟩

theorem step_enough {s : State} (hi : Inv s) (hr : Active s → Right s) (he : Enough s) (op : Op) : Enough (step s op).1 := by
  intro hw
  by_cases hcr : ∃ k, (step s op).2 = .created k
  · obtain ⟨k, hk⟩ := hcr
    obtain ⟨s', n, h1, h2, h3, h4, h5⟩ := round_from hi hr op k hk
    have h6 := grow_enough h1 h2 n
    rw [← h3] at h6
    rw [(step_cfg s op).1, (step_cfg s op).2, ← h4, ← h5]
    exact h6
  · have hj : ∀ s' b n, (joinNext s' b n).1.mgr = .waiting false → ∃ k, (joinNext s' b n).2 = .created k := by
      intro s' b n h
      unfold joinNext at h ⊢
      split at h
      · cases h
      · split at h
        · cases h
        · rename_i hb; rw [if_neg hb]; exact grow_created s' n
    cases op with
    | start => simp only [step] at hw ⊢; split at hw
               · cases hw
               · rename_i h; rw [if_neg h]; exact he hw
    | stop => exact he hw
    | mgr n =>
      exfalso
      simp only [step] at hw hcr
      cases hm : s.mgr with
      | off => simp [hm] at hw
      | top =>
        simp only [hm] at hw hcr
        split at hw
        · rename_i h; rw [if_pos h] at hcr; exact hcr (hj _ _ _ hw)
        · rename_i h; rw [if_neg h] at hcr; exact hcr (hj _ _ _ hw)
      | joining t b =>
        simp only [hm] at hw hcr
        split at hw
        · rw [hm] at hw; cases hw
        · rename_i h; rw [if_neg h] at hcr; exact hcr (hj _ _ _ hw)
      | waiting b => simp [hm] at hw
    | timeout =>
      simp only [step] at hw ⊢
      cases hm : s.mgr with
      | waiting b =>
        exfalso
        simp only [hm] at hw
        split at hw
        · unfold kill at hw; split at hw <;> cases hw
        · cases hw
      | _ => rw [hm] at hw; simp only [hm] at hw; cases hw
    | dec t =>
      simp only [step] at hw ⊢
      split at hw
      · cases hm : s.mgr <;> simp [hm] at hw
      · rename_i h; rw [if_neg h]; exact he hw
    | inc t =>
      simp only [step] at hw ⊢
      split at hw
      · rename_i h
        rw [if_pos h]
        rcases he hw with h1 | h1
        · left
          refine Nat.le_trans h1 (idle_mono (s := s) (live := s.live) (w := upd s.working t false) (fun _ => rfl) ?_)
          intro u hu
          by_cases hut : u = t
          · subst hut; rw [upd_same] at hu; cases hu
          · rwa [upd_ne _ _ hut] at hu
        · exact .inr h1
      · rename_i h; rw [if_neg h]; exact he hw
    | exit t =>
      simp only [step] at hw ⊢
      split at hw
      · rename_i h
        rw [if_pos h]
        rcases he hw with h1 | h1
        · left
          refine Nat.le_trans h1 (Nat.le_of_eq ?_)
          unfold idleThreads
          dsimp only
          have : (s.live.erase t).filter (fun u => !s.cancelled u) = s.live.filter (fun u => !s.cancelled u) := by
            rw [List.Nodup.erase_eq_filter hi.nodupL, List.filter_filter]
            refine List.filter_congr ?_
            intro u _
            by_cases hu : u = t
            · subst hu; simp [h.2]
            · simp [hu]
          rw [this]
        · exact .inr h1
      · rename_i h; rw [if_neg h]; exact he hw

theorem run_enough {s : State} (hi : Inv s) (hr : Active s → Right s) (he : Enough s) (ops : List Op) (hc : Calm s ops) : Enough (run s ops).1 := by
  induction ops generalizing s with
  | nil => exact he
  | cons op l ih => exact ih (step_inv hi op) (step_right hi hr op hc.1) (step_enough hi hr he op) hc.2

/-- Only a timeout tells a single worker to exit. -/
theorem killed_from {s : State} {op : Op} {t : Nat} (h : (step s op).2 = .killed t) :
    op = .timeout ∧ (∃ b, s.mgr = .waiting b) ∧ s.min < idle64 s ∧ ∃ e ∈ s.pool, e.id = t ∧ e.busy = false ∧ e.kill = false := by
  have hg : ∀ (s : State) n, (grow s n).2 ≠ .killed t := by
    intro s n; unfold grow; split <;> simp
  have hj : ∀ (s : State) b n, (joinNext s b n).2 ≠ .killed t := by
    intro s b n; unfold joinNext
    split
    · simp
    · split
      · simp
      · exact hg s n
  cases op <;> simp only [step] at h
  case timeout =>
    split at h
    · rename_i b hb
      split at h
      · rename_i hid
        refine ⟨rfl, ⟨b, hb⟩, hid, ?_⟩
        unfold kill at h
        split at h
        · rename_i e he
          cases h
          have hke : e.busy = false ∧ e.kill = false := by simpa using List.find?_some he
          exact ⟨e, List.mem_of_find?_eq_some he, rfl, hke⟩
        · cases h
      · cases h
    · cases h
  case mgr n =>
    exfalso
    split at h
    · cases h
    · split at h
      · exact hj _ _ _ h
      · exact hj _ _ _ h
    · split at h
      · cases h
      · exact hj _ _ _ h
    · cases h
  all_goals first | cases h | (split at h <;> cases h)

end Ouro.Tpm
