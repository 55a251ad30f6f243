import Verif.Spec.DhtLookup
import Verif.Proof.Tac
import Mathlib.Data.List.Nodup

namespace Ouro.DhtLookup

theorem be_foldl (l : List UInt8) (n : Nat) : l.foldl (fun n x => n * 256 + x.toNat) n = n * 256 ^ l.length + num l := by
  induction l generalizing n with
  | nil => simp [num]
  | cons x xs ih =>
    rw [List.foldl_cons, ih, num, List.length_cons, pow_succ]
    ring

theorem be_eq (l : List UInt8) : be l = num l := by
  have := be_foldl l 0
  simpa [be] using this

theorem dist_eq (x y : List UInt8) : dist x y = distance64 x y := be_eq _

theorem num_lt (l : List UInt8) : num l < 256 ^ l.length := by
  induction l with
  | nil => simp [num]
  | cons x xs ih =>
    rw [num, List.length_cons, pow_succ]
    have := x.toNat_lt
    have h : x.toNat * 256 ^ xs.length + 256 ^ xs.length ≤ 256 * 256 ^ xs.length := by
      have : (x.toNat + 1) * 256 ^ xs.length ≤ 256 * 256 ^ xs.length := Nat.mul_le_mul_right _ (by omega)
      linarith
    omega

theorem num_append (l m : List UInt8) : num (l ++ m) = num l * 256 ^ m.length + num m := by
  induction l with
  | nil => simp [num]
  | cons x xs ih =>
    rw [List.cons_append, num, num, ih, List.length_append, pow_add]
    ring

/-- The contacts are sorted by distance, the farthest first. -/
def Desc (key : List UInt8) (l : List (List UInt8)) : Prop := l.Pairwise (fun x y => dist y key ≤ dist x key)

theorem addSorted_perm (key : List UInt8) (c : Contact) (l : List Contact) : (addSorted key c l).Perm (c :: l) := by
  induction l with
  | nil => exact List.Perm.refl _
  | cons e es ih =>
    unfold addSorted
    split
    · exact List.Perm.refl _
    · exact (ih.cons e).trans (List.Perm.swap c e es)

theorem addSorted_desc (key : List UInt8) (c : Contact) (l : List Contact) (h : Desc key (l.map (·.id))) : Desc key ((addSorted key c l).map (·.id)) := by
  induction l with
  | nil => simp [addSorted, Desc]
  | cons e es ih =>
    unfold addSorted
    have h' := List.pairwise_cons.1 h
    split
    · next hgt =>
      refine List.pairwise_cons.2 ⟨?_, h⟩
      intro x hx
      rcases List.mem_cons.1 hx with rfl | hx
      · exact Nat.le_of_lt hgt
      · exact Nat.le_trans (h'.1 x hx) (Nat.le_of_lt hgt)
    · next hle =>
      refine List.pairwise_cons.2 ⟨?_, ih h'.2⟩
      intro x hx
      have hp := ((addSorted_perm key c es).map (·.id)).mem_iff.1 hx
      rcases List.mem_cons.1 hp with rfl | hx
      · exact Nat.not_lt.1 hle
      · exact h'.1 x hx

theorem scan_mem {key : List UInt8} {c : Contact} {l : List Contact} (h : Desc key (l.map (·.id))) (hm : c.id ∈ l.map (·.id)) : scan key c l = none := by
  induction l with
  | nil => cases hm
  | cons e es ih =>
    have h' := List.pairwise_cons.1 h
    unfold scan
    split
    · rfl
    · next hne =>
      have hm' : c.id ∈ es.map (·.id) := by
        rcases List.mem_cons.1 hm with hh | hh
        · exact absurd hh.symm hne
        · exact hh
      have := h'.1 c.id hm'
      rw [if_neg (Nat.not_lt.2 this), ih h'.2 hm']
      rfl

theorem scan_none {key : List UInt8} {c : Contact} {l : List Contact} (h : scan key c l = none) : c.id ∈ l.map (·.id) := by
  induction l with
  | nil => cases h
  | cons e es ih =>
    unfold scan at h
    split at h
    · next hh => exact List.mem_cons.2 (Or.inl hh.symm)
    · split at h
      · cases h
      · exact List.mem_cons_of_mem _ (ih (Option.map_eq_none_iff.1 h))

theorem scan_full {key : List UInt8} {c : Contact} {l : List Contact} (hm : c.id ∉ l.map (·.id)) (h : ∀ x ∈ l.map (·.id), dist c.id key ≤ dist x key) : scan key c l = some l.length := by
  induction l with
  | nil => rfl
  | cons e es ih =>
    unfold scan
    have h1 : ¬ e.id = c.id := fun hh => hm (List.mem_cons.2 (Or.inl hh.symm))
    have h2 := h e.id (List.mem_cons_self)
    rw [if_neg h1, if_neg (Nat.not_lt.2 h2), ih (fun hh => hm (List.mem_cons_of_mem _ hh)) (fun x hx => h x (List.mem_cons_of_mem _ hx))]
    rfl

theorem scan_some {key : List UInt8} {c : Contact} {l : List Contact} {p : Nat} (h : scan key c l = some p) (hd : Desc key (l.map (·.id))) :
    l.insertIdx p c = addSorted key c l ∧ p ≤ l.length ∧ c.id ∉ l.map (·.id) ∧ (p < l.length → ∃ x ∈ l.map (·.id), dist x key < dist c.id key) := by
  have hnot : c.id ∉ l.map (·.id) := fun hm => by rw [scan_mem hd hm] at h; cases h
  refine ⟨?_, ?_, hnot, ?_⟩
  · clear hd hnot
    induction l generalizing p with
    | nil =>
      injection h with h
      subst h
      rfl
    | cons e es ih =>
      unfold scan at h
      unfold addSorted
      split at h
      · cases h
      · split at h
        · next hgt => injection h with h; subst h; rw [if_pos hgt]; rfl
        · next hle =>
          rw [if_neg hle]
          obtain ⟨q, hq, rfl⟩ := Option.map_eq_some_iff.1 h
          rw [List.insertIdx_succ_cons, ih hq]
  · clear hd hnot
    induction l generalizing p with
    | nil => injection h with h; subst h; exact Nat.le_refl _
    | cons e es ih =>
      unfold scan at h
      split at h
      · cases h
      · split at h
        · injection h with h; subst h; exact Nat.zero_le _
        · obtain ⟨q, hq, rfl⟩ := Option.map_eq_some_iff.1 h
          have := ih hq
          simp only [List.length_cons]; omega
  · clear hd hnot
    induction l generalizing p with
    | nil => intro hh; cases hh
    | cons e es ih =>
      intro hlt
      unfold scan at h
      split at h
      · cases h
      · split at h
        · next hgt => exact ⟨e.id, List.mem_cons_self, hgt⟩
        · obtain ⟨q, hq, rfl⟩ := Option.map_eq_some_iff.1 h
          obtain ⟨x, hx, hd⟩ := ih hq (by simp only [List.length_cons] at hlt; omega)
          exact ⟨x, List.mem_cons_of_mem _ hx, hd⟩

/-- The invariant of the contacts, with the ids that were seen. -/
structure Inv (k : Nat) (key : List UInt8) (lu : Lookup) (seen : List (List UInt8)) (asked : List (List UInt8)) : Prop where
  hk : lu.key = key
  hn : lu.n = lu.contacts.length
  desc : Desc key (lu.contacts.map (·.id))
  best : Best (farther key) k seen (lu.contacts.map (·.id))
  fresh : ∀ e ∈ lu.contacts, e.asked = false → e.id ∉ asked
  nodup : asked.Nodup
  known : ∀ x ∈ asked, x ∈ seen

theorem not_farther {key x e : List UInt8} : ¬ farther key x e ↔ dist x key ≤ dist e key := by
  unfold farther
  rw [dist_eq, dist_eq]
  omega

theorem mergeOne_inv {k : Nat} {key : List UInt8} {lu : Lookup} {seen asked : List (List UInt8)} (h : Inv k key lu seen asked) (c : Contact) (hc : c.asked = false) :
    Inv k key (mergeOne k lu c).1 (seen ++ [c.id]) asked := by
  obtain ⟨hk, hn, hd, ⟨hb1, hb2, hb3, hb4⟩, hf, hnd, hkn⟩ := h
  have keep : (∀ x, x ∈ seen ++ [c.id] → x ∉ lu.contacts.map (·.id) → (lu.contacts.map (·.id)).length = k ∧ ∀ e ∈ lu.contacts.map (·.id), ¬ farther key x e) → Inv k key lu (seen ++ [c.id]) asked := by
    intro hh
    exact ⟨hk, hn, hd, ⟨hb1, fun x hx => List.mem_append_left _ (hb2 x hx), hb3, hh⟩, hf, hnd, fun x hx => List.mem_append_left _ (hkn x hx)⟩
  have hlen : (lu.contacts.map (·.id)).length = lu.contacts.length := List.length_map _
  unfold mergeOne
  rw [hk]
  cases hs : scan key c lu.contacts with
  | none =>
    apply keep
    intro x hx hx'
    rcases List.mem_append.1 hx with hx | hx
    · exact hb4 x hx hx'
    · rw [List.mem_singleton] at hx
      subst hx
      exact absurd (scan_none hs) hx'
  | some p =>
    obtain ⟨hins, hple, hnot, hex⟩ := scan_some hs hd
    have hperm : ((addSorted key c lu.contacts).map (·.id)).Perm (c.id :: lu.contacts.map (·.id)) := (addSorted_perm key c lu.contacts).map (·.id)
    have hnodup' : ((addSorted key c lu.contacts).map (·.id)).Nodup := hperm.nodup_iff.2 (List.nodup_cons.2 ⟨hnot, hb1⟩)
    have hseen : c.id ∈ seen → lu.contacts.length = k ∧ p = k := by
      intro hcs
      obtain ⟨h1, h2⟩ := hb4 c.id hcs hnot
      have := scan_full hnot (fun x hx => not_farther.1 (h2 x hx))
      rw [hs] at this
      injection this with this
      omega
    have hasked : c.id ∈ seen → p = k := fun hh => (hseen hh).2
    simp only
    split
    · next hlt =>
      rw [hins]
      have hnc : c.id ∉ seen := fun hh => by have := hseen hh; omega
      refine ⟨rfl, ?_, addSorted_desc key c _ hd, ⟨hnodup', ?_, ?_, ?_⟩, ?_, hnd, fun x hx => List.mem_append_left _ (hkn x hx)⟩
      · have := (addSorted_perm key c lu.contacts).length_eq
        simp only [List.length_cons] at this
        simp only [this, hn]
      · intro x hx
        rcases List.mem_cons.1 (hperm.mem_iff.1 hx) with rfl | hx
        · simp
        · exact List.mem_append_left _ (hb2 x hx)
      · have := hperm.length_eq
        simp only [List.length_cons] at this
        simp only [this]; omega
      · intro x hx hx'
        exfalso
        apply hx'
        rw [hperm.mem_iff]
        rcases List.mem_append.1 hx with hx | hx
        · by_cases hm : x ∈ lu.contacts.map (·.id)
          · exact List.mem_cons_of_mem _ hm
          · have := (hb4 x hx hm).1
            omega
        · rw [List.mem_singleton] at hx
          exact List.mem_cons.2 (Or.inl hx)
      · intro e he hea
        rcases List.mem_cons.1 ((addSorted_perm key c lu.contacts).mem_iff.1 he) with rfl | he
        · exact fun hh => hnc (hkn _ hh)
        · exact hf e he hea
    · next hge =>
      have hfull : lu.contacts.length = k := by omega
      split
      · next hpk =>
        apply keep
        intro x hx hx'
        rcases List.mem_append.1 hx with hx | hx
        · exact hb4 x hx hx'
        · rw [List.mem_singleton] at hx
          subst hx
          refine ⟨by omega, fun e he => ?_⟩
          rw [not_farther]
          -- the place is behind all of the contacts
          have hle : ∀ (l : List Contact) (p : Nat), scan key c l = some p → p = l.length → ∀ e ∈ l.map (·.id), dist c.id key ≤ dist e key := by
            intro l
            induction l with
            | nil => intro p _ _ e he; cases he
            | cons y ys ih =>
              intro p hp hpl e he
              unfold scan at hp
              split at hp
              · cases hp
              · split at hp
                · injection hp with hp; simp only [List.length_cons] at hpl; omega
                · next hnle =>
                  obtain ⟨q, hq, rfl⟩ := Option.map_eq_some_iff.1 hp
                  rcases List.mem_cons.1 he with rfl | he
                  · exact Nat.not_lt.1 hnle
                  · exact ih q hq (by simp only [List.length_cons] at hpl; omega) e he
          exact hle lu.contacts p hs (by omega) e he
      · next hpk =>
        rw [hins]
        have hnc : c.id ∉ seen := fun hh => hpk (hasked hh)
        have hplt : p < lu.contacts.length := by omega
        obtain ⟨y, hy, hyd⟩ := hex hplt
        have hl : (addSorted key c lu.contacts).length = k + 1 := by
          have := (addSorted_perm key c lu.contacts).length_eq
          simp only [List.length_cons] at this
          omega
        have hne : (addSorted key c lu.contacts) ≠ [] := by intro hh; rw [hh] at hl; simp at hl
        have hdesc := addSorted_desc key c _ hd
        have hsplit : addSorted key c lu.contacts = (addSorted key c lu.contacts).dropLast ++ [(addSorted key c lu.contacts).getLast hne] := (List.dropLast_append_getLast hne).symm
        generalize hD : (addSorted key c lu.contacts).dropLast = D at *
        generalize hL : (addSorted key c lu.contacts).getLast hne = d at *
        have hDlen : D.length = k := by
          have := congrArg List.length hsplit
          simp only [List.length_append, List.length_cons, List.length_nil] at this
          omega
        have hids : (addSorted key c lu.contacts).map (·.id) = D.map (·.id) ++ [d.id] := by
          conv_lhs => rw [hsplit]
          simp
        rw [hids] at hdesc hnodup' hperm
        have hlow : ∀ e ∈ D.map (·.id), dist d.id key ≤ dist e key := by
          intro e he
          exact (List.pairwise_append.1 hdesc).2.2 e he d.id (List.mem_singleton.2 rfl)
        refine ⟨rfl, ?_, (List.pairwise_append.1 hdesc).1, ⟨(List.nodup_append.1 hnodup').1, ?_, ?_, ?_⟩, ?_, hnd, fun x hx => List.mem_append_left _ (hkn x hx)⟩
        · simp only [hn]; omega
        · intro x hx
          rcases List.mem_cons.1 (hperm.mem_iff.1 (List.mem_append_left _ hx)) with rfl | hx
          · simp
          · exact List.mem_append_left _ (hb2 x hx)
        · simp only [List.length_map]; omega
        · intro x hx hx'
          refine ⟨by simp only [List.length_map]; omega, fun e he => ?_⟩
          rw [not_farther]
          have hxmem : x ∈ c.id :: lu.contacts.map (·.id) → dist x key ≤ dist e key := by
            intro hm
            rcases List.mem_append.1 (hperm.mem_iff.2 hm) with hm | hm
            · exact absurd hm hx'
            · rw [List.mem_singleton] at hm
              subst hm
              exact hlow e he
          rcases List.mem_append.1 hx with hx | hx
          · by_cases hm : x ∈ lu.contacts.map (·.id)
            · exact hxmem (List.mem_cons_of_mem _ hm)
            · have hall := (hb4 x hx hm).2
              rcases List.mem_cons.1 (hperm.mem_iff.1 (List.mem_append_left _ he)) with rfl | he
              · exact Nat.le_trans (not_farther.1 (hall y hy)) (Nat.le_of_lt hyd)
              · exact not_farther.1 (hall e he)
          · rw [List.mem_singleton] at hx
            exact hxmem (List.mem_cons.2 (Or.inl hx))
        · intro e he hea
          have he' : e ∈ addSorted key c lu.contacts := by rw [hsplit]; exact List.mem_append_left _ he
          rcases List.mem_cons.1 ((addSorted_perm key c lu.contacts).mem_iff.1 he') with rfl | he
          · exact fun hh => hnc (hkn _ hh)
          · exact hf e he hea

theorem Inv.state {k : Nat} {key : List UInt8} {lu lu' : Lookup} {seen asked : List (List UInt8)} (h : Inv k key lu seen asked) (h1 : lu'.key = lu.key) (h2 : lu'.contacts = lu.contacts) (h3 : lu'.n = lu.n) : Inv k key lu' seen asked := by
  obtain ⟨hk, hn, hd, hb, hf, hnd, hkn⟩ := h
  exact ⟨by rw [h1]; exact hk, by rw [h2, h3]; exact hn, by rw [h2]; exact hd, by rw [h2]; exact hb, by rw [h2]; exact hf, hnd, hkn⟩

theorem mergeOne_rest (k : Nat) (lu : Lookup) (c : Contact) : (mergeOne k lu c).1.cookies = lu.cookies ∧ (mergeOne k lu c).1.addrs = lu.addrs := by
  unfold mergeOne
  split
  · exact ⟨rfl, rfl⟩
  · split
    · exact ⟨rfl, rfl⟩
    · split <;> exact ⟨rfl, rfl⟩

theorem merge_inv {b k : Nat} {key : List UInt8} {asked : List (List UInt8)} (cs : List (List UInt8 × Nat)) : ∀ {lu : Lookup} {seen : List (List UInt8)} {r : Lookup × Bool}, Inv k key lu seen asked → merge b k lu cs = .ok r →
    Inv k key r.1 (seen ++ cs.map (fun c => c.1.take b)) asked := by
  induction cs with
  | nil =>
    intro lu seen r h hr
    injection hr with hr
    subst hr
    simpa using h
  | cons c cs ih =>
    intro lu seen r h hr
    obtain ⟨id, addr⟩ := c
    unfold merge at hr
    split at hr
    · cases hr
    · simp only at hr
      cases hm : merge b k (mergeOne k lu ⟨id.take b, addr, false⟩).1 cs with
      | ub => rw [hm] at hr; cases hr
      | ok r' =>
        rw [hm] at hr
        injection hr with hr
        subst hr
        have := ih (mergeOne_inv h ⟨id.take b, addr, false⟩ rfl) hm
        simpa using this

theorem takeNew_ids (n : Nat) (l : List Contact) : (takeNew n l).2.map (·.id) = l.map (·.id) := by
  induction l generalizing n with
  | nil => rfl
  | cons c cs ih =>
    unfold takeNew
    split
    · rfl
    · split
      · simp [ih]
      · simp [ih]

theorem takeNew_addrs (n : Nat) (l : List Contact) : (takeNew n l).1 = (taken n l).map (·.addr) := by
  induction l generalizing n with
  | nil => rfl
  | cons c cs ih =>
    unfold takeNew taken
    split
    · rfl
    · split
      · simp [ih]
      · simp [ih]

theorem taken_sublist (n : Nat) (l : List Contact) : (taken n l).Sublist l := by
  induction l generalizing n with
  | nil => exact List.Sublist.slnil
  | cons c cs ih =>
    unfold taken
    split
    · exact List.nil_sublist _
    · split
      · exact (ih _).cons_cons _
      · exact (ih _).cons _

theorem taken_new (n : Nat) (l : List Contact) : ∀ c ∈ taken n l, c.asked = false := by
  induction l generalizing n with
  | nil => intro c hc; cases hc
  | cons x xs ih =>
    intro c hc
    unfold taken at hc
    split at hc
    · cases hc
    · split at hc
      · next hx =>
        rcases List.mem_cons.1 hc with rfl | hc
        · exact hx
        · exact ih _ c hc
      · exact ih _ c hc

theorem taken_length (n : Nat) (l : List Contact) : (taken n l).length ≤ n := by
  induction l generalizing n with
  | nil => exact Nat.zero_le _
  | cons x xs ih =>
    unfold taken
    split
    · exact Nat.zero_le _
    · split
      · have := ih (n - 1)
        simp only [List.length_cons]; omega
      · exact ih n

theorem taken_lt (n : Nat) (l : List Contact) (h : (taken n l).length < n) : ∀ c ∈ (takeNew n l).2, c.asked = true := by
  induction l generalizing n with
  | nil => intro c hc; cases hc
  | cons x xs ih =>
    intro c hc
    unfold takeNew at hc
    unfold taken at h
    split at hc
    · omega
    · next hn0 =>
      rw [if_neg hn0] at h
      split at hc
      · next hx =>
        rw [if_pos hx] at h
        simp only [List.length_cons] at h
        rcases List.mem_cons.1 hc with rfl | hc
        · rfl
        · exact ih (n - 1) (by omega) c hc
      · next hx =>
        rw [if_neg hx] at h
        rcases List.mem_cons.1 hc with rfl | hc
        · simpa using hx
        · exact ih n h c hc

theorem takeNew_unasked (n : Nat) (l : List Contact) (hn : (l.map (·.id)).Nodup) : ∀ e ∈ (takeNew n l).2, e.asked = false → e ∈ l ∧ e.id ∉ (taken n l).map (·.id) := by
  induction l generalizing n with
  | nil => intro e he; cases he
  | cons x xs ih =>
    have hn' := List.nodup_cons.1 hn
    intro e he hea
    unfold takeNew at he
    unfold taken
    split at he
    · next h0 => rw [if_pos h0]; exact ⟨he, by simp⟩
    · next h0 =>
      rw [if_neg h0]
      split at he
      · next hx =>
        rw [if_pos hx]
        rcases List.mem_cons.1 he with rfl | he
        · cases hea
        · obtain ⟨h1, h2⟩ := ih (n - 1) hn'.2 e he hea
          refine ⟨List.mem_cons_of_mem _ h1, ?_⟩
          intro hm
          rcases List.mem_cons.1 hm with hm | hm
          · exact hn'.1 (List.mem_map.2 ⟨e, h1, hm⟩)
          · exact h2 hm
      · next hx =>
        rw [if_neg hx]
        rcases List.mem_cons.1 he with rfl | he
        · exact absurd hea hx
        · obtain ⟨h1, h2⟩ := ih n hn'.2 e he hea
          exact ⟨List.mem_cons_of_mem _ h1, h2⟩

theorem step_inv {b k : Nat} {key : List UInt8} {s s' : Sys} (h : Inv k key s.lu s.seen (s.asked.map (·.id))) (op : Op) (hs : step b k s op = some (.ok s')) : Inv k key s'.lu s'.seen (s'.asked.map (·.id)) := by
  cases op with
  | ask cookies =>
    simp only [step] at hs
    injection hs with hs
    injection hs with hs
    subst hs
    obtain ⟨hk, hn, hd, ⟨hb1, hb2, hb3, hb4⟩, hf, hnd, hkn⟩ := h
    have hids := takeNew_ids alpha s.lu.contacts
    refine ⟨hk, ?_, ?_, ?_, ?_, ?_, ?_⟩
    · have := congrArg List.length hids
      simp only [List.length_map] at this
      show s.lu.n = (takeNew alpha s.lu.contacts).2.length
      omega
    · show Desc key ((takeNew alpha s.lu.contacts).2.map (·.id)); rw [hids]; exact hd
    · show Best (farther key) k s.seen ((takeNew alpha s.lu.contacts).2.map (·.id)); rw [hids]; exact ⟨hb1, hb2, hb3, hb4⟩
    · intro e he hea
      obtain ⟨h1, h2⟩ := takeNew_unasked alpha s.lu.contacts hb1 e he hea
      rw [List.map_append]
      intro hm
      rcases List.mem_append.1 hm with hm | hm
      · exact hf e h1 hea hm
      · exact h2 hm
    · show ((s.asked ++ taken alpha s.lu.contacts).map (·.id)).Nodup
      rw [List.map_append, List.nodup_append]
      refine ⟨hnd, ((taken_sublist alpha s.lu.contacts).map _).nodup hb1, ?_⟩
      intro x hx y hy hxy
      subst hxy
      obtain ⟨c, hc, rfl⟩ := List.mem_map.1 hy
      exact hf c ((taken_sublist _ _).subset hc) (taken_new _ _ c hc) hx
    · intro x hx
      rw [List.map_append] at hx
      rcases List.mem_append.1 hx with hx | hx
      · exact hkn x hx
      · exact hb2 x (((taken_sublist alpha s.lu.contacts).map _).subset hx)
  | resp m =>
    simp only [step, lookupUpdate] at hs
    split at hs
    · cases hs
    · cases hs
    · next lu hlu =>
      injection hs with hs
      injection hs with hs
      subst hs
      split at hlu
      · next hc =>
        injection hlu with hlu
        injection hlu with hlu
        subst hlu
        have hcc : s.lu.state = .complete := hc
        simp only [hcc, true_or, if_true, List.append_nil]
        exact h.state rfl rfl rfl
      · next hc =>
        have hcc : ¬ s.lu.state = .complete := hc
        split at hlu
        · next ha =>
          injection hlu with hlu
          injection hlu with hlu
          subst hlu
          rw [if_pos (Or.inr ha), List.append_nil]
          exact h.state rfl rfl rfl
        · next ha =>
          rw [if_neg (by rintro (hh | hh); exact hcc hh; exact ha hh)]
          split at hlu
          · cases hlu
          · split at hlu
            · cases hlu
            · next lu' mod hm =>
              injection hlu with hlu
              injection hlu with hlu
              subst hlu
              have h' : Inv k key { s.lu with cookies := s.lu.cookies.erase m.cookie } s.seen (s.asked.map (·.id)) := h.state rfl rfl rfl
              exact (merge_inv m.contacts h' hm).state rfl rfl rfl
  | wait =>
    simp only [step] at hs
    injection hs with hs
    injection hs with hs
    subst hs
    exact h.state rfl rfl rfl
  | timeout =>
    simp only [step] at hs
    split at hs
    · injection hs with hs
      injection hs with hs
      subst hs
      exact h.state rfl rfl rfl
    · cases hs

theorem run_inv {b k : Nat} {key : List UInt8} (ops : List Op) : ∀ {s s' : Sys}, Inv k key s.lu s.seen (s.asked.map (·.id)) → run b k s ops = some (.ok s') → Inv k key s'.lu s'.seen (s'.asked.map (·.id)) := by
  induction ops with
  | nil =>
    intro s s' h hr
    injection hr with hr
    injection hr with hr
    subst hr
    exact h
  | cons op ops ih =>
    intro s s' h hr
    unfold run at hr
    split at hr
    · cases hr
    · cases hr
    · next s1 hs1 => exact ih (step_inv h op hs1) hr

theorem foldl_addSorted (key : List UInt8) (found acc : List Contact) (hd : Desc key (acc.map (·.id))) :
    let l := found.foldl (fun l c => addSorted key { c with asked := false } l) acc
    Desc key (l.map (·.id)) ∧ (l.map (·.id)).Perm (found.map (·.id) ++ acc.map (·.id)) := by
  induction found generalizing acc with
  | nil => exact ⟨hd, List.Perm.refl _⟩
  | cons c cs ih =>
    simp only [List.foldl_cons]
    obtain ⟨h1, h2⟩ := ih _ (addSorted_desc key { c with asked := false } acc hd)
    refine ⟨h1, h2.trans ?_⟩
    have h3 : ((addSorted key { c with asked := false } acc).map (·.id)).Perm (c.id :: acc.map (·.id)) := (addSorted_perm key { c with asked := false } acc).map (·.id)
    have h4 : (cs.map (·.id) ++ (c.id :: acc.map (·.id))).Perm (c.id :: (cs.map (·.id) ++ acc.map (·.id))) := List.perm_middle
    exact (h3.append_left _).trans h4

theorem start_inv {k : Nat} {key : List UInt8} {found : List Contact} (h : ((found.take k).map (·.id)).Nodup) : Inv k key (start k key found).lu (start k key found).seen ((start k key found).asked.map (·.id)) := by
  obtain ⟨h1, h2⟩ := foldl_addSorted key (found.take k) [] (by simp [Desc])
  simp only [List.map_nil, List.append_nil] at h2
  refine ⟨rfl, rfl, h1, ⟨h2.nodup_iff.2 h, fun x hx => h2.mem_iff.1 hx, ?_, ?_⟩, ?_, List.nodup_nil, ?_⟩
  · have hl := h2.length_eq
    show (List.map _ (List.foldl _ [] (List.take k found))).length ≤ k
    rw [hl, List.length_map, List.length_take]
    omega
  · intro x hx hx'
    exact absurd (h2.mem_iff.2 hx) hx'
  · intro e _ _ hh; cases hh
  · intro x hx; cases hx

end Ouro.DhtLookup
