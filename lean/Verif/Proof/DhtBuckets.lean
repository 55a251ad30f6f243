import Verif.Spec.DhtBuckets
import Verif.Proof.Tac
import Mathlib.Data.List.Nodup

namespace Ouro.DhtBuckets

theorem dropLast_snoc (p : Path) (m : UInt8) : (p ++ [m]).dropLast = p ∧ p ++ [m] ≠ [] := by simp

theorem child_eq {p q : Path} (h : q.dropLast = p ∧ q ≠ []) : ∃ m, q = p ++ [m] := by
  obtain ⟨h1, h2⟩ := h
  exact ⟨q.getLast h2, by rw [← h1]; exact (List.dropLast_append_getLast h2).symm⟩

theorem spread_self (s : St) (p : Path) : (spread s p).bkt p = ⟨[], (s.bkt p).alts⟩ ∧ (spread s p).split p = true := by simp [spread]

theorem spread_child (s : St) (p : Path) (m : UInt8) : (spread s p).bkt (p ++ [m]) = ⟨((s.bkt p).contacts.filter (fun c => c.id[p.length + 1]? = some m)).reverse, []⟩ ∧ (spread s p).split (p ++ [m]) = false := by
  simp [spread]

theorem spread_other (s : St) (p q : Path) (h1 : q ≠ p) (h2 : ∀ m, q ≠ p ++ [m]) : (spread s p).bkt q = s.bkt q ∧ (spread s p).split q = s.split q := by
  have h3 : ¬ (q.dropLast = p ∧ q ≠ []) := fun h => by obtain ⟨m, hm⟩ := child_eq h; exact h2 m hm
  simp only [spread, h1, if_false, h3, if_neg h3]
  exact ⟨trivial, trivial⟩

theorem spread_cases (s : St) (p q : Path) : q = p ∨ (∃ m, q = p ++ [m]) ∨ ((spread s p).bkt q = s.bkt q ∧ (spread s p).split q = s.split q) := by
  by_cases h1 : q = p
  · exact Or.inl h1
  · by_cases h2 : ∃ m, q = p ++ [m]
    · exact Or.inr (Or.inl h2)
    · exact Or.inr (Or.inr (spread_other s p q h1 (fun m hm => h2 ⟨m, hm⟩)))

/-- A bucket is well-formed. -/
structure Good (b k : Nat) (sp : Bool) (x : Bucket) : Prop where
  clen : x.contacts.length ≤ k
  alen : x.alts.length ≤ k
  empty : sp = true → x.contacts = []
  ids : ∀ c, c ∈ x.contacts ∨ c ∈ x.alts → c.id.length = b

theorem length_filter_lt {α : Type} (f : α → Bool) (l : List α) (h : ∃ x ∈ l, f x = false) : (l.filter f).length < l.length := by
  obtain ⟨x, hx, hf⟩ := h
  rcases Nat.lt_or_ge (l.filter f).length l.length with h | h
  · exact h
  · have := (List.filter_sublist (p := f) (l := l)).eq_of_length_le h
    rw [List.filter_eq_self] at this
    rw [this x hx] at hf
    cases hf

theorem not_all_child {l cs : List Contact} {c : Contact} {i : Nat} {m : UInt8} (hl : l = c :: cs) (hm : c.id[i]? = some m) (hall : ¬ cs.all (fun d => d.id[i]? = some m) = true) (m' : UInt8) :
    (l.filter (fun c => c.id[i]? = some m')).length < l.length := by
  apply length_filter_lt
  by_cases hmm : m' = m
  · subst hmm
    rw [List.all_eq_true] at hall
    push Not at hall
    obtain ⟨d, hd, hh⟩ := hall
    exact ⟨d, by rw [hl]; exact List.mem_cons_of_mem _ hd, by simpa using hh⟩
  · refine ⟨c, by rw [hl]; exact List.mem_cons_self, ?_⟩
    rw [hm]
    simp only [Option.some.injEq, decide_eq_false_iff_not]
    exact fun h => hmm h.symm

theorem split_good {b k : Nat} (n : Nat) : ∀ {s s' : St} {p : Path}, s.b - p.length = n → s.b = b → s.k = k → (∀ q, q ≠ p → Good b k (s.split q) (s.bkt q)) →
    (s.bkt p).contacts.length ≤ k + 1 → (s.bkt p).alts.length ≤ k → (∀ c, c ∈ (s.bkt p).contacts ∨ c ∈ (s.bkt p).alts → c.id.length = b) → splitBucket s p = .ok s' →
    s'.b = b ∧ s'.k = k ∧ s'.id = s.id ∧ (∀ q, Good b k (s'.split q) (s'.bkt q)) ∧ s'.split p = true ∧ (∀ q, q.length ≤ p.length → q ≠ p → s'.split q = s.split q ∧ s'.bkt q = s.bkt q) := by
  induction n using Nat.strong_induction_on with
  | _ n ih =>
    intro s s' p hn hb hk hg hcl hal hids hs
    have other : ∀ q : Path, q.length ≤ p.length → q ≠ p → (spread s p).split q = s.split q ∧ (spread s p).bkt q = s.bkt q := by
      intro q hq hqp
      have := spread_other s p q hqp (fun m hh => by have := congrArg List.length hh; simp at this; omega)
      exact ⟨this.2, this.1⟩
    have selfGood : Good b k ((spread s p).split p) ((spread s p).bkt p) := by
      rw [(spread_self s p).1]
      refine ⟨Nat.zero_le _, hal, fun _ => rfl, fun c hc => ?_⟩
      rcases hc with hc | hc
      · cases hc
      · exact hids c (Or.inr hc)
    have childIds : ∀ m, ∀ c, c ∈ ((spread s p).bkt (p ++ [m])).contacts ∨ c ∈ ((spread s p).bkt (p ++ [m])).alts → c.id.length = b := by
      intro m c hc
      rw [(spread_child s p m).1] at hc
      rcases hc with hc | hc
      · exact hids c (Or.inl (List.mem_filter.1 (List.mem_reverse.1 hc)).1)
      · cases hc
    have childGood : ∀ m, ((s.bkt p).contacts.filter (fun c => c.id[p.length + 1]? = some m)).length ≤ k → Good b k ((spread s p).split (p ++ [m])) ((spread s p).bkt (p ++ [m])) := by
      intro m hsz
      refine ⟨?_, ?_, ?_, childIds m⟩
      · rw [(spread_child s p m).1, List.length_reverse]; exact hsz
      · rw [(spread_child s p m).1]; exact Nat.zero_le _
      · intro h; rw [(spread_child s p m).2] at h; cases h
    rw [splitBucket] at hs
    split at hs
    · next hlt =>
      have fin : ((∀ m, ((s.bkt p).contacts.filter (fun c => c.id[p.length + 1]? = some m)).length ≤ k) → s' = spread s p → s'.b = b ∧ s'.k = k ∧ s'.id = s.id ∧ (∀ q, Good b k (s'.split q) (s'.bkt q)) ∧ s'.split p = true ∧ (∀ q, q.length ≤ p.length → q ≠ p → s'.split q = s.split q ∧ s'.bkt q = s.bkt q)) := by
        intro hsz he
        subst he
        refine ⟨hb, hk, rfl, ?_, (spread_self s p).2, other⟩
        intro q
        rcases spread_cases s p q with rfl | ⟨m, rfl⟩ | ⟨h1, h2⟩
        · exact selfGood
        · exact childGood m (hsz m)
        · by_cases hqp : q = p
          · subst hqp; exact selfGood
          · rw [h1, h2]; exact hg q hqp
      split at hs
      · next hc =>
        injection hs with hs
        exact fin (fun m => by rw [hc]; simp) hs.symm
      · next c cs hc =>
        split at hs
        · cases hs
        · next m hm =>
          split at hs
          · next hall =>
            have h := ih (s.b - (p ++ [m]).length) (by simp; omega) (s := spread s p) (s' := s') (p := p ++ [m]) rfl hb hk ?_ ?_ ?_ (childIds m) hs
            · obtain ⟨h1, h2, h3, h4, h5, h6⟩ := h
              have hpl : p.length ≤ (p ++ [m]).length := by simp
              have hpne : p ≠ p ++ [m] := fun hh => by have := congrArg List.length hh; simp at this
              refine ⟨h1, h2, h3, h4, ?_, ?_⟩
              · rw [(h6 p hpl hpne).1]; exact (spread_self s p).2
              · intro q hq hqp
                have hqne : q ≠ p ++ [m] := fun hh => by have := congrArg List.length hh; simp at this; omega
                have := h6 q (by omega) hqne
                rw [this.1, this.2]
                exact other q hq hqp
            · intro q hq
              rcases spread_cases s p q with rfl | ⟨m', rfl⟩ | ⟨h1, h2⟩
              · exact selfGood
              · apply childGood m'
                have hne : m' ≠ m := fun hh => hq (by rw [hh])
                have hz : (s.bkt p).contacts.filter (fun c => c.id[p.length + 1]? = some m') = [] := by
                  rw [List.filter_eq_nil_iff]
                  intro d hd
                  rw [hc] at hd
                  have hdm : d.id[p.length + 1]? = some m := by
                    rcases List.mem_cons.1 hd with rfl | hd
                    · exact hm
                    · simpa using List.all_eq_true.1 hall d hd
                  rw [hdm]
                  simp only [Option.some.injEq, decide_eq_true_eq]
                  exact fun hh => hne hh.symm
                rw [hz]; exact Nat.zero_le _
              · by_cases hqp : q = p
                · subst hqp; exact selfGood
                · rw [h1, h2]; exact hg q hqp
            · rw [(spread_child s p m).1, List.length_reverse]
              have := List.length_filter_le (fun c : Contact => decide (c.id[p.length + 1]? = some m)) (s.bkt p).contacts
              omega
            · rw [(spread_child s p m).1]; exact Nat.zero_le _
          · next hall =>
            injection hs with hs
            refine fin (fun m' => ?_) hs.symm
            have := not_all_child hc hm hall m'
            omega
    · cases hs

theorem split_pred (P : List Contact → Prop) (hnil : P []) (hfil : ∀ l f, P l → P (l.filter f).reverse) (n : Nat) : ∀ {s s' : St} {p : Path}, s.b - p.length = n → (∀ q, P (s.bkt q).contacts) → splitBucket s p = .ok s' → ∀ q, P (s'.bkt q).contacts := by
  induction n using Nat.strong_induction_on with
  | _ n ih =>
    intro s s' p hn hP hs
    have hsp : ∀ q, P ((spread s p).bkt q).contacts := by
      intro q
      rcases spread_cases s p q with rfl | ⟨m, rfl⟩ | ⟨h1, h2⟩
      · rw [(spread_self s q).1]; exact hnil
      · rw [(spread_child s p m).1]; exact hfil _ _ (hP p)
      · rw [h1]; exact hP q
    rw [splitBucket] at hs
    split at hs
    · split at hs
      · injection hs with hs; subst hs; exact hsp
      · split at hs
        · cases hs
        · next m hm =>
          split at hs
          · exact ih (s.b - (p ++ [m]).length) (by simp; omega) (s := spread s p) rfl hsp hs
          · injection hs with hs; subst hs; exact hsp
    · cases hs

/-- No contact is lost by a split. -/
theorem split_keeps (n : Nat) : ∀ {s s' : St} {p : Path}, s.b - p.length = n → (∀ c ∈ (s.bkt p).contacts, c.id.length = s.b) → splitBucket s p = .ok s' →
    ∀ c ∈ (s.bkt p).contacts, ∃ q, s'.split q = false ∧ c ∈ (s'.bkt q).contacts := by
  induction n using Nat.strong_induction_on with
  | _ n ih =>
    intro s s' p hn hids hs c hcm
    rw [splitBucket] at hs
    split at hs
    · next hlt =>
      have here : ∃ q, (spread s p).split q = false ∧ c ∈ ((spread s p).bkt q).contacts := by
        have hl := hids c hcm
        have hlt' : p.length + 1 < c.id.length := by omega
        refine ⟨p ++ [c.id[p.length + 1]], (spread_child s p _).2, ?_⟩
        rw [(spread_child s p _).1]
        simp only [List.mem_reverse, List.mem_filter]
        refine ⟨hcm, ?_⟩
        simp [List.getElem?_eq_getElem hlt']
      split at hs
      · injection hs with hs; subst hs; exact here
      · next c0 cs hc =>
        split at hs
        · cases hs
        · next m hm =>
          split at hs
          · next hall =>
            refine ih (s.b - (p ++ [m]).length) (by simp; omega) (s := spread s p) rfl ?_ hs c ?_
            · intro d hd
              rw [(spread_child s p m).1] at hd
              exact hids d (List.mem_filter.1 (List.mem_reverse.1 hd)).1
            · rw [(spread_child s p m).1]
              simp only [List.mem_reverse, List.mem_filter]
              refine ⟨hcm, ?_⟩
              rw [hc] at hcm
              rcases List.mem_cons.1 hcm with rfl | hcm
              · simpa using hm
              · exact List.all_eq_true.1 hall c hcm
          · injection hs with hs; subst hs; exact here
    · cases hs

/-- When a split goes wrong. -/
theorem split_ub (n : Nat) : ∀ {s : St} {p : Path}, s.b - p.length = n → (s.bkt p).contacts ≠ [] → (∀ c ∈ (s.bkt p).contacts, c.id.length = s.b) →
    (splitBucket s p = .ub ↔ ∀ c ∈ (s.bkt p).contacts, ∀ d ∈ (s.bkt p).contacts, ∀ j, p.length < j → c.id[j]? = d.id[j]?) := by
  induction n using Nat.strong_induction_on with
  | _ n ih =>
    intro s p hn hne hids
    rw [splitBucket]
    split
    · next hlt =>
      split
      · next hc => exact absurd hc hne
      · next c cs hc =>
        have hcm : c ∈ (s.bkt p).contacts := by rw [hc]; exact List.mem_cons_self
        have hcl := hids c hcm
        split
        · next hm => rw [List.getElem?_eq_none_iff] at hm; omega
        · next m hm =>
          split
          · next hall =>
            have hmem : ∀ d, d ∈ ((spread s p).bkt (p ++ [m])).contacts ↔ d ∈ (s.bkt p).contacts := by
              intro d
              rw [(spread_child s p m).1]
              simp only [List.mem_reverse, List.mem_filter]
              constructor
              · exact fun h => h.1
              · intro hd
                refine ⟨hd, ?_⟩
                rw [hc] at hd
                rcases List.mem_cons.1 hd with rfl | hd
                · simpa using hm
                · exact List.all_eq_true.1 hall d hd
            have hbyte : ∀ d ∈ (s.bkt p).contacts, d.id[p.length + 1]? = some m := by
              intro d hd
              rw [hc] at hd
              rcases List.mem_cons.1 hd with rfl | hd
              · exact hm
              · simpa using List.all_eq_true.1 hall d hd
            rw [ih (s.b - (p ++ [m]).length) (by simp; omega) (s := spread s p) (p := p ++ [m]) rfl (List.ne_nil_of_mem ((hmem c).2 hcm)) (fun d hd => hids d ((hmem d).1 hd))]
            constructor
            · intro h x hx y hy j hj
              by_cases hj' : j = p.length + 1
              · rw [hj', hbyte x hx, hbyte y hy]
              · exact h x ((hmem x).2 hx) y ((hmem y).2 hy) j (by simp; omega)
            · intro h x hx y hy j hj
              exact h x ((hmem x).1 hx) y ((hmem y).1 hy) j (by simp at hj; omega)
          · next hall =>
            constructor
            · intro h; cases h
            · intro h
              exfalso
              apply hall
              rw [List.all_eq_true]
              intro d hd
              have := h d (by rw [hc]; exact List.mem_cons_of_mem _ hd) c hcm (p.length + 1) (by omega)
              rw [this, hm]
              simp
    · next hge =>
      constructor
      · intro _ c hc d hd j hj
        rw [List.getElem?_eq_none (by rw [hids c hc]; omega), List.getElem?_eq_none (by rw [hids d hd]; omega)]
      · intro _; rfl

theorem setBkt_same (s : St) (p : Path) (x : Bucket) : (setBkt s p x).bkt p = x := by simp [setBkt]

theorem setBkt_ne (s : St) (p q : Path) (x : Bucket) (h : q ≠ p) : (setBkt s p x).bkt q = s.bkt q := by simp [setBkt, h]

theorem walk_unsplit (n : Nat) : ∀ {s : St} {id : List UInt8} {p q : Path}, id.length - p.length = n → walk s id p = .ok q → s.split q = false := by
  induction n using Nat.strong_induction_on with
  | _ n ih =>
    intro s id p q hn h
    rw [walk] at h
    split at h
    · next hh => injection h with h; subst h; exact hh
    · split at h
      · next hlt => exact ih _ (by simp; omega) rfl h
      · cases h

theorem walk_split (n : Nat) : ∀ {s s' : St} {id : List UInt8} {p : Path}, s'.split = s.split → id.length - p.length = n → walk s' id p = walk s id p := by
  induction n using Nat.strong_induction_on with
  | _ n ih =>
    intro s s' id p hs hn
    rw [walk, walk, hs]
    split
    · rfl
    · split
      · next hlt => exact ih _ (by simp; omega) hs rfl
      · rfl

/-- The invariant of all histories. -/
structure Inv (b k : Nat) (me : List UInt8) (s : St) : Prop where
  hb : s.b = b
  hk : s.k = k
  hid : s.id = me
  pos : 0 < k
  good : ∀ q, Good b k (s.split q) (s.bkt q)

theorem setBkt_inv {b k : Nat} {me : List UInt8} {s : St} (h : Inv b k me s) (p : Path) (x : Bucket) (hx : Good b k (s.split p) x) : Inv b k me (setBkt s p x) := by
  refine ⟨h.hb, h.hk, h.hid, h.pos, fun q => ?_⟩
  by_cases hq : q = p
  · subst hq; rw [setBkt_same]; exact hx
  · rw [setBkt_ne _ _ _ _ hq]; exact h.good q

theorem promote_spec (k : Nat) : ∀ (cs as : List Contact), cs.length ≤ k → (promote k cs as).contacts.length ≤ k ∧ (promote k cs as).alts.length ≤ as.length ∧ ∀ c, c ∈ (promote k cs as).contacts ∨ c ∈ (promote k cs as).alts ↔ c ∈ cs ∨ c ∈ as := by
  intro cs as
  induction as generalizing cs with
  | nil => intro h; exact ⟨h, Nat.le_refl _, fun c => Iff.rfl⟩
  | cons a as ih =>
    intro h
    unfold promote
    split
    · next hlt =>
      obtain ⟨h1, h2, h3⟩ := ih (a :: cs) hlt
      refine ⟨h1, by simp only [List.length_cons]; omega, fun c => ?_⟩
      rw [h3 c]
      simp only [List.mem_cons]
      tauto
    · exact ⟨h, Nat.le_refl _, fun c => Iff.rfl⟩

theorem update_inv {b k : Nat} {me : List UInt8} {s s' : St} (h : Inv b k me s) (id : List UInt8) (addr : Nat) (hs : updateBucket s id addr = .ok s') : Inv b k me s' := by
  unfold updateBucket at hs
  split at hs
  · cases hs
  · next p hp =>
    have hsp := walk_unsplit _ rfl hp
    split at hs
    · cases hs
    · next hlen =>
      have hb := h.hb
      have hk := h.hk
      have hpos := h.pos
      have hg := h.good p
      have hfl := List.length_filter_le (fun d : Contact => decide (d.addr ≠ addr)) (s.bkt p).contacts
      have hcl := hg.clen
      have hal := hg.alen
      have hci : (id.take s.b).length = b := by rw [List.length_take, Nat.min_eq_left (by omega)]; exact hb
      have hidf : ∀ c ∈ (s.bkt p).contacts.filter (fun d => d.addr ≠ addr), c.id.length = b := fun c hc => hg.ids c (Or.inl (List.mem_filter.1 hc).1)
      have hida : ∀ c ∈ (s.bkt p).alts, c.id.length = b := fun c hc => hg.ids c (Or.inr hc)
      have hids1 : ∀ c, c ∈ (s.bkt p).contacts.filter (fun d => d.addr ≠ addr) ++ [(⟨id.take s.b, addr, 0⟩ : Contact)] ∨ c ∈ (s.bkt p).alts → c.id.length = b := by
        intro c hc
        rcases hc with hc | hc
        · rcases List.mem_append.1 hc with hc | hc
          · exact hidf c hc
          · rw [List.mem_singleton] at hc; subst hc; exact hci
        · exact hida c hc
      simp only at hs
      split at hs
      · next hfull =>
        split at hs
        · cases hs
        · have := split_good (b := b) (k := k) _ (s := setBkt s p ⟨(s.bkt p).contacts.filter (fun d => d.addr ≠ addr) ++ [⟨id.take s.b, addr, 0⟩], (s.bkt p).alts⟩) (p := p) rfl hb hk
            (fun q hq => by rw [setBkt_ne _ _ _ _ hq]; exact h.good q)
            (by rw [setBkt_same]; simp only [List.length_append, List.length_cons, List.length_nil]; omega)
            (by rw [setBkt_same]; exact hal)
            (by rw [setBkt_same]; exact hids1) hs
          obtain ⟨h1, h2, h3, h4, _, _⟩ := this
          exact ⟨h1, h2, h3.trans h.hid, h.pos, h4⟩
        · split at hs
          · next hfa =>
            injection hs with hs
            subst hs
            apply setBkt_inv h
            refine ⟨Nat.le_trans hfl hcl, ?_, fun hh => (by rw [hsp] at hh; cases hh), ?_⟩
            · simp only [List.length_append, List.length_tail, List.length_cons, List.length_nil]; omega
            · intro c hc
              rcases hc with hc | hc
              · exact hidf c hc
              · rcases List.mem_append.1 hc with hc | hc
                · exact hida c (List.mem_of_mem_tail hc)
                · rw [List.mem_singleton] at hc; subst hc; exact hci
          · next hfa =>
            injection hs with hs
            subst hs
            apply setBkt_inv h
            refine ⟨Nat.le_trans hfl hcl, ?_, fun hh => (by rw [hsp] at hh; cases hh), ?_⟩
            · simp only [List.length_append, List.length_cons, List.length_nil]; omega
            · intro c hc
              rcases hc with hc | hc
              · exact hidf c hc
              · rcases List.mem_append.1 hc with hc | hc
                · exact hida c hc
                · rw [List.mem_singleton] at hc; subst hc; exact hci
      · next hfull =>
        injection hs with hs
        subst hs
        apply setBkt_inv h
        refine ⟨?_, hal, fun hh => (by rw [hsp] at hh; cases hh), hids1⟩
        simp only [List.length_append, List.length_cons, List.length_nil]; omega

theorem dead_inv {b k : Nat} {me : List UInt8} {s s' : St} (h : Inv b k me s) (key : Option (List UInt8)) (addr : Nat) (hs : deadPeer s key addr = .ok s') : Inv b k me s' := by
  unfold deadPeer at hs
  split at hs
  · cases hs
  · next p hp =>
    have hsp : s.split p = false := by
      split at hp
      · exact walk_unsplit _ rfl hp
      · split at hp
        · cases hp
        · next hh => injection hp with hp; subst hp; simpa using hh
    have hg := h.good p
    have hk := h.hk
    simp only at hs
    split at hs
    · next hc =>
      injection hs with hs
      subst hs
      apply setBkt_inv h
      have := promote_spec s.k [] (s.bkt p).alts (Nat.zero_le _)
      have hal := hg.alen
      refine ⟨by omega, by omega, fun hh => (by rw [hsp] at hh; cases hh), fun c hc => ?_⟩
      rcases (this.2.2 c).1 hc with hc | hc
      · cases hc
      · exact hg.ids c (Or.inr hc)
    · next c cs hc =>
      have hcl := hg.clen
      have hal := hg.alen
      split at hs
      · next hle =>
        injection hs with hs
        subst hs
        apply setBkt_inv h
        refine ⟨by rw [hc] at hcl; exact hcl, hal, fun hh => (by rw [hsp] at hh; cases hh), fun d hd => ?_⟩
        rcases hd with hd | hd
        · rcases List.mem_cons.1 hd with rfl | hd
          · exact hg.ids c (Or.inl (by rw [hc]; exact List.mem_cons_self))
          · exact hg.ids d (Or.inl (by rw [hc]; exact List.mem_cons_of_mem _ hd))
        · exact hg.ids d (Or.inr hd)
      · injection hs with hs
        subst hs
        apply setBkt_inv h
        have hel : ((c :: cs).eraseP (fun d => d.addr = addr)).length ≤ s.k := by
          have := (List.eraseP_sublist (p := fun d : Contact => decide (d.addr = addr)) (l := c :: cs)).length_le
          rw [hc] at hcl
          omega
        have := promote_spec s.k _ (s.bkt p).alts hel
        refine ⟨by omega, by omega, fun hh => (by rw [hsp] at hh; cases hh), fun d hd => ?_⟩
        rcases (this.2.2 d).1 hd with hd | hd
        · exact hg.ids d (Or.inl (by rw [hc]; exact List.mem_of_mem_eraseP hd))
        · exact hg.ids d (Or.inr hd)

theorem step_inv {b k : Nat} {me : List UInt8} {s s' : St} (h : Inv b k me s) (op : Op) (hs : step s op = .ok s') : Inv b k me s' := by
  cases op with
  | update id addr => exact update_inv h id addr hs
  | dead key addr => exact dead_inv h key addr hs

theorem run_inv {b k : Nat} {me : List UInt8} (ops : List Op) : ∀ {s s' : St}, Inv b k me s → run s ops = .ok s' → Inv b k me s' := by
  induction ops with
  | nil => intro s s' h hr; injection hr with hr; subst hr; exact h
  | cons op ops ih =>
    intro s s' h hr
    unfold run at hr
    split at hr
    · cases hr
    · next s1 hs1 => exact ih (step_inv h op hs1) hr

theorem init_inv (b k : Nat) (me : List UInt8) (hk : 0 < k) : Inv b k me (init b k me) :=
  ⟨rfl, rfl, rfl, hk, fun _ => ⟨Nat.zero_le _, Nat.zero_le _, fun _ => rfl, fun c hc => by rcases hc with hc | hc <;> cases hc⟩⟩

theorem update_addrs {s s' : St} (h : ∀ q, ((s.bkt q).contacts.map (·.addr)).Nodup) (id : List UInt8) (addr : Nat) (hs : updateBucket s id addr = .ok s') : ∀ q, ((s'.bkt q).contacts.map (·.addr)).Nodup := by
  unfold updateBucket at hs
  split at hs
  · cases hs
  · next p hp =>
    split at hs
    · cases hs
    · have h1 : (((s.bkt p).contacts.filter (fun d => d.addr ≠ addr)).map (·.addr)).Nodup := (List.filter_sublist.map _).nodup (h p)
      have h2 : (((s.bkt p).contacts.filter (fun d => d.addr ≠ addr) ++ [(⟨id.take s.b, addr, 0⟩ : Contact)]).map (·.addr)).Nodup := by
        rw [List.map_append, List.nodup_append]
        refine ⟨h1, by simp, ?_⟩
        intro x hx y hy hxy
        obtain ⟨c, hc, rfl⟩ := List.mem_map.1 hx
        have := (List.mem_filter.1 hc).2
        simp only [List.map_cons, List.map_nil, List.mem_singleton] at hy
        subst hy
        simp only [ne_eq, decide_not, Bool.not_eq_true', decide_eq_false_iff_not] at this
        exact this hxy
      have set : ∀ x : Bucket, (x.contacts.map (·.addr)).Nodup → ∀ q, (((setBkt s p x).bkt q).contacts.map (·.addr)).Nodup := by
        intro x hx q
        by_cases hq : q = p
        · subst hq; rw [setBkt_same]; exact hx
        · rw [setBkt_ne _ _ _ _ hq]; exact h q
      simp only at hs
      split at hs
      · split at hs
        · cases hs
        · exact split_pred (fun l => (l.map (·.addr)).Nodup) (by simp) (fun l f hl => by
            show ((List.filter f l).reverse.map _).Nodup
            rw [List.map_reverse, List.nodup_reverse]
            exact (List.filter_sublist.map _).nodup hl) _ rfl (set _ h2) hs
        · split at hs
          · injection hs with hs; subst hs; exact set _ h1
          · injection hs with hs; subst hs; exact set _ h1
      · injection hs with hs; subst hs; exact set _ h2

/-- What is known about a new contact. -/
def new (b : Nat) (c : List UInt8 × Nat) : Contact := ⟨c.1.take b, c.2, 0⟩

/-- The state in which only the root is used. -/
def rootOnly (b k : Nat) (me : List UInt8) (cs : List Contact) : St := setBkt (init b k me) [] ⟨cs, []⟩

theorem getBucket_root (b k : Nat) (me id : List UInt8) (cs : List Contact) : getBucket (rootOnly b k me cs) id = .ok [] := by
  unfold getBucket
  rw [walk]
  simp [rootOnly, setBkt, init]

theorem filter_fresh (b : Nat) (l : List (List UInt8 × Nat)) (addr : Nat) (h : addr ∉ l.map (·.2)) : (l.map (new b)).filter (fun d => d.addr ≠ addr) = l.map (new b) := by
  rw [List.filter_eq_self]
  intro c hc
  obtain ⟨x, hx, rfl⟩ := List.mem_map.1 hc
  simp only [new]
  refine decide_eq_true (fun hh => ?_)
  exact (fun hh => h (List.mem_map.2 ⟨x, hx, hh⟩)) hh

theorem update_root (b k : Nat) (me : List UInt8) (l : List (List UInt8 × Nat)) (id : List UInt8) (addr : Nat) (hid : b ≤ id.length) (hf : addr ∉ l.map (·.2)) :
    updateBucket (rootOnly b k me (l.map (new b))) id addr = if l.length = k then splitBucket (rootOnly b k me ((l ++ [(id, addr)]).map (new b))) [] else .ok (rootOnly b k me ((l ++ [(id, addr)]).map (new b))) := by
  unfold updateBucket
  rw [getBucket_root]
  have h1 : (rootOnly b k me (l.map (new b))).bkt [] = ⟨l.map (new b), []⟩ := setBkt_same _ _ _
  simp only [h1]
  rw [if_neg (by show ¬ id.length < b; omega)]
  rw [filter_fresh b l addr hf, List.length_map]
  have h2 : setBkt (rootOnly b k me (l.map (new b))) [] ⟨l.map (new b) ++ [⟨List.take (rootOnly b k me (l.map (new b))).b id, addr, 0⟩], []⟩ = rootOnly b k me ((l ++ [(id, addr)]).map (new b)) := by
    unfold rootOnly setBkt
    simp only [List.map_append, List.map_cons, List.map_nil, new, init]
    congr 1
    funext q
    by_cases hq : q = [] <;> simp [hq]
  rw [h2]
  have h3 : hasId [] (rootOnly b k me (l.map (new b))).id = .ok true := rfl
  rw [h3]
  rfl

/-- The operations for a list of nodes. -/
def updates (l : List (List UInt8 × Nat)) : List Op := l.map (fun c => .update c.1 c.2)

theorem run_root (b k : Nat) (me : List UInt8) (m : List (List UInt8 × Nat)) : ∀ (l : List (List UInt8 × Nat)), l.length + m.length = k → (∀ c ∈ m, b ≤ c.1.length) → ((l ++ m).map (·.2)).Nodup → ∀ (id : List UInt8) (addr : Nat), b ≤ id.length → addr ∉ (l ++ m).map (·.2) →
    run (rootOnly b k me (l.map (new b))) (updates m ++ [.update id addr]) = splitBucket (rootOnly b k me ((l ++ m ++ [(id, addr)]).map (new b))) [] := by
  induction m with
  | nil =>
    intro l hl _ hn id addr hid ha
    rw [List.append_nil] at ha ⊢
    show run _ [.update id addr] = _
    unfold run
    simp only [step]
    rw [update_root b k me l id addr hid ha, if_pos (by simpa using hl)]
    split
    · next hh => exact hh.symm
    · next s' hh => rw [hh]; rfl
  | cons c m ih =>
    intro l hl hm hn id addr hid ha
    obtain ⟨cid, caddr⟩ := c
    have hlt : l.length < k := by simp only [List.length_cons] at hl; omega
    have hfresh : caddr ∉ l.map (·.2) := by
      intro hh
      rw [List.map_append, List.nodup_append] at hn
      exact hn.2.2 caddr hh caddr (by simp) rfl
    have happ : l ++ (cid, caddr) :: m = (l ++ [(cid, caddr)]) ++ m := by simp
    show run _ (.update cid caddr :: (updates m ++ [.update id addr])) = _
    unfold run
    simp only [step]
    rw [update_root b k me l cid caddr (hm _ List.mem_cons_self) hfresh, if_neg (by omega)]
    simp only
    rw [happ]
    refine ih (l ++ [(cid, caddr)]) ?_ (fun d hd => hm d (List.mem_cons_of_mem _ hd)) ?_ id addr hid ?_
    · simp only [List.length_append, List.length_cons, List.length_nil] at hl ⊢; omega
    · rw [← happ]; exact hn
    · rw [← happ]; exact ha

/-- The first `k + 1` nodes. -/
theorem run_first (b k : Nat) (me : List UInt8) (l : List (List UInt8 × Nat)) (hl : l.length = k + 1) (hb : ∀ c ∈ l, b ≤ c.1.length) (hn : (l.map (·.2)).Nodup) :
    run (init b k me) (updates l) = splitBucket (rootOnly b k me (l.map (new b))) [] := by
  have hne : l ≠ [] := fun h => by rw [h] at hl; simp at hl
  have hsplit := List.dropLast_append_getLast hne
  generalize hD : l.dropLast = D at hsplit
  generalize hL : l.getLast hne = x at hsplit
  obtain ⟨id, addr⟩ := x
  subst hsplit
  have h0 : init b k me = rootOnly b k me (([] : List (List UInt8 × Nat)).map (new b)) := by
    unfold rootOnly setBkt init
    congr 1
    funext q
    by_cases hq : q = [] <;> simp [hq]
  have hu : updates (D ++ [(id, addr)]) = updates D ++ [.update id addr] := by simp [updates]
  rw [h0, hu]
  have hn' : (D.map (·.2)).Nodup ∧ addr ∉ D.map (·.2) := by
    rw [List.map_append, List.nodup_append] at hn
    refine ⟨hn.1, fun hh => hn.2.2 addr hh addr (by simp) rfl⟩
  have := run_root b k me D [] (by simp only [List.length_append, List.length_cons, List.length_nil] at hl ⊢; omega) (fun c hc => hb c (List.mem_append_left _ hc)) (by simpa using hn'.1) id addr (hb (id, addr) (by simp)) (by simpa using hn'.2)
  simpa using this

end Ouro.DhtBuckets
