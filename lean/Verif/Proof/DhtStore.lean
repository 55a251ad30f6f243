import Verif.Spec.DhtStore
import Verif.Proof.Tac
import Mathlib.Data.List.Nodup

namespace Ouro.DhtStore

theorem findEntry_onFirst (k : Key) (f : Entry → Option Entry) (hf : ∀ e e', f e = some e' → e'.key = e.key) (es : List Entry) (hn : (es.map (·.key)).Nodup) (k' : Key) :
    findEntry (onFirst k f es) k' = if k' = k then (findEntry es k).bind f else findEntry es k' := by
  induction es with
  | nil => simp [onFirst, findEntry]
  | cons e es ih =>
    have hn' : (es.map (·.key)).Nodup := (List.nodup_cons.1 hn).2
    have hnot : e.key ∉ es.map (·.key) := (List.nodup_cons.1 hn).1
    have ih := ih hn'
    unfold onFirst
    by_cases hk : e.key = k
    · rw [if_pos hk]
      have hnone : findEntry es k = none := by
        unfold findEntry
        rw [List.find?_eq_none]
        intro x hx
        simp only [decide_eq_true_eq]
        intro h
        exact hnot (List.mem_map.2 ⟨x, hx, by rw [h, hk]⟩)
      cases hfe : f e with
      | none =>
        by_cases hkk : k' = k
        · subst hkk
          simp [findEntry, hk, hfe]
          simpa [findEntry] using hnone
        · have : ¬ e.key = k' := by rw [hk]; exact fun h => hkk h.symm
          simp [findEntry, hkk, this]
      | some e' =>
        have := hf e e' hfe
        by_cases hkk : k' = k
        · subst hkk
          simp [findEntry, hk, hfe, this]
        · have h2 : ¬ e.key = k' := by rw [hk]; exact fun h => hkk h.symm
          have h3 : ¬ e'.key = k' := by rw [this]; exact h2
          simp [findEntry, hkk, h2, h3]
    · rw [if_neg hk]
      by_cases hkk : k' = k
      · subst hkk
        simp [findEntry, hk] at ih ⊢
        exact ih
      · simp only [findEntry, List.find?_cons, hkk, if_false] at ih ⊢
        rw [ih]

theorem onFirst_mem {k : Key} {f : Entry → Option Entry} {es : List Entry} {x : Entry} (h : x ∈ onFirst k f es) : x ∈ es ∨ ∃ e ∈ es, f e = some x := by
  induction es with
  | nil => simp [onFirst] at h
  | cons e es ih =>
    unfold onFirst at h
    split at h
    · cases hfe : f e with
      | none => rw [hfe] at h; exact Or.inl (List.mem_cons_of_mem _ h)
      | some e' =>
        rw [hfe] at h
        rcases List.mem_cons.1 h with rfl | h
        · exact Or.inr ⟨e, List.mem_cons_self, hfe⟩
        · exact Or.inl (List.mem_cons_of_mem _ h)
    · rcases List.mem_cons.1 h with rfl | h
      · exact Or.inl List.mem_cons_self
      · rcases ih h with h | ⟨y, hy, h⟩
        · exact Or.inl (List.mem_cons_of_mem _ h)
        · exact Or.inr ⟨y, List.mem_cons_of_mem _ hy, h⟩

theorem onFirst_keys {k : Key} {f : Entry → Option Entry} (hf : ∀ e e', f e = some e' → e'.key = e.key) (es : List Entry) : ((onFirst k f es).map (·.key)).Sublist (es.map (·.key)) := by
  induction es with
  | nil => simp [onFirst]
  | cons e es ih =>
    unfold onFirst
    split
    · cases hfe : f e with
      | none => exact List.sublist_cons_self _ _
      | some e' =>
        show List.Sublist (e'.key :: es.map (·.key)) (e.key :: es.map (·.key))
        rw [hf e e' hfe]
    · exact List.Sublist.cons_cons _ ih

/-- The time of an address in the values of an entry. -/
def look (vs : List Val) (a : Nat) : Option Int := (vs.find? (fun v => v.addr = a)).map (·.exp)

theorem look_cons (v : Val) (vs : List Val) (a : Nat) : look (v :: vs) a = if v.addr = a then some v.exp else look vs a := by
  by_cases h : v.addr = a <;> simp [look, h]

theorem bump_addrs (now exp : Int) (a : Nat) (vs : List Val) : (bump now exp a vs).map (·.addr) = vs.map (·.addr) := by
  induction vs with
  | nil => rfl
  | cons v vs ih =>
    unfold bump
    split
    · split <;> simp
    · simp [ih]

theorem look_bump (now exp : Int) (a : Nat) (vs : List Val) (x : Nat) :
    look (bump now exp a vs) x = if x = a then (look vs x).map (fun t => max t (now + exp)) else look vs x := by
  induction vs with
  | nil => simp [bump, look]
  | cons v vs ih =>
    unfold bump
    by_cases hv : v.addr = a
    · rw [if_pos hv]
      by_cases hx : x = a
      · subst hx
        by_cases hlt : v.exp < now + exp
        · rw [if_pos hlt, look_cons, look_cons]
          simp only [hv, if_true, Option.map_some]
          rw [max_eq_right (by omega)]
        · rw [if_neg hlt, look_cons]
          simp only [hv, if_true, Option.map_some]
          rw [max_eq_left (by omega)]
      · rw [if_neg hx, look_cons, look_cons]
        have : ¬ v.addr = x := by rw [hv]; exact fun h => hx h.symm
        split <;> simp [this]
    · rw [if_neg hv, look_cons, look_cons, ih]
      by_cases hx : x = a
      · subst hx; simp [hv]
      · simp [hx]

theorem look_addAddr (now exp : Int) (a : Nat) (e : Entry) (x : Nat) :
    look (addAddr now exp a e).vals x = if x = a then some (match look e.vals x with | some t => max t (now + exp) | none => now + exp) else look e.vals x := by
  unfold addAddr
  split
  · next h =>
    show look (bump now exp a e.vals) x = _
    rw [look_bump]
    by_cases hx : x = a
    · subst hx
      simp only [if_true]
      cases hl : look e.vals x with
      | some t => rfl
      | none =>
        exfalso
        simp only [look, Option.map_eq_none_iff, List.find?_eq_none] at hl
        rw [List.any_eq_true] at h
        obtain ⟨v, hv, h⟩ := h
        exact hl v hv h
    · simp [hx]
  · next h =>
    show look (_ :: e.vals) x = _
    rw [look_cons]
    by_cases hx : x = a
    · subst hx
      have hl : look e.vals x = none := by
        simp only [look, Option.map_eq_none_iff, List.find?_eq_none]
        intro v hv hh
        exact h (List.any_eq_true.2 ⟨v, hv, hh⟩)
      simp [hl]
    · have hx' : ¬ a = x := fun h => hx h.symm
      simp [hx, hx']

theorem look_filter_ne (vs : List Val) (a x : Nat) : look (vs.filter (fun v => v.addr ≠ a)) x = if x = a then none else look vs x := by
  induction vs with
  | nil => simp [look]
  | cons v vs ih =>
    rw [List.filter_cons]
    by_cases hv : v.addr = a
    · simp only [hv, ne_eq, not_true_eq_false, decide_false, Bool.false_eq_true, if_false]
      simp only [ne_eq] at ih
      rw [ih, look_cons]
      by_cases hx : x = a
      · simp [hx]
      · have hx' : ¬ a = x := fun h => hx h.symm
        simp [hx, hv, hx']
    · simp only [ne_eq, hv, not_false_eq_true, decide_true, if_true]
      simp only [ne_eq] at ih
      rw [look_cons, look_cons, ih]
      by_cases hx : x = a
      · subst hx; simp [hv]
      · simp [hx]

theorem passVals_addrs (now r : Int) (vs : List Val) : (passVals now r vs).map (·.addr) = (vs.filter (fun v => ¬ now > v.exp)).map (·.addr) := by
  unfold passVals
  rw [List.map_map]
  apply List.map_congr_left
  intro v _
  simp only [Function.comp]
  split <;> rfl

theorem look_pass (now r : Int) (vs : List Val) (hn : (vs.map (·.addr)).Nodup) (x : Nat) : look (passVals now r vs) x = (look vs x).filter (fun t => now ≤ t) := by
  induction vs with
  | nil => simp [look, passVals]
  | cons v vs ih =>
    have hn' := (List.nodup_cons.1 hn)
    have ih := ih hn'.2
    have hnone : v.addr = x → look vs x = none := by
      intro h
      simp only [look, Option.map_eq_none_iff, List.find?_eq_none]
      intro w hw hh
      simp only [decide_eq_true_eq] at hh
      exact hn'.1 (List.mem_map.2 ⟨w, hw, by simp only [hh, h]⟩)
    rw [look_cons]
    by_cases hexp : now > v.exp
    · have : passVals now r (v :: vs) = passVals now r vs := by
        simp [passVals, List.filter_cons, hexp]
      rw [this, ih]
      by_cases hx : v.addr = x
      · simp only [hx, if_true, hnone hx]
        simp [Option.filter, show ¬ now ≤ v.exp by omega]
      · simp [hx]
    · have : passVals now r (v :: vs) = (if now > v.rep then { v with rep := now + r } else v) :: passVals now r vs := by
        simp [passVals, List.filter_cons, show v.exp ≥ now by omega]
        
      rw [this, look_cons, ih]
      by_cases hx : v.addr = x
      · split <;> simp [hx, Option.filter, show now ≤ v.exp by omega]
      · split <;> simp [hx]

/-- The invariant. -/
structure Inv (b me : Nat) (s : St) : Prop where
  hb : s.b = b
  hs : s.self = me
  keys : (s.entries.map (·.key)).Nodup
  addrs : ∀ e ∈ s.entries, (e.vals.map (·.addr)).Nodup
  cnt : ∀ e ∈ s.entries, e.vals.length ≤ e.n ∧ 0 < e.n

/-- What is stored. -/
def absOf (s : St) (k : Key) (a : Nat) : Option Int := (findEntry s.entries k).bind (fun e => look e.vals a)

theorem addAddr_key (now exp : Int) (a : Nat) (e : Entry) : (addAddr now exp a e).key = e.key := by
  unfold addAddr; split <;> rfl

theorem addAddr_nodup (now exp : Int) (a : Nat) (e : Entry) (h : (e.vals.map (·.addr)).Nodup) : ((addAddr now exp a e).vals.map (·.addr)).Nodup := by
  unfold addAddr
  split
  · rw [bump_addrs]; exact h
  · next hh =>
    refine List.nodup_cons.2 ⟨?_, h⟩
    intro hm
    obtain ⟨v, hv, hm⟩ := List.mem_map.1 hm
    exact hh (List.any_eq_true.2 ⟨v, hv, by simpa using hm⟩)

theorem addAddr_cnt (now exp : Int) (a : Nat) (e : Entry) (h : e.vals.length ≤ e.n) : (addAddr now exp a e).vals.length ≤ (addAddr now exp a e).n ∧ 0 < (addAddr now exp a e).n := by
  unfold addAddr
  split
  · next hh =>
    have : (bump now exp a e.vals).length = e.vals.length := by
      have := congrArg List.length (bump_addrs now exp a e.vals)
      simpa using this
    refine ⟨by show (bump now exp a e.vals).length ≤ e.n; omega, ?_⟩
    rw [List.any_eq_true] at hh
    obtain ⟨v, hv, _⟩ := hh
    have := List.length_pos_of_mem hv
    show 0 < e.n
    omega
  · simp only [List.length_cons]; omega

theorem delAddr_some {a : Nat} {e e' : Entry} (h : delAddr a e = some e') : e' = { e with n := e.n - (e.vals.length - (e.vals.filter (fun v => v.addr ≠ a)).length), vals := e.vals.filter (fun v => v.addr ≠ a) } ∧ 0 < e'.n := by
  unfold delAddr at h
  simp only at h
  split at h
  · cases h
  · next hh => injection h with h; subst h; exact ⟨rfl, Nat.pos_of_ne_zero hh⟩

theorem delAddr_none {a : Nat} {e : Entry} (hc : e.vals.length ≤ e.n) (h : delAddr a e = none) : e.vals.filter (fun v => v.addr ≠ a) = [] := by
  unfold delAddr at h
  simp only at h
  split at h
  · next hh =>
    have := List.length_filter_le (fun v : Val => decide (v.addr ≠ a)) e.vals
    apply List.eq_nil_of_length_eq_zero
    omega
  · cases h

theorem findEntry_mem {es : List Entry} {k : Key} {e : Entry} (h : findEntry es k = some e) : e ∈ es ∧ e.key = k := by
  unfold findEntry at h
  exact ⟨List.mem_of_find?_eq_some h, by simpa using List.find?_some h⟩

theorem findEntry_of_mem {es : List Entry} (hn : (es.map (·.key)).Nodup) {e : Entry} (h : e ∈ es) : findEntry es e.key = some e := by
  induction es with
  | nil => cases h
  | cons x es ih =>
    have hn' := List.nodup_cons.1 hn
    rcases List.mem_cons.1 h with rfl | h
    · simp [findEntry]
    · have : ¬ x.key = e.key := fun hh => hn'.1 (List.mem_map.2 ⟨e, h, hh.symm⟩)
      have ih := ih hn'.2 h
      simpa [findEntry, List.find?_cons, this] using ih

theorem findEntry_none {es : List Entry} {k : Key} (h : findEntry es k = none) : k ∉ es.map (·.key) := by
  unfold findEntry at h
  rw [List.find?_eq_none] at h
  intro hm
  obtain ⟨e, he, hk⟩ := List.mem_map.1 hm
  exact h e he (by simpa using hk)

theorem kadAdd_one (now exp : Int) (s : St) (c : List UInt8 × Nat) : kadAdd now exp s [c] = addOne now exp s c := by
  simp only [kadAdd, List.reverse_cons, List.reverse_nil, List.nil_append, List.foldlM_cons, List.foldlM_nil]
  cases addOne now exp s c <;> rfl

theorem step_spec {b self : Nat} {s s' : St} (h : Inv b self s) (op : Op) (hs : step s op = .ok s') :
    Inv b self s' ∧ ∀ k a, absOf s' k a = specStep b self (absOf s) op k a := by
  cases op with
  | store now exp id addr =>
    simp only [step, kadAdd_one, addOne] at hs
    split at hs
    · cases hs
    · cases hf : findEntry s.entries (id.take s.b) with
      | some e0 =>
        rw [hf] at hs
        injection hs with hs
        subst hs
        have hkey : ∀ e e' : Entry, some (addAddr now exp addr e) = some e' → e'.key = e.key := by
          intro e e' hh; injection hh with hh; rw [← hh]; exact addAddr_key ..
        refine ⟨⟨h.hb, h.hs, (onFirst_keys hkey _).nodup h.keys, ?_, ?_⟩, ?_⟩
        · intro e he
          rcases onFirst_mem he with he | ⟨y, hy, he⟩
          · exact h.addrs e he
          · injection he with he; rw [← he]; exact addAddr_nodup _ _ _ _ (h.addrs y hy)
        · intro e he
          rcases onFirst_mem he with he | ⟨y, hy, he⟩
          · exact h.cnt e he
          · injection he with he; rw [← he]; exact addAddr_cnt _ _ _ _ (h.cnt y hy).1
        · intro k a
          simp only [absOf, specStep]
          rw [findEntry_onFirst _ _ hkey _ h.keys]
          rw [← h.hb]
          by_cases hk : k = id.take s.b
          · subst hk
            simp only [if_true, hf, Option.bind_some, true_and]
            rw [look_addAddr]
            rfl
          · simp [hk]
      | none =>
        rw [hf] at hs
        injection hs with hs
        subst hs
        refine ⟨⟨h.hb, h.hs, ?_, ?_, ?_⟩, ?_⟩
        · show ((addAddr now exp addr _).key :: s.entries.map (·.key)).Nodup
          rw [addAddr_key]
          exact List.nodup_cons.2 ⟨findEntry_none hf, h.keys⟩
        · intro e he
          rcases List.mem_cons.1 he with rfl | he
          · exact addAddr_nodup _ _ _ _ (by simp)
          · exact h.addrs e he
        · intro e he
          rcases List.mem_cons.1 he with rfl | he
          · exact addAddr_cnt _ _ _ _ (by simp)
          · exact h.cnt e he
        · intro k a
          simp only [absOf, specStep]
          rw [← h.hb]
          by_cases hk : k = id.take s.b
          · subst hk
            rw [hf]
            simp only [findEntry, List.find?_cons, addAddr_key, decide_true, Option.bind_some, Option.bind_none, true_and]
            rw [look_addAddr]
            rfl
          · have hk' : ¬ id.take s.b = k := fun hh => hk hh.symm
            simp only [findEntry, List.find?_cons, addAddr_key, hk, false_and, if_false, hk', decide_false]
  | unreg key =>
    simp only [step, del] at hs
    injection hs with hs
    subst hs
    have hkey : ∀ e e' : Entry, delAddr s.self e = some e' → e'.key = e.key := by
      intro e e' hh; rw [(delAddr_some hh).1]
    refine ⟨⟨h.hb, h.hs, (onFirst_keys hkey _).nodup h.keys, ?_, ?_⟩, ?_⟩
    · intro e he
      rcases onFirst_mem he with he | ⟨y, hy, he⟩
      · exact h.addrs e he
      · rw [(delAddr_some he).1]; exact (List.Sublist.map _ List.filter_sublist).nodup (h.addrs y hy)
    · intro e he
      rcases onFirst_mem he with he | ⟨y, hy, he⟩
      · exact h.cnt e he
      · refine ⟨?_, (delAddr_some he).2⟩
        rw [(delAddr_some he).1]
        have := (h.cnt y hy).1
        have := List.length_filter_le (fun v : Val => decide (v.addr ≠ s.self)) y.vals
        show (y.vals.filter _).length ≤ y.n - _
        omega
    · intro k a
      simp only [absOf, specStep]
      rw [findEntry_onFirst _ _ hkey _ h.keys]
      by_cases hk : k = key
      · subst hk
        simp only [if_true, true_and]
        cases hf : findEntry s.entries k with
        | none => simp
        | some e =>
          simp only [Option.bind_some]
          have hlf := look_filter_ne e.vals s.self a
          rw [h.hs] at hlf ⊢
          cases hd : delAddr self e with
          | none =>
            rw [delAddr_none (h.cnt e (findEntry_mem hf).1).1 hd] at hlf
            rw [← hlf]
            rfl
          | some e' =>
            rw [(delAddr_some hd).1]
            exact hlf
      · simp [hk]
  | pass now =>
    simp only [step, pass] at hs
    injection hs with hs
    subst hs
    refine ⟨⟨h.hb, h.hs, ?_, ?_, ?_⟩, ?_⟩
    · show ((s.entries.map _).map _).Nodup
      rw [List.map_map]
      exact h.keys
    · intro e he
      obtain ⟨y, hy, rfl⟩ := List.mem_map.1 he
      show ((passVals now s.replic y.vals).map _).Nodup
      rw [passVals_addrs]
      exact (List.Sublist.map _ List.filter_sublist).nodup (h.addrs y hy)
    · intro e he
      obtain ⟨y, hy, rfl⟩ := List.mem_map.1 he
      refine ⟨?_, (h.cnt y hy).2⟩
      have h1 := (h.cnt y hy).1
      have h2 : (passVals now s.replic y.vals).length ≤ y.vals.length := by
        unfold passVals; rw [List.length_map]; exact List.length_filter_le _ _
      show (passVals now s.replic y.vals).length ≤ y.n
      omega
    · intro k a
      simp only [absOf, specStep]
      have hfe : findEntry (s.entries.map (fun e => { e with vals := passVals now s.replic e.vals })) k = (findEntry s.entries k).map (fun e => { e with vals := passVals now s.replic e.vals }) := by
        unfold findEntry
        rw [List.find?_map]
        rfl
      rw [hfe]
      cases hf : findEntry s.entries k with
      | none => rfl
      | some e =>
        simp only [Option.map_some, Option.bind_some]
        exact look_pass _ _ _ (h.addrs e (findEntry_mem hf).1) _

theorem run_cons (s : St) (op : Op) (ops : List Op) : run s (op :: ops) = (step s op).bind (fun s => run s ops) := rfl

theorem run_snoc (s : St) (ops : List Op) (op : Op) : run s (ops ++ [op]) = (run s ops).bind (fun s => step s op) := by
  induction ops generalizing s with
  | nil =>
    show (step s op).bind _ = step s op
    cases step s op <;> rfl
  | cons o ops ih =>
    rw [List.cons_append, run_cons, run_cons]
    cases step s o with
    | ub => rfl
    | ok s1 => exact ih s1

theorem spec_snoc (b self : Nat) (ops : List Op) (op : Op) : spec b self (ops ++ [op]) = specStep b self (spec b self ops) op := by
  simp [spec]

theorem run_spec {b self : Nat} {r : Int} (ops : List Op) : ∀ {s : St}, run (init b self r) ops = .ok s → Inv b self s ∧ ∀ k a, absOf s k a = spec b self ops k a := by
  induction ops using List.reverseRecOn with
  | nil =>
    intro s h
    have : init b self r = s := by injection h
    subst this
    exact ⟨⟨rfl, rfl, List.nodup_nil, fun e he => (by cases he), fun e he => (by cases he)⟩, fun k a => rfl⟩
  | append_singleton ops op ih =>
    intro s h
    rw [run_snoc] at h
    cases hr : run (init b self r) ops with
    | ub => rw [hr] at h; cases h
    | ok s0 =>
      rw [hr] at h
      obtain ⟨h1, h2⟩ := ih hr
      obtain ⟨h3, h4⟩ := step_spec h1 op h
      refine ⟨h3, fun k a => ?_⟩
      rw [h4, spec_snoc]
      have : absOf s0 = spec b self ops := by funext k a; exact h2 k a
      rw [this]

theorem look_mem {vs : List Val} (hn : (vs.map (·.addr)).Nodup) (a : Nat) (t : Int) : look vs a = some t ↔ ∃ v ∈ vs, v.addr = a ∧ v.exp = t := by
  induction vs with
  | nil => simp [look]
  | cons v vs ih =>
    have hn' := List.nodup_cons.1 hn
    rw [look_cons]
    by_cases hv : v.addr = a
    · simp only [hv, if_true, Option.some.injEq]
      constructor
      · intro h; exact ⟨v, List.mem_cons_self, hv, h⟩
      · rintro ⟨w, hw, h1, h2⟩
        rcases List.mem_cons.1 hw with rfl | hw
        · exact h2
        · exact absurd (List.mem_map.2 ⟨w, hw, by simp only [h1, hv]⟩) hn'.1
    · simp only [hv, if_false]
      rw [ih hn'.2]
      constructor
      · rintro ⟨w, hw, h⟩; exact ⟨w, List.mem_cons_of_mem _ hw, h⟩
      · rintro ⟨w, hw, h1, h2⟩
        rcases List.mem_cons.1 hw with rfl | hw
        · exact absurd h1 hv
        · exact ⟨w, hw, h1, h2⟩

theorem holds_iff {b self : Nat} {s : St} (h : Inv b self s) (k : Key) (a : Nat) (t : Int) : holds s k a t ↔ absOf s k a = some t := by
  unfold holds absOf
  constructor
  · rintro ⟨e, he, rfl, hv⟩
    rw [findEntry_of_mem h.keys he]
    exact (look_mem (h.addrs e he) a t).2 hv
  · intro hh
    cases hf : findEntry s.entries k with
    | none => rw [hf] at hh; cases hh
    | some e =>
      rw [hf] at hh
      obtain ⟨he, hk⟩ := findEntry_mem hf
      exact ⟨e, he, hk, (look_mem (h.addrs e he) a t).1 hh⟩

end Ouro.DhtStore
