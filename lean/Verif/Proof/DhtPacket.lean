import Verif.Spec.DhtPacket
import Verif.Proof.DhtStore
import Verif.Proof.DhtBuckets
import Verif.Proof.DhtLookup
import Verif.Proof.Tac
import Mathlib.Data.List.Perm.Subperm
import Mathlib.Data.List.InsertIdx
import Verif.Props.DhtLookup

namespace Ouro.DhtPacket

/-! ## Buckets that are not split -/

theorem root_of {s : DhtBuckets.St} (h : s.split [] = false) (id : List UInt8) : DhtBuckets.getBucket s id = .ok [] := by
  unfold DhtBuckets.getBucket; rw [DhtBuckets.walk, if_pos h]

/-- The addresses in the root are distinct and from `A`. -/
structure Flat (b : Nat) (A : List Nat) (s : DhtBuckets.St) : Prop where
  hb : s.b = b
  hk : s.k = 8
  root : s.split [] = false
  nodup : ((s.bkt []).contacts.map (·.addr)).Nodup
  sub : ∀ c ∈ (s.bkt []).contacts, c.addr ∈ A ∧ c.id.length = b

theorem Flat.few {b : Nat} {A : List Nat} {s : DhtBuckets.St} (h : Flat b A s) (hA : A.length ≤ 8) : (s.bkt []).contacts.length ≤ 8 := by
  have : ((s.bkt []).contacts.map (·.addr)).length ≤ A.length := (List.Nodup.subperm h.nodup (fun x hx => by
    obtain ⟨c, hc, rfl⟩ := List.mem_map.1 hx; exact (h.sub c hc).1)).length_le
  rw [List.length_map] at this; omega

theorem flat_update {b : Nat} {A : List Nat} {s : DhtBuckets.St} (h : Flat b A s) (hA : A.length ≤ 8) {id : List UInt8} (hid : id.length = b) {a : Nat} (ha : a ∈ A) :
    ∃ s', DhtBuckets.updateBucket s id a = .ok s' ∧ Flat b A s' ∧ s'.id = s.id ∧
      (s'.bkt []).contacts = (s.bkt []).contacts.filter (fun d => d.addr ≠ a) ++ [⟨id, a, 0⟩] := by
  have hlt : ((s.bkt []).contacts.filter (fun d => d.addr ≠ a)).length < 8 := by
    have nd : (a :: ((s.bkt []).contacts.filter (fun d => d.addr ≠ a)).map (·.addr)).Nodup := by
      refine List.nodup_cons.2 ⟨?_, (h.nodup.sublist (List.filter_sublist.map _))⟩
      intro hm
      obtain ⟨c, hc, he⟩ := List.mem_map.1 hm
      have := (List.mem_filter.1 hc).2
      simp [he] at this
    have : (a :: ((s.bkt []).contacts.filter (fun d => d.addr ≠ a)).map (·.addr)).length ≤ A.length := (List.Nodup.subperm nd (fun x hx => by
      rcases List.mem_cons.1 hx with rfl | hx
      · exact ha
      · obtain ⟨c, hc, rfl⟩ := List.mem_map.1 hx
        exact (h.sub c (List.mem_filter.1 hc).1).1)).length_le
    rw [List.length_cons, List.length_map] at this; omega
  have htake : id.take s.b = id := by rw [h.hb, ← hid]; exact List.take_length
  refine ⟨DhtBuckets.setBkt s [] ⟨(s.bkt []).contacts.filter (fun d => d.addr ≠ a) ++ [⟨id, a, 0⟩], (s.bkt []).alts⟩, ?_, ⟨h.hb, h.hk, h.root, ?_, ?_⟩, rfl, ?_⟩
  · unfold DhtBuckets.updateBucket
    rw [root_of h.root]
    simp only [htake]
    rw [if_neg (by rw [h.hb]; omega), if_neg (by rw [h.hk]; omega)]
  · rw [DhtBuckets.setBkt_same]
    rw [List.map_append, List.nodup_append]
    refine ⟨h.nodup.sublist (List.filter_sublist.map _), by simp, ?_⟩
    intro x hx y hy
    simp only [List.map_cons, List.map_nil, List.mem_singleton] at hy
    subst hy
    obtain ⟨c, hc, rfl⟩ := List.mem_map.1 hx
    have := (List.mem_filter.1 hc).2
    simpa using this
  · rw [DhtBuckets.setBkt_same]
    intro c hc
    rcases List.mem_append.1 hc with hc | hc
    · exact h.sub c (List.mem_filter.1 hc).1
    · rw [List.mem_singleton] at hc; subst hc; exact ⟨ha, hid⟩
  · rw [DhtBuckets.setBkt_same]

theorem flat_list {b : Nat} {A : List Nat} {s : DhtBuckets.St} (h : Flat b A s) (hA : A.length ≤ 8) (key : List UInt8) :
    DhtBuckets.contactList s key = .ok (s.bkt []).contacts := by
  unfold DhtBuckets.contactList
  rw [root_of h.root]
  simp only [or_true, if_true]
  rw [List.take_of_length_le (by rw [h.hk]; exact h.few hA)]

theorem foldl_perm (key : List UInt8) (found acc : List DhtLookup.Contact) :
    (found.foldl (fun l c => DhtLookup.addSorted key { c with asked := false } l) acc).Perm (found.map (fun c => { c with asked := false }) ++ acc) := by
  induction found generalizing acc with
  | nil => exact List.Perm.refl _
  | cons c cs ih =>
    rw [List.foldl_cons]
    exact (ih _).trans (((DhtLookup.addSorted_perm key _ acc).append_left _).trans List.perm_middle)

theorem flat_get {b : Nat} {A : List Nat} {s : DhtBuckets.St} (h : Flat b A s) (hA : A.length ≤ 8) (key : List UInt8) :
    ∃ l, getContacts s (some key) = .ok l ∧ l.Perm ((s.bkt []).contacts.map fun c => (c.id, c.addr)) := by
  refine ⟨_, by simp only [getContacts, flat_list h hA]; rfl, ?_⟩
  have hp := (foldl_perm key (((s.bkt []).contacts.map fun c => (⟨c.id, c.addr, false⟩ : DhtLookup.Contact)).take s.k) []).map (fun c => (c.id, c.addr))
  rw [List.append_nil, List.take_of_length_le (by rw [List.length_map, h.hk]; exact h.few hA)] at hp
  simpa [DhtLookup.lookupCreate, List.take_of_length_le (show ((s.bkt []).contacts.map fun c => (⟨c.id, c.addr, false⟩ : DhtLookup.Contact)).length ≤ s.k by
    rw [List.length_map, h.hk]; exact h.few hA), Function.comp_def] using hp

/-! ## Storage without passes -/

theorem addAddr_ne (now exp : Int) (a : Nat) (e : DhtStore.Entry) : (DhtStore.addAddr now exp a e).vals ≠ [] := by
  unfold DhtStore.addAddr
  split
  · next h =>
    obtain ⟨v, hv, -⟩ := List.any_eq_true.1 h
    intro hn
    have := congrArg (List.map (·.addr)) hn
    dsimp only at this
    rw [DhtStore.bump_addrs] at this
    simp only [List.map_nil, List.map_eq_nil_iff] at this
    rw [this] at hv; cases hv
  · simp

theorem store_ne {s s' : DhtStore.St} {now exp : Int} {c : List UInt8 × Nat} (h : ∀ e ∈ s.entries, e.vals ≠ []) (hs : DhtStore.kadAdd now exp s [c] = .ok s') :
    ∀ e ∈ s'.entries, e.vals ≠ [] := by
  rw [DhtStore.kadAdd_one, DhtStore.addOne] at hs
  split at hs
  · cases hs
  · dsimp only at hs
    split at hs
    · cases hs
      intro e he
      rcases DhtStore.onFirst_mem he with he | ⟨e', -, he'⟩
      · exact h e he
      · cases he'; exact addAddr_ne _ _ _ _
    · cases hs
      intro e he
      rcases List.mem_cons.1 he with rfl | he
      · exact addAddr_ne _ _ _ _
      · exact h e he

theorem store_total {s : DhtStore.St} (now exp : Int) {c : List UInt8 × Nat} (h : s.b ≤ c.1.length) : ∃ s', DhtStore.kadAdd now exp s [c] = .ok s' := by
  rw [DhtStore.kadAdd_one, DhtStore.addOne, if_neg (by omega)]
  dsimp only
  split <;> exact ⟨_, rfl⟩

/-! ## One message -/

/-- A running member of a small directory. -/
structure Ok (b : Nat) (A : List Nat) (n : Node) (s : DhtBuckets.St) : Prop where
  running : n.running = true
  hb : n.b = b
  stb : n.store.b = b
  bk : n.bkts = some s
  flat : Flat b A s
  vals : ∀ e ∈ n.store.entries, e.vals ≠ []

theorem retrieve_total {s : DhtStore.St} (h : ∀ e ∈ s.entries, e.vals ≠ []) (k : List UInt8) : ∃ l, DhtStore.retrieve s k = .ok l := by
  unfold DhtStore.retrieve
  split
  · exact ⟨_, rfl⟩
  · rename_i e he
    split
    · exact ⟨_, rfl⟩
    · split
      · rename_i hv; exact absurd hv (h e (DhtStore.findEntry_mem he).1)
      · exact ⟨_, rfl⟩

/-- The response so far. -/
def resp0 (n : Node) (s : DhtBuckets.St) (m : Msg) : Msg := { code := RESPONSE, cookie := m.cookie, sAddr := n.addr, sId := some s.id }

theorem switch_ok {b : Nat} {A : List Nat} {n : Node} {s : DhtBuckets.St} (I : Ok b A n s) (hA : A.length ≤ 8) {m : Msg} (hm : Complete b m) (now : Int) (r : Msg) :
    ∃ n' r', switch now n m r = .ok (n', r') ∧ Ok b A n' s ∧ n'.addr = n.addr ∧ n'.tExpire = n.tExpire ∧
      (match stores (now, m) with | some op => DhtStore.step n.store op | none => .ok n.store) = .ok n'.store := by
  have find : m.key ≠ none → m.code ≠ STORE → ∃ n' r', (match n.bkts with
      | some s => match getContacts s m.key with
        | .ok l => Outcome.ok (n, { r with contacts := l })
        | .ub => .ub
      | none => .ub) = .ok (n', r') ∧ Ok b A n' s ∧ n'.addr = n.addr ∧ n'.tExpire = n.tExpire ∧
      (match stores (now, m) with | some op => DhtStore.step n.store op | none => .ok n.store) = .ok n'.store := by
    intro hk hs
    obtain ⟨k, hk⟩ := Option.ne_none_iff_exists'.1 hk
    obtain ⟨l, hl, -⟩ := flat_get I.flat hA k
    refine ⟨n, { r with contacts := l }, by rw [I.bk, hk]; simp only [hl], I, rfl, rfl, ?_⟩
    simp only [stores, if_neg hs]
  unfold switch
  dsimp only
  split
  · rename_i hc
    exact ⟨_, _, rfl, I, rfl, rfl, by simp [stores, hc, JOIN, STORE]⟩
  · split
    · rename_i hc
      obtain ⟨k, hk⟩ := Option.ne_none_iff_exists'.1 (hm.find (.inr hc))
      obtain ⟨l, hl⟩ := retrieve_total I.vals k
      rw [hk, retrieve, hl, ← hk]
      cases l with
      | nil => exact find (by simp [hk]) (by simp [hc, FIND_VALUE, STORE])
      | cons a l => exact ⟨_, _, rfl, I, rfl, rfl, by simp [stores, hc, FIND_VALUE, STORE]⟩
    · split
      · rename_i hc
        exact find (hm.find (.inl hc)) (by simp [hc, FIND_NODE, STORE])
      · split
        · rename_i hc
          obtain ⟨c, hc1, hc2⟩ := hm.store hc
          cases ht : m.tExpire with
          | none => exact ⟨n, r, by simp [hc1, DhtStore.storeMsg], I, rfl, rfl, by simp [stores, hc, hc1, ht]⟩
          | some t =>
            obtain ⟨st, hst⟩ := store_total (s := n.store) now (t : Int) (c := c) (by rw [I.stb]; omega)
            have hb : st.b = b := by
              have := hst
              rw [DhtStore.kadAdd_one, DhtStore.addOne] at this
              split at this
              · cases this
              · dsimp only at this; split at this <;> (cases this; exact I.stb)
            refine ⟨{ n with store := st }, r, by simp [hc1, DhtStore.storeMsg, hst], ⟨I.running, I.hb, hb, I.bk, I.flat, store_ne I.vals hst⟩, rfl, rfl, ?_⟩
            simp [stores, hc, hc1, ht, DhtStore.step, hst]
        · rename_i hc
          exact ⟨_, _, rfl, I, rfl, rfl, by simp [stores, hc]⟩

theorem not_bad {b : Nat} {n : Node} {m : Msg} (hb : n.b = b) (hm : Complete b m) : badKey n m = false ∧ badId n m = false := by
  constructor
  · unfold badKey
    split
    · rename_i k hk; simp [hb, hm.key k hk]
    · rfl
  · unfold badId
    obtain ⟨id, h1, h2⟩ := hm.id
    rw [h1]
    simp [hb, h2]

theorem handle_ok {b : Nat} {A : List Nat} {n : Node} {s : DhtBuckets.St} (I : Ok b A n s) (hA : A.length ≤ 8) {m : Msg} (hm : Complete b m) (hs : m.sAddr ∈ A) (now : Int) :
    ∃ n' s' r, handle now n m = .ok (n', if m.code < STORE then some r else none) ∧ Ok b A n' s' ∧ s'.id = s.id ∧ n'.addr = n.addr ∧ n'.tExpire = n.tExpire ∧
      (∃ n1, switch now n m (resp0 n s m) = .ok (n1, r)) ∧
      (match stores (now, m) with | some op => DhtStore.step n.store op | none => .ok n.store) = .ok n'.store ∧
      (m.code = JOIN → s' = s) ∧
      (m.code ≠ JOIN → ∃ id, m.sId = some id ∧ (s'.bkt []).contacts = (s.bkt []).contacts.filter (fun d => d.addr ≠ m.sAddr) ++ [⟨id, m.sAddr, 0⟩]) := by
  obtain ⟨n1, r, h1, I1, h2, h2', h3⟩ := switch_ok I hA hm now (resp0 n s m)
  obtain ⟨hk, hi⟩ := not_bad I.hb hm
  have start : handle now n m = match learn n1 m with
      | .ub => .ub
      | .ok (n'', go) => .ok (n'', if go = true ∧ m.code < STORE then some r else none) := by
    unfold handle
    rw [if_neg (by simp [I.running]), hk, hi]
    simp only [Bool.false_eq_true, if_false]
    have : ({ code := RESPONSE, cookie := m.cookie, sAddr := n.addr, sId := n.bkts.map (·.id) } : Msg) = resp0 n s m := by simp [resp0, I.bk]
    simp only [this, h1]
    cases learn n1 m <;> rfl
  by_cases hj : m.code = JOIN
  · refine ⟨n1, s, r, ?_, I1, rfl, h2, h2', ⟨n1, h1⟩, h3, fun _ => rfl, fun h => absurd hj h⟩
    rw [start, learn, if_pos hj]
    simp
  · obtain ⟨id, hid, hlen⟩ := hm.id
    obtain ⟨s', h4, h5, h6, h7⟩ := flat_update I1.flat hA hlen hs
    refine ⟨{ n1 with bkts := some s' }, s', r, ?_, ⟨I1.running, I1.hb, I1.stb, rfl, h5, I1.vals⟩, h6, h2, h2', ⟨n1, h1⟩, h3, fun h => absurd h hj, fun _ => ⟨id, hid, h7⟩⟩
    rw [start, learn, if_neg hj]
    simp only [I1.bk]
    simp only [hid, h4, true_and]

/-! ## Histories -/

theorem stores_snoc (ms : List (Int × Msg)) (x : Int × Msg) : (ms ++ [x]).filterMap stores = ms.filterMap stores ++ (stores x).toList := by
  rw [List.filterMap_append]; cases h : stores x <;> simp [h]

/-- The state of a member after messages. -/
structure Hist (b addr : Nat) (me : List UInt8) (A : List Nat) (ms : List (Int × Msg)) (n : Node) (s : DhtBuckets.St) : Prop where
  ok : Ok b A n s
  ha : n.addr = addr
  hid : s.id = me
  te : n.tExpire = 86400
  st : DhtStore.run (DhtStore.init b addr 0) (ms.filterMap stores) = .ok n.store
  known : ∀ i a, (∃ c ∈ (s.bkt []).contacts, c.id = i ∧ c.addr = a) ↔ lastId addr me ms a = some i

theorem lastId_snoc (addr : Nat) (me : List UInt8) (ms : List (Int × Msg)) (x : Int × Msg) (a : Nat) :
    lastId addr me (ms ++ [x]) a = if x.2.code ≠ JOIN ∧ x.2.sAddr = a then x.2.sId else lastId addr me ms a := by
  unfold lastId
  rw [List.reverse_append, List.reverse_singleton, List.singleton_append, List.find?_cons]
  by_cases h : x.2.code ≠ JOIN ∧ x.2.sAddr = a
  · rw [if_pos h, decide_eq_true h]
  · rw [if_neg h, decide_eq_false h]

theorem hist_boot {b addr : Nat} {me : List UInt8} {A : List Nat} (hme : me.length = b) (hA : A.length ≤ 8) (ha : addr ∈ A) :
    ∃ n s, boot b addr me = .ok n ∧ Hist b addr me A [] n s := by
  have F : Flat b A (DhtBuckets.init b DhtLookup.kadK me) := ⟨rfl, rfl, rfl, by simp [DhtBuckets.init], by simp [DhtBuckets.init]⟩
  obtain ⟨s', h1, h2, h3, h4⟩ := flat_update F hA hme ha
  refine ⟨_, s', by unfold boot; rw [h1], ⟨⟨rfl, rfl, rfl, rfl, h2, by simp [DhtStore.init]⟩, rfl, h3, rfl, rfl, ?_⟩⟩
  intro i a
  rw [h4]
  simp only [DhtBuckets.init, List.filter_nil, List.nil_append, List.mem_singleton, exists_eq_left, lastId, List.reverse_nil, List.find?_nil]
  constructor
  · rintro ⟨rfl, rfl⟩; simp
  · intro h; split at h
    · rename_i e; cases h; exact ⟨rfl, e.symm⟩
    · cases h

theorem hist_step {b addr : Nat} {me : List UInt8} {A : List Nat} {ms : List (Int × Msg)} {n : Node} {s : DhtBuckets.St} (H : Hist b addr me A ms n s) (hA : A.length ≤ 8)
    {now : Int} {m : Msg} (hm : Complete b m) (hs : m.sAddr ∈ A) :
    ∃ n' s' r, handle now n m = .ok (n', if m.code < STORE then some r else none) ∧ (∃ n1, switch now n m (resp0 n s m) = .ok (n1, r)) ∧ Hist b addr me A (ms ++ [(now, m)]) n' s' := by
  obtain ⟨n', s', r, h1, h2, h3, h4, h4', h5, h6, h7, h8⟩ := handle_ok H.ok hA hm hs now
  refine ⟨n', s', r, h1, h5, h2, by rw [h4, H.ha], by rw [h3, H.hid], by rw [h4', H.te], ?_, ?_⟩
  · rw [stores_snoc]
    cases hst : stores (now, m) with
    | none => rw [hst] at h6; simp only [Outcome.ok.injEq] at h6; simpa [h6] using H.st
    | some op =>
      rw [hst] at h6
      simp only [Option.toList_some]
      rw [DhtStore.run_snoc, H.st]
      exact h6
  · intro i a
    rw [lastId_snoc]
    by_cases hj : m.code = JOIN
    · rw [h7 hj, if_neg (by simp [hj]), H.known]
    · obtain ⟨id, hid, hc⟩ := h8 hj
      rw [hc]
      by_cases ha : m.sAddr = a
      · rw [if_pos ⟨hj, ha⟩]
        simp only [List.mem_append, List.mem_filter, List.mem_singleton, hid]
        constructor
        · rintro ⟨c, ⟨-, h⟩ | rfl, rfl, h'⟩
          · simp [ha, h'] at h
          · rfl
        · intro h; cases h; exact ⟨_, .inr rfl, rfl, ha⟩
      · rw [if_neg (fun h => ha h.2), ← H.known]
        simp only [List.mem_append, List.mem_filter, List.mem_singleton]
        constructor
        · rintro ⟨c, ⟨h, -⟩ | rfl, h1, h2⟩
          · exact ⟨c, h, h1, h2⟩
          · exact absurd h2 ha
        · rintro ⟨c, h, h1, h2⟩
          exact ⟨c, .inl ⟨h, by simp only [decide_eq_true_eq]; rw [h2]; exact fun h => ha h.symm⟩, h1, h2⟩

theorem run_append (n : Node) (l l' : List (Int × Msg)) : run n (l ++ l') = match run n l with | .ok n' => run n' l' | .ub => .ub := by
  induction l generalizing n with
  | nil => rfl
  | cons x l ih =>
    obtain ⟨now, m⟩ := x
    rw [List.cons_append, run, run]
    cases handle now n m with
    | ub => rfl
    | ok p => exact ih p.1

theorem hist_run {b addr : Nat} {me : List UInt8} {A : List Nat} (hme : me.length = b) (ms : List (Int × Msg)) (h : Small b addr A ms) :
    ∃ n0 n s, boot b addr me = .ok n0 ∧ run n0 ms = .ok n ∧ Hist b addr me A ms n s := by
  induction ms using List.reverseRecOn with
  | nil =>
    obtain ⟨n, s, h1, h2⟩ := hist_boot hme h.few h.self
    exact ⟨n, n, s, h1, rfl, h2⟩
  | append_singleton ms x ih =>
    obtain ⟨n0, n, s, h1, h2, h3⟩ := ih ⟨h.nodup, h.few, h.self, fun y hy => h.from_ y (List.mem_append_left _ hy), fun y hy => h.complete y (List.mem_append_left _ hy)⟩
    obtain ⟨n', s', r, h4, -, h5⟩ := hist_step h3 h.few (now := x.1) (h.complete x (by simp)) (h.from_ x (by simp))
    exact ⟨n0, n', s', h1, by rw [run_append, h2]; simp only [run, h4], h5⟩

/-! ## Lookups among members -/

theorem addSorted_mem {key : List UInt8} {c d : DhtLookup.Contact} {l : List DhtLookup.Contact} (h : d ∈ DhtLookup.addSorted key c l) : d = c ∨ d ∈ l :=
  List.mem_cons.1 ((DhtLookup.addSorted_perm key c l).mem_iff.1 h)

theorem mergeOne_mem {k : Nat} {lu : DhtLookup.Lookup} {c d : DhtLookup.Contact} (h : d ∈ (DhtLookup.mergeOne k lu c).1.contacts) : d = c ∨ d ∈ lu.contacts := by
  unfold DhtLookup.mergeOne at h
  split at h
  · exact .inr h
  · split at h
    · exact List.eq_or_mem_of_mem_insertIdx h
    · split at h
      · exact .inr h
      · exact List.eq_or_mem_of_mem_insertIdx ((List.dropLast_sublist _).subset h)

theorem merge_mem {b k : Nat} {P : List UInt8 × Nat → Prop} : ∀ {cs : List (List UInt8 × Nat)} {lu : DhtLookup.Lookup} {r : DhtLookup.Lookup × Bool},
    DhtLookup.merge b k lu cs = .ok r → (∀ c ∈ cs, P (c.1.take b, c.2)) → (∀ d ∈ lu.contacts, P (d.id, d.addr)) → ∀ d ∈ r.1.contacts, P (d.id, d.addr)
  | [], lu, r, h, _, hl => by cases h; exact hl
  | (id, a) :: cs, lu, r, h, hc, hl => by
    unfold DhtLookup.merge at h
    split at h
    · cases h
    · dsimp only at h
      split at h
      · cases h
      · rename_i r' hr
        cases h
        have hl' : ∀ d ∈ (DhtLookup.mergeOne k lu ⟨id.take b, a, false⟩).1.contacts, P (d.id, d.addr) := fun d hd => by
          rcases mergeOne_mem hd with rfl | hd
          · exact hc (id, a) List.mem_cons_self
          · exact hl d hd
        exact fun d hd => merge_mem (P := P) hr (fun c hc' => hc c (List.mem_cons_of_mem _ hc')) hl' d hd

theorem takeNew_mem : ∀ {n : Nat} {l : List DhtLookup.Contact} {d : DhtLookup.Contact}, d ∈ (DhtLookup.takeNew n l).2 → ∃ e ∈ l, e.id = d.id ∧ e.addr = d.addr
  | _, [], d, h => by simp [DhtLookup.takeNew] at h
  | n, c :: cs, d, h => by
    unfold DhtLookup.takeNew at h
    split at h
    · exact ⟨d, h, rfl, rfl⟩
    · split at h
      · rcases List.mem_cons.1 h with rfl | h
        · exact ⟨c, List.mem_cons_self, rfl, rfl⟩
        · obtain ⟨e, h1, h2⟩ := takeNew_mem h; exact ⟨e, List.mem_cons_of_mem _ h1, h2⟩
      · rcases List.mem_cons.1 h with rfl | h
        · exact ⟨d, List.mem_cons_self, rfl, rfl⟩
        · obtain ⟨e, h1, h2⟩ := takeNew_mem h; exact ⟨e, List.mem_cons_of_mem _ h1, h2⟩

theorem lookup_mem {b k : Nat} {P : List UInt8 × Nat → Prop} : ∀ {ops : List DhtLookup.Op} {s s' : DhtLookup.Sys}, DhtLookup.run b k s ops = some (.ok s') →
    (∀ m, DhtLookup.Op.resp m ∈ ops → ∀ c ∈ m.contacts, P (c.1.take b, c.2)) → (∀ d ∈ s.lu.contacts, P (d.id, d.addr)) → ∀ d ∈ s'.lu.contacts, P (d.id, d.addr)
  | [], s, s', h, _, hl => by cases h; exact hl
  | op :: ops, s, s', h, hc, hl => by
    unfold DhtLookup.run at h
    split at h
    · cases h
    · cases h
    · rename_i s1 h1
      refine lookup_mem h (fun m hm => hc m (List.mem_cons_of_mem _ hm)) ?_
      cases op with
      | ask cookies =>
        simp only [DhtLookup.step, Option.some.injEq, Outcome.ok.injEq] at h1
        subst h1
        intro d hd
        obtain ⟨e, h1, h2, h3⟩ := takeNew_mem hd
        rw [← h2, ← h3]; exact hl e h1
      | wait => simp only [DhtLookup.step, Option.some.injEq, Outcome.ok.injEq] at h1; subst h1; exact hl
      | timeout =>
        simp only [DhtLookup.step] at h1
        split at h1
        · simp only [Option.some.injEq, Outcome.ok.injEq] at h1; subst h1; exact hl
        · cases h1
      | resp m =>
        simp only [DhtLookup.step] at h1
        split at h1
        · cases h1
        · cases h1
        · rename_i lu hu
          simp only [Option.some.injEq, Outcome.ok.injEq] at h1
          subst h1
          dsimp only
          unfold DhtLookup.lookupUpdate at hu
          dsimp only at hu
          split at hu
          · cases hu; exact hl
          · split at hu
            · cases hu; exact hl
            · split at hu
              · cases hu
              · split at hu
                · cases hu
                · rename_i lu' mod hr
                  cases hu
                  exact merge_mem hr (hc m List.mem_cons_self) hl

/-- A lookup among at most eight members ends with all of them. -/
theorem lookup_all {b : Nat} {M : List (List UInt8 × Nat)} (few : M.length ≤ 8) (ids : (M.map (·.1)).Nodup) (len : ∀ c ∈ M, c.1.length = b)
    {key : List UInt8} {found : List DhtLookup.Contact} (hf : (found.map fun c => (c.id, c.addr)).Perm M) {ops : List DhtLookup.Op} (ho : FromMembers M ops) {s : DhtLookup.Sys}
    (h : DhtLookup.run b 8 (DhtLookup.start 8 key found) ops = some (.ok s)) : ∀ a, a ∈ DhtLookup.contactAddrs s.lu ↔ a ∈ M.map (·.2) := by
  have hfl : found.length ≤ 8 := by have := hf.length_eq; rw [List.length_map] at this; omega
  have hfi : (found.map (·.id)).Perm (M.map (·.1)) := by simpa [Function.comp_def] using hf.map (·.1)
  have hfn : ((found.take 8).map (·.id)).Nodup := by rw [List.take_of_length_le hfl]; exact hfi.nodup_iff.2 ids
  have I := DhtLookup.run_inv ops (DhtLookup.start_inv (key := key) hfn) h
  have start : ∀ d ∈ (DhtLookup.start 8 key found).lu.contacts, (d.id, d.addr) ∈ M := by
    intro d hd
    have := (foldl_perm key (found.take 8) []).mem_iff.1 hd
    rw [List.append_nil, List.take_of_length_le hfl] at this
    obtain ⟨c, hc, rfl⟩ := List.mem_map.1 this
    exact hf.mem_iff.1 (List.mem_map.2 ⟨c, hc, rfl⟩)
  have pairs : ∀ d ∈ s.lu.contacts, (d.id, d.addr) ∈ M := by
    refine lookup_mem (P := fun c => c ∈ M) h (fun m hm c hc => ?_) start
    have := (ho m hm).2 c hc
    rw [List.take_of_length_le (len c this).le]; exact this
  have seen : ∀ {ops : List DhtLookup.Op} {s0 s' : DhtLookup.Sys}, DhtLookup.run b 8 s0 ops = some (.ok s') → ∀ x ∈ s0.seen, x ∈ s'.seen := by
    intro ops
    induction ops with
    | nil => intro s0 s' h x hx; cases h; exact hx
    | cons op ops ih =>
      intro s0 s' h x hx
      unfold DhtLookup.run at h
      split at h
      · cases h
      · cases h
      · rename_i s1 h1
        refine ih h x ?_
        cases op with
        | ask cookies => simp only [DhtLookup.step, Option.some.injEq, Outcome.ok.injEq] at h1; subst h1; exact hx
        | wait => simp only [DhtLookup.step, Option.some.injEq, Outcome.ok.injEq] at h1; subst h1; exact hx
        | timeout =>
          simp only [DhtLookup.step] at h1
          split at h1
          · simp only [Option.some.injEq, Outcome.ok.injEq] at h1; subst h1; exact hx
          · cases h1
        | resp m =>
          simp only [DhtLookup.step] at h1
          split at h1
          · cases h1
          · cases h1
          · simp only [Option.some.injEq, Outcome.ok.injEq] at h1; subst h1; exact List.mem_append_left _ hx
  have allids : ∀ x ∈ M.map (·.1), x ∈ s.lu.contacts.map (·.id) := by
    intro x hx
    by_contra hn
    have hx' : x ∈ s.seen := seen h x (by
      show x ∈ (found.take 8).map (·.id)
      rw [List.take_of_length_le hfl]; exact hfi.mem_iff.2 hx)
    obtain ⟨hlen, -⟩ := I.best.2.2.2 x hx' hn
    have : (x :: s.lu.contacts.map (·.id)).length ≤ (M.map (·.1)).length := (List.Nodup.subperm (List.nodup_cons.2 ⟨hn, I.best.1⟩) (fun y hy => by
      rcases List.mem_cons.1 hy with rfl | hy
      · exact hx
      · obtain ⟨d, hd, rfl⟩ := List.mem_map.1 hy
        exact List.mem_map.2 ⟨_, pairs d hd, rfl⟩)).length_le
    rw [List.length_cons, hlen, List.length_map] at this
    omega
  intro a
  constructor
  · intro ha
    obtain ⟨d, hd, rfl⟩ := List.mem_map.1 ha
    exact List.mem_map.2 ⟨_, pairs d hd, rfl⟩
  · intro ha
    obtain ⟨c, hc, rfl⟩ := List.mem_map.1 ha
    obtain ⟨d, hd, he⟩ := List.mem_map.1 (allids c.1 (List.mem_map.2 ⟨c, hc, rfl⟩))
    have hp := pairs d hd
    have : (d.id, d.addr) = c := by
      have inj : ∀ (l : List (List UInt8 × Nat)), (l.map (·.1)).Nodup → ∀ x ∈ l, ∀ y ∈ l, x.1 = y.1 → x = y := by
        intro l
        induction l with
        | nil => intro _ x hx; cases hx
        | cons z l ih =>
          intro hn x hx y hy hxy
          rw [List.map_cons, List.nodup_cons] at hn
          rcases List.mem_cons.1 hx with h1 | h1 <;> rcases List.mem_cons.1 hy with h2 | h2
          · rw [h1, h2]
          · rw [← h1] at hn; exact (hn.1 (List.mem_map.2 ⟨y, h2, hxy.symm⟩)).elim
          · rw [← h2] at hn; exact (hn.1 (List.mem_map.2 ⟨x, h1, hxy⟩)).elim
          · exact ih hn.2 x h1 y h2 hxy
      exact inj M ids _ hp _ hc he
    exact List.mem_map.2 ⟨d, hd, by rw [← this]⟩

/-! ## Publishing -/

/-- A member of the directory `M`. -/
structure Mem (b : Nat) (A : List Nat) (c : List UInt8 × Nat) (n : Node) : Prop where
  ex : ∃ s, Ok b A n s ∧ s.id = c.1
  ha : n.addr = c.2
  st : DhtStore.Inv b c.2 n.store

theorem lookup_total {b k : Nat} : ∀ {ops : List DhtLookup.Op} {s : DhtLookup.Sys}, (∀ m, DhtLookup.Op.resp m ∈ ops → ∀ c ∈ m.contacts, b ≤ c.1.length) →
    DhtLookup.run b k s ops ≠ some .ub
  | [], s, _ => by simp [DhtLookup.run]
  | op :: ops, s, h => by
    unfold DhtLookup.run
    split
    · simp
    · rename_i h1
      exfalso
      cases op with
      | ask cookies => simp [DhtLookup.step] at h1
      | wait => simp [DhtLookup.step] at h1
      | timeout => simp only [DhtLookup.step] at h1; split at h1 <;> simp at h1
      | resp m =>
        simp only [DhtLookup.step] at h1
        split at h1
        · cases h1
        · rename_i hu; exact (DhtLookup.C43_response b k s.lu m (h m List.mem_cons_self)).2.1 hu
        · cases h1
    · exact lookup_total (fun m hm => h m (List.mem_cons_of_mem _ hm))

theorem absOf_store {b me : Nat} {s s' : DhtStore.St} (I : DhtStore.Inv b me s) {now exp : Int} {key : List UInt8} (hk : key.length = b) {a : Nat}
    (h : DhtStore.step s (.store now exp key a) = .ok s') :
    DhtStore.Inv b me s' ∧ (∃ t, now + exp ≤ t ∧ DhtStore.absOf s' key a = some t) ∧ ∀ k x, ¬ (k = key ∧ x = a) → DhtStore.absOf s' k x = DhtStore.absOf s k x := by
  obtain ⟨h1, h2⟩ := DhtStore.step_spec I _ h
  have ht : key.take b = key := by rw [← hk]; exact List.take_length
  refine ⟨h1, ?_, fun k x hx => ?_⟩
  · rw [h2]
    simp only [DhtStore.specStep, ht, and_self, if_true]
    refine ⟨_, ?_, rfl⟩
    split <;> simp
  · rw [h2]
    simp only [DhtStore.specStep, ht, if_neg hx]

theorem publish_ok {b : Nat} {M : List (List UInt8 × Nat)} (few : M.length ≤ 8) (addrs : (M.map (·.2)).Nodup) (len : ∀ c ∈ M, c.1.length = b) {me : List UInt8 × Nat} (hme : me ∈ M) (now : Int)
    {key : List UInt8} (hk : key.length = b) : ∀ (l : List Nat) (net : Net), (∀ x ∈ l, x ∈ M.map (·.2)) → (∀ c ∈ M, Mem b (M.map (·.2)) c (net c.2)) →
    ∃ net', publish now me.2 key net l = .ok net' ∧ (∀ c ∈ M, Mem b (M.map (·.2)) c (net' c.2)) ∧
      (∀ c ∈ M, c.2 ∈ l → ∃ t, now + (net me.2).tExpire ≤ t ∧ DhtStore.absOf (net' c.2).store key me.2 = some t) ∧
      (∀ c ∈ M, c.2 ∉ l → DhtStore.absOf (net' c.2).store key me.2 = DhtStore.absOf (net c.2).store key me.2) ∧
      (∀ c ∈ M, ∀ k x, ¬ (k = key ∧ x = me.2) → DhtStore.absOf (net' c.2).store k x = DhtStore.absOf (net c.2).store k x) ∧
      (net' me.2).tExpire = (net me.2).tExpire := by
  intro l
  induction l with
  | nil => intro net _ hM; exact ⟨net, rfl, hM, (fun c _ h => (List.not_mem_nil h).elim), fun _ _ _ => rfl, fun _ _ _ _ _ => rfl, rfl⟩
  | cons x l ih =>
    intro net hl hM
    have hA : (M.map (·.2)).length ≤ 8 := by rw [List.length_map]; exact few
    obtain ⟨cx, hcx, rfl⟩ := List.mem_map.1 (hl x List.mem_cons_self)
    have X := hM cx hcx
    -- the next state of the member that gets the address
    obtain ⟨n', hstep, hMem, hte, habs, hoth⟩ : ∃ n', (publish now me.2 key net (cx.2 :: l) = publish now me.2 key (fun y => if y = cx.2 then n' else net y) l) ∧
        Mem b (M.map (·.2)) cx n' ∧ n'.tExpire = (net cx.2).tExpire ∧ (∃ t, now + (net me.2).tExpire ≤ t ∧ DhtStore.absOf n'.store key me.2 = some t) ∧
        ∀ k x, ¬ (k = key ∧ x = me.2) → DhtStore.absOf n'.store k x = DhtStore.absOf (net cx.2).store k x := by
      obtain ⟨s, O, hid⟩ := X.ex
      by_cases e : cx.2 = me.2
      · obtain ⟨st, hst⟩ := store_total (s := (net me.2).store) now ((net me.2).tExpire : Int) (c := (key, me.2)) (by rw [← e, O.stb, hk])
        have hst' : DhtStore.step (net cx.2).store (.store now (net me.2).tExpire key me.2) = .ok st := by rw [e]; exact hst
        obtain ⟨h1, h2, h3⟩ := absOf_store X.st hk hst'
        refine ⟨{ net me.2 with store := st }, by rw [publish, if_pos e, hst, e], ⟨⟨s, ?_, hid⟩, by rw [← e]; exact X.ha, h1⟩, by rw [e], h2, h3⟩
        rw [← e]
        refine ⟨O.running, O.hb, h1.hb, O.bk, O.flat, store_ne O.vals (c := (key, me.2)) (now := now) (exp := ((net me.2).tExpire : Int)) ?_⟩
        rw [e]; exact hst
      · obtain ⟨sm, Om, hidm⟩ := (hM me hme).ex
        have hm : Complete b (storeMsgOf (net me.2) key me.2) := by
          refine ⟨⟨me.1, by simp [storeMsgOf, Om.bk, hidm], len me hme⟩, fun k hk => by simp [storeMsgOf] at hk, ?_, fun _ => ⟨_, rfl, hk⟩⟩
          intro h; rcases h with h | h <;> simp [storeMsgOf, STORE, FIND_NODE, FIND_VALUE] at h
        obtain ⟨n', s', r, g1, g2, g3, g4, g4', -, g6, -, -⟩ := handle_ok O hA hm (by
          show (net me.2).addr ∈ _
          rw [(hM me hme).ha]; exact List.mem_map.2 ⟨me, hme, rfl⟩) now
        have hs : stores (now, storeMsgOf (net me.2) key me.2) = some (.store now (net me.2).tExpire key me.2) := rfl
        rw [hs] at g6
        obtain ⟨h1, h2, h3⟩ := absOf_store X.st hk g6
        exact ⟨n', by rw [publish, if_neg e, g1], ⟨⟨s', g2, by rw [g3, hid]⟩, by rw [g4]; exact X.ha, h1⟩, g4', h2, h3⟩
    rw [hstep]
    have inj : ∀ c ∈ M, c.2 = cx.2 → c = cx := by
      intro c hc hcc
      have : ∀ (l : List (List UInt8 × Nat)), (l.map (·.2)).Nodup → ∀ x ∈ l, ∀ y ∈ l, x.2 = y.2 → x = y := by
        intro l
        induction l with
        | nil => intro _ x hx; cases hx
        | cons z l ih =>
          intro hn x hx y hy hxy
          rw [List.map_cons, List.nodup_cons] at hn
          rcases List.mem_cons.1 hx with h1 | h1 <;> rcases List.mem_cons.1 hy with h2 | h2
          · rw [h1, h2]
          · rw [← h1] at hn; exact (hn.1 (List.mem_map.2 ⟨y, h2, hxy.symm⟩)).elim
          · rw [← h2] at hn; exact (hn.1 (List.mem_map.2 ⟨x, h1, hxy⟩)).elim
          · exact ih hn.2 x h1 y h2 hxy
      exact this M addrs c hc cx hcx hcc
    have te : (if me.2 = cx.2 then n' else net me.2).tExpire = (net me.2).tExpire := by
      split
      · rename_i e; rw [hte, e]
      · rfl
    obtain ⟨net', p1, p2, p3, p4, p5, p6⟩ := ih (fun y => if y = cx.2 then n' else net y) (fun y hy => hl y (List.mem_cons_of_mem _ hy)) (by
      intro c hc
      split
      · rename_i e; rw [inj c hc e]; exact hMem
      · exact hM c hc)
    refine ⟨net', p1, p2, ?_, ?_, ?_, by rw [p6, te]⟩
    · intro c hc hcl
      by_cases h : c.2 ∈ l
      · obtain ⟨t, h1, h2⟩ := p3 c hc h
        exact ⟨t, by rw [te] at h1; exact h1, h2⟩
      · have : c.2 = cx.2 := by rcases List.mem_cons.1 hcl with h' | h'; exacts [h', absurd h' h]
        obtain ⟨t, h1, h2⟩ := habs
        exact ⟨t, h1, by rw [p4 c hc h, if_pos this]; exact h2⟩
    · intro c hc hcl
      rw [p4 c hc (fun h => hcl (List.mem_cons_of_mem _ h)), if_neg (fun e => hcl (by rw [e]; exact List.mem_cons_self))]
    · intro c hc k y hy
      rw [p5 c hc k y hy]
      split
      · rename_i e; rw [hoth k y hy, e]
      · rfl

/-- What `Meshed` says about the state. -/
theorem meshed_mem {b : Nat} {M : List (List UInt8 × Nat)} {net : Net} (h : Meshed b M net) {c : List UInt8 × Nat} (hc : c ∈ M) :
    Mem b (M.map (·.2)) c (net c.2) ∧ ∃ s, (net c.2).bkts = some s ∧ Flat b (M.map (·.2)) s ∧ ((s.bkt []).contacts.map fun c => (c.id, c.addr)).Perm M := by
  obtain ⟨n0, ms, h1, h2, h3, h4⟩ := h.node c hc
  obtain ⟨n0', n, s, g1, g2, H⟩ := hist_run (h.len c hc) ms h2
  rw [h1] at g1; cases g1
  rw [h3] at g2; cases g2
  refine ⟨⟨⟨s, H.ok, H.hid⟩, H.ha, (DhtStore.run_spec _ H.st).1⟩, s, H.ok.bk, H.ok.flat, ?_⟩
  refine (List.perm_ext_iff_of_nodup ?_ ?_).2 ?_
  · have := H.ok.flat.nodup
    refine List.Nodup.of_map (·.2) ?_
    rw [List.map_map]; exact this
  · exact List.Nodup.of_map _ h.addrs
  · rintro ⟨i, a⟩
    have hk := H.known i a
    constructor
    · intro hm
      obtain ⟨d, hd, he⟩ := List.mem_map.1 hm
      cases he
      have hl := hk.1 ⟨d, hd, rfl, rfl⟩
      obtain ⟨e, he, hea⟩ := List.mem_map.1 (H.ok.flat.sub d hd).1
      have := h4 e he
      rw [hea, hl] at this
      have : d.id = e.1 := by simpa using this
      rw [this, ← hea]; exact he
    · intro hm
      obtain ⟨d, hd, rfl, rfl⟩ := hk.2 (h4 _ hm)
      exact List.mem_map.2 ⟨d, hd, rfl⟩

theorem getAddr_only {b me : Nat} {s : DhtStore.St} (I : DhtStore.Inv b me s) {k : List UInt8} {a : Nat} {t : Int} (h : DhtStore.absOf s k a = some t) (hne : a ≠ me)
    (only : ∀ x, x ≠ a → DhtStore.absOf s k x = none) : DhtStore.getAddr s k = a := by
  unfold DhtStore.absOf at h only
  unfold DhtStore.getAddr
  cases hf : DhtStore.findEntry s.entries k with
  | none => rw [hf] at h; cases h
  | some e =>
    simp only [hf, Option.bind_some] at h only ⊢
    have nd := I.addrs e (DhtStore.findEntry_mem hf).1
    have all : ∀ v ∈ e.vals, v.addr = a := by
      intro v hv
      by_contra hn
      have := (DhtStore.look_mem nd v.addr v.exp).2 ⟨v, hv, rfl, rfl⟩
      rw [only v.addr hn] at this; cases this
    obtain ⟨v, hv, hva, -⟩ := (DhtStore.look_mem nd a t).1 h
    cases hfi : e.vals.find? (fun v => decide (v.addr ≠ s.self)) with
    | none => have := List.find?_eq_none.1 hfi v hv; simp [hva, I.hs, hne] at this
    | some w => exact all w (List.mem_of_find?_eq_some hfi)

end Ouro.DhtPacket
