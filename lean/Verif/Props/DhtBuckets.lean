import Verif.Proof.DhtBuckets

/-!
# C43: the buckets of the directory
-/

namespace Ouro.DhtBuckets

/-! ## Sizes -/

/-- C43: in all histories every bucket has at most `k` contacts and at most `k` alternatives, one with children has no contacts, and all ids have the length of the ids of the directory. -/
theorem C43_bucket_size {b k : Nat} {me : List UInt8} (hk : 0 < k) {ops : List Op} {s : St} (h : run (init b k me) ops = .ok s) (p : Path) :
    (s.bkt p).contacts.length ≤ k ∧ (s.bkt p).alts.length ≤ k ∧ (s.split p = true → (s.bkt p).contacts = []) ∧ ∀ c, c ∈ (s.bkt p).contacts ∨ c ∈ (s.bkt p).alts → c.id.length = b :=
  have g := (run_inv ops (init_inv b k me hk) h).good p
  ⟨g.clen, g.alen, g.empty, g.ids⟩

/-- C43, partial (missing: histories in which nodes do not respond, `C43_bucket_addrs_violated`): if nodes only come in, no bucket has two contacts with the same address. -/
theorem C43_bucket_addrs_partial {b k : Nat} {me : List UInt8} {l : List (List UInt8 × Nat)} {s : St} (h : run (init b k me) (updates l) = .ok s) (p : Path) : ((s.bkt p).contacts.map (·.addr)).Nodup := by
  have gen : ∀ (l : List (List UInt8 × Nat)) (s s' : St), (∀ q, ((s.bkt q).contacts.map (·.addr)).Nodup) → run s (updates l) = .ok s' → ∀ q, ((s'.bkt q).contacts.map (·.addr)).Nodup := by
    intro l
    induction l with
    | nil => intro s s' h hr; injection hr with hr; subst hr; exact h
    | cons c l ih =>
      intro s s' h hr
      have hr' : run s (.update c.1 c.2 :: updates l) = .ok s' := hr
      unfold run at hr'
      split at hr'
      · cases hr'
      · next s1 hs1 => exact ih s1 s' (update_addrs h c.1 c.2 hs1) hr'
  exact gen l (init b k me) s (fun q => by simp [init]) h p

theorem getBucket_child (s : St) (m x : UInt8) (h0 : s.split [] = true) (h1 : s.split [m] = false) : getBucket s [m, x] = .ok [m] := by
  unfold getBucket
  rw [walk, h0]
  simp only [Bool.true_eq_false, if_false, List.length_nil, List.length_cons, Nat.zero_lt_succ, dif_pos]
  rw [walk]
  simp [h1]

theorem run_append (s : St) (ops ops' : List Op) : run s (ops ++ ops') = match run s ops with | .ub => .ub | .ok s' => run s' ops' := by
  induction ops generalizing s with
  | nil => rfl
  | cons op ops ih =>
    rw [List.cons_append, run, run]
    cases step s op with
    | ub => rfl
    | ok s1 => exact ih s1

/-- The first `k + 1` nodes, with ids that do not all have the same second byte, are spread over the children of the root by that byte. -/
theorem first_split {b k : Nat} {me : List UInt8} {l : List (List UInt8 × Nat)} (hb2 : 2 ≤ b) (hl : l.length = k + 1) (hb : ∀ c ∈ l, c.1.length = b) (hn : (l.map (·.2)).Nodup) (hd : ∃ c ∈ l, ∃ d ∈ l, c.1[1]? ≠ d.1[1]?) :
    run (init b k me) (updates l) = .ok (spread (rootOnly b k me (l.map (new b))) []) := by
  rw [run_first b k me l hl (fun c hc => (hb c hc).ge) hn, splitBucket]
  rw [if_pos (by show [].length + 1 < b; simp; omega)]
  have h1 : ((rootOnly b k me (l.map (new b))).bkt []).contacts = l.map (new b) := by rw [rootOnly, setBkt_same]
  rw [h1]
  have hne : l ≠ [] := fun h => by rw [h] at hl; simp at hl
  obtain ⟨x, xs, rfl⟩ := List.exists_cons_of_ne_nil hne
  have htake : ∀ c ∈ x :: xs, (new b c).id = c.1 := fun c hc => by rw [new, ← hb c hc]; exact List.take_length
  have hx := htake x List.mem_cons_self
  have hxl := hb x List.mem_cons_self
  simp only [List.map_cons, List.length_nil, Nat.zero_add]
  have hget : (new b x).id[1]? = some (x.1[1]'(by omega)) := by rw [hx]; exact List.getElem?_eq_getElem _
  rw [hget]
  simp only
  rw [if_neg]
  intro hall
  rw [List.all_eq_true] at hall
  have heq : ∀ c ∈ x :: xs, c.1[1]? = some (x.1[1]'(by omega)) := by
    intro c hc
    rcases List.mem_cons.1 hc with rfl | hc'
    · exact List.getElem?_eq_getElem _
    · have := hall (new b c) (List.mem_map.2 ⟨c, hc', rfl⟩)
      rw [htake c hc] at this
      simpa using this
  obtain ⟨c, hc, d, hd, hne⟩ := hd
  exact hne (by rw [heq c hc, heq d hd])

/-- Three nodes, for buckets of two. -/
def others : List (List UInt8 × Nat) := [([1, 5], 1), ([2, 5], 2), ([3, 6], 4)]

/-- C43 is violated: a node whose bucket is full becomes an alternative, and does so again with every message; when contacts do not respond it gets into the bucket twice. -/
theorem C43_bucket_addrs_violated : ∃ s : St, run (init 2 2 [9, 9]) (updates others ++ [.update [5, 3] 3, .update [5, 3] 3, .dead (some [5, 0]) 1, .dead (some [5, 0]) 2]) = .ok s ∧ (s.bkt [5]).contacts.map (·.addr) = [3, 3] := by
  have hfirst : run (init 2 2 [9, 9]) (updates others) = .ok (spread (rootOnly 2 2 [9, 9] (others.map (new 2))) []) :=
    first_split (by decide) (by decide +kernel) (by decide +kernel) (by decide +kernel) (by decide +kernel)
  let s0 := spread (rootOnly 2 2 [9, 9] (others.map (new 2))) []
  let a : Contact := ⟨[2, 5], 2, 0⟩
  let b : Contact := ⟨[1, 5], 1, 0⟩
  let c : Contact := ⟨[5, 3], 3, 0⟩
  let s1 := setBkt s0 [5] ⟨[a, b], [c]⟩
  let s2 := setBkt s1 [5] ⟨[a, b], [c, c]⟩
  let s3 := setBkt s2 [5] ⟨[c, a], [c]⟩
  let s4 := setBkt s3 [5] ⟨[c, c], []⟩
  have h1 : step s0 (.update [5, 3] 3) = .ok s1 := by
    show updateBucket s0 [5, 3] 3 = _
    unfold updateBucket
    rw [getBucket_child s0 5 3 rfl rfl]
    rfl
  have h2 : step s1 (.update [5, 3] 3) = .ok s2 := by
    show updateBucket s1 [5, 3] 3 = _
    unfold updateBucket
    rw [getBucket_child s1 5 3 rfl rfl]
    rfl
  have h3 : step s2 (.dead (some [5, 0]) 1) = .ok s3 := by
    unfold step deadPeer
    simp only [getBucket_child s2 5 0 rfl rfl]
    rfl
  have h4 : step s3 (.dead (some [5, 0]) 2) = .ok s4 := by
    unfold step deadPeer
    simp only [getBucket_child s3 5 0 rfl rfl]
    rfl
  refine ⟨s4, ?_, by decide +kernel⟩
  rw [run_append, hfirst]
  show run s0 _ = _
  rw [run, h1]
  show run s1 _ = _
  rw [run, h2]
  show run s2 _ = _
  rw [run, h3]
  show run s3 _ = _
  rw [run, h4]
  rfl

/-! ## Where contacts are -/

/-- C43, partial (missing: buckets that are split, `C43_found_violated`): in all histories, a node that comes in is afterwards in the bucket in which its id is looked up, as a contact or (if the bucket is full) as an
alternative, if no bucket was split by it. -/
theorem C43_stored_partial {b k : Nat} {me : List UInt8} (hk : 0 < k) {ops : List Op} {s s' : St} (h : run (init b k me) ops = .ok s) (id : List UInt8) (hid : id.length = b) (addr : Nat) (hu : step s (.update id addr) = .ok s') (hsp : s'.split = s.split) :
    ∃ p, getBucket s' id = .ok p ∧ ((⟨id, addr, 0⟩ ∈ (s'.bkt p).contacts) ∨ ((s'.bkt p).contacts.length = k ∧ ⟨id, addr, 0⟩ ∈ (s'.bkt p).alts)) := by
  have hi := run_inv ops (init_inv b k me hk) h
  have hu' : updateBucket s id addr = .ok s' := hu
  have htake : id.take s.b = id := by rw [hi.hb, ← hid]; exact List.take_length
  unfold updateBucket at hu'
  split at hu'
  · cases hu'
  · next p hp =>
    have hunsp := walk_unsplit _ rfl hp
    have hwalk : getBucket s' id = .ok p := by rw [← hp]; exact walk_split _ hsp rfl
    split at hu'
    · cases hu'
    · simp only at hu'
      rw [htake] at hu'
      split at hu'
      · next hfull =>
        split at hu'
        · cases hu'
        · exfalso
          -- a split would show
          have hg := hi.good p
          have := split_good (b := b) (k := k) _ (s := setBkt s p ⟨(s.bkt p).contacts.filter (fun d => d.addr ≠ addr) ++ [⟨id, addr, 0⟩], (s.bkt p).alts⟩) (p := p) rfl hi.hb hi.hk
            (fun q hq => by rw [setBkt_ne _ _ _ _ hq]; exact hi.good q)
            (by rw [setBkt_same]; simp only [List.length_append, List.length_cons, List.length_nil]; have := hi.hk; omega)
            (by rw [setBkt_same]; exact hg.alen)
            (by
              rw [setBkt_same]
              intro c hc
              rcases hc with hc | hc
              · rcases List.mem_append.1 hc with hc | hc
                · exact hg.ids c (Or.inl (List.mem_filter.1 hc).1)
                · rw [List.mem_singleton] at hc; subst hc; exact hid
              · exact hg.ids c (Or.inr hc)) hu'
          have h1 := this.2.2.2.2.1
          rw [hsp, hunsp] at h1
          cases h1
        · split at hu'
          · injection hu' with hu'
            subst hu'
            exact ⟨p, hwalk, Or.inr (by rw [setBkt_same]; exact ⟨by rw [← hi.hk]; exact hfull, by simp⟩)⟩
          · injection hu' with hu'
            subst hu'
            exact ⟨p, hwalk, Or.inr (by rw [setBkt_same]; exact ⟨by rw [← hi.hk]; exact hfull, by simp⟩)⟩
      · injection hu' with hu'
        subst hu'
        exact ⟨p, hwalk, Or.inl (by rw [setBkt_same]; simp)⟩

/-- C43 is violated: contacts are moved to the children of a bucket by the second byte of their ids, but looked up by the first. After the first `k + 1` nodes came in, all of them are known, but a node is in the bucket in which
its id is looked up just if the first two bytes of its id are the same. (The ids must not all have the same second byte.) -/
theorem C43_found_violated {b k : Nat} {me : List UInt8} {l : List (List UInt8 × Nat)} (hb2 : 2 ≤ b) (hl : l.length = k + 1) (hb : ∀ c ∈ l, c.1.length = b) (hn : (l.map (·.2)).Nodup) (hd : ∃ c ∈ l, ∃ d ∈ l, c.1[1]? ≠ d.1[1]?) :
    ∃ s, run (init b k me) (updates l) = .ok s ∧ ∀ c ∈ l, known s c.1 c.2 ∧ (found s c.1 c.2 ↔ c.1[0]? = c.1[1]?) := by
  refine ⟨_, first_split hb2 hl hb hn hd, fun c hc => ?_⟩
  have hcl := hb c hc
  have hnew : new b c = ⟨c.1, c.2, 0⟩ := by unfold new; rw [← hcl, List.take_length]
  have hroot : ((rootOnly b k me (l.map (new b))).bkt []).contacts = l.map (new b) := by rw [rootOnly, setBkt_same]
  have hmem : (⟨c.1, c.2, 0⟩ : Contact) ∈ l.map (new b) := by rw [← hnew]; exact List.mem_map.2 ⟨c, hc, rfl⟩
  have hchild : ∀ m : UInt8, ((spread (rootOnly b k me (l.map (new b))) []).bkt [m]).contacts = ((l.map (new b)).filter (fun c => c.id[1]? = some m)).reverse := by
    intro m
    have := (spread_child (rootOnly b k me (l.map (new b))) [] m).1
    rw [hroot] at this
    exact congrArg Bucket.contacts this
  constructor
  · refine ⟨[c.1[1]], (spread_child _ [] _).2, ⟨c.1, c.2, 0⟩, ?_, rfl, rfl⟩
    rw [hchild]
    simp only [List.mem_reverse, List.mem_filter, hmem, true_and]
    simp [List.getElem?_eq_getElem (show 1 < c.1.length by omega)]
  · have hwalk : getBucket (spread (rootOnly b k me (l.map (new b))) []) c.1 = .ok [c.1[0]] := by
      unfold getBucket
      rw [walk, (spread_self _ []).2]
      simp only [Bool.true_eq_false, if_false]
      rw [dif_pos (by simp; omega)]
      rw [walk]
      have := (spread_child (rootOnly b k me (l.map (new b))) [] (c.1[0])).2
      simp only [List.nil_append, List.length_nil] at this ⊢
      rw [if_pos this]
    have h0 : c.1[0]? = some c.1[0] := List.getElem?_eq_getElem _
    constructor
    · rintro ⟨p, hp, d, hdm, hd1, hd2⟩
      rw [hwalk] at hp
      injection hp with hp
      subst hp
      rw [hchild] at hdm
      simp only [List.mem_reverse, List.mem_filter, decide_eq_true_eq] at hdm
      rw [← hd1, hdm.2, hd1, h0]
    · intro h
      refine ⟨[c.1[0]], hwalk, ⟨c.1, c.2, 0⟩, ?_, rfl, rfl⟩
      rw [hchild]
      simp only [List.mem_reverse, List.mem_filter, hmem, true_and, decide_eq_true_eq]
      rw [← h, h0]

/-- Three nodes, for buckets of two. -/
def three : List (List UInt8 × Nat) := [([1, 2, 3], 101), ([2, 2, 4], 102), ([1, 3, 5], 103)]

example : three.length = 2 + 1 ∧ (∀ c ∈ three, c.1.length = 3) ∧ (three.map (·.2)).Nodup ∧ ∃ c ∈ three, ∃ d ∈ three, c.1[1]? ≠ d.1[1]? := by decide +kernel

/-! ## Splits -/

/-- C43: a bucket can be split just if two of its contacts differ after the byte at its depth; else ids are read past their end. -/
theorem C43_split_iff (s : St) (p : Path) (hne : (s.bkt p).contacts ≠ []) (hids : ∀ c ∈ (s.bkt p).contacts, c.id.length = s.b) :
    splitBucket s p = .ub ↔ ∀ c ∈ (s.bkt p).contacts, ∀ d ∈ (s.bkt p).contacts, ∀ j, p.length < j → c.id[j]? = d.id[j]? :=
  split_ub _ rfl hne hids

/-- C43: a split loses no contact. -/
theorem C43_split_keeps (s s' : St) (p : Path) (hids : ∀ c ∈ (s.bkt p).contacts, c.id.length = s.b) (h : splitBucket s p = .ok s') (c : Contact) (hc : c ∈ (s.bkt p).contacts) : known s' c.id c.addr := by
  obtain ⟨q, h1, h2⟩ := split_keeps _ rfl hids h c hc
  exact ⟨q, h1, c, h2, rfl, rfl⟩

/-- C43 is violated: the first `k + 1` nodes, if their ids differ in no byte but the first (for instance `k + 1` addresses that all send the same id), make the node read past the end of the ids. -/
theorem C43_same_id_violated {b k : Nat} {me : List UInt8} {l : List (List UInt8 × Nat)} (hl : l.length = k + 1) (hb : ∀ c ∈ l, c.1.length = b) (hn : (l.map (·.2)).Nodup) (hs : ∀ c ∈ l, ∀ d ∈ l, ∀ j, 0 < j → c.1[j]? = d.1[j]?) :
    run (init b k me) (updates l) = .ub := by
  rw [run_first b k me l hl (fun c hc => (hb c hc).ge) hn]
  have hroot : ((rootOnly b k me (l.map (new b))).bkt []).contacts = l.map (new b) := by rw [rootOnly, setBkt_same]
  have hne : l ≠ [] := fun h => by rw [h] at hl; simp at hl
  have htake : ∀ c ∈ l, (new b c).id = c.1 := fun c hc => by rw [new, ← hb c hc]; exact List.take_length
  rw [C43_split_iff _ _ (by rw [hroot]; simpa using hne) (by
    rw [hroot]
    intro c hc
    obtain ⟨x, hx, rfl⟩ := List.mem_map.1 hc
    rw [htake x hx]; exact hb x hx)]
  rw [hroot]
  intro c hc d hd j hj
  obtain ⟨x, hx, rfl⟩ := List.mem_map.1 hc
  obtain ⟨y, hy, rfl⟩ := List.mem_map.1 hd
  rw [htake x hx, htake y hy]
  exact hs x hx y hy j hj

example : ∃ l : List (List UInt8 × Nat), l.length = 8 + 1 ∧ (∀ c ∈ l, c.1.length = 32) ∧ (l.map (·.2)).Nodup ∧ ∀ c ∈ l, ∀ d ∈ l, c.1 = d.1 :=
  ⟨(List.range 9).map (fun i => (List.replicate 32 7, i + 1)), by decide +kernel, by decide +kernel, by decide +kernel, by decide +kernel⟩

/-- C43: the same id is in a bucket twice if it comes from two addresses. -/
theorem C43_same_id (b k : Nat) (me id : List UInt8) (a a' : Nat) (hk : 2 ≤ k) (hid : id.length = b) (ha : a ≠ a') : ∃ s, run (init b k me) (updates [(id, a), (id, a')]) = .ok s ∧ ((s.bkt []).contacts.map (·.id)) = [id, id] := by
  have h0 : init b k me = rootOnly b k me (([] : List (List UInt8 × Nat)).map (new b)) := by
    unfold rootOnly setBkt init
    congr 1
    funext q
    by_cases hq : q = [] <;> simp [hq]
  refine ⟨rootOnly b k me ([(id, a), (id, a')].map (new b)), ?_, ?_⟩
  · show run (init b k me) [.update id a, .update id a'] = _
    have u1 := update_root b k me [] id a hid.ge (by simp)
    rw [if_neg (by simp; omega)] at u1
    have u2 := update_root b k me [(id, a)] id a' hid.ge (by simpa using ha.symm)
    rw [if_neg (by simp; omega)] at u2
    rw [h0]
    simp only [run, step]
    rw [u1]
    simp only
    rw [show [] ++ [(id, a)] = [(id, a)] from rfl, u2]
    rfl
  · rw [rootOnly, setBkt_same]
    simp only [List.map_cons, List.map_nil, new, ← hid, List.take_length]

/-! ## The contacts for a lookup -/

/-- C43: a lookup is given at most `k` contacts, all of them in the buckets. -/
theorem C43_contact_list (s : St) (key : List UInt8) (l : List Contact) (h : contactList s key = .ok l) : l.length ≤ s.k ∧ ∀ c ∈ l, ∃ p, c ∈ (s.bkt p).contacts := by
  unfold contactList at h
  split at h
  · cases h
  · next p hp =>
    split at h
    · injection h with h
      subst h
      exact ⟨by rw [List.length_take]; omega, fun c hc => ⟨p, List.mem_of_mem_take hc⟩⟩
    · injection h with h
      subst h
      refine ⟨by rw [List.length_take]; omega, fun c hc => ?_⟩
      obtain ⟨i, _, hi⟩ := List.mem_flatMap.1 (List.mem_of_mem_take hc)
      exact ⟨_, hi⟩

/-- C43 is violated: if the first `k + 1` nodes have the same second byte in their ids (and differ later), a lookup of a key that has another first byte is given no contact at all, although `k + 1` nodes are known: it
only looks in the bucket of the key and beside it, not below. -/
theorem C43_no_contacts_violated {b k : Nat} {me : List UInt8} {l : List (List UInt8 × Nat)} (hk : 0 < k) (hl : l.length = k + 1) (hb : ∀ c ∈ l, c.1.length = b) (hn : (l.map (·.2)).Nodup) (m : UInt8) (hm : ∀ c ∈ l, c.1[1]? = some m)
    (hd : ∃ c ∈ l, ∃ d ∈ l, ∃ j, 1 < j ∧ c.1[j]? ≠ d.1[j]?) :
    ∃ s, run (init b k me) (updates l) = .ok s ∧ (∀ c ∈ l, known s c.1 c.2) ∧ ∀ (x : UInt8) (key : List UInt8), x ≠ m → contactList s (x :: key) = .ok [] := by
  have hroot : ((rootOnly b k me (l.map (new b))).bkt []).contacts = l.map (new b) := by rw [rootOnly, setBkt_same]
  have hne : l ≠ [] := fun h => by rw [h] at hl; simp at hl
  have htake : ∀ c ∈ l, (new b c).id = c.1 := fun c hc => by rw [new, ← hb c hc]; exact List.take_length
  have hidsr : ∀ c ∈ ((rootOnly b k me (l.map (new b))).bkt []).contacts, c.id.length = (rootOnly b k me (l.map (new b))).b := by
    rw [hroot]
    intro c hc
    obtain ⟨y, hy, rfl⟩ := List.mem_map.1 hc
    rw [htake y hy]; exact hb y hy
  have hrun := run_first b k me l hl (fun c hc => (hb c hc).ge) hn
  obtain ⟨c0, hc0, d0, hd0, j, hj, hne0⟩ := hd
  have hb2 : 2 < b := by
    have h1 := hb c0 hc0
    have h2 := hb d0 hd0
    by_contra hlt
    exact hne0 (by rw [List.getElem?_eq_none (by omega), List.getElem?_eq_none (by omega)])
  cases hs : splitBucket (rootOnly b k me (l.map (new b))) [] with
  | ub =>
    exfalso
    rw [C43_split_iff _ _ (by rw [hroot]; simpa using hne) hidsr, hroot] at hs
    have := hs (new b c0) (List.mem_map.2 ⟨c0, hc0, rfl⟩) (new b d0) (List.mem_map.2 ⟨d0, hd0, rfl⟩) j (by simp; omega)
    rw [htake c0 hc0, htake d0 hd0] at this
    exact hne0 this
  | ok s =>
    refine ⟨s, by rw [hrun, hs], ?_, ?_⟩
    · intro c hc
      have := C43_split_keeps _ s [] hidsr hs (new b c) (by rw [hroot]; exact List.mem_map.2 ⟨c, hc, rfl⟩)
      rw [htake c hc] at this
      exact this
    · -- the root has one child with all of the contacts, and that has children
      have hinv := run_inv (updates l) (init_inv b k me hk) (s' := s) (by rw [hrun, hs])
      rw [splitBucket, if_pos (by show [].length + 1 < b; simp; omega), hroot] at hs
      obtain ⟨y, ys, rfl⟩ := List.exists_cons_of_ne_nil hne
      simp only [List.map_cons, List.length_nil, Nat.zero_add] at hs
      have hget : (new b y).id[1]? = some m := by rw [htake y List.mem_cons_self]; exact hm y List.mem_cons_self
      rw [hget] at hs
      simp only at hs
      rw [if_pos (by
        rw [List.all_eq_true]
        intro d hd
        obtain ⟨z, hz, rfl⟩ := List.mem_map.1 hd
        rw [htake z (List.mem_cons_of_mem _ hz)]
        simpa using hm z (List.mem_cons_of_mem _ hz))] at hs
      have hallm : ∀ m', m' ≠ m → ((spread (rootOnly b k me ((y :: ys).map (new b))) []).bkt [m']).contacts = [] := by
        intro m' hne'
        have := (spread_child (rootOnly b k me ((y :: ys).map (new b))) [] m').1
        rw [hroot] at this
        rw [show [m'] = [] ++ [m'] from rfl, this]
        simp only [List.reverse_eq_nil_iff, List.filter_eq_nil_iff]
        intro d hd
        obtain ⟨z, hz, rfl⟩ := List.mem_map.1 hd
        rw [htake z hz]
        simp only [List.length_nil, Nat.zero_add, hm z hz, Option.some.injEq, decide_eq_true_eq]
        exact fun hh => hne' hh.symm
      have hsp := split_good (b := b) (k := k) _ (s := spread (rootOnly b k me ((y :: ys).map (new b))) []) (s' := s) (p := [] ++ [m]) rfl rfl rfl ?_ ?_ ?_ ?_ hs
      · obtain ⟨_, hk', _, hgood, hsplit, hkeep⟩ := hsp
        have hc : ∀ m', (s.bkt [m']).contacts = [] := by
          intro m'
          by_cases hmm : m' = m
          · subst hmm; exact (hgood [m']).empty hsplit
          · rw [(hkeep [m'] (by simp) (by simpa using hmm)).2]; exact hallm m' hmm
        intro x key hx
        have hwalk : getBucket s (x :: key) = .ok [x] := by
          unfold getBucket
          rw [walk, (hkeep [] (by simp) (by simp)).1, (spread_self _ []).2]
          simp only [Bool.true_eq_false, if_false]
          rw [dif_pos (by simp)]
          rw [walk]
          have hx1 := (hkeep [x] (by simp) (by simpa using hx)).1
          have hx2 := (spread_child (rootOnly b k me ((y :: ys).map (new b))) [] x).2
          simp only [List.nil_append] at hx2
          simp only [List.nil_append, List.length_nil, List.getElem_cons_zero]
          rw [hx1, hx2, if_pos rfl]
        unfold contactList
        rw [hwalk]
        simp only
        rw [if_neg (by
          rw [hc x]
          rintro (h | h)
          · rw [hk'] at h; simp at h; omega
          · cases h)]
        have : ((List.range 256).flatMap (fun i => (s.bkt ([x].dropLast ++ [UInt8.ofNat i])).contacts)) = [] := by
          rw [List.flatMap_eq_nil_iff]
          intro i _
          exact hc _
        rw [this, List.take_nil]
      · intro q hq
        rcases spread_cases (rootOnly b k me ((y :: ys).map (new b))) [] q with rfl | ⟨m', rfl⟩ | ⟨h1, h2⟩
        · rw [(spread_self _ []).1]
          refine ⟨Nat.zero_le _, ?_, fun _ => rfl, fun c hc => ?_⟩
          · rw [rootOnly, setBkt_same]; exact Nat.zero_le _
          · rw [rootOnly, setBkt_same] at hc
            rcases hc with hc | hc <;> cases hc
        · have hne' : m' ≠ m := fun hh => hq (by rw [hh])
          have h1 := hallm m' hne'
          have h2 := (spread_child (rootOnly b k me ((y :: ys).map (new b))) [] m').1
          have h3 := (spread_child (rootOnly b k me ((y :: ys).map (new b))) [] m').2
          rw [show [] ++ [m'] = [m'] from rfl] at *
          refine ⟨by rw [h1]; exact Nat.zero_le _, by rw [h2]; exact Nat.zero_le _, fun _ => h1, fun c hc => ?_⟩
          rw [h1, h2] at hc
          rcases hc with hc | hc <;> cases hc
        · rw [h1, h2]
          by_cases hq0 : q = []
          · subst hq0
            have := (spread_self (rootOnly b k me ((y :: ys).map (new b))) []).2
            rw [h2] at this
            simp [rootOnly, setBkt, init] at this
          · rw [rootOnly, setBkt_ne _ _ _ _ hq0]
            exact ⟨Nat.zero_le _, Nat.zero_le _, fun _ => rfl, fun c hc => by rcases hc with hc | hc <;> cases hc⟩
      · rw [(spread_child _ [] m).1, hroot, List.length_reverse]
        refine (List.length_filter_le _ _).trans ?_
        rw [List.length_map]; omega
      · rw [(spread_child _ [] m).1]; exact Nat.zero_le _
      · intro c hc
        rw [(spread_child _ [] m).1, hroot] at hc
        rcases hc with hc | hc
        · obtain ⟨z, hz, rfl⟩ := List.mem_map.1 (List.mem_filter.1 (List.mem_reverse.1 hc)).1
          rw [htake z hz]; exact hb z hz
        · cases hc

example : ∃ l : List (List UInt8 × Nat), l.length = 2 + 1 ∧ (∀ c ∈ l, c.1.length = 3) ∧ (l.map (·.2)).Nodup ∧ (∀ c ∈ l, c.1[1]? = some 0) ∧ ∃ c ∈ l, ∃ d ∈ l, c.1[2]? ≠ d.1[2]? :=
  ⟨[([1, 0, 1], 101), ([2, 0, 2], 102), ([3, 0, 3], 103)], by decide +kernel, by decide +kernel, by decide +kernel, by decide +kernel, by decide +kernel⟩

/-! ## Nodes that do not respond -/

/-- C43: a node that does not respond is removed only if there are more than `k` contacts and alternatives; every other contact stays, and the bucket is filled up with alternatives. -/
theorem C43_dead (s s' : St) (key : List UInt8) (addr : Nat) (p : Path) (hp : getBucket s key = .ok p) (hck : (s.bkt p).contacts.length ≤ s.k) (h : deadPeer s (some key) addr = .ok s') :
    (∀ q, q ≠ p → s'.bkt q = s.bkt q) ∧
    ((s.bkt p).contacts.length + (s.bkt p).alts.length ≤ s.k → (s.bkt p).contacts ≠ [] → (s'.bkt p).alts = (s.bkt p).alts ∧ (s'.bkt p).contacts.map (·.addr) = (s.bkt p).contacts.map (·.addr)) ∧
    (s.k < (s.bkt p).contacts.length + (s.bkt p).alts.length → ∀ c, c ∈ (s'.bkt p).contacts ∨ c ∈ (s'.bkt p).alts ↔ c ∈ (s.bkt p).contacts.eraseP (fun d => d.addr = addr) ∨ c ∈ (s.bkt p).alts) := by
  unfold deadPeer at h
  simp only [hp] at h
  split at h
  · next hc =>
    injection h with h
    subst h
    refine ⟨fun q hq => setBkt_ne _ _ _ _ hq, fun _ hne => absurd hc hne, fun _ c => ?_⟩
    rw [setBkt_same, (promote_spec s.k [] (s.bkt p).alts (Nat.zero_le _)).2.2 c, hc]
    rfl
  · next c cs hc =>
    split at h
    · next hle =>
      injection h with h
      subst h
      refine ⟨fun q hq => setBkt_ne _ _ _ _ hq, fun _ _ => ?_, fun hlt => ?_⟩
      · rw [setBkt_same, hc]; exact ⟨rfl, rfl⟩
      · rw [hc] at hlt; omega
    · next hgt =>
      injection h with h
      subst h
      refine ⟨fun q hq => setBkt_ne _ _ _ _ hq, fun hle => ?_, fun _ d => ?_⟩
      · rw [hc] at hle; omega
      · rw [setBkt_same, (promote_spec s.k _ (s.bkt p).alts ?_).2.2 d, hc]
        have := (List.eraseP_sublist (p := fun d : Contact => decide (d.addr = addr)) (l := c :: cs)).length_le
        rw [hc] at hck
        omega

/-- C43 is violated: a request to join has no key; if it is not answered after the root was split, the node reads from a null pointer. -/
theorem C43_dead_violated (s : St) (addr : Nat) (h : s.split [] = true) : deadPeer s none addr = .ub := by
  simp [deadPeer, h]

/-- C43 is violated: it is counted against the first contact of the bucket of the key that a node did not respond, whoever that is. -/
theorem C43_dead_count_violated (s : St) (key : List UInt8) (addr : Nat) (p : Path) (c : Contact) (cs : List Contact) (hp : getBucket s key = .ok p) (hc : (s.bkt p).contacts = c :: cs) (hle : (c :: cs).length + (s.bkt p).alts.length ≤ s.k) :
    deadPeer s (some key) addr = .ok (setBkt s p ⟨{ c with fails := c.fails + 1 } :: cs, (s.bkt p).alts⟩) := by
  unfold deadPeer
  simp only [hp, hc]
  rw [if_pos hle]

end Ouro.DhtBuckets
