import Verif.Proof.DhtLookup

/-!
# C43: the contacts of a lookup in the directory
-/

namespace Ouro.DhtLookup

/-! ## Concrete lookups -/

/-- An id of eight bytes. -/
def idn (x : UInt8) : List UInt8 := [x, 0, 0, 0, 0, 0, 0, 0]

/-- The result of a history. -/
def outs (k : Nat) (found : List Contact) (ops : List Op) : Option Sys := match run 8 k (start k (idn 0) found) ops with
  | some (.ok s) => some s
  | _ => none

/-- Two contacts are known; both are asked; the responses bring three more, and one that is known. -/
def demo : List Op := [.ask [1, 2], .wait, .resp ⟨1, [], [(idn 9, 109), (idn 2, 102)]⟩, .ask [3], .resp ⟨2, [], [(idn 1, 101), (idn 5, 105)]⟩]

example : ((outs 3 [⟨idn 2, 102, false⟩, ⟨idn 4, 104, false⟩] demo).map (fun s => (s.lu.contacts.map (·.addr), s.asked.map (·.addr), s.lu.cookies, s.lu.state))) = some ([109, 105, 104], [104, 102, 109], [3], .update) := by decide +kernel

/-! ## Distance -/

/-- C43: the distance that is compared is the number of the first 64 bits of the bitwise difference of the ids; what is farther by it is farther by all of the id. -/
theorem C43_distance (x y key : List UInt8) (b : Nat) (hb : 8 ≤ b) (hx : x.length = b) (hy : y.length = b) (hk : key.length = b) :
    dist x key = distance64 x key ∧ (dist x key < dist y key → distance x key < distance y key) := by
  refine ⟨dist_eq x key, fun h => ?_⟩
  have split : ∀ z : List UInt8, z.length = b → ∃ r, distance z key = dist z key * 256 ^ (b - 8) + r ∧ r < 256 ^ (b - 8) := by
    intro z hz
    refine ⟨num (List.zipWith (· ^^^ ·) (z.drop 8) (key.drop 8)), ?_, ?_⟩
    · have h1 : List.zipWith (· ^^^ ·) z key = List.zipWith (· ^^^ ·) (z.take 8) (key.take 8) ++ List.zipWith (· ^^^ ·) (z.drop 8) (key.drop 8) := by
        conv_lhs => rw [← List.take_append_drop 8 z, ← List.take_append_drop 8 key]
        rw [List.zipWith_append (by simp [hz, hk])]
      rw [distance, h1, num_append, dist_eq, distance64, distance]
      congr 2
      simp [hz, hk]
    · have := num_lt (List.zipWith (· ^^^ ·) (z.drop 8) (key.drop 8))
      simpa [hz, hk] using this
  obtain ⟨r, h1, h2⟩ := split x hx
  obtain ⟨r', h1', h2'⟩ := split y hy
  rw [h1, h1']
  have : (dist x key + 1) * 256 ^ (b - 8) ≤ dist y key * 256 ^ (b - 8) := Nat.mul_le_mul_right _ h
  have e : (dist x key + 1) * 256 ^ (b - 8) = dist x key * 256 ^ (b - 8) + 256 ^ (b - 8) := by ring
  omega

example : distance64 (idn 3) (idn 1) = 2 * 256 ^ 7 := by decide +kernel

/-! ## The contacts of a lookup -/

/-- C43, partial (missing: that they are the closest, `C43_closest_violated`): for all histories of requests, responses and timeouts, a lookup has at most `k` contacts, with distinct ids, all of them seen in the
buckets or in a response; but they are the `k` *farthest* from the key of those that were seen. The ids that are taken from the buckets must be distinct. -/
theorem C43_contacts_partial {b k : Nat} {key : List UInt8} {found : List Contact} {ops : List Op} {s : Sys} (hf : ((found.take k).map (·.id)).Nodup) (h : run b k (start k key found) ops = some (.ok s)) :
    Best (farther key) k s.seen (s.lu.contacts.map (·.id)) ∧ s.lu.n = s.lu.contacts.length :=
  ⟨(run_inv ops (start_inv hf) h).best, (run_inv ops (start_inv hf) h).hn⟩

/-- C43: the contacts are in the order of their distance, the farthest first. -/
theorem C43_sorted {b k : Nat} {key : List UInt8} {found : List Contact} {ops : List Op} {s : Sys} (hf : ((found.take k).map (·.id)).Nodup) (h : run b k (start k key found) ops = some (.ok s)) :
    s.lu.contacts.Pairwise (fun c d => distance64 d.id key ≤ distance64 c.id key) := by
  have := (run_inv ops (start_inv hf) h).desc
  rw [Desc, List.pairwise_map] at this
  simpa only [dist_eq] using this

/-- C43 is violated: a lookup of two contacts drops the closest of three. -/
theorem C43_closest_violated : ∃ (found : List Contact) (ops : List Op) (s : Sys), ((found.take 2).map (·.id)).Nodup ∧ run 8 2 (start 2 (idn 0) found) ops = some (.ok s) ∧ ¬ Best (closer (idn 0)) 2 s.seen (s.lu.contacts.map (·.id)) := by
  refine ⟨[⟨idn 1, 101, false⟩, ⟨idn 4, 104, false⟩], [.ask [1, 2], .wait, .resp ⟨1, [], [(idn 9, 109)]⟩], _, by decide +kernel, rfl, ?_⟩
  rintro ⟨_, _, _, h⟩
  have := (h (idn 1) (by decide +kernel) (by decide +kernel)).2 (idn 9) (by decide +kernel)
  exact this (by decide +kernel)

/-- C43 is violated: an id is in a lookup twice if the buckets have it under two addresses (`C43_same_id` in `DhtBuckets`). -/
theorem C43_distinct_violated : ∃ found : List Contact, (found.map (·.addr)).Nodup ∧ ¬ ((lookupCreate 8 (idn 0) found).contacts.map (·.id)).Nodup :=
  ⟨[⟨idn 1, 101, false⟩, ⟨idn 1, 102, false⟩], by decide +kernel, by decide +kernel⟩

/-- C43: a lookup starts with the first `k` contacts it is given. -/
theorem C43_create (k : Nat) (key : List UInt8) (found : List Contact) : ((lookupCreate k key found).contacts.map (·.id)).Perm ((found.take k).map (·.id)) ∧ (lookupCreate k key found).n ≤ k := by
  obtain ⟨h1, h2⟩ := foldl_addSorted key (found.take k) [] (by simp [Desc])
  simp only [List.map_nil, List.append_nil] at h2
  refine ⟨h2, ?_⟩
  have hl := h2.length_eq
  rw [List.length_map, List.length_map, List.length_take] at hl
  show (List.foldl _ [] (List.take k found)).length ≤ k
  omega

/-! ## Which contacts are asked -/

/-- C43: in all histories no contact is asked twice, and only contacts that were seen are asked. -/
theorem C43_asked_once {b k : Nat} {key : List UInt8} {found : List Contact} {ops : List Op} {s : Sys} (hf : ((found.take k).map (·.id)).Nodup) (h : run b k (start k key found) ops = some (.ok s)) :
    (s.asked.map (·.id)).Nodup ∧ ∀ c ∈ s.asked, c.id ∈ s.seen :=
  ⟨(run_inv ops (start_inv hf) h).nodup, fun c hc => (run_inv ops (start_inv hf) h).known _ (List.mem_map.2 ⟨c, hc, rfl⟩)⟩

/-- C43: at most three contacts are asked at once; they are contacts of the lookup that were not asked; if there are fewer than three, there is none left; the contacts stay the same. -/
theorem C43_ask (lu : Lookup) : (newAddrs lu).1 = (taken alpha lu.contacts).map (·.addr) ∧ (newAddrs lu).1.length ≤ 3 ∧ (∀ c ∈ taken alpha lu.contacts, c ∈ lu.contacts ∧ c.asked = false) ∧
    ((newAddrs lu).1.length < 3 → ∀ c ∈ (newAddrs lu).2.contacts, c.asked = true) ∧ (newAddrs lu).2.contacts.map (·.id) = lu.contacts.map (·.id) := by
  refine ⟨takeNew_addrs _ _, ?_, fun c hc => ⟨(taken_sublist _ _).subset hc, taken_new _ _ c hc⟩, fun h => ?_, takeNew_ids _ _⟩
  · show (takeNew alpha lu.contacts).1.length ≤ 3
    rw [takeNew_addrs, List.length_map]
    exact taken_length _ _
  · have h' : (takeNew alpha lu.contacts).1.length < 3 := h
    rw [takeNew_addrs, List.length_map] at h'
    exact taken_lt alpha _ h'

/-- C43: if no contact has the address 0, all the contacts that are taken are sent a message, but for the node itself. -/
theorem C43_find (self : Nat) (lu : Lookup) (h : ∀ c ∈ lu.contacts, c.addr ≠ 0) : kadFind self (newAddrs lu).1 = ((taken alpha lu.contacts).map (·.addr)).filter (· ≠ self) := by
  have h1 : (newAddrs lu).1 = (taken alpha lu.contacts).map (·.addr) := takeNew_addrs _ _
  rw [h1, kadFind]
  congr 1
  have hall : ∀ x ∈ (taken alpha lu.contacts).map (·.addr), x ≠ 0 := by
    intro x hx
    obtain ⟨c, hc, rfl⟩ := List.mem_map.1 hx
    exact h c ((taken_sublist _ _).subset hc)
  generalize (taken alpha lu.contacts).map (·.addr) = l at hall
  induction l with
  | nil => rfl
  | cons x xs ih => rw [List.takeWhile_cons, if_pos (by simpa using hall x List.mem_cons_self), ih (fun y hy => hall y (List.mem_cons_of_mem _ hy))]

/-- C43 is violated: a contact with the address 0 (as any response may bring) keeps those behind it from being asked, and they count as asked. -/
theorem C43_zero_violated : ∃ lu : Lookup, kadFind 1 (newAddrs lu).1 = [] ∧ (∃ c ∈ lu.contacts, c.addr = 102 ∧ c.asked = false) ∧ ∃ c ∈ (newAddrs lu).2.contacts, c.addr = 102 ∧ c.asked = true :=
  ⟨⟨idn 0, [⟨idn 9, 0, false⟩, ⟨idn 2, 102, false⟩], 2, [], none, .update⟩, by decide +kernel, ⟨⟨idn 2, 102, false⟩, by decide +kernel, rfl, rfl⟩, ⟨⟨idn 2, 102, true⟩, by decide +kernel, rfl, rfl⟩⟩

/-- C43 is violated: when the responses come in before the lookup is woken, the last one that brings nothing new completes it, although an earlier one brought a contact that was not asked. -/
theorem C43_unasked_violated : ∃ (found : List Contact) (ops : List Op) (s : Sys), run 8 8 (start 8 (idn 0) found) ops = some (.ok s) ∧ s.lu.state = .complete ∧ Op.timeout ∉ ops ∧ s.lu.addrs = none ∧ ∃ c ∈ s.lu.contacts, c.asked = false :=
  ⟨[⟨idn 1, 101, false⟩, ⟨idn 4, 104, false⟩], [.ask [1, 2], .wait, .resp ⟨1, [], [(idn 9, 109)]⟩, .resp ⟨2, [], []⟩], _, rfl, by decide +kernel, by decide, by decide +kernel, ⟨⟨idn 9, 109, false⟩, by decide +kernel, rfl⟩⟩

/-- C43: responses with ids of full length are merged; a response only waits while no request was sent, and is ignored when the lookup is complete. -/
theorem C43_response (b k : Nat) (lu : Lookup) (m : Msg) (h : ∀ c ∈ m.contacts, b ≤ c.1.length) :
    (lookupUpdate b k lu m = none ↔ lu.state = .init ∧ m.addrs = []) ∧ lookupUpdate b k lu m ≠ some .ub ∧ (lu.state = .complete → lookupUpdate b k lu m = some (.ok { lu with cookies := lu.cookies.erase m.cookie })) := by
  have hm : ∀ (cs : List (List UInt8 × Nat)) (lu : Lookup), (∀ c ∈ cs, b ≤ c.1.length) → ∃ r, merge b k lu cs = .ok r := by
    intro cs
    induction cs with
    | nil => intro lu _; exact ⟨_, rfl⟩
    | cons c cs ih =>
      intro lu hc
      obtain ⟨id, addr⟩ := c
      unfold merge
      have := hc (id, addr) List.mem_cons_self
      rw [if_neg (by simp only at this; omega)]
      obtain ⟨r, hr⟩ := ih (mergeOne k lu ⟨id.take b, addr, false⟩).1 (fun c h => hc c (List.mem_cons_of_mem _ h))
      simp only [hr]
      exact ⟨_, rfl⟩
  obtain ⟨r, hr⟩ := hm m.contacts { lu with cookies := lu.cookies.erase m.cookie } h
  unfold lookupUpdate
  simp only [hr]
  cases hs : lu.state <;> by_cases ha : m.addrs = [] <;> simp [ha]

/-- C43 is violated: an id in a response that is shorter than the ids of the directory is read past its end. -/
theorem C43_short_id_violated (b k : Nat) (lu : Lookup) (cookie addr : Nat) (id : List UInt8) (h : id.length < b) (hs : lu.state = .pending) : lookupUpdate b k lu ⟨cookie, [], [(id, addr)]⟩ = some .ub := by
  simp [lookupUpdate, hs, merge, h]

/-! ## The answer -/

/-- C43: the first response with addresses settles the lookup. -/
theorem C43_value (b k : Nat) (lu : Lookup) (m : Msg) (hs : lu.state ≠ .complete) (hn : lu.addrs = none) (ha : m.addrs ≠ []) :
    ∃ lu', lookupUpdate b k lu m = some (.ok lu') ∧ lu'.addrs = some m.addrs ∧ lu'.state = .complete ∧ ∀ m' , ∃ lu'', lookupUpdate b k lu' m' = some (.ok lu'') ∧ lu''.addrs = some m.addrs := by
  refine ⟨{ lu with cookies := lu.cookies.erase m.cookie, addrs := some m.addrs, state := .complete }, by simp only [lookupUpdate, hs, if_false, ha, hn, ne_eq, not_false_eq_true, if_true], rfl, rfl, fun m' => ?_⟩
  exact ⟨{ lu with cookies := (lu.cookies.erase m.cookie).erase m'.cookie, addrs := some m.addrs, state := .complete }, by simp only [lookupUpdate, if_true], rfl⟩

/-- C43: a query for a value that a node answers with one address, as nodes do, gives that address, or none if it is the own. -/
theorem C43_query (self a : Nat) (lu : Lookup) (h : lu.addrs = some [a]) : queryEnd self lu = .ok (if a = self then 0 else a) := by
  simp only [queryEnd, getAddrs, h, Option.getD_some, List.length_cons, List.length_nil, kadK]
  by_cases ha : a = self <;> simp [ha]

/-- C43: a lookup that did not get an address gives none. -/
theorem C43_query_none (self : Nat) (lu : Lookup) (h : lu.addrs = none) : queryEnd self lu = .ok 0 := by
  simp [queryEnd, getAddrs, h]

/-- C43 is violated: an answer of more than eight addresses is written past the end of the array of the query, whatever they are. -/
theorem C43_overflow_violated (self b k : Nat) (lu : Lookup) (m : Msg) (hs : lu.state ≠ .complete) (hn : lu.addrs = none) (ha : 8 < m.addrs.length) :
    ∃ lu', lookupUpdate b k lu m = some (.ok lu') ∧ queryEnd self lu' = .ub := by
  have hne : m.addrs ≠ [] := fun h => by rw [h] at ha; simp at ha
  obtain ⟨lu', h1, h2, _, _⟩ := C43_value b k lu m hs hn hne
  refine ⟨lu', h1, ?_⟩
  simp only [queryEnd, getAddrs, h2, Option.getD_some, kadK]
  rw [if_neg (by omega)]

example : (⟨1, [1, 2, 3, 4, 5, 6, 7, 8, 9], []⟩ : Msg).addrs.length = 9 := rfl

end Ouro.DhtLookup
