import Verif.Proof.BtreeSearch

/-!
# Properties of the B-tree

A tree is created by `btree_create(k)`; `Reach k root ops` says that the operations `ops` were carried out on it without undefined behaviour
and left it as `root`. The map it must implement is `after ops`.
-/

namespace Ouro.Btree

open Ouro Spec.FiniteMap Spec.KeyedStore

/-- Inserting, in any tree of order 4 or more, never runs out of bounds and has the right result. What is missing: the same for orders 1, 2
    and 3 (`C12_order_violated`). -/
theorem C12_insert_partial {k : Nat} (hk : 4 ≤ k) {root : Option Node} {ops : List Op} (h : Reach k root ops) (key val : Nat) :
    ∃ root', insert k root key val = .ok (root', result (after ops) (.insert key val)) := by
  by_cases hv : val = 0
  · refine ⟨root, ?_⟩
    unfold insert result
    dsimp only
    rw [if_pos hv, if_pos hv]
  · obtain ⟨root', e, _⟩ := insert_root hk hv (key := key) (inv_reach hk h)
    exact ⟨root', e⟩

/-- Removing, in any tree of order 4 or more, does not run out of bounds as long as no earlier remove was of a missing key; and whenever it
    returns it has the right result, unless the tree was empty. What is missing: removing again after removing a missing key
    (`C12_missing_violated`), removing from an empty tree (`C12_empty_violated`). -/
theorem C12_remove_partial {k : Nat} (hk : 4 ≤ k) {root : Option Node} {ops : List Op} (h : Reach k root ops) (key : Nat) :
    (AllHit ops → ∃ root' r, remove k root key = .ok (root', r)) ∧
    (∀ root' r, remove k root key = .ok (root', r) → (∃ key', after ops key' ≠ none) → r = result (after ops) (.remove key)) := by
  have hi := inv_reach hk h
  constructor
  · intro hall
    have hfull : ∀ n, root = some n → n.kvs ≠ [] := by
      clear hi
      induction h with
      | init => intro n hn; cases hn
      | @step root root' ops op r hr he ih =>
        have hall' : AllHit ops := by
          rintro pre key post rfl
          exact hall pre key (post ++ [op]) (by simp)
        have ih := ih hall'
        have hi := inv_reach hk hr
        cases op with
        | insert k' val =>
          have he : insert k root k' val = .ok (root', r) := he
          intro n hn
          by_cases hv : val = 0
          · unfold insert at he
            rw [if_pos hv] at he
            cases he
            exact ih n hn
          · unfold insert at he
            rw [if_neg hv] at he
            dsimp only at he
            obtain ⟨h, hs, hsort, hne⟩ : ∃ h, Sh (fun _ => True) k h 0 (root.getD (create k)) ∧ Sorted (toL h (root.getD (create k))) ∧
                ((root.getD (create k)).kvs = [] → h = 0) := by
              cases root with
              | none =>
                obtain ⟨h1, h2⟩ := create_inv hk []
                refine ⟨0, h1.mono (fun _ _ => trivial), ?_, fun _ => rfl⟩
                show Sorted (toL 0 (create k))
                rw [h2]; exact List.Pairwise.nil
              | some m =>
                obtain ⟨h, hn⟩ := hi
                exact ⟨h, hn.sh.mono (fun _ _ => trivial), hn.sorted, fun h0 => absurd h0 (ih m rfl)⟩
            obtain ⟨i1, i2⟩ := insert_spec (kv := ⟨k', val⟩) hk trivial trivial h 0 (root.getD (create k)) ((root.getD (create k)).depth + 1) hs hsort
              (by rw [hs.depth]; omega)
            by_cases hx : ∃ x ∈ toL h (root.getD (create k)), x.key = k'
            · rw [i1 hx] at he
              cases Outcome.ok.inj he
              cases root with
              | none =>
                exfalso
                obtain ⟨x, hx, _⟩ := hx
                have hh : h = 0 := hne rfl
                subst hh
                cases hx
              | some m => exact ih n hn
            · push Not at hx
              rcases i2 hx with ⟨n', e, s1, t1, d1⟩ | ⟨n', med, rr, e, s1, s2, pm, hne', t1⟩
              · rw [e] at he
                cases Outcome.ok.inj he
                cases hn
                intro h0
                obtain ⟨q1, q2, q3⟩ := d1 h0
                exact q3 (hne q1)
              · rw [e] at he
                cases Outcome.ok.inj he
                cases hn
                intro h0
                cases h0
        | remove k' =>
          have he : remove k root k' = .ok (root', r) := he
          cases root with
          | none => cases Outcome.ok.inj he; exact ih
          | some m =>
            obtain ⟨h, hn⟩ := hi
            rcases remove_root hk hn (key := k') with ⟨e, _⟩ | ⟨root'', e1, _, e2⟩
            · rw [e] at he; cases he
            · rw [e1] at he
              cases Outcome.ok.inj he
              exact e2 (ih m rfl) (hall ops k' [] rfl)
        | search k' =>
          have he : (do let v ← search root k'; (.ok (root, (v : Int)) : Outcome _)) = .ok (root', r) := he
          cases hs : search root k' with
          | ub => rw [hs] at he; cases he
          | ok v => rw [hs] at he; cases Outcome.ok.inj he; exact ih
    cases root with
    | none => exact ⟨none, 0, rfl⟩
    | some n =>
      obtain ⟨h, hn⟩ := hi
      rcases remove_root hk hn (key := key) with ⟨_, e⟩ | ⟨root', e, _⟩
      · exact absurd e (hfull n rfl)
      · exact ⟨root', _, e⟩
  · rintro root' r he ⟨key', hne⟩
    cases root with
    | none => exact absurd (hi key') hne
    | some n =>
      obtain ⟨h, hn⟩ := hi
      rcases remove_root hk hn (key := key) with ⟨e, _⟩ | ⟨root'', e, _⟩
      · rw [e] at he; cases he
      · rw [e] at he; cases he; rfl

/-- Searching, in any tree of order 4 or more, never runs out of bounds; a key that was never removed gives its value, or `NULL` if it was
    never inserted; a key in the map never gives `NULL`; and what is returned was once the value of the key. What is missing: the right
    value of a key that was removed before (`C12_stale_violated`, `C12_removed_violated`). -/
theorem C12_search_partial {k : Nat} (hk : 4 ≤ k) {root : Option Node} {ops : List Op} (h : Reach k root ops) (key : Nat) :
    ∃ v, search root key = .ok v ∧ (Op.remove key ∉ ops → (v : Int) = result (after ops) (.search key)) ∧ (after ops key ≠ none → v ≠ 0) ∧
      (v ≠ 0 → Held ops key v) := by
  have hi := inv_reach hk h
  cases root with
  | none =>
    refine ⟨0, rfl, ?_, ?_, fun h => absurd rfl h⟩
    · intro _
      unfold result
      dsimp only
      rw [show after ops key = none from hi key]
      rfl
    · intro h0
      exact absurd (hi key) h0
  | some n =>
    obtain ⟨h, hn⟩ := hi
    have hnz : ∀ v, Held ops key v → v ≠ 0 := by
      rintro v ⟨a, b, _, e⟩ rfl
      exact after_ne_zero a key e
    obtain ⟨v, e1, e2⟩ := search_spec (key := key) (Q := fun x => Held ops x.key x.val) (fun x hx => hx) hk h 0 n (n.depth + 1) hn.sh hn.sorted
      (by rw [hn.sh.depth]; omega) (fun h0 => (hn.deg h0).2)
    have hv : (Held ops key v) ∨ (v = 0 ∧ after ops key = none) := by
      rcases e2 with ⟨x, hx, rfl, rfl⟩ | ⟨y, hy, rfl, rfl⟩ | ⟨e, hx⟩
      · exact Or.inl (held_now ((hn.map x.key x.val).mpr hx))
      · exact Or.inl hy
      · exact Or.inr ⟨e, hn.none_iff.mpr hx⟩
    refine ⟨v, e1, ?_, ?_, ?_⟩
    · intro hr
      unfold result
      dsimp only
      rcases hv with ⟨a, b, rfl, e⟩ | ⟨e, e'⟩
      · rw [held_stays e (fun h => hr (List.mem_append_right _ h))]
        rfl
      · rw [e', e]; rfl
    · intro h0
      rcases hv with e | ⟨_, e⟩
      · exact hnz v e
      · exact absurd e h0
    · intro h0
      rcases hv with e | ⟨e, _⟩
      · exact e
      · exact absurd e h0

/-- With no removes a tree of order 4 or more is exactly a map: all results of a history of inserts and searches are those of the map. What
    is missing: histories with removes. -/
theorem C12_history_partial {k : Nat} (hk : 4 ≤ k) (ops : List Op) (hr : ∀ key, Op.remove key ∉ ops) :
    ∃ root, run k none ops = .ok (root, results empty ops) := by
  have gen : ∀ (ops done : List Op) (root : Option Node), Reach k root done → (∀ key, Op.remove key ∉ done ++ ops) →
      ∃ root', run k root ops = .ok (root', results (after done) ops) := by
    intro ops
    induction ops with
    | nil => intro done root _ _; exact ⟨root, rfl⟩
    | cons op ops ih =>
      intro done root hreach hr
      obtain ⟨root', e⟩ : ∃ root', step k root op = .ok (root', result (after done) op) := by
        cases op with
        | insert key val => exact C12_insert_partial hk hreach key val
        | remove key => exact absurd (by simp) (hr key)
        | search key =>
          obtain ⟨v, e1, e2, _⟩ := C12_search_partial hk hreach key
          refine ⟨root, ?_⟩
          show (do let v ← search root key; (.ok (root, (v : Int)) : Outcome _)) = _
          rw [e1, Outcome.bind_ok, e2 (fun h => hr key (List.mem_append_left _ h))]
      obtain ⟨root'', e'⟩ := ih (done ++ [op]) root' (.step hreach e) (by simpa using hr)
      refine ⟨root'', ?_⟩
      unfold run results
      rw [e]
      simp only [Outcome.bind_ok]
      rw [e', after_snoc]
      rfl
  exact gen ops [] none .init (by simpa using hr)

/-! ## Concrete histories -/

/-- The results of a history, `none` if it ran out of bounds. -/
def resultsOf (k : Nat) (ops : List Op) : Option (List Int) :=
  match run k none ops with
  | .ok (_, rs) => some rs
  | .ub => none

/-- A tree of order 4 with two levels. -/
def seven : List Op := [.insert 1 11, .insert 2 12, .insert 3 13, .insert 4 14, .insert 5 15, .insert 6 16, .insert 7 17]

theorem reach_run {k : Nat} {root root' : Option Node} {ops ops' : List Op} {rs : List Int} (h : Reach k root ops)
    (hr : run k root ops' = .ok (root', rs)) : Reach k root' (ops ++ ops') := by
  induction ops' generalizing root ops rs with
  | nil => cases Outcome.ok.inj hr; rw [List.append_nil]; exact h
  | cons op ops' ih =>
    unfold run at hr
    cases he : step k root op with
    | ub => rw [he] at hr; cases hr
    | ok p =>
      obtain ⟨r1, r⟩ := p
      rw [he] at hr
      simp only [Outcome.bind_ok] at hr
      cases he' : run k r1 ops' with
      | ub => rw [he'] at hr; cases hr
      | ok q =>
        rw [he'] at hr
        obtain ⟨r2, rs'⟩ := q
        cases Outcome.ok.inj hr
        have := ih (.step h he) he'
        simpa using this

/-- A history of inserts, failing and successful, with removes and searches, that is reached. -/
example : ∃ root, Reach 4 root (seven ++ [.remove 3, .insert 4 9, .search 4]) ∧ AllHit (seven ++ [.remove 3, .insert 4 9, .search 4]) ∧
    resultsOf 4 (seven ++ [.remove 3, .insert 4 9, .search 4]) = some [0, 0, 0, 0, 0, 0, 0, 0, -1, 14] := by
  have hc : resultsOf 4 (seven ++ [.remove 3, .insert 4 9, .search 4]) = some [0, 0, 0, 0, 0, 0, 0, 0, -1, 14] := by decide +kernel
  have hc' := hc
  unfold resultsOf at hc'
  cases hr : run 4 none (seven ++ [.remove 3, .insert 4 9, .search 4]) with
  | ub => rw [hr] at hc'; cases hc'
  | ok p =>
    refine ⟨p.1, ?_, ?_, hc⟩
    · have := reach_run (rs := p.2) Reach.init hr
      simpa using this
    · intro pre key post he
      have h1 : pre = seven ∧ key = 3 := by
        unfold seven at he ⊢
        match pre, he with
        | [], he => simp at he
        | [_], he => simp at he
        | [_, _], he => simp at he
        | [_, _, _], he => simp at he
        | [_, _, _, _], he => simp at he
        | [_, _, _, _, _], he => simp at he
        | [_, _, _, _, _, _], he => simp at he
        | [_, _, _, _, _, _, _], he => simp at he ⊢; tauto
        | [_, _, _, _, _, _, _, _], he => simp at he
        | [_, _, _, _, _, _, _, _, _], he => simp at he
        | _ :: _ :: _ :: _ :: _ :: _ :: _ :: _ :: _ :: _ :: _, he =>
          have := congrArg List.length he
          simp at this
      rw [h1.1, h1.2]
      decide +kernel

example : resultsOf 4 (seven ++ [.search 5, .search 8, .insert 8 0]) = some (results empty (seven ++ [.search 5, .search 8, .insert 8 0])) := by
  decide +kernel

/-- A removed key is still found: the cell after the last key of a node is compared as well. -/
theorem C12_removed_violated : ∃ ops, AllHit ops ∧ resultsOf 4 (ops ++ [.search 2]) = some [0, 0, 0, 6] ∧ result (after ops) (.search 2) = 0 := by
  refine ⟨[.insert 1 5, .insert 2 6, .remove 2], ?_, by decide +kernel, by decide +kernel⟩
  intro pre key post he
  match pre, he with
  | [], he => simp at he
  | [_], he => simp at he
  | [_, _], he =>
    simp at he
    rw [← he.1, ← he.2.1, ← he.2.2.1]
    decide +kernel
  | _ :: _ :: _ :: _, he =>
    have := congrArg List.length he
    simp at this

/-- A key in the map is found with the value it had before it was removed and inserted again. -/
theorem C12_stale_violated : resultsOf 4 (seven ++ [.remove 5, .remove 7, .remove 6, .insert 6 99, .search 6]) =
    some [0, 0, 0, 0, 0, 0, 0, 0, 0, 0, 0, 16] ∧ after (seven ++ [.remove 5, .remove 7, .remove 6, .insert 6 99]) 6 = some 99 := by
  decide +kernel

/-- Trees of order 1, 2 and 3 run out of bounds on inserts, and on removes of keys that are there. -/
theorem C12_order_violated : resultsOf 1 [.insert 1 1, .insert 2 1] = none ∧
    (resultsOf 2 ([1, 2, 3, 4, 5, 6].map (fun i => .insert i 1)) = some [0, 0, 0, 0, 0, 0] ∧
      resultsOf 2 ([1, 2, 3, 4, 5, 6].map (fun i => .insert i 1) ++ [1, 2, 3, 4, 5, 6].map .remove) = none) ∧
    (resultsOf 3 ([1, 2, 3, 4, 5, 6, 7].map (fun i => .insert i 1)) = some [0, 0, 0, 0, 0, 0, 0] ∧
      resultsOf 3 ([1, 2, 3, 4, 5, 6, 7].map (fun i => .insert i 1) ++ [1, 2, 3, 4, 5, 6, 7].map .remove) = none) := by
  decide +kernel

/-- Removing missing keys may leave a root without keys, and removing another one then runs out of bounds: the keys are even, the keys
    removed are odd. -/
theorem C12_missing_violated :
    resultsOf 4 ((List.range 22).map (fun i => .insert (44 - 2 * i) 1) ++ [41, 13, 31, 13, 45].map .remove) =
      some (List.replicate 22 0 ++ [-1, -1, -1, -1, -1]) ∧
    resultsOf 4 ((List.range 22).map (fun i => .insert (44 - 2 * i) 1) ++ [41, 13, 31, 13, 45, 19].map .remove) = none := by
  decide +kernel

/-- Removing from an empty tree succeeds. -/
theorem C12_empty_violated (k key : Nat) : resultsOf k [.remove key] = some [0] ∧ result (after []) (.remove key) = -1 := by
  constructor
  · rfl
  · rfl

end Ouro.Btree
