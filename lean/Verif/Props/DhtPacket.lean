import Verif.Proof.DhtPacket
import Verif.Props.DhtStore

/-!
# C67: what members of a directory answer, and that registered names are found
-/

namespace Ouro.DhtPacket

/-- **C67, what is ignored.** Questions to a member that is not running, and messages with a key or id of the wrong length, change nothing and get no response. -/
theorem C67_ignored (now : Int) (n : Node) (m : Msg)
    (h : (m.code ≠ RESPONSE ∧ n.running = false) ∨ (∃ k, m.key = some k ∧ k.length ≠ n.b) ∨ (∃ id, m.sId = some id ∧ m.b = none ∧ id.length ≠ n.b)) :
    handle now n m = .ok (n, none) := by
  unfold handle
  split
  · rfl
  · rename_i h0
    split
    · rfl
    · rename_i h1
      split
      · rfl
      · rename_i h2
        rcases h with h | ⟨k, h, h'⟩ | ⟨id, h, h', h''⟩
        · exact absurd h h0
        · exact absurd (by simp [badKey, h, h']) h1
        · exact absurd (by simp [badId, h, h', h'']) h2

/-- **C67, responses.** Only questions get a response; it carries the cookie of the question and the address of the member. -/
theorem C67_response {now : Int} {n n' : Node} {m r : Msg} (h : handle now n m = .ok (n', some r)) :
    (m.code = JOIN ∨ m.code = FIND_NODE ∨ m.code = FIND_VALUE) ∧ r.code = RESPONSE ∧ r.cookie = m.cookie ∧ r.sAddr = n.addr ∧ r.sId = n.bkts.map (·.id) := by
  unfold handle at h
  split at h
  · cases h
  split at h
  · cases h
  split at h
  · cases h
  split at h
  · cases h
  rename_i n1 r1 h1
  split at h
  · cases h
  simp only [Outcome.ok.injEq, Prod.mk.injEq] at h
  obtain ⟨-, h⟩ := h
  split at h
  · rename_i hg
    cases h
    have hc : m.code < 3 := hg.2
    refine ⟨by unfold JOIN FIND_NODE FIND_VALUE; omega, ?_⟩
    have find : ∀ {x : Node} {y : Msg} {r0 : Msg}, (match n.bkts with
        | some s => match getContacts s m.key with
          | .ok l => Outcome.ok (n, { r0 with contacts := l })
          | .ub => .ub
        | none => .ub) = .ok (x, y) → y.code = r0.code ∧ y.cookie = r0.cookie ∧ y.sAddr = r0.sAddr ∧ y.sId = r0.sId := by
      intro x y r0 hh
      split at hh
      · split at hh
        · simp only [Outcome.ok.injEq, Prod.mk.injEq] at hh; obtain ⟨-, rfl⟩ := hh; exact ⟨rfl, rfl, rfl, rfl⟩
        · cases hh
      · cases hh
    unfold switch at h1
    dsimp only at h1
    split at h1
    · simp only [Outcome.ok.injEq, Prod.mk.injEq] at h1
      obtain ⟨-, rfl⟩ := h1
      unfold joinResp
      split
      · exact ⟨rfl, rfl, rfl, rfl⟩
      · split
        · exact ⟨rfl, rfl, rfl, rfl⟩
        · split <;> exact ⟨rfl, rfl, rfl, rfl⟩
    · split at h1
      · split at h1
        · exact find (r0 := { code := RESPONSE, cookie := m.cookie, sAddr := n.addr, sId := n.bkts.map (·.id) }) h1
        · simp only [Outcome.ok.injEq, Prod.mk.injEq] at h1; obtain ⟨-, rfl⟩ := h1; exact ⟨rfl, rfl, rfl, rfl⟩
        · cases h1
      · split at h1
        · exact find (r0 := { code := RESPONSE, cookie := m.cookie, sAddr := n.addr, sId := n.bkts.map (·.id) }) h1
        · split at h1
          · split at h1
            · simp only [Outcome.ok.injEq, Prod.mk.injEq] at h1; obtain ⟨-, rfl⟩ := h1; exact ⟨rfl, rfl, rfl, rfl⟩
            · cases h1
          · simp only [Outcome.ok.injEq, Prod.mk.injEq] at h1; obtain ⟨-, rfl⟩ := h1; exact ⟨rfl, rfl, rfl, rfl⟩
  · cases h

/-- **C67, joining.** A running member answers a member that joins; it accepts, with the parameters of the directory, exactly if the other uses the same
constants. Nothing is stored or learnt. -/
theorem C67_join (now : Int) (n : Node) (m : Msg) (hr : n.running = true) (hj : m.code = JOIN) (hk : ∀ k, m.key = some k → k.length = n.b) (hi : ∀ id, m.sId = some id → m.b = none → id.length = n.b) :
    ∃ r, handle now n m = .ok (n, some r) ∧ r.addrs = [] ∧ r.contacts = [] ∧
      ((m.alpha = some 3 ∧ m.k = some 8 ∧ m.tReplicate = some 900 ∧ m.tRefresh = some 900) →
        r.alpha = some 3 ∧ r.b = some n.b ∧ r.k = some 8 ∧ r.tExpire = some n.tExpire ∧ r.tRefresh = some 900 ∧ r.tReplicate = some 900) ∧
      (¬ (m.alpha = some 3 ∧ m.k = some 8 ∧ m.tReplicate = some 900 ∧ m.tRefresh = some 900) → r.alpha = none ∧ r.b = none ∧ r.k = none ∧ r.tExpire = none ∧ r.tRefresh = none ∧ r.tReplicate = none) := by
  have hbk : badKey n m = false := by
    unfold badKey; split
    · rename_i k h; simp [hk k h]
    · rfl
  have hbi : badId n m = false := by
    unfold badId; split
    · rename_i id h; simp only [decide_eq_false_iff_not, not_and, not_not]; exact hi id h
    · rfl
  refine ⟨joinResp n m { code := RESPONSE, cookie := m.cookie, sAddr := n.addr, sId := n.bkts.map (·.id) }, ?_, ?_⟩
  · unfold handle
    rw [if_neg (by simp [hr]), hbk, hbi]
    simp [switch, hj, learn, JOIN, STORE]
  · have g : ∀ (o : Option Nat) (v : Nat), v ≠ 0 → (o.getD 0 = v ↔ o = some v) := by
      intro o v hv; cases o with
      | none => simp [Ne.symm hv]
      | some x => simp
    have g1 := g m.alpha 3 (by decide)
    have g2 := g m.k 8 (by decide)
    have g3 := g m.tReplicate 900 (by decide)
    have g4 := g m.tRefresh 900 (by decide)
    unfold joinResp
    simp only [DhtLookup.alpha, DhtLookup.kadK, tRepl, tRefr, ne_eq, g1, g2, g3, g4]
    split
    · exact ⟨rfl, rfl, fun h => absurd h (by tauto), fun _ => ⟨rfl, rfl, rfl, rfl, rfl, rfl⟩⟩
    · split
      · exact ⟨rfl, rfl, fun h => absurd h (by tauto), fun _ => ⟨rfl, rfl, rfl, rfl, rfl, rfl⟩⟩
      · split
        · exact ⟨rfl, rfl, fun h => absurd h (by tauto), fun _ => ⟨rfl, rfl, rfl, rfl, rfl, rfl⟩⟩
        · exact ⟨rfl, rfl, fun _ => ⟨rfl, rfl, rfl, rfl, rfl, rfl⟩, fun h => absurd (by tauto) h⟩

/-- **C67, histories.** In a directory of at most eight members, all of which send complete messages: whatever messages a member gets, it handles them; it stores exactly what the messages said, and knows
exactly the members it heard of, by the id they used last. -/
theorem C67_history_partial {b addr : Nat} {me : List UInt8} {A : List Nat} (hme : me.length = b) {ms : List (Int × Msg)} (h : Small b addr A ms) :
    ∃ n0 n, boot b addr me = .ok n0 ∧ run n0 ms = .ok n ∧ (∀ k a t, DhtStore.holds n.store k a t ↔ Stored b addr ms k a t) ∧
      ∃ s, n.bkts = some s ∧ ∀ i a, DhtBuckets.found s i a ↔ lastId addr me ms a = some i := by
  obtain ⟨n0, n, s, h1, h2, H⟩ := hist_run hme ms h
  refine ⟨n0, n, h1, h2, fun k a t => DhtStore.C42_refines H.st k a t, s, H.ok.bk, fun i a => ?_⟩
  rw [← H.known]
  unfold DhtBuckets.found
  rw [root_of H.ok.flat.root]
  simp

/-- **C67, values.** Asked for a value, such a member answers with one address that was stored for the key if there is one, and else with the members it knows. -/
theorem C67_value_partial {b addr : Nat} {me : List UInt8} {A : List Nat} (hme : me.length = b) {ms : List (Int × Msg)} (h : Small b addr A ms) {n0 n : Node} (h0 : boot b addr me = .ok n0)
    (hn : run n0 ms = .ok n) (now : Int) {m : Msg} (hm : Complete b m) (hs : m.sAddr ∈ A) (hc : m.code = FIND_VALUE) {k : List UInt8} (hk : m.key = some k) :
    ∃ n' r, handle now n m = .ok (n', some r) ∧
      ((∃ a t, Stored b addr ms k a t) → r.contacts = [] ∧ ∃ a t, r.addrs = [a] ∧ Stored b addr ms k a t) ∧
      ((∀ a t, ¬ Stored b addr ms k a t) → r.addrs = [] ∧ ∀ i a, (i, a) ∈ r.contacts ↔ lastId addr me ms a = some i) := by
  obtain ⟨n0', n', s, h1, h2, H⟩ := hist_run hme ms h
  rw [h0] at h1; cases h1
  rw [hn] at h2; cases h2
  obtain ⟨n', s', r, g1, ⟨n1, g2⟩, -⟩ := hist_step H h.few (now := now) hm hs
  rw [if_pos (by rw [hc]; decide)] at g1
  refine ⟨n', r, g1, ?_⟩
  obtain ⟨r1, r2, r3⟩ := DhtStore.C42_retrieve_partial H.st k
  unfold switch at g2
  dsimp only at g2
  rw [if_neg (by simp [hc, FIND_VALUE, JOIN]), if_pos hc, hk, retrieve] at g2
  constructor
  · intro hst
    obtain ⟨a, ha⟩ := r3 hst
    rw [ha] at g2
    simp only [Outcome.ok.injEq, Prod.mk.injEq] at g2
    obtain ⟨-, rfl⟩ := g2
    obtain ⟨t, ht⟩ := r1 _ ha a (by simp)
    exact ⟨rfl, a, t, rfl, ht⟩
  · intro hst
    obtain ⟨l, hl⟩ := retrieve_total H.ok.vals k
    have : l = [] := by
      cases l with
      | nil => rfl
      | cons a l => obtain ⟨t, ht⟩ := r1 _ hl a (by simp); exact absurd ht (hst a t)
    subst this
    obtain ⟨l, h4, h5⟩ := flat_get H.ok.flat h.few k
    rw [hl, H.ok.bk] at g2
    simp only [h4, Outcome.ok.injEq, Prod.mk.injEq] at g2
    obtain ⟨-, rfl⟩ := g2
    refine ⟨rfl, fun i a => ?_⟩
    rw [← H.known, h5.mem_iff, List.mem_map]
    simp

/-- **C67, members.** Asked for members, it answers with those it knows. -/
theorem C67_node_partial {b addr : Nat} {me : List UInt8} {A : List Nat} (hme : me.length = b) {ms : List (Int × Msg)} (h : Small b addr A ms) {n0 n : Node} (h0 : boot b addr me = .ok n0)
    (hn : run n0 ms = .ok n) (now : Int) {m : Msg} (hm : Complete b m) (hs : m.sAddr ∈ A) (hc : m.code = FIND_NODE) :
    ∃ n' r, handle now n m = .ok (n', some r) ∧ r.addrs = [] ∧ ∀ i a, (i, a) ∈ r.contacts ↔ lastId addr me ms a = some i := by
  obtain ⟨n0', n', s, h1, h2, H⟩ := hist_run hme ms h
  rw [h0] at h1; cases h1
  rw [hn] at h2; cases h2
  obtain ⟨n', s', r, g1, ⟨n1, g2⟩, -⟩ := hist_step H h.few (now := now) hm hs
  rw [if_pos (by rw [hc]; decide)] at g1
  refine ⟨n', r, g1, ?_⟩
  obtain ⟨k, hk⟩ := Option.ne_none_iff_exists'.1 (hm.find (.inl hc))
  obtain ⟨l, h4, h5⟩ := flat_get H.ok.flat h.few k
  unfold switch at g2
  dsimp only at g2
  rw [if_neg (by simp [hc, FIND_NODE, JOIN]), if_neg (by simp [hc, FIND_NODE, FIND_VALUE]), if_pos hc, H.ok.bk, hk] at g2
  simp only [h4, Outcome.ok.injEq, Prod.mk.injEq] at g2
  obtain ⟨-, rfl⟩ := g2
  refine ⟨rfl, fun i a => ?_⟩
  rw [← H.known, h5.mem_iff, List.mem_map]
  simp

/-- **C67, end to end.** In a directory of at most eight members that know each other, a member registers a name that nobody else has registered: whatever the order of responses and time-outs in its lookup,
the registration stores its address at every member, for at least the time of the directory, and every other member that queries the name gets it. -/
theorem C67_registered_partial {b : Nat} {M : List (List UInt8 × Nat)} {net : Net} (h : Meshed b M net) {me : List UInt8 × Nat} (hme : me ∈ M) {key : List UInt8} (hk : key.length = b)
    (free : ∀ c ∈ M, ∀ x t, x ≠ me.2 → ¬ DhtStore.holds (net c.2).store key x t) (now : Int) {ops : List DhtLookup.Op} (ho : FromMembers M ops) {o : Outcome Net}
    (hr : register now me.2 key net ops = some o) :
    ∃ net', o = .ok net' ∧ (∀ c ∈ M, ∃ t, now + (net me.2).tExpire ≤ t ∧ DhtStore.holds (net' c.2).store key me.2 t) ∧
      (∀ c ∈ M, c ≠ me → DhtStore.getAddr (net' c.2).store key = me.2) ∧
      ∀ c ∈ M, ∀ k x t, ¬ (k = key ∧ x = me.2) → (DhtStore.holds (net' c.2).store k x t ↔ DhtStore.holds (net c.2).store k x t) := by
  obtain ⟨-, s, hbk, F, hp⟩ := meshed_mem h hme
  have hA : (M.map (·.2)).length ≤ 8 := by rw [List.length_map]; exact h.few
  unfold register at hr
  rw [hbk] at hr
  simp only [flat_list F hA key, F.hb, F.hk] at hr
  have hf : ((((s.bkt []).contacts.map fun c => (⟨c.id, c.addr, false⟩ : DhtLookup.Contact))).map fun c => (c.id, c.addr)).Perm M := by
    rw [List.map_map]; exact hp
  split at hr
  · cases hr
  · rename_i hu
    exact absurd hu (lookup_total fun m hm c hc => (h.len c ((ho m hm).2 c hc)).ge)
  · rename_i l hl
    have all := lookup_all h.few h.ids h.len hf ho hl
    obtain ⟨net', p1, p2, p3, -, p5, -⟩ := publish_ok h.few h.addrs h.len hme now hk (DhtLookup.contactAddrs l.lu).reverse net
      (fun x hx => (all x).1 (List.mem_reverse.1 hx)) (fun c hc => (meshed_mem h hc).1)
    rw [p1] at hr
    cases hr
    have got : ∀ c ∈ M, ∃ t, now + (net me.2).tExpire ≤ t ∧ DhtStore.absOf (net' c.2).store key me.2 = some t := fun c hc =>
      p3 c hc (List.mem_reverse.2 ((all c.2).2 (List.mem_map.2 ⟨c, hc, rfl⟩)))
    refine ⟨net', rfl, fun c hc => ?_, fun c hc hne => ?_, fun c hc k x t hx => ?_⟩
    · obtain ⟨t, h1, h2⟩ := got c hc
      exact ⟨t, h1, (DhtStore.holds_iff (p2 c hc).st _ _ _).2 h2⟩
    · obtain ⟨t, -, h2⟩ := got c hc
      refine getAddr_only (p2 c hc).st h2 ?_ ?_
      · intro e
        apply hne
        have inj : ∀ (l : List (List UInt8 × Nat)), (l.map (·.2)).Nodup → ∀ x ∈ l, ∀ y ∈ l, x.2 = y.2 → x = y := by
          intro l
          induction l with
          | nil => intro _ x hx; cases hx
          | cons z l ih =>
            intro hn x hx y hy hxy
            rw [List.map_cons, List.nodup_cons] at hn
            rcases List.mem_cons.1 hx with h1 | h1 <;> rcases List.mem_cons.1 hy with h2 | h2
            · rw [h1, h2]
            · rw [← h1] at hn; exact (hn.1 (List.mem_map.2 ⟨y, h2, hxy.symm⟩)).elim
            · rw [← h2] at hn; exact (hn.1 (List.mem_map.2 ⟨x, h1, hxy⟩)).elim
            · exact ih hn.2 x h1 y h2 hxy
        exact inj M h.addrs c hc me hme e.symm
      · intro x hx
        rw [p5 c hc key x (fun hh => hx hh.2)]
        cases ha : DhtStore.absOf (net c.2).store key x with
        | none => rfl
        | some t => exact absurd ((DhtStore.holds_iff (meshed_mem h hc).1.st _ _ _).2 ha) (free c hc x t hx)
    · rw [DhtStore.holds_iff (p2 c hc).st, DhtStore.holds_iff (meshed_mem h hc).1.st, p5 c hc k x hx]

/-! ## Cases -/

/-- Two members with ids of one byte. -/
def two : List (List UInt8 × Nat) := [([1], 11), ([2], 12)]

/-- A question of the other member. -/
def hello (c : List UInt8 × Nat) : Msg := { code := FIND_NODE, cookie := 1, sAddr := c.2, sId := some c.1, key := some [5] }

theorem hello_complete (c : List UInt8 × Nat) (h : c.1.length = 1) : Complete 1 (hello c) :=
  ⟨⟨c.1, rfl, h⟩, fun k hk => by simp only [hello, Option.some.injEq] at hk; subst hk; rfl, fun _ => by simp [hello], fun h => by simp [hello, FIND_NODE, STORE] at h⟩

theorem small_hello (c d : List UInt8 × Nat) (h : c ∈ two) (h' : d ∈ two) : Small 1 c.2 (two.map (·.2)) [(0, hello d)] := by
  have : d.1.length = 1 := by simp only [two, List.mem_cons, List.not_mem_nil, or_false] at h'; rcases h' with rfl | rfl <;> rfl
  exact ⟨by decide, by decide, List.mem_map.2 ⟨c, h, rfl⟩, fun x hx => by rw [List.mem_singleton] at hx; subst hx; exact List.mem_map.2 ⟨d, h', rfl⟩,
    fun x hx => by rw [List.mem_singleton] at hx; subst hx; exact hello_complete d this⟩

/-- There is such a directory: two members, each of which got a question of the other. -/
theorem meshed_two : ∃ net, Meshed 1 two net := by
  obtain ⟨a0, a, h1, h2, -⟩ := C67_history_partial (me := [1]) rfl (small_hello ([1], 11) ([2], 12) (by decide) (by decide))
  obtain ⟨b0, b, g1, g2, -⟩ := C67_history_partial (me := [2]) rfl (small_hello ([2], 12) ([1], 11) (by decide) (by decide))
  refine ⟨fun x => if x = 11 then a else b, by decide, by decide, by decide, by decide, by decide, fun c hc => ?_⟩
  simp only [two, List.mem_cons, List.not_mem_nil, or_false] at hc
  rcases hc with rfl | rfl
  · exact ⟨a0, _, h1, small_hello ([1], 11) ([2], 12) (by decide) (by decide), by simpa using h2, by decide⟩
  · exact ⟨b0, _, g1, small_hello ([2], 12) ([1], 11) (by decide) (by decide), by simpa using g2, by decide⟩

/-- A lookup there: ask, get the members from the other one, or wait too long. -/
example : FromMembers two [.ask [1], .wait, .resp ⟨1, [], two⟩] := by
  intro m hm
  simp only [List.mem_cons, List.not_mem_nil, or_false, reduceCtorEq, false_or, DhtLookup.Op.resp.injEq] at hm
  subst hm; exact ⟨rfl, fun c hc => hc⟩

example : ∃ s, DhtLookup.run 1 8 (DhtLookup.start 8 [5] (two.map fun c => ⟨c.1, c.2, false⟩)) [.ask [1], .wait, .resp ⟨1, [], two⟩] = some (.ok s) ∧ s.lu.state = .complete :=
  ⟨_, rfl, by decide +kernel⟩

/-- In that directory the registration is possible. -/
example : ∃ net o, Meshed 1 two net ∧ register 0 11 [5] net [.ask [1], .wait, .resp ⟨1, [], two⟩] = some o := by
  obtain ⟨net, h⟩ := meshed_two
  obtain ⟨-, s, hbk, F, hp⟩ := meshed_mem h (c := ([1], 11)) (by decide)
  have key : ∀ l : List DhtLookup.Contact, (l.map fun c => (c.id, c.addr)).Perm two → (∀ c ∈ l, c.asked = false) →
      ∃ s, DhtLookup.run 1 8 (DhtLookup.start 8 [5] l) [.ask [1], .wait, .resp ⟨1, [], two⟩] = some (.ok s) := by
    intro l hl hd
    have h2 : l.length = 2 := by rw [← List.length_map (fun c : DhtLookup.Contact => (c.id, c.addr)), hl.length_eq]; rfl
    match l, h2 with
    | [x, y], _ =>
      have hx := hd x (by simp)
      have hy := hd y (by simp)
      obtain ⟨xi, xa, xd⟩ := x
      obtain ⟨yi, ya, yd⟩ := y
      dsimp only at hx hy
      subst hx hy
      have h3 := hl.mem_iff (a := (xi, xa))
      have h4 := hl.mem_iff (a := (yi, ya))
      have h5 := hl.nodup_iff.2 (by decide)
      simp only [two, List.map_cons, List.map_nil, List.mem_cons, List.not_mem_nil, or_false, true_or, or_true, true_iff, Prod.mk.injEq] at h3 h4
      simp only [List.map_cons, List.map_nil, List.nodup_cons, List.mem_singleton, List.not_mem_nil, not_false_eq_true, List.nodup_nil, and_true, Prod.mk.injEq] at h5
      rcases h3 with ⟨rfl, rfl⟩ | ⟨rfl, rfl⟩ <;> rcases h4 with ⟨rfl, rfl⟩ | ⟨rfl, rfl⟩
      · exact absurd ⟨rfl, rfl⟩ h5
      · exact ⟨_, rfl⟩
      · exact ⟨_, rfl⟩
      · exact absurd ⟨rfl, rfl⟩ h5
  obtain ⟨l, hl⟩ := key ((s.bkt []).contacts.map fun c => ⟨c.id, c.addr, false⟩) (by rw [List.map_map]; exact hp) (by simp)
  refine ⟨net, publish 0 11 [5] net (DhtLookup.contactAddrs l.lu).reverse, h, ?_⟩
  unfold register
  rw [show (net 11).bkts = some s from hbk]
  simp only [flat_list F (by decide) [5], F.hb, F.hk, hl]

/-! ## What goes wrong -/

/-- **C67 fails for messages without an id.** Every response, and every message of an unknown kind, that has no id of the sender makes a running member read from address 0. -/
theorem C67_no_id_violated (now : Int) (n : Node) (s : DhtBuckets.St) (hs : n.bkts = some s) (hr : n.running = true) (m : Msg) (hc : m.code = RESPONSE ∨ 4 < m.code) (hi : m.sId = none) (hk : m.key = none) :
    handle now n m = .ub := by
  have h1 : m.code ≠ JOIN ∧ m.code ≠ FIND_VALUE ∧ m.code ≠ FIND_NODE ∧ m.code ≠ STORE := by
    unfold RESPONSE at hc; unfold JOIN FIND_VALUE FIND_NODE STORE; omega
  unfold handle
  rw [if_neg (by simp [hr])]
  simp [badKey, badId, hi, hk, switch, h1, learn, hs]

/-- **C67 fails for questions without a key.** They make a member that knows another one read from address 0. -/
theorem C67_no_key_violated (now : Int) (n : Node) (s : DhtBuckets.St) (hs : n.bkts = some s) (hr : n.running = true) (hk8 : s.k = 8) (h2 : 2 ≤ (s.bkt []).contacts.length)
    (m : Msg) (hc : m.code = FIND_NODE) (hk : m.key = none) (hi : badId n m = false) : handle now n m = .ub := by
  unfold handle
  rw [if_neg (by simp [hr]), hi]
  have : 2 ≤ ((s.bkt []).contacts.take s.k).length := by rw [List.length_take, hk8]; omega
  simp only [badKey, hk, Bool.false_eq_true, if_false]
  simp only [switch, hc, FIND_NODE, JOIN, FIND_VALUE, hs, getContacts, hk]
  simp only [Nat.one_ne_zero, if_false, show (1 : Nat) ≠ 2 by decide, if_true]
  rw [if_pos (.inr this)]

/-- **C67 fails for ids that are too short.** A message with the field `b` may have an id of any length, which is read past its end. -/
theorem C67_short_id_violated (now : Int) (n : Node) (s : DhtBuckets.St) (hs : n.bkts = some s) (hb : s.b = n.b) (m : Msg) (hc : m.code = RESPONSE) (hmb : m.b ≠ none) (id : List UInt8) (hi : m.sId = some id)
    (hl : id.length < n.b) (hk : m.key = none) : handle now n m = .ub := by
  have hbi : badId n m = false := by simp [badId, hi, hmb]
  unfold handle
  rw [if_neg (by simp [hc]), hbi]
  simp only [badKey, hk, Bool.false_eq_true, if_false]
  have : DhtBuckets.updateBucket s id m.sAddr = .ub := by
    unfold DhtBuckets.updateBucket
    split
    · rfl
    · rw [if_pos (by omega)]
  simp [switch, learn, hc, RESPONSE, JOIN, FIND_VALUE, FIND_NODE, STORE, hs, hi, this]

/-- **C67 fails for members that store more than one contact.** -/
theorem C67_contacts_violated (now : Int) (n : Node) (hr : n.running = true) (m : Msg) (hc : m.code = STORE) (hk : m.key = none) (hi : badId n m = false) (t : Nat) (ht : m.tExpire = some t)
    (c d : List UInt8 × Nat) (cs : List (List UInt8 × Nat)) (hcs : m.contacts = c :: d :: cs) : handle now n m = .ub := by
  unfold handle
  rw [if_neg (by simp [hr]), hi]
  simp [badKey, hk, switch, hc, JOIN, FIND_VALUE, FIND_NODE, STORE, hcs, ht, DhtStore.storeMsg]

end Ouro.DhtPacket
