import Verif.Proof.LsdbConverge
import Verif.Proof.LsdbPff
import Verif.Proof.LsdbPffMulti
import Verif.Proof.FaMsg

/-!
# C31, C32, C53, C54: the link-state database, flooding, convergence and the forwarding table

`run (init self) os = .ok ls` gives the state after any history `os` of received announcements, data transfer and management flows
coming and going, and rounds of the update thread. `Op.ok` asks that announcements are not for a link of a node to itself.
-/

namespace Ouro.Lsdb

open Ouro.Graph (bind_ok')
open Spec.Routing (Walk Dist)
open Spec.Lsdb

/-! ### C31 -/

/-- C31: after any history the graph has an edge exactly for the links announced by at least one end, and counts two announcements
exactly for those announced by both ends. -/
theorem C31_mirror (self : Nat) (os : List Op) (h : ∀ o ∈ os, o.ok self) :
    ∃ ls, run (init self) os = .ok ls ∧
      Mirrors (fun a b => ∃ x ∈ ls.db, x.src = a ∧ x.dst = b) (fun a b k => ∃ v ∈ ls.graph.verts, v.addr = a ∧ ⟨b, k⟩ ∈ v.edges) := by
  obtain ⟨ls, e, I, _⟩ := run_spec os (init self) (inv_init self) h
  exact ⟨ls, e, inv_mirrors I⟩

/-- A history at node 1: a link to 2 announced by both ends, a link 2-3 announced by 3 only, a time-out. -/
def demo : List Op :=
  [.mgmtAdd 2 64, .dtAdd 2 65 0, .recv 64 ⟨1, 2, 0⟩ 1, .recv 64 ⟨2, 3, 7⟩ 1, .recv 64 ⟨4, 3, 1⟩ 2, .tick 30, .recv 64 ⟨1, 2, 1⟩ 40,
   .recv 64 ⟨2, 3, 6⟩ 41, .tick 62, .recv 64 ⟨3, 4, 5⟩ 63]

example : (∀ o ∈ demo, o.ok 1) ∧ run (init 1) demo = .ok
    { self := 1, nbs := [⟨2, 64, true⟩, ⟨2, 65, false⟩], nbsLen := 2,
      db := [⟨1, 2, 1, 40⟩, ⟨2, 1, 2, 62⟩, ⟨3, 4, 5, 63⟩, ⟨4, 3, 1, 2⟩], dbLen := 5,
      graph := { nr := 4, verts := [⟨1, 0, [⟨2, 2⟩]⟩, ⟨2, 1, [⟨1, 2⟩]⟩, ⟨3, 2, [⟨4, 2⟩]⟩, ⟨4, 3, [⟨3, 2⟩]⟩] },
      sent := [(64, ⟨2, 1, 0⟩), (64, ⟨2, 1, 1⟩), (64, ⟨2, 1, 2⟩)], dirty := 5 } := by
  refine ⟨by decide, by decide +kernel⟩

/-- C31: each link is stored once. -/
theorem C31_once (self : Nat) (os : List Op) (h : ∀ o ∈ os, o.ok self) :
    ∃ ls, run (init self) os = .ok ls ∧ (ls.db.map (fun x => (x.src, x.dst))).Nodup ∧ (readdirNames ls).1 ≤ (readdirNames ls).2 := by
  obtain ⟨ls, e, I, _⟩ := run_spec os (init self) (inv_init self) h
  refine ⟨ls, e, ?_, ?_⟩
  · rw [List.nodup_iff_pairwise_ne, List.pairwise_map]
    refine I.sorted.imp ?_
    intro a b hab heq
    unfold lt at hab
    simp only [Prod.mk.injEq] at heq
    omega
  · unfold readdirNames
    have h1 := I.dbLen
    have h2 := I.nbsLen
    dsimp only
    omega

/-- C31 needs the hypothesis: an announcement of a link from a node to itself is accepted from any neighbour, and its time-out is
undefined behaviour. -/
theorem C31_self_link_violated : run (init 1) [.recv 64 ⟨3, 3, 0⟩ 0, .tick 61] = .ub := by decide +kernel

/-- C31 does not extend to the forwarding tables: an announcement that times out does not mark them for recalculation. -/
theorem C31_timeout_unnoticed_violated : ∃ ls ls', run (init 1) [.dtAdd 2 65 0, .recv 64 ⟨1, 2, 0⟩ 0, .tick 50] = .ok ls ∧ tick ls 61 = .ok ls' ∧
    ls.db = [⟨1, 2, 0, 0⟩, ⟨2, 1, 1, 50⟩] ∧ ls'.db = [⟨2, 1, 2, 61⟩] ∧ ls.dirty = ls'.dirty := by
  refine ⟨_, _, rfl, rfl, ?_⟩
  decide +kernel

/-! ### C32 -/

/-- C32: the stored sequence number of a link of another node is the largest received since the entry appeared: the history splits
where the entry was absent for the last time. -/
theorem C32_newest (self : Nat) (os : List Op) (h : ∀ o ∈ os, o.ok self) :
    ∃ ls, run (init self) os = .ok ls ∧ ∀ a ∈ ls.db, a.src ≠ self →
      ∃ pre mid ls0, os = pre ++ mid ∧ run (init self) pre = .ok ls0 ∧ (∀ b ∈ ls0.db, ¬ (b.src = a.src ∧ b.dst = a.dst)) ∧
        (∀ k ls1, 0 < k → k ≤ mid.length → run (init self) (pre ++ mid.take k) = .ok ls1 → ∃ b ∈ ls1.db, b.src = a.src ∧ b.dst = a.dst) ∧
        Newest a.seqno (mid.filterMap (Op.heard a.src a.dst)) := by
  obtain ⟨ls, e, I, hself⟩ := run_spec os (init self) (inv_init self) h
  refine ⟨ls, e, ?_⟩
  induction os using List.reverseRecOn generalizing ls with
  | nil =>
    have e := Outcome.ok.inj e
    subst e
    intro a ha
    cases ha
  | append_singleton os o ih =>
    intro a ha hs
    obtain ⟨ls0, e0, I0, s0⟩ := run_spec os (init self) (inv_init self) (fun o' ho => h o' (List.mem_append_left _ ho))
    have ih := ih (fun o' ho => h o' (List.mem_append_left _ ho)) ls0 e0 I0 s0
    have e1 := e
    rw [run_append, e0, bind_ok'] at e
    have estep : step ls0 o = .ok ls := by
      unfold run at e
      cases hst : step ls0 o with
      | ub => rw [hst] at e; cases e
      | ok x => rw [hst, bind_ok'] at e; unfold run at e; rw [Outcome.ok.inj e]
    have s0' : ls0.self = self := s0
    rcases step_entry I0 (by rw [s0']; exact h o (by simp)) estep ha (by rw [s0']; exact hs) with ⟨b, hb, b1, b2, b3⟩ | ⟨hno, hh⟩
    · obtain ⟨pre, mid, lsp, h1, h2, h3, h4, h5⟩ := ih b hb (by rw [b1]; exact hs)
      refine ⟨pre, mid ++ [o], lsp, by rw [h1, List.append_assoc], h2, by rw [b1, b2] at h3; exact h3, ?_, ?_⟩
      · intro k ls1 hk hkl hrun
        rcases Nat.lt_or_ge k (mid.length + 1) with hlt | hge
        · rw [List.take_append_of_le_length (by omega)] at hrun
          have := h4 k ls1 hk (by omega) hrun
          rw [b1, b2] at this; exact this
        · rw [List.take_of_length_le (by simpa using hge), ← List.append_assoc, ← h1, e1] at hrun
          have := Outcome.ok.inj hrun
          subst this
          exact ⟨a, ha, rfl, rfl⟩
      · rw [b1, b2] at h5
        rw [List.filterMap_append]
        cases ho : o.heard a.src a.dst with
        | none =>
          rw [ho] at b3
          dsimp only at b3
          simp only [List.filterMap_cons, List.filterMap_nil, ho, List.append_nil]
          rw [b3]; exact h5
        | some n =>
          rw [ho] at b3
          dsimp only at b3
          simp only [List.filterMap_cons, List.filterMap_nil, ho]
          constructor
          · rw [b3, List.mem_append]
            rcases Nat.le_total n b.seqno with hc | hc
            · left; rw [Nat.max_eq_left hc]; exact h5.1
            · right; rw [Nat.max_eq_right hc]; simp
          · intro m hm
            rcases List.mem_append.1 hm with hm | hm
            · rw [b3]; exact Nat.le_trans (h5.2 m hm) (Nat.le_max_left ..)
            · rw [b3, List.mem_singleton.1 hm]; exact Nat.le_max_right ..
    · refine ⟨os, [o], ls0, rfl, e0, hno, ?_, ?_⟩
      · intro k ls1 hk hkl hrun
        have : k = 1 := by simp at hkl; omega
        subst this
        rw [List.take_of_length_le (by simp), e1] at hrun
        have := Outcome.ok.inj hrun
        subst this
        exact ⟨a, ha, rfl, rfl⟩
      · simp only [List.filterMap_cons, List.filterMap_nil, hh]
        exact ⟨by simp, by simp⟩

/-- An announcement changes the database of this node or is forwarded only if it is newer than what is stored. -/
theorem C32_forwards (self : Nat) (os : List Op) (h : ∀ o ∈ os, o.ok self) (fd : Int) (m : Lsa) (now : Int) (hm : m.src ≠ m.dst) :
    ∃ ls ls', run (init self) os = .ok ls ∧ step ls (.recv fd m now) = .ok ls' ∧
      ((∃ a ∈ ls.db, a.src = m.src ∧ a.dst = m.dst ∧ m.seqno ≤ a.seqno) → ls' = ls) ∧
      ((∀ a ∈ ls.db, a.src = m.src → a.dst = m.dst → a.seqno < m.seqno) →
        ls'.sent = ls.sent ++ (ls.nbs.filter (fun nb => nb.mgmt ∧ nb.fd ≠ fd)).map (fun nb => (nb.fd, m)) ∧
        ∃ a ∈ ls'.db, a.src = m.src ∧ a.dst = m.dst ∧ a.seqno = m.seqno ∧ a.stamp = now) := by
  obtain ⟨ls, e, I, _⟩ := run_spec os (init self) (inv_init self) h
  obtain ⟨hI, hdb, hnb, hself, hsent⟩ := recv_spec I fd m now hm
  have hL := (addLink_spec I m.seqno now hm).1
  refine ⟨ls, _, e, rfl, ?_, ?_⟩
  · intro hk
    have hr : (addLink ls m.src m.dst m.seqno now).2 ≠ 0 := fun h0 => (link_ret I hL).1 h0 hk
    unfold recv
    dsimp only
    rw [if_pos hr]
    generalize addLink ls m.src m.dst m.seqno now = r at hL hr
    cases hL with
    | newer pre a post e h1 h2 h3 => exact absurd rfl hr
    | older a ha h1 h2 h3 => rfl
    | fresh pre post e h => exact absurd rfl hr
  · intro hnk
    have hr : (addLink ls m.src m.dst m.seqno now).2 = 0 := (link_ret I hL).2 (fun ⟨a, ha, k1, k2, k3⟩ => by
      have := hnk a ha k1 k2
      dsimp only at k3
      omega)
    rw [if_pos hr] at hsent
    refine ⟨hsent, ?_⟩
    rw [hdb]
    generalize addLink ls m.src m.dst m.seqno now = r at hL hr
    cases hL with
    | newer pre a post e h1 h2 h3 => exact ⟨_, mem_mid.2 (Or.inl rfl), rfl, rfl, rfl, rfl⟩
    | older a ha h1 h2 h3 => cases hr
    | fresh pre post e h => exact ⟨_, mem_mid.2 (Or.inl rfl), rfl, rfl, rfl, rfl⟩

/-- C32: while the entry stays stored, an announcement that was received before is not forwarded again, and changes nothing. -/
theorem C32_once (self : Nat) (pre mid : List Op) (fd fd' : Int) (m : Lsa) (t t' : Int) (hm : m.src ≠ self)
    (h : ∀ o ∈ pre ++ [.recv fd m t] ++ mid ++ [.recv fd' m t'], o.ok self) :
    ∃ ls ls', run (init self) (pre ++ [.recv fd m t] ++ mid) = .ok ls ∧
      run (init self) (pre ++ [.recv fd m t] ++ mid ++ [.recv fd' m t']) = .ok ls' ∧
      ((∀ k ≤ mid.length, ∀ ls1, run (init self) (pre ++ [.recv fd m t] ++ mid.take k) = .ok ls1 → ∃ a ∈ ls1.db, a.src = m.src ∧ a.dst = m.dst) →
        ls' = ls) := by
  have hmm : m.src ≠ m.dst := h (.recv fd m t) (by simp)
  obtain ⟨ls0, e0, I0, s0⟩ := run_spec (pre ++ [.recv fd m t]) (init self) (inv_init self) (fun o ho => h o (by simp at ho ⊢; tauto))
  have hmid : ∀ o ∈ mid, o.ok ls0.self := fun o ho => by rw [s0]; exact h o (by simp [ho])
  obtain ⟨ls1, e1, I1, s1⟩ := run_spec mid ls0 I0 hmid
  have er : run (init self) (pre ++ [.recv fd m t] ++ mid) = .ok ls1 := by rw [run_append, e0, bind_ok', e1]
  obtain ⟨_, ls2, e2, e3, h1, _⟩ := C32_forwards self (pre ++ [.recv fd m t] ++ mid) (fun o ho => h o (List.mem_append_left _ ho)) fd' m t' hmm
  rw [er] at e2
  have e2 := Outcome.ok.inj e2
  subst e2
  refine ⟨ls1, ls2, er, by rw [run_append, er, bind_ok', run, e3, bind_ok']; rfl, ?_⟩
  intro hst
  apply h1
  refine run_knows mid ls0 ls1 I0 hmid e1 m (by rw [s0]; exact hm) ?_ ?_
  · obtain ⟨lsp, ep, Ip, sp⟩ := run_spec pre (init self) (inv_init self) (fun o ho => h o (by simp [ho]))
    have e0' := e0
    rw [run_append, ep, bind_ok', run] at e0'
    have e0' := Outcome.ok.inj e0'
    rw [← e0']
    exact (knows_congr (recv_spec Ip fd m t hmm).2.1).2 (link_knows (addLink_spec Ip m.seqno t hmm).1)
  · intro k hk lsk ek
    exact hst k hk lsk (by rw [run_append, e0, bind_ok', ek])

example : ∀ o ∈ [Op.mgmtAdd 2 64, .mgmtAdd 3 66] ++ [.recv 64 ⟨2, 3, 5⟩ 0] ++ [.recv 66 ⟨2, 3, 4⟩ 1, .tick 2] ++ [.recv 66 ⟨2, 3, 5⟩ 3], o.ok 1 := by
  decide

/-- C32: a round of the update thread removes exactly the entries more than 60 seconds old, and renews each remaining link of this node
with the next sequence number, which every management neighbour is told. -/
theorem C32_refresh (self : Nat) (os : List Op) (h : ∀ o ∈ os, o.ok self) (now : Int) :
    ∃ ls ls', run (init self) os = .ok ls ∧ step ls (.tick now) = .ok ls' ∧
      (∀ s d, (∃ a ∈ ls'.db, a.src = s ∧ a.dst = d) ↔ ∃ a ∈ ls.db, a.src = s ∧ a.dst = d ∧ now - a.stamp ≤ 60) ∧
      (∀ a ∈ ls.db, a.src = self → now - a.stamp ≤ 60 → a.seqno + 1 < 2 ^ 64 →
        (⟨a.dst, self, a.seqno + 1, now⟩ ∈ ls'.db ∧ ∀ nb ∈ ls.nbs, nb.mgmt = true → (nb.fd, ⟨a.dst, self, a.seqno + 1⟩) ∈ ls'.sent.drop ls.sent.length)) := by
  obtain ⟨ls, e, I, s⟩ := run_spec os (init self) (inv_init self) h
  obtain ⟨ls', e', hI, h1, h2, h3, h4⟩ := tick_spec I now
  have s' : ls.self = self := s
  rw [s'] at h1 h4
  refine ⟨ls, ls', e, e', ?_, ?_⟩
  · intro s d
    rw [h1]
    constructor
    · rintro ⟨b, hb, rfl, rfl⟩
      obtain ⟨a, ha, hab⟩ := List.mem_filterMap.1 hb
      have hs := aged_same hab
      refine ⟨a, ha, hs.2, hs.1, ?_⟩
      unfold aged at hab
      split at hab
      · cases hab
      · rename_i hn; unfold timeo at hn; omega
    · rintro ⟨a, ha, rfl, rfl, hn⟩
      have : ∃ b, aged self now a = some b := by
        unfold aged
        rw [if_neg (by unfold timeo; omega)]
        split <;> exact ⟨_, rfl⟩
      obtain ⟨b, hb⟩ := this
      have hs := aged_same hb
      exact ⟨b, List.mem_filterMap.2 ⟨a, ha, hb⟩, hs.2.symm, hs.1.symm⟩
  · intro a ha has hn hq
    constructor
    · rw [h1]
      refine List.mem_filterMap.2 ⟨a, ha, ?_⟩
      unfold aged
      rw [if_neg (by unfold timeo; omega), if_pos has, Nat.mod_eq_of_lt hq, ← has]
    · intro nb hnb hmg
      rw [h4, List.drop_left]
      refine List.mem_flatMap.2 ⟨a, ha, ?_⟩
      unfold refreshed
      rw [if_neg (by unfold timeo; omega), if_pos has, Nat.mod_eq_of_lt hq, ← has]
      unfold sendLsm
      exact List.mem_map.2 ⟨nb, List.mem_filter.2 ⟨hnb, hmg⟩, rfl⟩

/-- The sequence number counts for nothing once the entry is gone: after a restart a node begins at 0 again, and its announcements are
ignored until the old entry has timed out. -/
theorem C32_restart_violated : ∃ ls ls', run (init 1) [.recv 64 ⟨2, 3, 100⟩ 0] = .ok ls ∧ run ls [.recv 64 ⟨2, 3, 0⟩ 30, .tick 61] = .ok ls' ∧
    ls'.db = [] := ⟨_, _, rfl, rfl, rfl⟩

/-- C32: flooding stops over any topology. From any reachable states of `N` nodes with at most `D` neighbours each and any announcements
on the wire, at most `|wire| + D * N * |wire|` announcements are delivered. -/
theorem C32_flooding_stops (N D : Nat) (peer : Nat → Int → Nat × Int) (hp : ∀ u f, (peer u f).1 < N) (n n' : Net) (k : Nat)
    (hreach : ∀ u, ∃ self os, (∀ o ∈ os, Op.ok self o) ∧ run (init self) os = .ok (n.node u))
    (hdeg : ∀ u, (n.node u).nbs.length ≤ D) (hto : ∀ x ∈ n.wire, x.1 < N ∧ x.2.2.src ≠ x.2.2.dst) (h : Deliveries peer k n n') :
    k + n'.wire.length ≤ n.wire.length + D * (N * n.wire.length) := by
  have F : Flood N D (n.wire.map (fun x => x.2.2)) n := by
    refine ⟨?_, hdeg, fun x hx => ⟨(hto x hx).1, List.mem_map.2 ⟨x, hx, rfl⟩⟩, ?_⟩
    · intro u
      obtain ⟨self, os, h1, h2⟩ := hreach u
      obtain ⟨ls, e, I, _⟩ := run_spec os (init self) (inv_init self) h1
      rw [h2] at e
      rw [Outcome.ok.inj e]; exact I
    · intro m hm
      obtain ⟨x, hx, rfl⟩ := List.mem_map.1 hm
      exact (hto x hx).2
  have h1 := deliveries_bound hp h F
  have h2 := unknown_le N (n.wire.map (fun x => x.2.2)) n.node
  rw [List.length_map] at h2
  have h3 := Nat.mul_le_mul_left D h2
  omega

/-- A triangle of nodes 0, 1, 2 with addresses 10, 11, 12: node `u` has flow 0 to the next and flow 1 to the previous node. -/
def ring (u : Nat) (f : Int) : Nat × Int :=
  if f = 0 then ((u + 1) % 3, 1) else ((u + 2) % 3, 0)

/-- The triangle before anything is announced. -/
def ringNode (u : Nat) : Ls := { init (10 + u) with nbs := [⟨12 + u, 1, true⟩, ⟨11 + u, 0, true⟩], nbsLen := 2 }

example : ∀ u f, (ring u f).1 < 3 := by intro u f; unfold ring; split <;> exact Nat.mod_lt _ (by decide)

example (u : Nat) : run (init (10 + u)) [.mgmtAdd (12 + u) 1, .mgmtAdd (11 + u) 0] = .ok (ringNode u) := by
  simp [run, step, mgmtAdd, addNb, addNbLoop, init, replicate, ringNode]

example : ∃ n', Deliveries ring 1 ⟨ringNode, [(0, 1, ⟨5, 6, 7⟩)]⟩ n' ∧ n'.wire = [(1, 1, ⟨5, 6, 7⟩)] :=
  ⟨_, .more (.mk _ [] [] 0 1 ⟨5, 6, 7⟩ 0 rfl) (.none _), by decide +kernel⟩

/-- Announcements on the wire are read back as they were written; packets of another length are ignored. -/
theorem C32_wire (m : Lsa) (h1 : m.dst < 2 ^ 64) (h2 : m.src < 2 ^ 64) (h3 : m.seqno < 2 ^ 64) :
    decode (encode m) = some m ∧ ∀ ls fd now b, b.length ≠ 24 → recvPkt ls fd b now = ls := by
  constructor
  · have hl : ∀ v, (FaMsg.beBytes 8 v).length = 8 := fun v => FaMsg.length_beBytes 8 v
    unfold decode encode
    rw [if_neg (by simp [hl])]
    have e1 : (FaMsg.beBytes 8 m.dst ++ FaMsg.beBytes 8 m.src ++ FaMsg.beBytes 8 m.seqno).take 8 = FaMsg.beBytes 8 m.dst := by
      rw [List.append_assoc, List.take_append_of_le_length (by rw [hl]), List.take_of_length_le (by rw [hl])]
    have e2 : ((FaMsg.beBytes 8 m.dst ++ FaMsg.beBytes 8 m.src ++ FaMsg.beBytes 8 m.seqno).drop 8).take 8 = FaMsg.beBytes 8 m.src := by
      rw [List.append_assoc, List.drop_append_of_le_length (by rw [hl]), List.drop_of_length_le (by rw [hl]), List.nil_append,
        List.take_append_of_le_length (by rw [hl]), List.take_of_length_le (by rw [hl])]
    have e3 : (FaMsg.beBytes 8 m.dst ++ FaMsg.beBytes 8 m.src ++ FaMsg.beBytes 8 m.seqno).drop 16 = FaMsg.beBytes 8 m.seqno := by
      rw [List.drop_append_of_le_length (by simp [hl]), List.drop_of_length_le (by simp [hl]), List.nil_append]
    rw [e1, e2, e3, FaMsg.beVal_beBytes (by simpa using h1), FaMsg.beVal_beBytes (by simpa using h2), FaMsg.beVal_beBytes (by simpa using h3)]
  · intro ls fd now b hb
    unfold recvPkt decode
    rw [if_pos hb]

example : decode (encode ⟨258, 3, 18446744073709551615⟩) = some ⟨258, 3, 18446744073709551615⟩ := by decide +kernel

/-! ### C53 -/

/-- C53: in a network whose nodes begin empty and exchange announcements over management flows which lose nothing (`peer` says where a
flow ends), whatever links and flows are added, in any order of events and deliveries, with refreshes but without time-outs: when
nothing is on its way, nodes joined by a chain of management flows hold the same announcements with the same sequence numbers. -/
theorem C53_converges (peer : Nat → Int → Nat × Int) (hp : ∀ u f, peer (peer u f).1 (peer u f).2 = (u, f)) (addr : Nat → Nat) (n : Net)
    (h : NetSteps peer ⟨fun u => init (addr u), []⟩ n) (hquiet : n.wire = []) (u v : Nat)
    (hc : Connected (fun u v => (∃ nb ∈ (n.node u).nbs, nb.mgmt = true ∧ (peer u nb.fd).1 = v) ∧
      (∃ nb ∈ (n.node v).nbs, nb.mgmt = true ∧ (peer v nb.fd).1 = u)) u v) (s d q : Nat) :
    (∃ a ∈ (n.node u).db, a.src = s ∧ a.dst = d ∧ a.seqno = q) ↔ ∃ a ∈ (n.node v).db, a.src = s ∧ a.dst = d ∧ a.seqno = q := by
  have C := conv_steps hp h (conv_init peer addr)
  have key : ∀ w, (∃ a ∈ (n.node w).db, a.src = s ∧ a.dst = d ∧ a.seqno = q) ↔ ∃ a ∈ (n.node w).db, a.lsa = ⟨d, s, q⟩ := by
    intro w
    constructor
    · rintro ⟨a, ha, rfl, rfl, rfl⟩; exact ⟨a, ha, rfl⟩
    · rintro ⟨a, ha, he⟩
      unfold Adj.lsa at he
      simp only [Lsa.mk.injEq] at he
      exact ⟨a, ha, he.2.1, he.1, he.2.2⟩
  induction hc with
  | refl u => exact Iff.rfl
  | step hl _ ih =>
    refine Iff.trans ?_ ih
    rw [key, key]
    exact conv_linked C hquiet hl _

/-- C53: consequently their routing tables are computed from the same confirmed links. -/
theorem C53_same_links (peer : Nat → Int → Nat × Int) (hp : ∀ u f, peer (peer u f).1 (peer u f).2 = (u, f)) (addr : Nat → Nat) (n : Net)
    (h : NetSteps peer ⟨fun u => init (addr u), []⟩ n) (hquiet : n.wire = []) (u v : Nat)
    (hc : Connected (fun u v => (∃ nb ∈ (n.node u).nbs, nb.mgmt = true ∧ (peer u nb.fd).1 = v) ∧
      (∃ nb ∈ (n.node v).nbs, nb.mgmt = true ∧ (peer v nb.fd).1 = u)) u v) (a b k : Nat) :
    (∃ x ∈ (n.node u).graph.verts, x.addr = a ∧ ⟨b, k⟩ ∈ x.edges) ↔ ∃ x ∈ (n.node v).graph.verts, x.addr = a ∧ ⟨b, k⟩ ∈ x.edges := by
  have C := conv_steps hp h (conv_init peer addr)
  have hann : ∀ a b, Has (n.node u) a b ↔ Has (n.node v) a b := by
    intro a b
    constructor
    · rintro ⟨x, hx, h1, h2⟩
      obtain ⟨y, hy, k1, k2, _⟩ := (C53_converges peer hp addr n h hquiet u v hc a b x.seqno).1 ⟨x, hx, h1, h2, rfl⟩
      exact ⟨y, hy, k1, k2⟩
    · rintro ⟨x, hx, h1, h2⟩
      obtain ⟨y, hy, k1, k2, _⟩ := (C53_converges peer hp addr n h hquiet u v hc a b x.seqno).2 ⟨x, hx, h1, h2, rfl⟩
      exact ⟨y, hy, k1, k2⟩
  have M : ∀ w, Mirrors (Has (n.node w)) (fun a b k => ∃ x ∈ (n.node w).graph.verts, x.addr = a ∧ ⟨b, k⟩ ∈ x.edges) :=
    fun w => inv_mirrors (C.inv w)
  have half : ∀ w z, (∀ a b, Has (n.node w) a b ↔ Has (n.node z) a b) → (∃ x ∈ (n.node w).graph.verts, x.addr = a ∧ ⟨b, k⟩ ∈ x.edges) →
      ∃ x ∈ (n.node z).graph.verts, x.addr = a ∧ ⟨b, k⟩ ∈ x.edges := by
    intro w z hwz he
    have hk := (M w).counts a b k he
    have h2 : (∃ x ∈ (n.node z).graph.verts, x.addr = a ∧ ⟨b, 2⟩ ∈ x.edges) ↔ ∃ x ∈ (n.node w).graph.verts, x.addr = a ∧ ⟨b, 2⟩ ∈ x.edges := by
      rw [(M z).usable a b, (M w).usable a b, hwz, hwz]
    rcases hk with rfl | rfl
    · have h1 := ((M w).edges a b).1 ⟨1, he⟩
      rw [hwz, hwz] at h1
      obtain ⟨k', hk'⟩ := ((M z).edges a b).2 h1
      rcases (M z).counts a b k' hk' with rfl | rfl
      · exact hk'
      · exfalso
        have h3 := (C.inv w).rep.edges a b 1
        have h4 := (C.inv w).rep.edges a b 2
        obtain ⟨x, x1, x2, x3⟩ := he
        obtain ⟨y, y1, y2, y3⟩ := h2.1 hk'
        have := (h3.1 ⟨x, x1, x2, x3⟩).1
        have := (h4.1 ⟨y, y1, y2, y3⟩).1
        omega
    · exact h2.2 he
  exact ⟨half u v hann, half v u (fun a b => (hann a b).symm)⟩

/-- Two nodes: each has management flow 0 to the other. -/
def pair (u : Nat) (f : Int) : Nat × Int := if u = 0 then (1, f) else if u = 1 then (0, f) else (u, f)

example : ∀ u f, pair (pair u f).1 (pair u f).2 = (u, f) := by
  intro u f
  unfold pair
  by_cases h0 : u = 0
  · simp [h0]
  · by_cases h1 : u = 1
    · simp [h1]
    · simp [h0, h1]

/-- A quiet network with two nodes that hold an announcement: the first added a link, the second a management flow afterwards. -/
example : ∃ n, NetSteps pair ⟨fun u => init (10 + u), []⟩ n ∧ n.wire = [] ∧ (n.node 1).db = [⟨12, 10, 0, 4⟩] ∧
    (n.node 0).nbs.any (fun nb => nb.mgmt) ∧ (n.node 1).nbs.any (fun nb => nb.mgmt) := by
  refine ⟨_, .more (.act _ 0 (.dtAdd 12 65 0) _ (by decide) rfl) (.more (.act _ 1 (.mgmtAdd 10 0) _ trivial rfl)
    (.more (.act _ 0 (.mgmtAdd 11 0) _ trivial rfl) (.more (.deliver (.mk _ [] [] 1 0 ⟨12, 10, 0⟩ 4 ?_)) (.none _)))), ?_⟩
  · decide +kernel
  · decide +kernel

/-- Nodes joined by a chain of management flows. -/
abbrev Joined (peer : Nat → Int → Nat × Int) (n : Net) : Nat → Nat → Prop :=
  Connected (fun u v => (∃ nb ∈ (n.node u).nbs, nb.mgmt = true ∧ (peer u nb.fd).1 = v) ∧
    (∃ nb ∈ (n.node v).nbs, nb.mgmt = true ∧ (peer v nb.fd).1 = u))

/-- C53: and if the nodes whose announcements node `w` holds are joined to `w` by management flows, the tables of the simple policy at
the nodes joined to `w` deliver every packet over the confirmed links. `table a` is the table of the node with address `a`. -/
theorem C53_delivers (peer : Nat → Int → Nat × Int) (hp : ∀ u f, peer (peer u f).1 (peer u f).2 = (u, f)) (addr : Nat → Nat) (n : Net)
    (h : NetSteps peer ⟨fun u => init (addr u), []⟩ n) (hquiet : n.wire = [])
    (w : Nat) (hc : ∀ u, (∃ x ∈ (n.node w).db, x.src = addr u) → Joined peer n u w) (hlen : ∀ u, (n.node u).db.length < 2 ^ 29)
    (table : Nat → Spec.Routing.Table)
    (ht : ∀ u, Joined peer n u w →
      simpleTable (n.node u) = .ok (some (table (addr u))) ∨ (simpleTable (n.node u) = .ok none ∧ table (addr u) = []))
    (ht' : ∀ a, (∀ u, Joined peer n u w → addr u ≠ a) → table a = []) :
    Spec.Routing.Delivers (Confirmed (fun a b => ∃ x ∈ (n.node w).db, x.src = a ∧ x.dst = b)) table := by
  have C := conv_steps hp h (conv_init peer addr)
  have Sr := srcs_steps h (srcs_init addr)
  have hann : ∀ u, Joined peer n u w → Has (n.node u) = Has (n.node w) := by
    intro u hj
    funext a b
    refine propext ⟨?_, ?_⟩
    · rintro ⟨x, hx, h1, h2⟩
      obtain ⟨y, hy, k1, k2, _⟩ := (C53_converges peer hp addr n h hquiet u w hj a b x.seqno).1 ⟨x, hx, h1, h2, rfl⟩
      exact ⟨y, hy, k1, k2⟩
    · rintro ⟨x, hx, h1, h2⟩
      obtain ⟨y, hy, k1, k2, _⟩ := (C53_converges peer hp addr n h hquiet u w hj a b x.seqno).2 ⟨x, hx, h1, h2, rfl⟩
      exact ⟨y, hy, k1, k2⟩
  have hS : ∀ u, Joined peer n u w → Graph.SimpleOk (cnt (n.node u).db) (addr u) (table (addr u)) := by
    intro u hj
    have hI : Graph.INT_MAX = 2147483647 := (rfl)
    have hv := verts_le_db (C.inv u)
    have hl := hlen u
    have hsp := Graph.simple_spec (C.inv u).rep (by omega) (n.node u).self
    have hself := Sr.self u
    rw [hself] at hsp
    have htu := ht u hj
    unfold simpleTable at htu
    rw [hself] at htu
    rcases hsp with ⟨h1, e⟩ | ⟨h1, t, dist, e, S, _⟩
    · rw [e, bind_ok'] at htu
      rcases htu with k | ⟨_, k⟩
      · cases k
      · rw [k]
        exact ⟨by simp, by simp, fun d m hne hw => absurd (Graph.no_walk (Graph.two_verts (C.inv u).rep h1) hw).symm hne⟩
    · rw [e, bind_ok'] at htu
      rcases htu with k | ⟨k, _⟩
      · have k : some t = some (table (addr u)) := Outcome.ok.inj k
        rw [← Option.some.inj k]; exact S
      · cases k
  have hlink : ∀ u, Joined peer n u w → (fun a b => cnt (n.node u).db a b = 2) = Confirmed (Has (n.node w)) := by
    intro u hj; rw [cnt_link (C.inv u), hann u hj]
  have hsrc : ∀ a b, Confirmed (Has (n.node w)) a b → ∃ u, addr u = a ∧ Joined peer n u w := by
    rintro a b ⟨⟨x, hx, hxs, _⟩, _⟩
    obtain ⟨u, hu⟩ := Sr.db w x hx
    exact ⟨u, by rw [hu, hxs], hc u ⟨x, hx, hu.symm⟩⟩
  change Spec.Routing.Delivers (Confirmed (Has (n.node w))) table
  refine Graph.delivers ?_ ?_
  · rintro a d b ⟨nhs, hm, hb⟩
    by_cases hu : ∃ u, addr u = a ∧ Joined peer n u w
    · obtain ⟨u, rfl, hj⟩ := hu
      obtain ⟨hne, h, m, rfl, _, k3, k4⟩ := (hS u hj).entry d nhs hm
      rw [hlink u hj] at k3 k4
      rw [List.mem_singleton] at hb
      subst hb
      exact ⟨hne.symm, fun n hn => ⟨m, Graph.dist_uniq hn k3, k4⟩⟩
    · rw [ht' a (fun u hj hu' => hu ⟨u, hu', hj⟩)] at hm
      cases hm
  · intro a d n' hd hne
    have hu : ∃ u, addr u = a ∧ Joined peer n u w := by
      have := hd.1
      cases this with
      | nil => exact absurd rfl hne
      | cons hl _ => exact hsrc _ _ hl
    obtain ⟨u, rfl, hj⟩ := hu
    have hcomp := (hS u hj).complete d n' (Ne.symm hne)
    rw [hlink u hj] at hcomp
    obtain ⟨nhs, hm⟩ := hcomp hd.1
    obtain ⟨_, h, m, rfl, _⟩ := (hS u hj).entry d nhs hm
    exact ⟨h, [h], hm, List.mem_singleton.2 rfl⟩

/-- A quiet network of two nodes with a link confirmed by both: the hypotheses of `C53_delivers` hold. -/
example : ∃ n, NetSteps pair ⟨fun u => init (10 + u), []⟩ n ∧ n.wire = [] ∧ (n.node 0).db = [⟨10, 11, 0, 4⟩, ⟨11, 10, 0, 0⟩] ∧
    (n.node 1).db = [⟨10, 11, 0, 3⟩, ⟨11, 10, 0, 4⟩] ∧ Joined pair n 0 1 ∧
    simpleTable (n.node 0) = .ok (some [(11, [11])]) ∧ simpleTable (n.node 1) = .ok (some [(10, [10])]) := by
  refine ⟨_, .more (.act _ 0 (.dtAdd 11 65 0) _ (by decide) rfl) (.more (.act _ 1 (.mgmtAdd 10 0) _ trivial rfl)
    (.more (.act _ 0 (.mgmtAdd 11 0) _ trivial rfl) (.more (.act _ 1 (.dtAdd 10 65 3) _ (by decide) rfl)
    (.more (.deliver (.mk _ [] [(0, 0, ⟨10, 11, 0⟩)] 1 0 ⟨11, 10, 0⟩ 4 ?_)) (.more (.deliver (.mk _ [] [] 0 0 ⟨10, 11, 0⟩ 4 ?_)) (.none _)))))),
    ?_, ?_, ?_, ?_, ?_, ?_⟩
  · decide +kernel
  · decide +kernel
  · decide +kernel
  · decide +kernel
  · decide +kernel
  · exact .step ⟨⟨⟨11, 0, true⟩, by decide +kernel, rfl, rfl⟩, ⟨⟨10, 0, true⟩, by decide +kernel, rfl, rfl⟩⟩ (.refl _)
  · decide +kernel
  · decide +kernel

/-- C53 needs the hypothesis that nothing is withdrawn: a data transfer flow that goes away is not announced, so the neighbours keep the
link until it times out. -/
theorem C53_withdrawal_violated : ∃ ls ls', run (init 1) [.mgmtAdd 2 64, .dtAdd 3 65 0] = .ok ls ∧ step ls (.dtDel 3 65) = .ok ls' ∧
    ls.db = [⟨3, 1, 0, 0⟩] ∧ ls'.db = [] ∧ ls'.sent = ls.sent := by
  refine ⟨_, _, rfl, rfl, ?_⟩
  decide +kernel

/-! ### C54 -/

/-- C54: when the forwarding table (simple policies) is calculated from a database with entries, a packet for a node which cannot be
reached over links confirmed by both ends has no next hop, and a packet for a node at distance `n` goes to the flow of a neighbour with a
confirmed link at distance `n - 1`, or has no next hop if no flow to it is known. -/
theorem C54_forwarding_partial (self : Nat) (os : List Op) (h : ∀ o ∈ os, o.ok self) (p : Pft.Pft) (hp : Pft.WF p) :
    ∃ ls, run (init self) os = .ok ls ∧ (ls.db ≠ [] → ls.db.length < 2 ^ 29 → (∀ x ∈ ls.db, x.src < 2 ^ 64 ∧ x.dst < 2 ^ 64) →
      ∃ p', calculate Pff.Simple.step (simpleTable ls) ls p = .ok p' ∧ ∀ d, d ≠ self → d < 2 ^ 64 →
        ((∀ n, ¬ Walk (Confirmed (fun a b => ∃ x ∈ ls.db, x.src = a ∧ x.dst = b)) n self d) → Pff.Simple.nhop p' (BitVec.ofNat 64 d) = .ok (-1)) ∧
        (∀ n, Dist (Confirmed (fun a b => ∃ x ∈ ls.db, x.src = a ∧ x.dst = b)) self d n →
          ∃ nb m, n = m + 1 ∧ Confirmed (fun a b => ∃ x ∈ ls.db, x.src = a ∧ x.dst = b) self nb ∧
            Dist (Confirmed (fun a b => ∃ x ∈ ls.db, x.src = a ∧ x.dst = b)) nb d m ∧
            Pff.Simple.nhop p' (BitVec.ofNat 64 d) =
              .ok (match ls.nbs.find? (fun x => x.addr = nb ∧ x.mgmt = false) with | some x => x.fd | none => -1))) := by
  obtain ⟨ls, e, I, s⟩ := run_spec os (init self) (inv_init self) h
  refine ⟨ls, e, fun hne hlen hb => ?_⟩
  have s' : ls.self = self := s
  have := calculate_spec I hlen hb hne hp
  rw [s'] at this
  exact this

example : ∃ ls p', run (init 1) demo = .ok ls ∧ calculate Pff.Simple.step (simpleTable ls) ls ⟨List.replicate 4 [], none, 4⟩ = .ok p' ∧
    Pff.Simple.nhop p' 2 = .ok 65 ∧ Pff.Simple.nhop p' 3 = .ok (-1) := by
  refine ⟨_, _, rfl, rfl, ?_⟩
  decide +kernel

/-- C54 fails for an empty database: the table is left as it was, so packets are still sent to a flow that is gone. -/
theorem C54_stale_violated : ∃ ls ls' p' p'', run (init 1) [.dtAdd 2 65 0, .recv 64 ⟨1, 2, 0⟩ 0] = .ok ls ∧
    calculate Pff.Simple.step (simpleTable ls) ls ⟨List.replicate 4 [], none, 4⟩ = .ok p' ∧
    run ls [.tick 50, .tick 61, .dtDel 2 65] = .ok ls' ∧ ls'.db = [] ∧ ls'.nbs = [] ∧
    calculate Pff.Simple.step (simpleTable ls') ls' p' = .ok p'' ∧ Pff.Simple.nhop p'' 2 = .ok 65 := by
  refine ⟨_, _, _, _, rfl, rfl, rfl, ?_, ?_, rfl, ?_⟩ <;> decide +kernel

/-- C54 (equal-cost paths): when the forwarding table of the multipath policy is calculated at a node with an announced link, lookups of a destination
go round a list with exactly the flows of the neighbours that are one hop nearer over confirmed links; without such a neighbour they give `-1`. -/
theorem C54_multipath_partial (self : Nat) (os : List Op) (h : ∀ o ∈ os, o.ok self) (p : Pft.Pft) (hp : Pft.WF p) :
    ∃ ls, run (init self) os = .ok ls ∧ ((∃ b, Neighbour ls b) → ls.db.length < 2 ^ 29 → (∀ x ∈ ls.db, x.src < 2 ^ 64 ∧ x.dst < 2 ^ 64) →
      ∃ p', calculate Pff.Multipath.step (Graph.ecmp ls.graph self) ls p = .ok p' ∧ ∀ d, d ≠ self → d < 2 ^ 64 →
        ∃ fds : List Int, (∀ fd, fd ∈ fds ↔ fd ≠ -1 ∧ ∃ nb m, Neighbour ls nb ∧ Dist (Link ls) nb d m ∧ Dist (Link ls) self d (m + 1) ∧ flowTo ls nb = fd) ∧
          ∀ k, ∃ p'', Pff.run Pff.Multipath.step p' (List.replicate k (.nhop (BitVec.ofNat 64 d))) =
            .ok (p'', (List.range k).map (fun i => fds.getD (i % fds.length) (-1)))) := by
  obtain ⟨ls, e, I, s⟩ := run_spec os (init self) (inv_init self) h
  refine ⟨ls, e, fun hne hlen hb => ?_⟩
  have s' : ls.self = self := s
  subst s'
  exact calculate_multi I hlen hb hne hp

/-- Node 1 of a square: 2 and 3 both lead to 4. -/
def squareOps : List Op :=
  [.dtAdd 2 65 0, .dtAdd 3 66 0, .recv 64 ⟨1, 2, 0⟩ 1, .recv 64 ⟨1, 3, 0⟩ 1, .recv 64 ⟨2, 4, 0⟩ 1, .recv 64 ⟨4, 2, 0⟩ 1,
   .recv 64 ⟨3, 4, 0⟩ 1, .recv 64 ⟨4, 3, 0⟩ 1]

example : ∃ ls p' p'', (∀ o ∈ squareOps, o.ok 1) ∧ run (init 1) squareOps = .ok ls ∧
    calculate Pff.Multipath.step (Graph.ecmp ls.graph 1) ls ⟨List.replicate 4 [], none, 4⟩ = .ok p' ∧
    Pff.run Pff.Multipath.step p' [.nhop 4, .nhop 4, .nhop 4, .nhop 2, .nhop 9] = .ok (p'', [66, 65, 66, 65, -1]) :=
  ⟨_, _, _, by decide, rfl, rfl, rfl⟩

/-- C54 (alternates): when the forwarding table of the alternate policy is calculated, a node which cannot be reached has no next hop. A node at distance
`n` goes to the flow of a neighbour at distance `n - 1` if there is one; without it to the flow of a loop-free alternate, if there is one. When that flow is
reported down, the node goes to the flow of a loop-free alternate, unless none of them has another flow. -/
theorem C54_alternate_partial (self : Nat) (os : List Op) (h : ∀ o ∈ os, o.ok self) (s : Pff.Alternate.State) (hs : Pft.WF s.pft) :
    ∃ ls, run (init self) os = .ok ls ∧ (ls.db ≠ [] → ls.db.length < 2 ^ 28 → (∀ x ∈ ls.db, x.src < 2 ^ 64 ∧ x.dst < 2 ^ 64) →
      (∀ l : List Nat, l.Nodup → (∀ b ∈ l, Neighbour ls b) → l.length ≤ 4096) →
      ∃ s', calculate Pff.Alternate.step (Graph.lfa ls.graph self) ls s = .ok s' ∧ ∀ d, d ≠ self → d < 2 ^ 64 →
        ((∀ n, ¬ Walk (Link ls) n self d) → Pff.Alternate.nhop s' (BitVec.ofNat 64 d) = .ok (-1)) ∧
        (∀ n, Dist (Link ls) self d n → ∃ nb m x, n = m + 1 ∧ Link ls self nb ∧ Dist (Link ls) nb d m ∧
          Pff.Alternate.nhop s' (BitVec.ofNat 64 d) = .ok x ∧ (flowTo ls nb ≠ -1 → x = flowTo ls nb) ∧
          (flowTo ls nb = -1 → (x = -1 ∧ ∀ a, AltNb ls d a → flowTo ls a = -1) ∨ (x ≠ -1 ∧ ∃ a, AltNb ls d a ∧ flowTo ls a = x)) ∧
          (x ≠ -1 → ∃ s'' y, Pff.Alternate.flow s' x false = .ok (s'', 0) ∧ Pff.Alternate.nhop s'' (BitVec.ofNat 64 d) = .ok y ∧
            (y ≠ x → y ≠ -1 ∧ ∃ a, AltNb ls d a ∧ flowTo ls a = y) ∧ (y = x → ∀ a, AltNb ls d a → flowTo ls a = x ∨ flowTo ls a = -1)))) := by
  obtain ⟨ls, e, I, st⟩ := run_spec os (init self) (inv_init self) h
  refine ⟨ls, e, fun hne hlen hb hmax => ?_⟩
  have s' : ls.self = self := st
  subst s'
  exact calculate_alt I hlen hb hne hmax hs

example : ∃ ls s' s'', run (init 1) squareOps = .ok ls ∧
    calculate Pff.Alternate.step (Graph.lfa ls.graph 1) ls ⟨⟨List.replicate 4 [], none, 4⟩, [], []⟩ = .ok s' ∧
    Pff.Alternate.nhop s' 4 = .ok 65 ∧ Pff.Alternate.flow s' 65 false = .ok (s'', 0) ∧ Pff.Alternate.nhop s'' 4 = .ok 66 :=
  ⟨_, _, _, rfl, rfl, rfl, rfl, rfl⟩

/-- C54 (equal-cost paths, what fails): if the last link of the node itself is gone the table stays as it was, even though the database has other links:
packets still go to a flow that does not exist any more. -/
theorem C54_multipath_stale_violated : ∃ ls ls' p' p'', run (init 1) [.dtAdd 2 65 0, .recv 64 ⟨1, 2, 0⟩ 0, .recv 64 ⟨8, 9, 0⟩ 40, .recv 64 ⟨9, 8, 0⟩ 40] = .ok ls ∧
    calculate Pff.Multipath.step (Graph.ecmp ls.graph 1) ls ⟨List.replicate 4 [], none, 4⟩ = .ok p' ∧
    run ls [.tick 50, .tick 61, .dtDel 2 65] = .ok ls' ∧ ls'.db ≠ [] ∧ ls'.nbs = [] ∧
    calculate Pff.Multipath.step (Graph.ecmp ls'.graph 1) ls' p' = .ok p'' ∧ ∃ q, Pff.Multipath.nhop p'' 2 = .ok (q, 65) := by
  refine ⟨_, _, _, _, rfl, rfl, rfl, ?_, ?_, rfl, _, rfl⟩ <;> decide +kernel

/-- C54 (alternates, what fails): a new calculation forgets which flows are down, so the packets go back to the flow that was reported down, although an
alternate is up. -/
theorem C54_alternate_down_violated : ∃ ls s' s'' s3, run (init 1) squareOps = .ok ls ∧
    calculate Pff.Alternate.step (Graph.lfa ls.graph 1) ls ⟨⟨List.replicate 4 [], none, 4⟩, [], []⟩ = .ok s' ∧
    Pff.Alternate.flow s' 65 false = .ok (s'', 0) ∧ Pff.Alternate.nhop s'' 4 = .ok 66 ∧
    calculate Pff.Alternate.step (Graph.lfa ls.graph 1) ls s'' = .ok s3 ∧ Pff.Alternate.nhop s3 4 = .ok 65 :=
  ⟨_, _, _, _, rfl, rfl, rfl, rfl, rfl, rfl⟩

end Ouro.Lsdb
