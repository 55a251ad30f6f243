import Verif.Proof.LsdbPff
import Verif.Proof.GraphTables

/-! The forwarding tables of the multipath and alternate policies. -/

namespace Ouro.Lsdb

open Ouro.Graph (bind_ok' two_verts INT_MAX maxFlows walk_last ecmp_spec lfa_spec EcmpOk LfaOk)
open Spec.Routing (Walk Dist)
open Spec.FiniteMap (put empty)
open Ouro.Pft (WF)

theorem pffLoop_gen {S : Type} {step : S → Pff.Op → Outcome (S × Int)} {R : S → Spec.NextHop.Conf → Prop}
    (hstep : ∀ s c a fds, R s c → fds ≠ [] → c a = none → ∃ s' r, step s (.add a fds) = .ok (s', r) ∧ R s' (put c a fds)) (ls : Ls) :
    ∀ (t : List (Nat × List Nat)) (s : S) (c : Spec.NextHop.Conf), R s c →
    (t.map (fun x => BitVec.ofNat 64 x.1)).Nodup → (∀ x ∈ t, c (BitVec.ofNat 64 x.1) = none) →
    ∃ s' c', pffLoop step ls t s = .ok s' ∧ R s' c' ∧
      (∀ x ∈ t, c' (BitVec.ofNat 64 x.1) = if nhopFds ls x.2 = [] then none else some (nhopFds ls x.2)) ∧
      ∀ a, (∀ x ∈ t, BitVec.ofNat 64 x.1 ≠ a) → c' a = c a
  | [], s, c, h, _, _ => ⟨s, c, rfl, h, fun x hx => (by cases hx), fun _ _ => rfl⟩
  | x :: t, s, c, h, hn, hc => by
    rw [List.map_cons, List.nodup_cons] at hn
    have hx : ∀ y ∈ t, BitVec.ofNat 64 y.1 ≠ BitVec.ofNat 64 x.1 := by
      intro y hy e
      exact hn.1 (List.mem_map.2 ⟨y, hy, e⟩)
    unfold pffLoop
    by_cases hf : nhopFds ls x.2 = []
    · rw [if_pos hf]
      obtain ⟨p', c', e, h', k1, k2⟩ := pffLoop_gen hstep ls t s c h hn.2 (fun y hy => hc y (List.mem_cons_of_mem _ hy))
      refine ⟨p', c', e, h', ?_, fun a ha => k2 a (fun y hy => ha y (List.mem_cons_of_mem _ hy))⟩
      intro y hy
      rcases List.mem_cons.1 hy with rfl | hy
      · rw [if_pos hf, k2 _ hx]; exact hc y (List.mem_cons_self ..)
      · exact k1 y hy
    · rw [if_neg hf]
      obtain ⟨s1, r, e1, h1⟩ := hstep s c (BitVec.ofNat 64 x.1) (nhopFds ls x.2) h hf (hc x (List.mem_cons_self ..))
      rw [e1, bind_ok']
      obtain ⟨p', c', e, h', k1, k2⟩ := pffLoop_gen hstep ls t s1 _ h1 hn.2 (by
        intro y hy
        unfold put
        rw [if_neg (hx y hy)]
        exact hc y (List.mem_cons_of_mem _ hy))
      refine ⟨p', c', e, h', ?_, ?_⟩
      · intro y hy
        rcases List.mem_cons.1 hy with rfl | hy
        · rw [if_neg hf, k2 _ hx]; simp [put]
        · exact k1 y hy
      · intro a ha
        rw [k2 a (fun y hy => ha y (List.mem_cons_of_mem _ hy))]
        unfold put
        rw [if_neg (Ne.symm (ha x (List.mem_cons_self ..)))]

theorem mem_nhopFds {ls : Ls} {hs : List Nat} {fd : Int} : fd ∈ nhopFds ls hs ↔ ∃ h ∈ hs, nbrToFd ls h = fd ∧ fd ≠ -1 := by
  simp only [nhopFds, List.mem_filter, List.mem_map, decide_eq_true_eq]
  constructor
  · rintro ⟨⟨h, hh, e⟩, hne⟩; exact ⟨h, hh, e, hne⟩
  · rintro ⟨h, hh, e, hne⟩; exact ⟨⟨h, hh, e⟩, hne⟩

/-- The relation of the multipath policy to what is configured, before any lookup. -/
def RefM0 (p : Pft.Pft) (c : Spec.NextHop.Conf) : Prop := Pff.RefM p (fun a => (c a).map (fun l => (l, 0)))

theorem refM0_step (p : Pft.Pft) (c : Spec.NextHop.Conf) (a : BitVec 64) (fds : List Int) (h : RefM0 p c) (hf : fds ≠ []) (hc : c a = none) :
    ∃ p' r, Pff.Multipath.step p (.add a fds) = .ok (p', r) ∧ RefM0 p' (put c a fds) := by
  obtain ⟨p', e, h'⟩ := Pff.multi_step h (.add a fds) hf
  refine ⟨p', _, e, ?_⟩
  have : (Spec.NextHop.multiStep (fun a => (c a).map (fun l => (l, 0))) (Pff.Op.req (.add a fds))).1 = fun x => (put c a fds x).map (fun l => (l, 0)) := by
    funext x
    simp only [Pff.Op.req, Spec.NextHop.multiStep, hc, Option.map_none, put]
    split <;> simp
  rw [this] at h'
  exact h'

/-- Repeated lookups of one destination. -/
theorem refM_lookups {a : BitVec 64} : ∀ (k : Nat) {p : Pft.Pft} {c : Spec.NextHop.MConf} (l : List Int) (n : Nat), Pff.RefM p c →
    c a = some (l, n) → ∃ p', Pff.run Pff.Multipath.step p (List.replicate k (.nhop a)) =
      .ok (p', (List.range k).map (fun i => l.getD ((n + i) % l.length) (-1)))
  | 0, p, c, l, n, h, hc => ⟨p, rfl⟩
  | k + 1, p, c, l, n, h, hc => by
    obtain ⟨p1, e1, h1⟩ := Pff.multi_step h (.nhop a) trivial
    have hs : Spec.NextHop.multiStep c (Pff.Op.req (.nhop a)) = (put c a (l, n + 1), l.getD (n % l.length) (-1)) := by
      simp only [Pff.Op.req, Spec.NextHop.multiStep, hc]
    rw [hs] at e1 h1
    obtain ⟨p2, e2⟩ := refM_lookups (a := a) k l (n + 1) h1 (by simp [put])
    refine ⟨p2, ?_⟩
    rw [List.replicate_succ, Pff.run, e1, bind_ok']
    simp only
    rw [e2, bind_ok']
    simp only [Outcome.pure_eq]
    rw [List.range_succ_eq_map, List.map_cons, List.map_map]
    simp only [Nat.add_zero, Outcome.ok.injEq, Prod.mk.injEq, true_and, List.cons.injEq]
    apply List.map_congr_left
    intro i _
    simp only [Function.comp]
    rw [show n + 1 + i = n + (i + 1) by omega]

theorem refM_lookups_none {a : BitVec 64} : ∀ (k : Nat) {p : Pft.Pft} {c : Spec.NextHop.MConf}, Pff.RefM p c → c a = none →
    ∃ p', Pff.run Pff.Multipath.step p (List.replicate k (.nhop a)) = .ok (p', List.replicate k (-1))
  | 0, p, c, h, hc => ⟨p, rfl⟩
  | k + 1, p, c, h, hc => by
    obtain ⟨p1, e1, h1⟩ := Pff.multi_step h (.nhop a) trivial
    have hs : Spec.NextHop.multiStep c (Pff.Op.req (.nhop a)) = (c, -1) := by
      simp only [Pff.Op.req, Spec.NextHop.multiStep, hc]
    rw [hs] at e1 h1
    obtain ⟨p2, e2⟩ := refM_lookups_none k h1 hc
    refine ⟨p2, ?_⟩
    rw [List.replicate_succ, Pff.run, e1, bind_ok']
    simp only [e2, bind_ok', Outcome.pure_eq]
    rfl

theorem cnt_any {ls : Ls} (a b : Nat) : 0 < cnt ls.db a b ↔ Has ls a b ∨ Has ls b a := by
  constructor
  · intro h
    obtain ⟨x, hx, h | h⟩ := cnt_mem h
    · exact .inl ⟨x, hx, h.1.symm, h.2.symm⟩
    · exact .inr ⟨x, hx, h.2.symm, h.1.symm⟩
  · rintro (⟨x, hx, rfl, rfl⟩ | ⟨x, hx, rfl, rfl⟩) <;> unfold cnt <;> rw [List.countP_pos_iff] <;> exact ⟨x, hx, by simp [about]⟩

theorem cnt_lt {ls : Ls} (hb : ∀ x ∈ ls.db, x.src < 2 ^ 64 ∧ x.dst < 2 ^ 64) {a b : Nat} (h : 0 < cnt ls.db a b) : b < 2 ^ 64 := by
  obtain ⟨y, hy, hc⟩ := cnt_mem h
  have := hb y hy
  rcases hc with hc | hc <;> rw [hc.2]
  · exact this.2
  · exact this.1

/-- The vertices of the table are addresses: every destination in it is reachable or known. -/
theorem calculate_multi {ls : Ls} (I : Inv ls) (hlen : ls.db.length < 2 ^ 29) (hb : ∀ x ∈ ls.db, x.src < 2 ^ 64 ∧ x.dst < 2 ^ 64)
    (hne : ∃ b, Has ls ls.self b ∨ Has ls b ls.self) {p : Pft.Pft} (hp : WF p) :
    ∃ p', calculate Pff.Multipath.step (Graph.ecmp ls.graph ls.self) ls p = .ok p' ∧ ∀ d, d ≠ ls.self → d < 2 ^ 64 →
      ∃ fds : List Int, (∀ fd, fd ∈ fds ↔ fd ≠ -1 ∧ ∃ nb m, (Has ls ls.self nb ∨ Has ls nb ls.self) ∧ Dist (Spec.Lsdb.Confirmed (Has ls)) nb d m ∧
          Dist (Spec.Lsdb.Confirmed (Has ls)) ls.self d (m + 1) ∧ nbrToFd ls nb = fd) ∧
        ∀ k, ∃ p'', Pff.run Pff.Multipath.step p' (List.replicate k (.nhop (BitVec.ofNat 64 d))) =
          .ok (p'', (List.range k).map (fun i => fds.getD (i % fds.length) (-1))) := by
  have hI : INT_MAX = 2147483647 := (rfl)
  have hv := verts_le_db I
  rw [← cnt_link I]
  rcases ecmp_spec I.rep (by omega) ls.self with ⟨h0, _⟩ | ⟨_, t, e, S⟩
  · exfalso
    obtain ⟨b, hb'⟩ := hne
    have := (cnt_any ls.self b).2 hb'
    rw [h0 b] at this
    omega
  -- destinations outside 64 bits have no next hops
  have hfl : RefM0 (Pft.flush p) empty := by
    obtain ⟨k1, k2⟩ := Pft.flush_spec hp
    exact ⟨k1, fun a l n h => (by cases h), fun a => by rw [k2]; rfl⟩
  have htb : ∀ x ∈ t, x.1 < 2 ^ 64 := by
    intro x hx
    -- every vertex of the table is in the graph
    obtain ⟨b, hb'⟩ := S.known x.1 x.2 hx
    exact cnt_lt hb (a := b) (by rw [← I.rep.sym]; exact hb')
  obtain ⟨p', c', e', hR, k1, k2⟩ := pffLoop_gen refM0_step ls t (Pft.flush p) empty hfl (map_nodup S.nodup htb) (fun _ _ => rfl)
  refine ⟨p', ?_, ?_⟩
  · unfold calculate
    rw [e, bind_ok']
    simp only [Pff.Multipath.step, bind_ok', e']
  intro d hd hd64
  by_cases hmem : ∃ nhs, (d, nhs) ∈ t
  · obtain ⟨nhs, hm⟩ := hmem
    refine ⟨nhopFds ls nhs, ?_, ?_⟩
    · intro fd
      rw [mem_nhopFds]
      constructor
      · rintro ⟨h, hh, rfl, hne'⟩
        obtain ⟨hc, m, h1, h2⟩ := ((S.entry d nhs hm).2.2 h).1 hh
        exact ⟨hne', h, m, (cnt_any _ _).1 hc, h1, h2, rfl⟩
      · rintro ⟨hne', h, m, hc, h1, h2, rfl⟩
        exact ⟨h, ((S.entry d nhs hm).2.2 h).2 ⟨(cnt_any _ _).2 hc, m, h1, h2⟩, rfl, hne'⟩
    · intro k
      have hk := k1 _ hm
      by_cases hf : nhopFds ls nhs = []
      · rw [if_pos hf] at hk
        obtain ⟨p'', e''⟩ := refM_lookups_none (a := BitVec.ofNat 64 d) k hR (by simp [hk])
        exact ⟨p'', by rw [e'', hf]; simp⟩
      · rw [if_neg hf] at hk
        obtain ⟨p'', e''⟩ := refM_lookups (a := BitVec.ofNat 64 d) k (nhopFds ls nhs) 0 hR (by simp [hk])
        exact ⟨p'', by rw [e'']; simp⟩
  · refine ⟨[], ?_, ?_⟩
    · intro fd
      constructor
      · intro h; cases h
      · rintro ⟨_, nb, m, _, _, h2, _⟩
        exfalso
        obtain ⟨b, _, hl⟩ := walk_last h2.1
        exact hmem (S.complete d hd ⟨b, by rw [I.rep.sym]; omega⟩)
    · intro k
      have hk : c' (BitVec.ofNat 64 d) = none := by
        rw [k2 (BitVec.ofNat 64 d) ?_]
        · rfl
        intro x hx hxd
        exact hmem ⟨x.2, by rw [← ofNat_inj (htb x hx) hd64 hxd]; exact hx⟩
      obtain ⟨p'', e''⟩ := refM_lookups_none (a := BitVec.ofNat 64 d) k hR (by simp [hk])
      exact ⟨p'', by rw [e'']; simp⟩

/-! ### Alternate -/

/-- The relation of the alternate policy to what is configured, before any report about a flow. -/
def RefA0 (s : Pff.Alternate.State) (c : Spec.NextHop.Conf) : Prop :=
  Pff.RefA s c (fun _ => 0) ∧ ∀ a l, c a = some l → Pft.get s.pft a = some ⟨a, l ++ [l.headD 0], l.length⟩

theorem refA0_step (s : Pff.Alternate.State) (c : Spec.NextHop.Conf) (a : BitVec 64) (fds : List Int) (h : RefA0 s c) (hf : fds ≠ []) (hc : c a = none) :
    ∃ s' r, Pff.Alternate.step s (.add a fds) = .ok (s', r) ∧ RefA0 s' (put c a fds) := by
  obtain ⟨s', r, e, h', -⟩ := Pff.alt_step h.1 (.add a fds) hf
  refine ⟨s', r, e, ?_, ?_⟩
  · have e1 : Spec.NextHop.confStep c (Pff.Op.req (.add a fds)) = put c a fds := by
      simp only [Pff.Op.req, Spec.NextHop.confStep, hc, Option.isNone_none, if_true]
    rw [e1] at h'
    exact h'
  · cases fds with
    | nil => exact absurd rfl hf
    | cons fd l =>
      obtain ⟨p', e2, -, g⟩ := Pff.refA_addToPft h.1.wf a fd l
      have hg := h.1.none a hc
      rw [hg] at e2 g
      simp only [Pff.Alternate.step, Pff.Alternate.add, e2] at e
      simp only [Option.isSome_none, Option.isNone_none, if_true, Outcome.bind_ok, Outcome.pure_eq, Bool.false_eq_true, if_false, ne_eq, not_true_eq_false,
        Outcome.ok.injEq, Prod.mk.injEq] at e g
      rw [← e.1]
      intro x l' hx
      simp only
      rw [g]
      unfold put at hx ⊢
      split at hx
      · rename_i he
        rw [if_pos he, he]
        cases hx
        rfl
      · rename_i hne
        rw [if_neg hne]
        exact h.2 x l' hx

theorem alt_nhop_none {s : Pff.Alternate.State} {c : Spec.NextHop.Conf} {d : Int → Nat} (h : Pff.RefA s c d) {a : BitVec 64} (hc : c a = none) :
    Pff.Alternate.nhop s a = .ok (-1) := by
  obtain ⟨s', r, e, -, k⟩ := Pff.alt_step h (.nhop a) trivial
  simp only [Pff.Alternate.step] at e
  cases hn : Pff.Alternate.nhop s a with
  | ub => rw [hn] at e; cases e
  | ok x =>
    rw [hn, bind_ok'] at e
    have := congrArg Prod.snd (Outcome.ok.inj e)
    rw [show x = r from this, (k a rfl).1 hc]

theorem alt_nhop_some {s : Pff.Alternate.State} {c : Spec.NextHop.Conf} (h : RefA0 s c) {a : BitVec 64} {l : List Int} (hc : c a = some l) :
    Pff.Alternate.nhop s a = .ok (l.headD 0) := by
  have hne := h.1.ne a l hc
  unfold Pff.Alternate.nhop
  rw [Pft.lookup_eq h.1.wf, h.2 a l hc, bind_ok']
  cases l with
  | nil => exact absurd rfl hne
  | cons x l => rfl

theorem confirmed_symm {ls : Ls} {a b : Nat} (h : Spec.Lsdb.Confirmed (Has ls) a b) : Spec.Lsdb.Confirmed (Has ls) b a := ⟨h.2, h.1⟩

theorem dist_symm {link : Nat → Nat → Prop} (hs : ∀ a b, link a b → link b a) {n a b : Nat} (h : Dist link a b n) : Dist link b a n :=
  ⟨Graph.walk_symm hs h.1, fun m hm => h.2 m (Graph.walk_symm hs hm)⟩

theorem calculate_alt {ls : Ls} (I : Inv ls) (hlen : ls.db.length < 2 ^ 28) (hb : ∀ x ∈ ls.db, x.src < 2 ^ 64 ∧ x.dst < 2 ^ 64)
    (hne : ls.db ≠ []) (hmax : ∀ l : List Nat, l.Nodup → (∀ b ∈ l, Has ls ls.self b ∨ Has ls b ls.self) → l.length ≤ 4096)
    {s : Pff.Alternate.State} (hs : WF s.pft) :
    ∃ s', calculate Pff.Alternate.step (Graph.lfa ls.graph ls.self) ls s = .ok s' ∧ ∀ d, d ≠ ls.self → d < 2 ^ 64 →
      ((∀ n, ¬ Walk (Spec.Lsdb.Confirmed (Has ls)) n ls.self d) → Pff.Alternate.nhop s' (BitVec.ofNat 64 d) = .ok (-1)) ∧
      (∀ n, Dist (Spec.Lsdb.Confirmed (Has ls)) ls.self d n → ∃ h m x, n = m + 1 ∧ Spec.Lsdb.Confirmed (Has ls) ls.self h ∧
        Dist (Spec.Lsdb.Confirmed (Has ls)) h d m ∧ Pff.Alternate.nhop s' (BitVec.ofNat 64 d) = .ok x ∧
        (nbrToFd ls h ≠ -1 → x = nbrToFd ls h) ∧
        (nbrToFd ls h = -1 → (x = -1 ∧ ∀ a, AltNb ls d a → nbrToFd ls a = -1) ∨ (x ≠ -1 ∧ ∃ a, AltNb ls d a ∧ nbrToFd ls a = x)) ∧
        (x ≠ -1 → ∃ s'' y, Pff.Alternate.flow s' x false = .ok (s'', 0) ∧ Pff.Alternate.nhop s'' (BitVec.ofNat 64 d) = .ok y ∧
          (y ≠ x → y ≠ -1 ∧ ∃ a, AltNb ls d a ∧ nbrToFd ls a = y) ∧ (y = x → ∀ a, AltNb ls d a → nbrToFd ls a = x ∨ nbrToFd ls a = -1))) := by
  have hI : INT_MAX = 2147483647 := (rfl)
  have hM : maxFlows = 4096 := (rfl)
  have hv := verts_le_db I
  have hmax' : ∀ v ∈ ls.graph.verts, v.addr = ls.self → v.edges.length ≤ maxFlows := by
    intro v hv hva
    have := hmax (v.edges.map Graph.Edge.nb) (I.rep.nodup v hv) (by
      intro b hb
      obtain ⟨x, hx, rfl⟩ := List.mem_map.1 hb
      have := ((I.rep.mem hv x.nb x.announced).1 hx).2
      rw [hva] at this
      exact (cnt_any _ _).1 this)
    rw [List.length_map] at this
    omega
  have hsym : ∀ a b, Spec.Lsdb.Confirmed (Has ls) a b → Spec.Lsdb.Confirmed (Has ls) b a := fun a b h => confirmed_symm h
  rcases lfa_spec I.rep (by omega) ls.self hmax' with ⟨h1, _⟩ | ⟨h1, t, e, S⟩
  · exfalso
    cases hdb : ls.db with
    | nil => exact hne hdb
    | cons x l =>
      have h0 := two_verts I.rep h1 x.src x.dst
      have := cnt_pos [] l x
      rw [hdb] at h0
      simp only [List.nil_append] at this
      omega
  have hlink := cnt_link I
  have hentry : ∀ d nhs, (d, nhs) ∈ t → d ≠ ls.self ∧ ∃ h m l, nhs = h :: l ∧ Spec.Lsdb.Confirmed (Has ls) ls.self h ∧
      Dist (Spec.Lsdb.Confirmed (Has ls)) ls.self d (m + 1) ∧ Dist (Spec.Lsdb.Confirmed (Has ls)) h d m ∧ ∀ a, a ∈ l ↔ AltNb ls d a := by
    intro d nhs hm
    obtain ⟨h1, h, m, l, h2, h3, h4, h5, h6, h7⟩ := S.entry d nhs hm
    refine ⟨h1, h, m, l, h2, (cnt_two I _ _).1 h3, by rw [← hlink]; exact h4, by rw [← hlink]; exact h5, fun a => ?_⟩
    rw [h7 a, AltNb, Neighbour, Link, cnt_any, Graph.LfaCond, hlink]
    unfold Spec.Routing.LoopFree
    constructor
    · rintro ⟨k1, k2, p, q, r, k3, k4, k5, k6⟩
      exact ⟨k1, k2, p, q, r, k3, dist_symm hsym k4, k5, k6⟩
    · rintro ⟨k1, k2, p, q, r, k3, k4, k5, k6⟩
      exact ⟨k1, k2, p, q, r, k3, dist_symm hsym k4, k5, k6⟩
  have htb : ∀ x ∈ t, x.1 < 2 ^ 64 := by
    intro x hx
    obtain ⟨_, h, m, l, _, _, hD, _⟩ := S.entry x.1 x.2 hx
    obtain ⟨b, _, hl⟩ := walk_last hD.1
    exact cnt_lt hb (a := b) (by omega)
  have hfl : RefA0 (Pff.Alternate.flush s) empty := by
    obtain ⟨k1, k2⟩ := Pft.flush_spec hs
    refine ⟨⟨k1, fun a l h => (by cases h), fun a _ => by simp only [Pff.Alternate.flush, k2]; rfl, fun a l h => (by cases h), List.nodup_nil, ?_, ?_⟩,
      fun a l h => (by cases h)⟩
    · intro a; simp [Pff.Alternate.flush, empty]
    · intro x; simp [Pff.Alternate.flush]
  obtain ⟨s', c', e', hR, k1, k2⟩ := pffLoop_gen refA0_step ls t (Pff.Alternate.flush s) empty hfl (map_nodup S.nodup htb) (fun _ _ => rfl)
  refine ⟨s', ?_, ?_⟩
  · unfold calculate
    rw [e, bind_ok']
    simp only [Pff.Alternate.step, bind_ok', e']
  intro d hd hd64
  constructor
  · intro hno
    refine alt_nhop_none hR.1 ?_
    rw [k2 (BitVec.ofNat 64 d) ?_]
    · rfl
    intro x hx hxd
    have hxd := ofNat_inj (htb x hx) hd64 hxd
    obtain ⟨_, h, m, l, _, _, hD, _⟩ := hentry x.1 x.2 hx
    rw [hxd] at hD
    exact hno _ hD.1
  · intro n hD
    obtain ⟨nhs, hm⟩ := S.complete d n hd (by rw [hlink]; exact hD.1)
    obtain ⟨_, h, m, l, rfl, g2, g3, g4, g5⟩ := hentry d nhs hm
    have hk := k1 _ hm
    dsimp only at hk
    -- what is configured
    have hhead : nbrToFd ls h ≠ -1 → nhopFds ls (h :: l) = nbrToFd ls h :: nhopFds ls l := by
      intro hf; simp [nhopFds, hf]
    have hskip : nbrToFd ls h = -1 → nhopFds ls (h :: l) = nhopFds ls l := by
      intro hf; simp [nhopFds, hf]
    have hmem : ∀ {y}, y ∈ nhopFds ls l → y ≠ -1 ∧ ∃ a, AltNb ls d a ∧ nbrToFd ls a = y := by
      intro y hy
      obtain ⟨a, ha, he, hne'⟩ := mem_nhopFds.1 hy
      exact ⟨hne', a, (g5 a).1 ha, he⟩
    have hmem' : ∀ a, AltNb ls d a → nbrToFd ls a ≠ -1 → nbrToFd ls a ∈ nhopFds ls l :=
      fun a ha hne' => mem_nhopFds.2 ⟨a, (g5 a).2 ha, rfl, hne'⟩
    by_cases hf : nhopFds ls (h :: l) = []
    · have hf1 : nbrToFd ls h = -1 := by
        by_contra hc
        rw [hhead hc] at hf
        cases hf
      rw [if_pos hf] at hk
      refine ⟨h, m, -1, Graph.dist_uniq hD g3, g2, g4, alt_nhop_none hR.1 hk, fun hc => absurd hf1 hc, fun _ => .inl ⟨rfl, fun a ha => ?_⟩,
        fun hc => absurd rfl hc⟩
      by_contra hc
      have := hmem' a ha hc
      rw [← hskip hf1, hf] at this
      cases this
    · rw [if_neg hf] at hk
      have hn := alt_nhop_some hR hk
      have hx1 : nbrToFd ls h ≠ -1 → (nhopFds ls (h :: l)).headD 0 = nbrToFd ls h := fun hc => by rw [hhead hc]; rfl
      refine ⟨h, m, _, Graph.dist_uniq hD g3, g2, g4, hn, hx1, ?_, ?_⟩
      · intro hc
        refine .inr ?_
        have : (nhopFds ls (h :: l)).headD 0 ∈ nhopFds ls l := by
          rw [hskip hc] at hf ⊢
          cases hl : nhopFds ls l with
          | nil => exact absurd hl hf
          | cons x xs => exact List.mem_cons_self ..
        exact hmem this
      · intro hx
        obtain ⟨s'', e'', -, hq⟩ := Pff.flow_spec hR.1 ((nhopFds ls (h :: l)).headD 0) false (by simp)
        obtain ⟨x0, y, hx0, hy, -, hyl, -, hdn⟩ := hq _ _ hk
        rw [hn] at hx0
        have hx0 := Outcome.ok.inj hx0
        refine ⟨s'', y, e'', hy, ?_, ?_⟩
        · intro hyx
          have : y ∈ nhopFds ls l := by
            by_cases hc : nbrToFd ls h = -1
            · rw [hskip hc] at hyl; exact hyl
            · rw [hhead hc] at hyl
              rcases List.mem_cons.1 hyl with h' | h'
              · exact absurd (h'.trans (hx1 hc).symm) hyx
              · exact h'
          exact hmem this
        · intro hyx a ha
          by_contra hc
          rw [not_or] at hc
          rcases (hdn rfl).2 hx0.symm with h0 | ⟨h0, -⟩
          · rw [hyx] at h0
            simp [Spec.NextHop.downStep] at h0
          · have hin : nbrToFd ls a ∈ nhopFds ls (h :: l) := by
              have := hmem' a ha hc.2
              by_cases hc' : nbrToFd ls h = -1
              · rw [hskip hc']; exact this
              · rw [hhead hc']; exact List.mem_cons_of_mem _ this
            have := h0 _ hin
            unfold Spec.NextHop.downStep at this
            dsimp only at this
            rw [if_neg hc.1] at this
            omega

end Ouro.Lsdb
