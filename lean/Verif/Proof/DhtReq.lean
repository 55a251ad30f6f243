import Verif.Spec.DhtReq
import Verif.Proof.Tac

namespace Ouro.DhtReq

theorem qs_set {l : List Q} {q : Nat} {x y : Q} (h : l[q]? = some x) (j : Nat) :
    (l.set q y)[j]? = if j = q then some y else l[j]? := by
  have hl : q < l.length := by
    rcases Nat.lt_or_ge q l.length with h' | h'
    · exact h'
    · rw [List.getElem?_eq_none h'] at h; cases h
  rw [List.getElem?_set]
  by_cases hj : q = j
  · subst hj; simp [hl]
  · simp [hj, Ne.symm hj]

theorem setStage_eq {s : St} {q : Nat} {x : Q} (h : s.qs[q]? = some x) (t : Stage) :
    setStage s q t = { s with qs := s.qs.set q { x with stage := t } } := by
  simp only [setStage, h]

theorem freeCookie_some {u : Nat → Bool} {c : Nat} (h : freeCookie u = some c) : u c = false ∧ 1 ≤ c ∧ c ≤ maxReqs := by
  have h1 := List.find?_some h
  have h2 := List.mem_of_find?_eq_some h
  simp only [List.mem_map, List.mem_range] at h2
  obtain ⟨a, ha, rfl⟩ := h2
  refine ⟨by simpa using h1, by omega, by omega⟩

theorem freeCookie_none {u : Nat → Bool} (h : freeCookie u = none) {c : Nat} (h1 : 1 ≤ c) (h2 : c ≤ maxReqs) : u c = true := by
  rw [freeCookie, List.find?_eq_none] at h
  have := h c (by rw [List.mem_map]; exact ⟨c - 1, by rw [List.mem_range]; omega, by omega⟩)
  simpa using this

theorem release_ok {u : Nat → Bool} {c : Nat} (h1 : 1 ≤ c) (h2 : c ≤ maxReqs) : release u c = .ok fun x => if x = c then false else u x := by
  rw [release, if_neg (by omega), if_neg (by omega)]

theorem release_le {u u' : Nat → Bool} {c : Nat} (h : release u c = .ok u') (x : Nat) : u' x = true → u x = true := by
  simp only [release] at h
  split at h
  · cases h; exact id
  · split at h
    · cases h
    · cases h
      dsimp only
      split
      · intro h; cases h
      · exact id

/-! ## Every run -/

/-- Cookies of a lookup are cookies of its questions. -/
structure Own (s : St) : Prop where
  cookies : ∀ l, ∀ c ∈ (s.lk l).cookies, ∃ (q : Nat) (x : Q), s.qs[q]? = some x ∧ x.lk = l ∧ x.cookie = c
  given : ∀ p ∈ s.given, ∃ (q : Nat) (x : Q), s.qs[q]? = some x ∧ x.lk = p.1 ∧ x.cookie = p.2.cookie
  addrs : ∀ l, ∀ a ∈ (s.lk l).addrs, ∃ m, (l, m) ∈ s.given ∧ a ∈ m.addrs
  fresh : ∀ p ∈ s.given, p.1 < s.n
  lks : ∀ l ∈ s.lks, l < s.n

theorem own_init : Own init := ⟨by simp [init], by simp [init], by simp [init], by simp [init], by simp [init]⟩

/-- Questions are kept, but for their stage. -/
def Keep (a b : List Q) : Prop := ∀ (q : Nat) (x : Q), a[q]? = some x → ∃ y : Q, b[q]? = some y ∧ y.lk = x.lk ∧ y.cookie = x.cookie

theorem keep_refl (a : List Q) : Keep a a := fun _ x h => ⟨x, h, rfl, rfl⟩

theorem keep_append (a b : List Q) : Keep a (a ++ b) := fun q x h => ⟨x, by
  have hl : q < a.length := by
    rcases Nat.lt_or_ge q a.length with h' | h'
    · exact h'
    · rw [List.getElem?_eq_none h'] at h; cases h
  rw [List.getElem?_append_left hl, h], rfl, rfl⟩

theorem keep_set {l : List Q} {q : Nat} {x : Q} (h : l[q]? = some x) (t : Stage) : Keep l (l.set q { x with stage := t }) := by
  intro j y hy
  rw [qs_set h]
  split
  · rename_i e; subst e; rw [h] at hy; cases hy; exact ⟨_, rfl, rfl, rfl⟩
  · exact ⟨y, hy, rfl, rfl⟩

theorem mem_update_cookies {l : Lk} {m : Resp} {c : Nat} (h : c ∈ (update l m).cookies) : c ∈ l.cookies := by
  have : (update l m).cookies = (l.cookies.erase m.cookie).erase m.cookie := by
    simp only [update]; split
    · rfl
    · split <;> rfl
  rw [this] at h
  exact List.mem_of_mem_erase (List.mem_of_mem_erase h)

theorem update_cookies (l : Lk) (m : Resp) : (update l m).cookies = (l.cookies.erase m.cookie).erase m.cookie := by
  simp only [update]; split
  · rfl
  · split <;> rfl

theorem update_key (l : Lk) (m : Resp) : (update l m).key = l.key := by
  simp only [update]; split
  · rfl
  · split <;> rfl

theorem mem_update_addrs {l : Lk} {m : Resp} {a : Nat} (h : a ∈ (update l m).addrs) : a ∈ l.addrs ∨ a ∈ m.addrs := by
  simp only [update] at h
  split at h
  · exact .inl h
  · split at h
    · exact .inl h
    · dsimp only at h
      split at h
      · exact .inr h
      · exact .inl h

theorem own_step {s s' : St} {op : Op} (I : Own s) (h : step s op = .ok s') : Own s' ∧ Keep s.qs s'.qs := by
  have same : s = s' → Own s' ∧ Keep s.qs s'.qs := by rintro rfl; exact ⟨I, keep_refl _⟩
  have qsOnly : ∀ (qs : List Q) (reqs : List Nat) (used : Nat → Bool) (hands : List (Nat × Resp)), Keep s.qs qs →
      s' = { s with qs := qs, reqs := reqs, used := used, hands := hands } → Own s' ∧ Keep s.qs s'.qs := by
    rintro qs reqs used hands hk rfl
    refine ⟨⟨fun l c hc => ?_, fun p hp => ?_, I.addrs, I.fresh, I.lks⟩, hk⟩
    · obtain ⟨q, x, h1, h2, h3⟩ := I.cookies l c hc
      obtain ⟨y, h4, h5, h6⟩ := hk q x h1
      exact ⟨q, y, h4, h5.trans h2, h6.trans h3⟩
    · obtain ⟨q, x, h1, h2, h3⟩ := I.given p hp
      obtain ⟨y, h4, h5, h6⟩ := hk q x h1
      exact ⟨q, y, h4, h5.trans h2, h6.trans h3⟩
  cases op with
  | start key =>
    simp only [step, Outcome.ok.injEq] at h
    subst h
    refine ⟨⟨fun l c hc => ?_, I.given, fun l a ha => ?_, fun p hp => by have := I.fresh p hp; simp only [setLk]; omega, fun l hl => ?_⟩, keep_refl _⟩
    · simp only [setLk] at hc
      split at hc
      · simp at hc
      · exact I.cookies l c hc
    · simp only [setLk] at ha
      split at ha
      · simp at ha
      · exact I.addrs l a ha
    · simp only [List.mem_cons] at hl
      rcases hl with rfl | hl
      · simp only [setLk]; omega
      · have := I.lks l hl; simp only [setLk]; omega
  | ask l addr =>
    simp only [step] at h
    split at h
    · split at h
      · cases h; exact same rfl
      · cases h; exact qsOnly _ _ _ _ (keep_append _ _) rfl
    · cases h; exact same rfl
  | fail q =>
    simp only [step] at h
    split at h
    · rename_i x hx
      split at h
      · cases hr : release s.used x.cookie with
        | ub => rw [hr] at h; cases h
        | ok u =>
          rw [hr, setStage_eq hx] at h
          cases h
          exact qsOnly _ _ _ _ (keep_set hx _) rfl
      · cases h; exact same rfl
    · cases h; exact same rfl
  | list q =>
    simp only [step] at h
    split at h
    · rename_i x hx
      split at h
      · rw [setStage_eq hx] at h
        cases h
        exact qsOnly _ _ _ _ (keep_set hx _) rfl
      · cases h; exact same rfl
    · cases h; exact same rfl
  | record q =>
    simp only [step] at h
    split at h
    · rename_i x hx
      split at h
      · rw [setStage_eq hx] at h
        simp only [setLk, Outcome.ok.injEq] at h
        subst h
        have hk := keep_set hx .recorded
        refine ⟨⟨fun l c hc => ?_, fun p hp => ?_, fun l a ha => ?_, I.fresh, I.lks⟩, hk⟩
        · dsimp only at hc ⊢
          have : c ∈ (s.lk l).cookies ∨ (l = x.lk ∧ c = x.cookie) := by
            split at hc
            · rename_i e; subst e
              simp only [List.mem_append, List.mem_singleton] at hc
              rcases hc with hc | hc
              · exact .inl hc
              · exact .inr ⟨rfl, hc⟩
            · exact .inl hc
          rcases this with hc | ⟨rfl, rfl⟩
          · obtain ⟨q, x, h1, h2, h3⟩ := I.cookies l c hc
            obtain ⟨y, h4, h5, h6⟩ := hk q x h1
            exact ⟨q, y, h4, h5.trans h2, h6.trans h3⟩
          · obtain ⟨y, h4, h5, h6⟩ := hk q x hx
            exact ⟨q, y, h4, h5, h6⟩
        · obtain ⟨q, x, h1, h2, h3⟩ := I.given p hp
          obtain ⟨y, h4, h5, h6⟩ := hk q x h1
          exact ⟨q, y, h4, h5.trans h2, h6.trans h3⟩
        · dsimp only at ha ⊢
          split at ha
          · rename_i e; subst e; exact I.addrs _ a ha
          · exact I.addrs l a ha
      · cases h; exact same rfl
    · cases h; exact same rfl
  | reply m =>
    simp only [step] at h
    split at h
    · cases h; exact same rfl
    · rename_i q hq
      cases hr : release s.used (s.cookie q) with
      | ub => rw [hr] at h; cases h
      | ok u => rw [hr] at h; cases h; exact qsOnly _ _ _ _ (keep_refl _) rfl
  | deliver i =>
    simp only [step] at h
    split at h
    · cases h; exact same rfl
    · rename_i q m hm
      split at h
      · cases h; exact qsOnly _ _ _ _ (keep_refl _) rfl
      · rename_i l hl
        cases h
        have hc := List.find?_some hl
        have hmem := List.mem_of_find?_eq_some hl
        simp only [decide_eq_true_eq] at hc
        refine ⟨⟨fun j c hc => ?_, fun p hp => ?_, fun j a ha => ?_, fun p hp => ?_, I.lks⟩, keep_refl _⟩
        · simp only [setLk] at hc
          split at hc
          · rename_i e; subst e; exact I.cookies _ c (mem_update_cookies hc)
          · exact I.cookies j c hc
        · simp only [List.mem_append, List.mem_singleton] at hp
          rcases hp with hp | rfl
          · exact I.given p hp
          · exact I.cookies l m.cookie hc
        · simp only [setLk] at ha ⊢
          simp only [List.mem_append, List.mem_singleton, Prod.mk.injEq]
          split at ha
          · rename_i e; subst e
            rcases mem_update_addrs ha with ha | ha
            · obtain ⟨m', h1, h2⟩ := I.addrs _ a ha; exact ⟨m', .inl h1, h2⟩
            · exact ⟨m, .inr ⟨rfl, rfl⟩, ha⟩
          · obtain ⟨m', h1, h2⟩ := I.addrs _ a ha; exact ⟨m', .inl h1, h2⟩
        · simp only [List.mem_append, List.mem_singleton] at hp
          rcases hp with hp | rfl
          · exact I.fresh p hp
          · exact I.lks l hmem
  | expire q =>
    simp only [step] at h
    split at h
    · cases hr : release s.used (s.cookie q) with
      | ub => rw [hr] at h; cases h
      | ok u => rw [hr] at h; cases h; exact qsOnly _ _ _ _ (keep_refl _) rfl
    · cases h; exact same rfl
  | close l =>
    simp only [step, Outcome.ok.injEq] at h
    subst h
    refine ⟨⟨fun j c hc => ?_, I.given, fun j a ha => ?_, I.fresh, I.lks⟩, keep_refl _⟩
    · simp only [setLk] at hc
      split at hc
      · rename_i e; subst e; exact I.cookies _ c hc
      · exact I.cookies j c hc
    · simp only [setLk] at ha
      split at ha
      · rename_i e; subst e; exact I.addrs _ a ha
      · exact I.addrs j a ha
  | finish l =>
    simp only [step, Outcome.ok.injEq] at h
    subst h
    exact ⟨⟨I.cookies, I.given, I.addrs, I.fresh, fun j hj => I.lks j (List.mem_of_mem_erase hj)⟩, keep_refl _⟩
  | respFail c =>
    simp only [step] at h
    cases hr : release s.used c with
    | ub => rw [hr] at h; cases h
    | ok u => rw [hr] at h; cases h; exact qsOnly _ _ _ _ (keep_refl _) rfl

theorem own_reach {ok : St → Op → Prop} {s : St} (h : Reach ok s) : Own s := by
  induction h with
  | init => exact own_init
  | step _ _ hs ih => exact (own_step ih hs).1

/-! ## Cookies in use -/

/-- Question `q` is `x` and holds its cookie. -/
def Live (s : St) (q : Nat) (x : Q) : Prop := s.qs[q]? = some x ∧ (x.stage = .allocated ∨ q ∈ s.reqs)

/-- Cookies in use are distinct. -/
structure Uniq (s : St) : Prop where
  range : ∀ (q : Nat) (x : Q), s.qs[q]? = some x → 1 ≤ x.cookie ∧ x.cookie ≤ maxReqs
  req : ∀ q ∈ s.reqs, ∃ x, s.qs[q]? = some x ∧ (x.stage = .listed ∨ x.stage = .recorded)
  nd : s.reqs.Nodup
  used : ∀ (q : Nat) (x : Q), Live s q x → s.used x.cookie = true
  uniq : ∀ (q q' : Nat) (x x' : Q), Live s q x → Live s q' x' → x.cookie = x'.cookie → q = q'

theorem uniq_init : Uniq init := ⟨by simp [init], by simp [init], by simp [init], by simp [Live, init], by simp [Live, init]⟩

theorem cookie_eq {s : St} {q : Nat} {x : Q} (h : s.qs[q]? = some x) : s.cookie q = x.cookie := by simp only [St.cookie, h]

theorem uniq_step {s s' : St} {op : Op} (I : Uniq s) (ho : ∀ c, op ≠ .respFail c) (h : step s op = .ok s') : Uniq s' := by
  have same : s = s' → Uniq s' := by rintro rfl; exact I
  have lks : ∀ (lks : List Nat) (lk : Nat → Lk) (n : Nat) (hands given : List (Nat × Resp)),
      s' = { s with lks := lks, lk := lk, n := n, hands := hands, given := given } → Uniq s' := by
    rintro lks lk n hands given rfl
    exact ⟨I.range, I.req, I.nd, I.used, I.uniq⟩
  -- a request is taken off and its cookie released
  have off : ∀ (q : Nat) (u : Nat → Bool) (hands : List (Nat × Resp)), q ∈ s.reqs → release s.used (s.cookie q) = .ok u →
      s' = { s with used := u, reqs := s.reqs.erase q, hands := hands } → Uniq s' := by
    rintro q u hands hq hu rfl
    obtain ⟨x, hx, hst⟩ := I.req q hq
    have hlq : Live s q x := ⟨hx, .inr hq⟩
    rw [cookie_eq hx, release_ok (I.range q x hx).1 (I.range q x hx).2] at hu
    cases hu
    have sub : ∀ (j : Nat) (y : Q), Live { s with used := fun z => if z = x.cookie then false else s.used z, reqs := s.reqs.erase q, hands := hands } j y →
        Live s j y ∧ j ≠ q := by
      rintro j y ⟨h1, h2⟩
      dsimp only at h1 h2
      have hjq : j ≠ q := by
        rintro rfl
        rcases h2 with h2 | h2
        · rw [h1] at hx; cases hx; rcases hst with h3 | h3 <;> rw [h2] at h3 <;> cases h3
        · exact (List.Nodup.mem_erase_iff I.nd).mp h2 |>.1 rfl
      exact ⟨⟨h1, h2.imp id List.mem_of_mem_erase⟩, hjq⟩
    refine ⟨I.range, fun j hj => I.req j (List.mem_of_mem_erase hj), I.nd.erase _, fun j y hj => ?_, fun j j' y y' hj hj' e => ?_⟩
    · obtain ⟨h1, h2⟩ := sub j y hj
      dsimp only
      rw [if_neg]
      · exact I.used j y h1
      · intro e; exact h2 (I.uniq j q y x h1 hlq e)
    · exact I.uniq j j' y y' (sub j y hj).1 (sub j' y' hj').1 e
  cases op with
  | start key => simp only [step, Outcome.ok.injEq] at h; exact lks _ _ _ _ _ h.symm
  | ask l addr =>
    simp only [step] at h
    split at h
    · split at h
      · cases h; exact same rfl
      · rename_i c hc
        cases h
        obtain ⟨hf, h1, h2⟩ := freeCookie_some hc
        have get : ∀ (j : Nat) (y : Q), (s.qs ++ [⟨l, addr, c, .allocated⟩])[j]? = some y →
            s.qs[j]? = some y ∨ (j = s.qs.length ∧ y = ⟨l, addr, c, .allocated⟩) := by
          intro j y hy
          rcases Nat.lt_trichotomy j s.qs.length with hj | rfl | hj
          · rw [List.getElem?_append_left hj] at hy; exact .inl hy
          · simp at hy; exact .inr ⟨rfl, hy.symm⟩
          · rw [List.getElem?_eq_none (by simp; omega)] at hy; cases hy
        have hlen : ∀ q ∈ s.reqs, q < s.qs.length := by
          intro q hq
          obtain ⟨x, hx, _⟩ := I.req q hq
          rcases Nat.lt_or_ge q s.qs.length with h' | h'
          · exact h'
          · rw [List.getElem?_eq_none h'] at hx; cases hx
        refine ⟨fun j y hy => ?_, fun q hq => ?_, I.nd, fun j y hj => ?_, fun j j' y y' hj hj' e => ?_⟩
        · rcases get j y hy with hy | ⟨_, rfl⟩
          · exact I.range j y hy
          · exact ⟨h1, h2⟩
        · obtain ⟨x, hx, hs⟩ := I.req q hq
          exact ⟨x, by dsimp only; rw [List.getElem?_append_left (hlen q hq), hx], hs⟩
        · dsimp only
          split
          · rfl
          · rename_i hne
            rcases get j y hj.1 with hy | ⟨_, rfl⟩
            · exact I.used j y ⟨hy, hj.2⟩
            · exact absurd rfl hne
        · have fr : ∀ (j : Nat) (y : Q), s.qs[j]? = some y → (y.stage = .allocated ∨ j ∈ s.reqs) → y.cookie ≠ c := by
            intro j y hy hl hc'
            have := I.used j y ⟨hy, hl⟩
            rw [hc', hf] at this; cases this
          rcases get j y hj.1 with hy | ⟨rfl, rfl⟩
          · rcases get j' y' hj'.1 with hy' | ⟨rfl, rfl⟩
            · exact I.uniq j j' y y' ⟨hy, hj.2⟩ ⟨hy', hj'.2⟩ e
            · exact absurd e (fr j y hy hj.2)
          · rcases get j' y' hj'.1 with hy' | ⟨rfl, rfl⟩
            · exact absurd e.symm (fr j' y' hy' hj'.2)
            · rfl
    · cases h; exact same rfl
  | fail q =>
    simp only [step] at h
    split at h
    · rename_i x hx
      split at h
      · rename_i hst
        rw [release_ok (I.range q x hx).1 (I.range q x hx).2, setStage_eq hx] at h
        cases h
        have hlq : Live s q x := ⟨hx, .inl hst⟩
        have hnq : q ∉ s.reqs := by
          intro hq
          obtain ⟨y, hy, hs⟩ := I.req q hq
          rw [hx] at hy; cases hy
          rcases hs with hs | hs <;> rw [hst] at hs <;> cases hs
        have sub : ∀ (j : Nat) (y : Q), (s.qs.set q { x with stage := .failed })[j]? = some y → (y.stage = .allocated ∨ j ∈ s.reqs) → Live s j y ∧ j ≠ q := by
          intro j y hy hl
          rw [qs_set hx] at hy
          split at hy
          · rename_i e; subst e; cases hy
            rcases hl with hl | hl
            · cases hl
            · exact absurd hl hnq
          · rename_i e; exact ⟨⟨hy, hl⟩, e⟩
        refine ⟨fun j y hy => ?_, fun j hj => ?_, I.nd, fun j y hj => ?_, fun j j' y y' hj hj' e => ?_⟩
        · dsimp only at hy
          rw [qs_set hx] at hy
          split at hy
          · cases hy; exact I.range q x hx
          · exact I.range j y hy
        · obtain ⟨y, hy, hs⟩ := I.req j hj
          refine ⟨y, ?_, hs⟩
          dsimp only
          rw [qs_set hx, if_neg (by rintro rfl; exact hnq hj), hy]
        · obtain ⟨h1, h2⟩ := sub j y hj.1 hj.2
          dsimp only
          rw [if_neg]
          · exact I.used j y h1
          · intro e; exact h2 (I.uniq j q y x h1 hlq e)
        · exact I.uniq j j' y y' (sub j y hj.1 hj.2).1 (sub j' y' hj'.1 hj'.2).1 e
      · cases h; exact same rfl
    · cases h; exact same rfl
  | list q =>
    simp only [step] at h
    split at h
    · rename_i x hx
      split at h
      · rename_i hst
        rw [setStage_eq hx] at h
        cases h
        have hlq : Live s q x := ⟨hx, .inl hst⟩
        have hnq : q ∉ s.reqs := by
          intro hq
          obtain ⟨y, hy, hs⟩ := I.req q hq
          rw [hx] at hy; cases hy
          rcases hs with hs | hs <;> rw [hst] at hs <;> cases hs
        have sub : ∀ (j : Nat) (y : Q), (s.qs.set q { x with stage := .listed })[j]? = some y → (y.stage = .allocated ∨ j ∈ q :: s.reqs) →
            ∃ z, Live s j z ∧ z.cookie = y.cookie := by
          intro j y hy hl
          rw [qs_set hx] at hy
          split at hy
          · rename_i e; subst e; cases hy
            exact ⟨x, hlq, rfl⟩
          · rename_i e
            exact ⟨y, ⟨hy, hl.imp id fun hl => (List.mem_cons.mp hl).resolve_left e⟩, rfl⟩
        refine ⟨fun j y hy => ?_, fun j hj => ?_, ?_, fun j y hj => ?_, fun j j' y y' hj hj' e => ?_⟩
        · dsimp only at hy
          rw [qs_set hx] at hy
          split at hy
          · cases hy; exact I.range q x hx
          · exact I.range j y hy
        · dsimp only
          by_cases e : j = q
          · subst e; exact ⟨_, by rw [qs_set hx, if_pos rfl], .inl rfl⟩
          · obtain ⟨y, hy, hs⟩ := I.req j ((List.mem_cons.mp hj).resolve_left e)
            exact ⟨y, by rw [qs_set hx, if_neg e, hy], hs⟩
        · exact List.nodup_cons.mpr ⟨hnq, I.nd⟩
        · obtain ⟨z, h1, h2⟩ := sub j y hj.1 hj.2
          rw [← h2]; exact I.used j z h1
        · obtain ⟨z, h1, h2⟩ := sub j y hj.1 hj.2
          obtain ⟨z', h1', h2'⟩ := sub j' y' hj'.1 hj'.2
          exact I.uniq j j' z z' h1 h1' (by rw [h2, h2', e])
      · cases h; exact same rfl
    · cases h; exact same rfl
  | record q =>
    simp only [step] at h
    split at h
    · rename_i x hx
      split at h
      · rename_i hst
        rw [setStage_eq hx] at h
        simp only [setLk, Outcome.ok.injEq] at h
        subst h
        have sub : ∀ (j : Nat) (y : Q), (s.qs.set q { x with stage := .recorded })[j]? = some y → (y.stage = .allocated ∨ j ∈ s.reqs) →
            ∃ z, Live s j z ∧ z.cookie = y.cookie := by
          intro j y hy hl
          rw [qs_set hx] at hy
          split at hy
          · rename_i e; subst e; cases hy
            rcases hl with hl | hl
            · cases hl
            · exact ⟨x, ⟨hx, .inr hl⟩, rfl⟩
          · exact ⟨y, ⟨hy, hl⟩, rfl⟩
        refine ⟨fun j y hy => ?_, fun j hj => ?_, I.nd, fun j y hj => ?_, fun j j' y y' hj hj' e => ?_⟩
        · dsimp only at hy
          rw [qs_set hx] at hy
          split at hy
          · cases hy; exact I.range q x hx
          · exact I.range j y hy
        · dsimp only
          obtain ⟨y, hy, hs⟩ := I.req j hj
          by_cases e : j = q
          · subst e; exact ⟨_, by rw [qs_set hx, if_pos rfl], .inr rfl⟩
          · exact ⟨y, by rw [qs_set hx, if_neg e, hy], hs⟩
        · obtain ⟨z, h1, h2⟩ := sub j y hj.1 hj.2
          rw [← h2]; exact I.used j z h1
        · obtain ⟨z, h1, h2⟩ := sub j y hj.1 hj.2
          obtain ⟨z', h1', h2'⟩ := sub j' y' hj'.1 hj'.2
          exact I.uniq j j' z z' h1 h1' (by rw [h2, h2', e])
      · cases h; exact same rfl
    · cases h; exact same rfl
  | reply m =>
    simp only [step] at h
    split at h
    · cases h; exact same rfl
    · rename_i q hq
      cases hr : release s.used (s.cookie q) with
      | ub => rw [hr] at h; cases h
      | ok u => rw [hr] at h; cases h; exact off q u _ (List.mem_of_find?_eq_some hq) hr rfl
  | deliver i =>
    simp only [step] at h
    split at h
    · cases h; exact same rfl
    · split at h
      · cases h; exact lks _ _ _ _ _ rfl
      · cases h; exact lks _ _ _ _ _ rfl
  | expire q =>
    simp only [step] at h
    split at h
    · rename_i hq
      cases hr : release s.used (s.cookie q) with
      | ub => rw [hr] at h; cases h
      | ok u => rw [hr] at h; cases h; exact off q u _ hq hr rfl
    · cases h; exact same rfl
  | close l => simp only [step, Outcome.ok.injEq] at h; exact lks _ _ _ _ _ h.symm
  | finish l => simp only [step, Outcome.ok.injEq] at h; exact lks _ _ _ _ _ h.symm
  | respFail c => exact absurd rfl (ho c)

theorem uniq_reach {ok : St → Op → Prop} (hok : ∀ s c, ¬ ok s (.respFail c)) {s : St} (h : Reach ok s) : Uniq s := by
  induction h with
  | init => exact uniq_init
  | step _ ho hs ih => exact uniq_step ih (by rintro c rfl; exact hok _ c ho) hs

/-- With all cookies accounted for, nothing goes wrong in memory. -/
theorem step_total {s : St} (I : Uniq s) {op : Op} (ho : ∀ c, op ≠ .respFail c) : ∃ s', step s op = .ok s' := by
  have rel : ∀ (q : Nat) (x : Q), s.qs[q]? = some x → ∃ u, release s.used x.cookie = .ok u := fun q x hx =>
    ⟨_, release_ok (I.range q x hx).1 (I.range q x hx).2⟩
  cases op with
  | start key => exact ⟨_, rfl⟩
  | ask l addr => simp only [step]; split <;> [split; skip] <;> exact ⟨_, rfl⟩
  | fail q =>
    simp only [step]
    split
    · rename_i x hx
      obtain ⟨u, hu⟩ := rel q x hx
      split
      · rw [hu]; exact ⟨_, rfl⟩
      · exact ⟨_, rfl⟩
    · exact ⟨_, rfl⟩
  | list q => simp only [step]; split <;> [split; skip] <;> exact ⟨_, rfl⟩
  | record q => simp only [step]; split <;> [split; skip] <;> exact ⟨_, rfl⟩
  | reply m =>
    simp only [step]
    split
    · exact ⟨_, rfl⟩
    · rename_i q hq
      obtain ⟨x, hx, _⟩ := I.req q (List.mem_of_find?_eq_some hq)
      obtain ⟨u, hu⟩ := rel q x hx
      rw [cookie_eq hx, hu]; exact ⟨_, rfl⟩
  | deliver i => simp only [step]; split <;> [skip; split] <;> exact ⟨_, rfl⟩
  | expire q =>
    simp only [step]
    split
    · rename_i hq
      obtain ⟨x, hx, _⟩ := I.req q hq
      obtain ⟨u, hu⟩ := rel q x hx
      rw [cookie_eq hx, hu]; exact ⟨_, rfl⟩
    · exact ⟨_, rfl⟩
  | close l => exact ⟨_, rfl⟩
  | finish l => exact ⟨_, rfl⟩
  | respFail c => exact absurd rfl (ho c)

/-! ## Timely responses -/

theorem eraseIdx_ne {α β : Type} [DecidableEq β] {f : α → β} : ∀ {l : List α} {i : Nat} {a : α}, (l.map f).Nodup → l[i]? = some a → ∀ b ∈ l.eraseIdx i, f b ≠ f a
  | [], _, _, _, h, _, _ => by simp at h
  | x :: l, 0, a, hn, h, b, hb => by
    simp only [List.getElem?_cons_zero, Option.some.injEq] at h
    subst h
    simp only [List.eraseIdx_cons_zero] at hb
    simp only [List.map_cons, List.nodup_cons, List.mem_map, not_exists, not_and] at hn
    exact fun e => hn.1 b hb e
  | x :: l, i + 1, a, hn, h, b, hb => by
    simp only [List.getElem?_cons_succ] at h
    simp only [List.eraseIdx_cons_succ, List.mem_cons] at hb
    simp only [List.map_cons, List.nodup_cons, List.mem_map, not_exists, not_and] at hn
    rcases hb with rfl | hb
    · exact fun e => hn.1 a (List.mem_of_getElem? h) e.symm
    · exact eraseIdx_ne hn.2 h b hb

theorem mem_eraseIdx_or {α : Type} : ∀ {l : List α} {i : Nat} {a : α}, l[i]? = some a → ∀ b ∈ l, b = a ∨ b ∈ l.eraseIdx i
  | [], _, _, h, _, _ => by simp at h
  | x :: l, 0, a, h, b, hb => by
    simp only [List.getElem?_cons_zero, Option.some.injEq] at h
    subst h
    simpa using hb
  | x :: l, i + 1, a, h, b, hb => by
    simp only [List.getElem?_cons_succ] at h
    simp only [List.eraseIdx_cons_succ, List.mem_cons] at hb ⊢
    rcases hb with rfl | hb
    · exact .inr (.inl rfl)
    · rcases mem_eraseIdx_or h b hb with h' | h'
      · exact .inl h'
      · exact .inr (.inr h')

theorem map_inj {α β : Type} {f : α → β} : ∀ {l : List α}, (l.map f).Nodup → ∀ a ∈ l, ∀ b ∈ l, f a = f b → a = b
  | [], _, a, ha, _, _, _ => by simp at ha
  | x :: l, hn, a, ha, b, hb, e => by
    simp only [List.map_cons, List.nodup_cons, List.mem_map, not_exists, not_and] at hn
    rcases List.mem_cons.mp ha with rfl | ha'
    · rcases List.mem_cons.mp hb with rfl | hb'
      · rfl
      · exact absurd e.symm (hn.1 b hb')
    · rcases List.mem_cons.mp hb with rfl | hb'
      · exact absurd e (hn.1 a ha')
      · exact map_inj hn.2 a ha' b hb' e

theorem mem_of_eraseIdx {α : Type} {l : List α} {i : Nat} {b : α} (h : b ∈ l.eraseIdx i) : b ∈ l := (List.eraseIdx_sublist l i).mem h

/-- Question `q` waits for a response, or for the response in hand to be given. -/
def Waits (s : St) (q : Nat) : Prop := q ∈ s.reqs ∨ ∃ m, (q, m) ∈ s.hands

/-- What holds as long as responses are timely. -/
structure Inv (s : St) : Prop where
  u : Uniq s
  o : Own s
  lksNd : s.lks.Nodup
  lkLt : ∀ (q : Nat) (x : Q), s.qs[q]? = some x → x.lk < s.n
  hand : ∀ p ∈ s.hands, ∃ x, s.qs[p.1]? = some x ∧ x.stage = .recorded ∧ p.2.ans = p.1 ∧ x.cookie = p.2.cookie ∧ s.used x.cookie = false
  handNd : (s.hands.map (·.2.cookie)).Nodup
  mine : ∀ l ∈ s.lks, ∀ c ∈ (s.lk l).cookies, ∃ (q : Nat) (x : Q), s.qs[q]? = some x ∧ x.lk = l ∧ x.cookie = c ∧ x.stage = .recorded ∧ Waits s q
  nd : ∀ l ∈ s.lks, (s.lk l).cookies.Nodup
  listed : ∀ (q : Nat) (x : Q), s.qs[q]? = some x → x.stage = .listed → x.lk ∈ s.lks → q ∈ s.reqs
  has : ∀ (q : Nat) (x : Q), s.qs[q]? = some x → x.stage = .recorded → x.lk ∈ s.lks → Waits s q → x.cookie ∈ (s.lk x.lk).cookies
  right : Right s

theorem inv_init : Inv init :=
  ⟨uniq_init, own_init, by simp [init], by simp [init], by simp [init], by simp [init], by simp [init], by simp [init], by simp [init], by simp [init],
    by simp [Right, init]⟩

/-- Questions that wait have distinct cookies. -/
theorem waits_uniq {s : St} (I : Inv s) {q q' : Nat} {x x' : Q} (hq : Waits s q) (hq' : Waits s q') (hx : s.qs[q]? = some x) (hx' : s.qs[q']? = some x')
    (e : x.cookie = x'.cookie) : q = q' := by
  have off : ∀ {q m x}, (q, m) ∈ s.hands → s.qs[q]? = some x → s.used x.cookie = false := by
    intro q m x h hx
    obtain ⟨y, hy, -, -, -, hu⟩ := I.hand _ h
    rw [hx] at hy; cases hy; exact hu
  rcases hq with hq | ⟨m, hq⟩
  · rcases hq' with hq' | ⟨m', hq'⟩
    · exact I.u.uniq q q' x x' ⟨hx, .inr hq⟩ ⟨hx', .inr hq'⟩ e
    · have h1 := I.u.used q x ⟨hx, .inr hq⟩
      have h2 := off hq' hx'
      rw [e, h2] at h1; cases h1
  · rcases hq' with hq' | ⟨m', hq'⟩
    · have h1 := I.u.used q' x' ⟨hx', .inr hq'⟩
      have h2 := off hq hx
      rw [← e, h2] at h1; cases h1
    · obtain ⟨y, hy, -, -, hc, -⟩ := I.hand _ hq
      obtain ⟨y', hy', -, -, hc', -⟩ := I.hand _ hq'
      rw [hx] at hy; cases hy
      rw [hx'] at hy'; cases hy'
      have := map_inj I.handNd _ hq _ hq' (by dsimp only at hc hc' ⊢; rw [← hc, ← hc', e])
      cases this; rfl

theorem right_keep {s s' : St} (hg : s'.given = s.given) (hk : Keep s.qs s'.qs) (h : Right s) : Right s' := by
  intro p hp
  rw [hg] at hp
  obtain ⟨x, h1, h2⟩ := h p hp
  obtain ⟨y, h3, h4, -⟩ := hk _ x h1
  exact ⟨y, h3, h4.trans h2⟩

theorem inv_step {s s' : St} {op : Op} (I : Inv s) (ho : Timely s op) (h : step s op = .ok s') : Inv s' := by
  have hu : Uniq s' := uniq_step I.u (by rintro c rfl; exact ho) h
  have ⟨hown, hkeep⟩ := own_step I.o h
  have same : s = s' → Inv s' := by rintro rfl; exact I
  cases op with
  | start key =>
    simp only [step, Outcome.ok.injEq] at h
    subst h
    have hlt : ∀ l ∈ s.lks, l ≠ s.n := fun l hl => Nat.ne_of_lt (I.o.lks l hl)
    refine ⟨hu, hown, ?_, fun q x hx => Nat.lt_succ_of_lt (I.lkLt q x hx), I.hand, I.handNd, fun l hl c hc => ?_, fun l hl => ?_, fun q x hx hst hl => ?_,
      fun q x hx hst hl hw => ?_, right_keep (s := s) rfl hkeep I.right⟩
    · exact List.nodup_cons.mpr ⟨fun hm => hlt _ hm rfl, I.lksNd⟩
    · simp only [setLk, List.mem_cons] at hl hc
      split at hc
      · simp at hc
      · rename_i e; exact I.mine l (hl.resolve_left e) c hc
    · simp only [setLk, List.mem_cons] at hl ⊢
      split
      · simp
      · rename_i e; exact I.nd l (hl.resolve_left e)
    · simp only [List.mem_cons] at hl
      have := I.lkLt q x hx
      exact I.listed q x hx hst (hl.resolve_left (by omega))
    · simp only [List.mem_cons] at hl
      have := I.lkLt q x hx
      have := I.has q x hx hst (hl.resolve_left (by omega)) hw
      simp only [setLk]
      rw [if_neg (by omega)]; exact this
  | ask l addr =>
    simp only [step] at h
    simp only [Timely] at ho
    split at h
    · rename_i hl
      split at h
      · cases h; exact same rfl
      · rename_i c hc
        cases h
        have get : ∀ (j : Nat) (y : Q), (s.qs ++ [⟨l, addr, c, .allocated⟩])[j]? = some y →
            s.qs[j]? = some y ∨ (j = s.qs.length ∧ y = ⟨l, addr, c, .allocated⟩) := by
          intro j y hy
          rcases Nat.lt_trichotomy j s.qs.length with hj | rfl | hj
          · rw [List.getElem?_append_left hj] at hy; exact .inl hy
          · simp at hy; exact .inr ⟨rfl, hy.symm⟩
          · rw [List.getElem?_eq_none (by simp; omega)] at hy; cases hy
        refine ⟨hu, hown, I.lksNd, fun q x hx => ?_, by simp [ho], by simp [ho], fun j hj d hd => ?_, I.nd, fun q x hx hst hj => ?_,
          fun q x hx hst hj hw => ?_, right_keep (s := s) rfl hkeep I.right⟩
        · rcases get q x hx with hx | ⟨_, rfl⟩
          · exact I.lkLt q x hx
          · exact I.o.lks l hl
        · obtain ⟨q, x, h1, h2, h3, h4, h5⟩ := I.mine j hj d hd
          exact ⟨q, x, by
            have hq : q < s.qs.length := by
              rcases Nat.lt_or_ge q s.qs.length with h' | h'
              · exact h'
              · rw [List.getElem?_eq_none h'] at h1; cases h1
            rw [List.getElem?_append_left hq, h1], h2, h3, h4, h5⟩
        · rcases get q x hx with hx | ⟨_, rfl⟩
          · exact I.listed q x hx hst hj
          · cases hst
        · rcases get q x hx with hx | ⟨_, rfl⟩
          · exact I.has q x hx hst hj hw
          · cases hst
    · cases h; exact same rfl
  | fail q =>
    simp only [step] at h
    split at h
    · rename_i x hx
      split at h
      · rename_i hst
        rw [release_ok (I.u.range q x hx).1 (I.u.range q x hx).2, setStage_eq hx] at h
        cases h
        have get : ∀ (j : Nat) (y : Q), (s.qs.set q { x with stage := .failed })[j]? = some y → y.stage ≠ .failed → j ≠ q ∧ s.qs[j]? = some y := by
          intro j y hy hs
          rw [qs_set hx] at hy
          split at hy
          · cases hy; exact absurd rfl hs
          · rename_i e; exact ⟨e, hy⟩
        have put : ∀ (j : Nat) (y : Q), s.qs[j]? = some y → y.stage = .recorded → (s.qs.set q { x with stage := .failed })[j]? = some y := by
          intro j y hy hs
          rw [qs_set hx, if_neg, hy]
          rintro rfl; rw [hx] at hy; cases hy; rw [hst] at hs; cases hs
        refine ⟨hu, hown, I.lksNd, fun j y hy => ?_, fun p hp => ?_, I.handNd, fun j hj d hd => ?_, I.nd, fun j y hy hs hj => ?_, fun j y hy hs hj hw => ?_,
          right_keep (s := s) rfl hkeep I.right⟩
        · dsimp only at hy
          rw [qs_set hx] at hy
          split at hy
          · cases hy; exact I.lkLt q x hx
          · exact I.lkLt j y hy
        · obtain ⟨y, h1, h2, h3, h4, h5⟩ := I.hand p hp
          refine ⟨y, put _ y h1 h2, h2, h3, h4, ?_⟩
          dsimp only
          split
          · rfl
          · exact h5
        · obtain ⟨k, y, h1, h2, h3, h4, h5⟩ := I.mine j hj d hd
          exact ⟨k, y, put k y h1 h4, h2, h3, h4, h5⟩
        · exact I.listed j y (get j y hy (by rw [hs]; simp)).2 hs hj
        · exact I.has j y (get j y hy (by rw [hs]; simp)).2 hs hj hw
      · cases h; exact same rfl
    · cases h; exact same rfl
  | list q =>
    simp only [step] at h
    split at h
    · rename_i x hx
      split at h
      · rename_i hst
        rw [setStage_eq hx] at h
        cases h
        have put : ∀ (j : Nat) (y : Q), s.qs[j]? = some y → y.stage = .recorded → (s.qs.set q { x with stage := .listed })[j]? = some y := by
          intro j y hy hs
          rw [qs_set hx, if_neg, hy]
          rintro rfl; rw [hx] at hy; cases hy; rw [hst] at hs; cases hs
        refine ⟨hu, hown, I.lksNd, fun j y hy => ?_, fun p hp => ?_, I.handNd, fun j hj d hd => ?_, I.nd, fun j y hy hs hj => ?_, fun j y hy hs hj hw => ?_,
          right_keep (s := s) rfl hkeep I.right⟩
        · dsimp only at hy
          rw [qs_set hx] at hy
          split at hy
          · cases hy; exact I.lkLt q x hx
          · exact I.lkLt j y hy
        · obtain ⟨y, h1, h2, h3, h4, h5⟩ := I.hand p hp
          exact ⟨y, put _ y h1 h2, h2, h3, h4, h5⟩
        · obtain ⟨k, y, h1, h2, h3, h4, h5⟩ := I.mine j hj d hd
          exact ⟨k, y, put k y h1 h4, h2, h3, h4, h5.imp (List.mem_cons_of_mem _) id⟩
        · dsimp only at hy
          rw [qs_set hx] at hy
          split at hy
          · rename_i e; subst e; exact List.mem_cons_self
          · exact List.mem_cons_of_mem _ (I.listed j y hy hs hj)
        · dsimp only at hy
          rw [qs_set hx] at hy
          split at hy
          · cases hy; cases hs
          · rename_i e
            exact I.has j y hy hs hj (hw.imp (fun h => (List.mem_cons.mp h).resolve_left e) id)
      · cases h; exact same rfl
    · cases h; exact same rfl
  | record q =>
    simp only [step] at h
    split at h
    · rename_i x hx
      split at h
      · rename_i hst
        obtain ⟨hst, hlk⟩ := hst
        rw [setStage_eq hx] at h
        simp only [setLk, Outcome.ok.injEq] at h
        subst h
        have hq : q ∈ s.reqs := I.listed q x hx hst hlk
        have put : ∀ (j : Nat) (y : Q), s.qs[j]? = some y → y.stage = .recorded → (s.qs.set q { x with stage := .recorded })[j]? = some y := by
          intro j y hy hs
          rw [qs_set hx, if_neg, hy]
          rintro rfl; rw [hx] at hy; cases hy; rw [hst] at hs; cases hs
        have new : x.cookie ∉ (s.lk x.lk).cookies := by
          intro hc
          obtain ⟨k, y, h1, h2, h3, h4, h5⟩ := I.mine _ hlk _ hc
          have := waits_uniq I h5 (.inl hq) h1 hx h3
          subst this
          rw [hx] at h1; cases h1; rw [hst] at h4; cases h4
        refine ⟨hu, hown, I.lksNd, fun j y hy => ?_, fun p hp => ?_, I.handNd, fun j hj d hd => ?_, fun j hj => ?_, fun j y hy hs hj => ?_, fun j y hy hs hj hw => ?_,
          right_keep (s := s) rfl hkeep I.right⟩
        · dsimp only at hy
          rw [qs_set hx] at hy
          split at hy
          · cases hy; exact I.lkLt q x hx
          · exact I.lkLt j y hy
        · obtain ⟨y, h1, h2, h3, h4, h5⟩ := I.hand p hp
          exact ⟨y, put _ y h1 h2, h2, h3, h4, h5⟩
        · dsimp only at hd
          have : d ∈ (s.lk j).cookies ∨ (j = x.lk ∧ d = x.cookie) := by
            split at hd
            · rename_i e; subst e
              simp only [List.mem_append, List.mem_singleton] at hd
              exact hd.imp id fun hd => ⟨rfl, hd⟩
            · exact .inl hd
          rcases this with hd | ⟨rfl, rfl⟩
          · obtain ⟨k, y, h1, h2, h3, h4, h5⟩ := I.mine j hj d hd
            exact ⟨k, y, put k y h1 h4, h2, h3, h4, h5⟩
          · exact ⟨q, { x with stage := .recorded }, by rw [qs_set hx, if_pos rfl], rfl, rfl, rfl, .inl hq⟩
        · dsimp only
          split
          · rename_i e; subst e
            rw [List.nodup_append]
            refine ⟨I.nd _ hj, by simp, fun a ha b hb => ?_⟩
            rw [List.mem_singleton] at hb
            rintro rfl; subst hb; exact new ha
          · exact I.nd j hj
        · dsimp only at hy
          rw [qs_set hx] at hy
          split at hy
          · cases hy; cases hs
          · exact I.listed j y hy hs hj
        · dsimp only at hy ⊢
          rw [qs_set hx] at hy
          split at hy
          · cases hy
            rw [if_pos rfl]; simp
          · have := I.has j y hy hs hj hw
            split
            · rename_i e; rw [e] at this; simp [this]
            · exact this
      · cases h; exact same rfl
    · cases h; exact same rfl
  | reply m =>
    simp only [step] at h
    simp only [Timely] at ho
    obtain ⟨x, hx, hc, hs, hm⟩ := ho
    split at h
    · cases h; exact same rfl
    · rename_i q hq
      have hqr := List.mem_of_find?_eq_some hq
      have hqc := List.find?_some hq
      simp only [decide_eq_true_eq] at hqc
      obtain ⟨y, hy, hys⟩ := I.u.req q hqr
      rw [cookie_eq hy] at hqc
      have e : q = m.ans := I.u.uniq q m.ans y x ⟨hy, .inr hqr⟩ ⟨hx, .inr hm⟩ (by rw [hqc, hc])
      subst e
      rw [hx] at hy; cases hy
      rw [cookie_eq hx, release_ok (I.u.range _ x hx).1 (I.u.range _ x hx).2] at h
      cases h
      have wt : ∀ j, Waits s j → Waits { s with used := fun z => if z = x.cookie then false else s.used z, reqs := s.reqs.erase m.ans, hands := (m.ans, m) :: s.hands } j := by
        rintro j (hj | ⟨m', hj⟩)
        · by_cases e : j = m.ans
          · subst e; exact .inr ⟨m, List.mem_cons_self⟩
          · exact .inl ((List.mem_erase_of_ne e).mpr hj)
        · exact .inr ⟨m', List.mem_cons_of_mem _ hj⟩
      have wt' : ∀ j, Waits { s with used := fun z => if z = x.cookie then false else s.used z, reqs := s.reqs.erase m.ans, hands := (m.ans, m) :: s.hands } j → Waits s j := by
        rintro j (hj | ⟨m', hj⟩)
        · exact .inl (List.mem_of_mem_erase hj)
        · simp only [List.mem_cons, Prod.mk.injEq] at hj
          rcases hj with ⟨rfl, _⟩ | hj
          · exact .inl hm
          · exact .inr ⟨m', hj⟩
      refine ⟨hu, hown, I.lksNd, I.lkLt, fun p hp => ?_, ?_, fun j hj d hd => ?_, I.nd, fun j y hy hs' hj => ?_, fun j y hy hs hj hw => ?_,
        right_keep (s := s) rfl hkeep I.right⟩
      · rcases List.mem_cons.mp hp with rfl | hp
        · exact ⟨x, hx, hs, rfl, hc, by simp⟩
        · obtain ⟨y, h1, h2, h3, h4, h5⟩ := I.hand p hp
          refine ⟨y, h1, h2, h3, h4, ?_⟩
          dsimp only
          split
          · rfl
          · exact h5
      · simp only [List.map_cons, List.nodup_cons, List.mem_map, not_exists, not_and]
        refine ⟨fun p hp e => ?_, I.handNd⟩
        obtain ⟨y, h1, h2, h3, h4, h5⟩ := I.hand p hp
        have := I.u.used m.ans x ⟨hx, .inr hm⟩
        rw [hc, ← e, ← h4, h5] at this; cases this
      · obtain ⟨k, y, h1, h2, h3, h4, h5⟩ := I.mine j hj d hd
        exact ⟨k, y, h1, h2, h3, h4, wt k h5⟩
      · refine (List.mem_erase_of_ne ?_).mpr (I.listed j y hy hs' hj)
        rintro rfl
        dsimp only at hy
        rw [hx] at hy; cases hy; rw [hs] at hs'; cases hs'
      · exact I.has j y hy hs hj (wt' j hw)
  | deliver i =>
    simp only [step] at h
    split at h
    · cases h; exact same rfl
    · rename_i q m hm
      obtain ⟨x, hx, hxs, ha, hxc, hxu⟩ := I.hand (q, m) (List.mem_of_getElem? hm)
      dsimp only at hx ha hxc
      have hwq : Waits s q := .inr ⟨m, List.mem_of_getElem? hm⟩
      -- others wait as before
      have oth : ∀ (j : Nat) (y : Q), s.qs[j]? = some y → Waits s j → y.cookie ≠ m.cookie → (j ∈ s.reqs ∨ ∃ m', (j, m') ∈ s.hands.eraseIdx i) := by
        rintro j y hy (hj | ⟨m', hj⟩) hne
        · exact .inl hj
        · rcases mem_eraseIdx_or hm _ hj with e | hj
          · cases e; rw [hx] at hy; cases hy; exact absurd hxc hne
          · exact .inr ⟨m', hj⟩
      have back : ∀ j, (j ∈ s.reqs ∨ ∃ m', (j, m') ∈ s.hands.eraseIdx i) → Waits s j := by
        rintro j (hj | ⟨m', hj⟩)
        · exact .inl hj
        · exact .inr ⟨m', mem_of_eraseIdx hj⟩
      have ne : ∀ (j : Nat) (y : Q), s.qs[j]? = some y → (j ∈ s.reqs ∨ ∃ m', (j, m') ∈ s.hands.eraseIdx i) → y.cookie ≠ m.cookie := by
        rintro j y hy (hj | ⟨m', hj⟩) e
        · have := I.u.used j y ⟨hy, .inr hj⟩
          rw [e, ← hxc, hxu] at this; cases this
        · obtain ⟨z, h1, h2, h3, h4, h5⟩ := I.hand _ (mem_of_eraseIdx hj)
          dsimp only at h1 h4
          rw [hy] at h1; cases h1
          exact eraseIdx_ne (f := fun p : Nat × Resp => p.2.cookie) I.handNd hm _ hj (by dsimp only; rw [← h4, e])
      have hand' : ∀ p ∈ s.hands.eraseIdx i, ∃ x, s.qs[p.1]? = some x ∧ x.stage = .recorded ∧ p.2.ans = p.1 ∧ x.cookie = p.2.cookie ∧ s.used x.cookie = false :=
        fun p hp => I.hand p (mem_of_eraseIdx hp)
      have nd' : ((s.hands.eraseIdx i).map (·.2.cookie)).Nodup := ((List.eraseIdx_sublist s.hands i).map _).nodup I.handNd
      split at h
      · rename_i hf
        cases h
        have nomine : ∀ l ∈ s.lks, m.cookie ∉ (s.lk l).cookies := by
          intro l hl hc
          have := List.find?_eq_none.mp hf l hl
          simp only [decide_eq_true_eq] at this
          exact this hc
        refine ⟨hu, hown, I.lksNd, I.lkLt, hand', nd', fun j hj d hd => ?_, I.nd, I.listed, fun j y hy hs hj hw => ?_, right_keep (s := s) rfl hkeep I.right⟩
        · obtain ⟨k, y, h1, h2, h3, h4, h5⟩ := I.mine j hj d hd
          refine ⟨k, y, h1, h2, h3, h4, oth k y h1 h5 ?_⟩
          rw [h3]; rintro rfl; exact nomine j hj hd
        · exact I.has j y hy hs hj (back j hw)
      · rename_i l hf
        cases h
        have hl := List.mem_of_find?_eq_some hf
        have hc := List.find?_some hf
        simp only [decide_eq_true_eq] at hc
        have hxl : x.lk = l := by
          obtain ⟨k, y, h1, h2, h3, h4, h5⟩ := I.mine l hl _ hc
          have := waits_uniq I h5 hwq h1 hx (by rw [h3, hxc])
          subst this
          rw [hx] at h1; cases h1; exact h2
        have only : ∀ j ∈ s.lks, m.cookie ∈ (s.lk j).cookies → j = l := by
          intro j hj hcj
          obtain ⟨k, y, h1, h2, h3, h4, h5⟩ := I.mine j hj _ hcj
          have := waits_uniq I h5 hwq h1 hx (by rw [h3, hxc])
          subst this
          rw [hx] at h1; cases h1; rw [← h2, hxl]
        have cks : (update (s.lk l) m).cookies = (s.lk l).cookies.erase m.cookie := by
          rw [update_cookies]
          refine List.erase_of_not_mem ?_
          rw [List.Nodup.mem_erase_iff (I.nd l hl)]; simp
        refine ⟨hu, hown, I.lksNd, I.lkLt, hand', nd', fun j hj d hd => ?_, fun j hj => ?_, I.listed, fun j y hy hs hj hw => ?_, fun p hp => ?_⟩
        · simp only [setLk] at hd
          have : d ∈ (s.lk j).cookies ∧ d ≠ m.cookie := by
            split at hd
            · rename_i e; subst e
              rw [cks, List.Nodup.mem_erase_iff (I.nd _ hl)] at hd
              exact ⟨hd.2, hd.1⟩
            · rename_i e
              exact ⟨hd, by rintro rfl; exact e (only j hj hd)⟩
          obtain ⟨k, y, h1, h2, h3, h4, h5⟩ := I.mine j hj d this.1
          exact ⟨k, y, h1, h2, h3, h4, oth k y h1 h5 (by rw [h3]; exact this.2)⟩
        · simp only [setLk]
          split
          · rename_i e; subst e; rw [cks]; exact (I.nd _ hl).erase _
          · exact I.nd j hj
        · have h1 := I.has j y hy hs hj (back j hw)
          simp only [setLk]
          split
          · rename_i e
            rw [cks, List.Nodup.mem_erase_iff (I.nd l hl)]
            exact ⟨ne j y hy hw, e ▸ h1⟩
          · exact h1
        · simp only [List.mem_append, List.mem_singleton] at hp
          rcases hp with hp | rfl
          · exact I.right p hp
          · exact ⟨x, by dsimp only [setLk]; rw [ha, hx], hxl⟩
  | expire q =>
    simp only [step] at h
    simp only [Timely] at ho
    split at h
    · rename_i hq
      obtain ⟨x, hx, hxs⟩ := I.u.req q hq
      have hxl := ho x hx
      rw [cookie_eq hx, release_ok (I.u.range _ x hx).1 (I.u.range _ x hx).2] at h
      cases h
      refine ⟨hu, hown, I.lksNd, I.lkLt, fun p hp => ?_, I.handNd, fun j hj d hd => ?_, I.nd, fun j y hy hs' hj => ?_, fun j y hy hs hj hw => ?_,
        right_keep (s := s) rfl hkeep I.right⟩
      · obtain ⟨y, h1, h2, h3, h4, h5⟩ := I.hand p hp
        refine ⟨y, h1, h2, h3, h4, ?_⟩
        dsimp only
        split
        · rfl
        · exact h5
      · obtain ⟨k, y, h1, h2, h3, h4, h5⟩ := I.mine j hj d hd
        refine ⟨k, y, h1, h2, h3, h4, h5.imp (fun h => (List.mem_erase_of_ne ?_).mpr h) id⟩
        rintro rfl; rw [hx] at h1; cases h1; exact hxl (h2 ▸ hj)
      · refine (List.mem_erase_of_ne ?_).mpr (I.listed j y hy hs' hj)
        rintro rfl
        dsimp only at hy
        rw [hx] at hy; cases hy; exact hxl hj
      · exact I.has j y hy hs hj (hw.imp List.mem_of_mem_erase id)
    · cases h; exact same rfl
  | close l =>
    simp only [step, Outcome.ok.injEq] at h
    subst h
    refine ⟨hu, hown, I.lksNd, I.lkLt, I.hand, I.handNd, fun j hj d hd => ?_, fun j hj => ?_, I.listed, fun j y hy hs hj hw => ?_, right_keep (s := s) rfl hkeep I.right⟩
    · simp only [setLk] at hd
      split at hd
      · rename_i e; subst e; exact I.mine _ hj d hd
      · exact I.mine j hj d hd
    · simp only [setLk]
      split
      · rename_i e; subst e; exact I.nd _ hj
      · exact I.nd j hj
    · have := I.has j y hy hs hj hw
      simp only [setLk]
      split
      · rename_i e; rw [e] at this; exact this
      · exact this
  | finish l =>
    simp only [step, Outcome.ok.injEq] at h
    subst h
    refine ⟨hu, hown, I.lksNd.erase _, I.lkLt, I.hand, I.handNd, fun j hj d hd => I.mine j (List.mem_of_mem_erase hj) d hd,
      fun j hj => I.nd j (List.mem_of_mem_erase hj), fun q x hx hst hl => I.listed q x hx hst (List.mem_of_mem_erase hl),
      fun q x hx hst hl hw => I.has q x hx hst (List.mem_of_mem_erase hl) hw, right_keep (s := s) rfl hkeep I.right⟩
  | respFail c => exact ho.elim

theorem inv_reach {s : St} (h : Reach Timely s) : Inv s := by
  induction h with
  | init => exact inv_init
  | step _ ho hs ih => exact inv_step ih ho hs

/-! ## Keys -/

theorem key_step {s s' : St} {op : Op} (h : step s op = .ok s') {l : Nat} (hl : l < s.n) : (s'.lk l).key = (s.lk l).key := by
  have one : ∀ (j : Nat) (v : Lk), v.key = (s.lk j).key → (if l = j then v else s.lk l).key = (s.lk l).key := by
    intro j v hv
    split
    · rename_i e; subst e; exact hv
    · rfl
  cases op with
  | start key =>
    simp only [step, Outcome.ok.injEq] at h
    subst h
    simp only [setLk]
    rw [if_neg (by omega)]
  | ask l addr => simp only [step] at h; split at h <;> [split at h; skip] <;> cases h <;> rfl
  | fail q =>
    simp only [step] at h
    split at h
    · rename_i x hx
      split at h
      · cases hr : release s.used x.cookie with
        | ub => rw [hr] at h; cases h
        | ok u => rw [hr, setStage_eq hx] at h; cases h; rfl
      · cases h; rfl
    · cases h; rfl
  | list q =>
    simp only [step] at h
    split at h
    · rename_i x hx
      split at h
      · rw [setStage_eq hx] at h; cases h; rfl
      · cases h; rfl
    · cases h; rfl
  | record q =>
    simp only [step] at h
    split at h
    · rename_i x hx
      split at h
      · rw [setStage_eq hx] at h
        cases h
        exact one _ _ rfl
      · cases h; rfl
    · cases h; rfl
  | reply m =>
    simp only [step] at h
    split at h
    · cases h; rfl
    · rename_i q hq
      cases hr : release s.used (s.cookie q) with
      | ub => rw [hr] at h; cases h
      | ok u => rw [hr] at h; cases h; rfl
  | deliver i =>
    simp only [step] at h
    split at h
    · cases h; rfl
    · split at h
      · cases h; rfl
      · cases h; exact one _ _ (update_key _ _)
  | expire q =>
    simp only [step] at h
    split at h
    · cases hr : release s.used (s.cookie q) with
      | ub => rw [hr] at h; cases h
      | ok u => rw [hr] at h; cases h; rfl
    · cases h; rfl
  | close j => simp only [step, Outcome.ok.injEq] at h; subst h; exact one _ _ rfl
  | finish j => simp only [step, Outcome.ok.injEq] at h; subst h; rfl
  | respFail c =>
    simp only [step] at h
    cases hr : release s.used c with
    | ub => rw [hr] at h; cases h
    | ok u => rw [hr] at h; cases h; rfl

/-- How one region changes the responses in hand and the responses given. -/
theorem hands_step {s s' : St} {op : Op} (h : step s op = .ok s') :
    (∀ p ∈ s'.hands, p ∈ s.hands ∨ op = .reply p.2) ∧ (∀ p ∈ s'.given, p ∈ s.given ∨ ∃ q, (q, p.2) ∈ s.hands) ∧ s.n ≤ s'.n := by
  have same : s'.hands = s.hands → s'.given = s.given → s'.n = s.n →
      (∀ p ∈ s'.hands, p ∈ s.hands ∨ op = .reply p.2) ∧ (∀ p ∈ s'.given, p ∈ s.given ∨ ∃ q, (q, p.2) ∈ s.hands) ∧ s.n ≤ s'.n := by
    intro h1 h2 h3
    exact ⟨fun p hp => .inl (h1 ▸ hp), fun p hp => .inl (h2 ▸ hp), h3.symm.le⟩
  cases op with
  | start key =>
    simp only [step, Outcome.ok.injEq] at h
    subst h
    exact ⟨fun p hp => .inl hp, fun p hp => .inl hp, Nat.le_succ _⟩
  | ask l addr => simp only [step] at h; split at h <;> [split at h; skip] <;> cases h <;> exact same rfl rfl rfl
  | fail q =>
    simp only [step] at h
    split at h
    · rename_i x hx
      split at h
      · cases hr : release s.used x.cookie with
        | ub => rw [hr] at h; cases h
        | ok u => rw [hr, setStage_eq hx] at h; cases h; exact same rfl rfl rfl
      · cases h; exact same rfl rfl rfl
    · cases h; exact same rfl rfl rfl
  | list q =>
    simp only [step] at h
    split at h
    · rename_i x hx
      split at h
      · rw [setStage_eq hx] at h; cases h; exact same rfl rfl rfl
      · cases h; exact same rfl rfl rfl
    · cases h; exact same rfl rfl rfl
  | record q =>
    simp only [step] at h
    split at h
    · rename_i x hx
      split at h
      · rw [setStage_eq hx] at h
        cases h
        exact same rfl rfl rfl
      · cases h; exact same rfl rfl rfl
    · cases h; exact same rfl rfl rfl
  | reply m =>
    simp only [step] at h
    split at h
    · cases h; exact same rfl rfl rfl
    · rename_i q hq
      cases hr : release s.used (s.cookie q) with
      | ub => rw [hr] at h; cases h
      | ok u =>
        rw [hr] at h; cases h
        refine ⟨fun p hp => ?_, fun p hp => .inl hp, Nat.le_refl _⟩
        rcases List.mem_cons.mp hp with rfl | hp
        · exact .inr rfl
        · exact .inl hp
  | deliver i =>
    simp only [step] at h
    split at h
    · cases h; exact same rfl rfl rfl
    · rename_i q m hm
      split at h
      · cases h; exact ⟨fun p hp => .inl (mem_of_eraseIdx hp), fun p hp => .inl hp, Nat.le_refl _⟩
      · cases h
        refine ⟨fun p hp => .inl (mem_of_eraseIdx hp), fun p hp => ?_, Nat.le_refl _⟩
        simp only [List.mem_append, List.mem_singleton] at hp
        rcases hp with hp | rfl
        · exact .inl hp
        · exact .inr ⟨q, List.mem_of_getElem? hm⟩
  | expire q =>
    simp only [step] at h
    split at h
    · cases hr : release s.used (s.cookie q) with
      | ub => rw [hr] at h; cases h
      | ok u => rw [hr] at h; cases h; exact same rfl rfl rfl
    · cases h; exact same rfl rfl rfl
  | close j => simp only [step, Outcome.ok.injEq] at h; subst h; exact same rfl rfl rfl
  | finish j => simp only [step, Outcome.ok.injEq] at h; subst h; exact same rfl rfl rfl
  | respFail c =>
    simp only [step] at h
    cases hr : release s.used c with
    | ub => rw [hr] at h; cases h
    | ok u => rw [hr] at h; cases h; exact same rfl rfl rfl

/-- Responses in hand and given are true. -/
structure Tru (reg : Nat → Nat → Prop) (s : St) : Prop where
  hand : ∀ p ∈ s.hands, ∀ x, s.qs[p.2.ans]? = some x → ∀ a ∈ p.2.addrs, reg (s.lk x.lk).key a
  given : ∀ p ∈ s.given, ∀ x, s.qs[p.2.ans]? = some x → ∀ a ∈ p.2.addrs, reg (s.lk x.lk).key a

theorem tru_reach {reg : Nat → Nat → Prop} {s : St} (h : Reach (fun s op => Timely s op ∧ Truthful reg s op) s) : Inv s ∧ Tru reg s := by
  induction h with
  | init => exact ⟨inv_init, by simp [init], by simp [init]⟩
  | @step s s' op hr ho hs ih =>
    obtain ⟨I, T⟩ := ih
    refine ⟨inv_step I ho.1 hs, ?_⟩
    obtain ⟨h1, h2, h3⟩ := hands_step hs
    have hk := (own_step I.o hs).2
    have look : ∀ (q : Nat) (y x : Q), s'.qs[q]? = some y → s.qs[q]? = some x → s.qs[q]? = some x ∧ (s'.lk y.lk).key = (s.lk x.lk).key := by
      intro q y x hy hx
      obtain ⟨z, hz, hzl, -⟩ := hk q x hx
      rw [hy] at hz; cases hz
      exact ⟨hx, by rw [hzl]; exact key_step hs (I.lkLt q x hx)⟩
    refine ⟨fun p hp y hy a ha => ?_, fun p hp y hy a ha => ?_⟩
    · rcases h1 p hp with hp' | rfl
      · obtain ⟨x, hx, -, hans, -⟩ := I.hand p hp'
        rw [← hans] at hx
        rw [(look _ y x hy hx).2]; exact T.hand p hp' x hx a ha
      · obtain ⟨x, hx, -⟩ := ho.1
        rw [(look _ y x hy hx).2]; exact ho.2 x hx a ha
    · rcases h2 p hp with hp' | ⟨q, hp'⟩
      · obtain ⟨x, hx, -⟩ := I.right p hp'
        rw [(look _ y x hy hx).2]; exact T.given p hp' x hx a ha
      · obtain ⟨x, hx, -, hans, -⟩ := I.hand _ hp'
        dsimp only at hx hans
        rw [← hans] at hx
        rw [(look _ y x hy hx).2]; exact T.hand _ hp' x hx a ha

end Ouro.DhtReq
