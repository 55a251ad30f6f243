import Verif.Spec.ProgPath
import Verif.Proof.Tac

namespace Ouro.ProgPath

/-- The search along the directories, as a function. -/
def search (chk : Str → Int) (prog : Str) : List Str → Bool → Res
  | [], perm => .err (if perm then -ENOENT else -EPERM)
  | d :: ds, perm =>
    if d.head? = some '/' then
      if chk (inDir prog d) < 0 then search chk prog ds (perm && chk (inDir prog d) ≠ -EPERM)
      else .found (inDir prog d)
    else .err (-EINVAL)

theorem cstr_append {p : Str} {rest : List Char} (h : NUL ∉ p) : cstr (p ++ NUL :: rest) = .ok p := by
  induction p with
  | nil => simp [cstr]
  | cons c p ih =>
    simp only [List.mem_cons, not_or] at h
    simp [cstr, ih h.2, Ne.symm h.1]

theorem scan_append {d : Str} {c : Char} {rest : List Char} (h : NUL ∉ d) (h2 : ':' ∉ d) (hc : c = NUL ∨ c = ':') :
    scan (d ++ c :: rest) = .ok d.length := by
  induction d with
  | nil => rcases hc with hc | hc <;> simp [scan, hc]
  | cons x p ih =>
    simp only [List.mem_cons, not_or] at h h2
    simp [scan, ih h.2 h2.2, Ne.symm h.1, Ne.symm h2.1]

theorem wr_append {a b : List Char} {x y : Char} {i : Nat} (h : i = a.length) : wr (a ++ x :: b) i y = .ok (a ++ y :: b) := by
  subst h
  simp [wr]

theorem rd_append {a b : List Char} {x : Char} {i : Nat} (h : i = a.length) : rd (a ++ x :: b) i = .ok x := by
  subst h
  simp [rd]

theorem copy_append : ∀ (s a m b : List Char) (i : Nat), i = a.length → m.length = s.length + 1 →
    copy (a ++ m ++ b) i s = .ok (a ++ s ++ NUL :: b)
  | [], a, m, b, i, hi, hm => by
    match m, hm with
    | [x], _ =>
      simp only [copy, List.append_assoc, List.cons_append, List.nil_append]
      rw [wr_append hi]
  | c :: s, a, m, b, i, hi, hm => by
    match m, hm with
    | x :: m, hm =>
      simp only [copy, List.append_assoc, List.cons_append]
      rw [wr_append hi]
      simp only
      have := copy_append s (a ++ [c]) m b (i + 1) (by simp [hi]) (by simpa using hm)
      simpa using this

theorem dirs_ne_nil (p : Str) : dirs p ≠ [] := by
  cases p with
  | nil => simp [dirs]
  | cons c t =>
    simp only [dirs]
    split
    · simp
    · split <;> simp

theorem dirs_single {d : Str} (h : ':' ∉ d) : dirs d = [d] := by
  induction d with
  | nil => rfl
  | cons c t ih =>
    simp only [List.mem_cons, not_or] at h
    simp [dirs, ih h.2, Ne.symm h.1]

theorem dirs_colon {d p : Str} (h : ':' ∉ d) : dirs (d ++ ':' :: p) = d :: dirs p := by
  induction d with
  | nil => simp [dirs]
  | cons c t ih =>
    simp only [List.mem_cons, not_or] at h
    simp [dirs, ih h.2, Ne.symm h.1]

theorem split_first (p : Str) : ':' ∉ p ∨ ∃ d q, p = d ++ ':' :: q ∧ ':' ∉ d := by
  induction p with
  | nil => simp
  | cons c t ih =>
    by_cases hc : c = ':'
    · exact .inr ⟨[], t, by simp [hc], by simp⟩
    · rcases ih with h | ⟨d, q, rfl, hd⟩
      · exact .inl (by simp [h, Ne.symm hc])
      · exact .inr ⟨c :: d, q, by simp, by simp [hd, Ne.symm hc]⟩

/-- One round of the loop, at a directory `d` that is followed by `x`. -/
theorem loop_round {chk : Str → Int} {prog d pre : Str} {x : Char} {rest a : List Char} {tstop pathEnd k : Nat} {perm : Bool}
    (hd : NUL ∉ d) (hd2 : ':' ∉ d) (hx : x = NUL ∨ x = ':') (hp : NUL ∉ prog) (ha : a.length = tstop + 1) (hl : d.length ≤ tstop)
    (he : pre.length + d.length < pathEnd) :
    ∃ a', a'.length = tstop + 1 ∧
      loop chk pathEnd tstop (k + 1) (pre ++ (d ++ x :: rest)) (a ++ (prog ++ [NUL])) pre.length perm =
        if d.head? = some '/' then
          if chk (inDir prog d) < 0 then
            loop chk pathEnd tstop k (pre ++ (d ++ NUL :: rest)) (a' ++ (prog ++ [NUL])) (pre.length + d.length + 1) (perm && chk (inDir prog d) ≠ -EPERM)
          else .ok (pre ++ (d ++ NUL :: rest), .found (inDir prog d))
        else .ok (pre ++ (d ++ x :: rest), .err (-EINVAL)) := by
  obtain ⟨a1, a2, rfl, ha1, ha2⟩ : ∃ a1 a2, a = a1 ++ a2 ∧ a1.length = tstop - d.length ∧ a2.length = d.length + 1 :=
    ⟨a.take (tstop - d.length), a.drop (tstop - d.length), by simp, by simp [ha]; omega, by simp [ha]; omega⟩
  refine ⟨a1 ++ d ++ ['/'], by simp [ha1]; omega, ?_⟩
  rw [loop, if_pos (show pre.length < pathEnd by omega)]
  cases d with
  | nil =>
    rw [List.nil_append, rd_append rfl]
    rcases hx with rfl | rfl <;> simp [NUL]
  | cons c d =>
    rw [List.cons_append, rd_append rfl]
    by_cases hc : c = '/'
    · subst hc
      simp only [Outcome.bind_ok, ne_eq, not_true_eq_false, if_false, List.head?_cons, if_true]
      rw [show ('/' :: (d ++ x :: rest)) = ('/' :: d) ++ x :: rest from rfl, List.drop_left, scan_append hd hd2 hx]
      simp only [Outcome.bind_ok]
      rw [show pre ++ ('/' :: d ++ x :: rest) = (pre ++ '/' :: d) ++ x :: rest by simp, wr_append (by simp)]
      simp only [Outcome.bind_ok]
      rw [if_neg (by omega), List.append_assoc, List.drop_left, cstr_append hd]
      simp only [Outcome.bind_ok]
      rw [copy_append ('/' :: d) a1 a2 (prog ++ [NUL]) _ ha1.symm ha2]
      simp only [Outcome.bind_ok]
      rw [wr_append (by simp only [List.length_append, ha1]; omega)]
      simp only [Outcome.bind_ok]
      have hf : (a1 ++ '/' :: d ++ '/' :: (prog ++ [NUL])).drop (tstop - ('/' :: d).length) = (('/' :: d) ++ '/' :: prog) ++ NUL :: [] := by
        rw [← ha1, List.append_assoc, List.drop_left]
        simp
      rw [hf, cstr_append (by simp at hd ⊢; exact ⟨hd.1, hd.2, hd.1, hp⟩)]
      simp only [inDir, List.append_assoc, List.cons_append, List.nil_append, Outcome.bind_ok, List.length_cons]
      rfl
    · simp [hc]

theorem loop_end {chk : Str → Int} {pathEnd tstop k pstop : Nat} {env tmp : List Char} {perm : Bool} (h : pathEnd ≤ pstop) :
    loop chk pathEnd tstop (k + 1) env tmp pstop perm = .ok (env, .err (if perm then -ENOENT else -EPERM)) := by
  rw [loop, if_neg (by omega)]

theorem loop_search {chk : Str → Int} {prog : Str} {tstop : Nat} (hp : NUL ∉ prog) : ∀ (n : Nat) (p pre rest a : List Char) (k : Nat) (perm : Bool),
    p.length ≤ n → NUL ∉ p → a.length = tstop + 1 → p.length ≤ tstop → p.length + 2 ≤ k →
    ∃ tail, loop chk (pre.length + p.length + 1) tstop k (pre ++ (p ++ NUL :: rest)) (a ++ (prog ++ [NUL])) pre.length perm =
      .ok (pre ++ tail, search chk prog (dirs p) perm) ∧
      (∀ d ds, dirs p = d :: ds → Abs d → ∃ r, tail = d ++ NUL :: r) ∧ tail.length = p.length + 1 + rest.length := by
  intro n
  induction n with
  | zero =>
    intro p pre rest a k perm hn hnul ha hl hk
    obtain ⟨k, rfl⟩ : ∃ j, k = j + 1 := ⟨k - 1, by omega⟩
    have : p = [] := List.length_eq_zero_iff.mp (by omega)
    subst this
    obtain ⟨a', _, h⟩ := loop_round (chk := chk) (prog := prog) (d := []) (pre := pre) (x := NUL) (rest := rest) (a := a) (tstop := tstop)
      (pathEnd := pre.length + 1) (k := k) (perm := perm) (by simp) (by simp) (.inl rfl) hp ha (by simp) (by simp)
    refine ⟨NUL :: rest, by simpa [dirs, search] using h, ?_, by simp; omega⟩
    intro d ds he hab
    simp only [dirs, List.cons.injEq] at he
    rw [← he.1] at hab
    simp [Abs] at hab
  | succ n ih =>
    intro p pre rest a k perm hn hnul ha hl hk
    obtain ⟨k, rfl⟩ : ∃ j, k = j + 1 := ⟨k - 1, by omega⟩
    rcases split_first p with hcol | ⟨d, q, rfl, hd⟩
    · obtain ⟨a', _, h⟩ := loop_round (chk := chk) (prog := prog) (d := p) (pre := pre) (x := NUL) (rest := rest) (a := a) (tstop := tstop)
        (pathEnd := pre.length + p.length + 1) (k := k) (perm := perm) hnul hcol (.inl rfl) hp ha hl (by omega)
      refine ⟨p ++ NUL :: rest, ?_, ?_, by simp; omega⟩
      · rw [h, dirs_single hcol, search]
        obtain ⟨k, rfl⟩ : ∃ j, k = j + 1 := ⟨k - 1, by omega⟩
        rw [loop_end (Nat.le_refl _)]
        split
        · split <;> rfl
        · rfl
      · intro d ds he _
        rw [dirs_single hcol, List.cons.injEq] at he
        exact ⟨rest, by rw [he.1]⟩
    · simp only [List.mem_append, List.mem_cons, not_or] at hnul
      simp only [List.length_append, List.length_cons] at hn hl hk
      obtain ⟨a', ha', h⟩ := loop_round (chk := chk) (prog := prog) (d := d) (pre := pre) (x := ':') (rest := q ++ NUL :: rest) (a := a) (tstop := tstop)
        (pathEnd := pre.length + (d ++ ':' :: q).length + 1) (k := k) (perm := perm) hnul.1 hd (.inr rfl) hp ha (by omega) (by simp; omega)
      have h' : (d ++ ':' :: q) ++ NUL :: rest = d ++ ':' :: (q ++ NUL :: rest) := by simp
      rw [h', h, dirs_colon hd, search]
      split
      · split
        · obtain ⟨tail, ht, _, hlen⟩ := ih q (pre ++ (d ++ [NUL])) rest a' k (perm && decide (chk (inDir prog d) ≠ -EPERM)) (by omega) hnul.2.2 ha' (by omega) (by omega)
          refine ⟨d ++ NUL :: tail, ?_, ?_, by simp [hlen]; omega⟩
          · have e1 : (pre ++ (d ++ [NUL])).length + q.length + 1 = pre.length + (d ++ ':' :: q).length + 1 := by simp; omega
            have e2 : (pre ++ (d ++ [NUL])).length = pre.length + d.length + 1 := by simp; omega
            have e3 : (pre ++ (d ++ [NUL])) ++ (q ++ NUL :: rest) = pre ++ (d ++ NUL :: (q ++ NUL :: rest)) := by simp
            rw [e1, e2, e3] at ht
            rw [ht]
            simp
          · intro d' ds he _
            rw [List.cons.injEq] at he
            exact ⟨tail, by rw [he.1]⟩
        · refine ⟨d ++ NUL :: (q ++ NUL :: rest), rfl, ?_, by simp; omega⟩
          intro d' ds he _
          rw [List.cons.injEq] at he
          exact ⟨q ++ NUL :: rest, by rw [he.1]⟩
      · rename_i hno
        refine ⟨d ++ ':' :: (q ++ NUL :: rest), rfl, ?_, by simp; omega⟩
        intro d' ds he hab
        rw [List.cons.injEq] at he
        rw [← he.1] at hab
        exact absurd hab hno

theorem search_answer {chk : Str → Int} {prog : Str} : ∀ (ds before : List Str) (perm : Bool),
    (∀ e ∈ before, Abs e ∧ chk (inDir prog e) < 0) → (perm = true ↔ ∀ e ∈ before, chk (inDir prog e) ≠ -EPERM) →
    Answer chk prog (before ++ ds) (search chk prog ds perm)
  | [], before, perm, hb, hp => by
    rw [List.append_nil, search]
    cases perm with
    | true => exact .none hb (hp.mp rfl)
    | false =>
      refine .perm hb ?_
      by_contra hc
      have : false = true := hp.mpr (fun e he h => hc ⟨e, he, h⟩)
      simp at this
  | d :: ds, before, perm, hb, hp => by
    rw [search]
    split
    · rename_i hd
      split
      · rename_i hlt
        have := search_answer ds (before ++ [d]) (perm && decide (chk (inDir prog d) ≠ -EPERM))
          (by
            intro e he
            rcases List.mem_append.mp he with he | he
            · exact hb e he
            · rw [List.mem_singleton.mp he]; exact ⟨hd, hlt⟩)
          (by
            simp only [Bool.and_eq_true, decide_eq_true_eq, hp, List.mem_append, List.mem_singleton]
            constructor
            · rintro ⟨h1, h2⟩ e (he | rfl)
              · exact h1 e he
              · exact h2
            · intro h
              exact ⟨fun e he => h e (.inl he), h d (.inr rfl)⟩)
        simpa using this
      · rename_i hlt
        exact .found before ds d rfl hb hd (by omega)
    · rename_i hd
      exact .bad before ds d rfl hb hd

/-- An answer is unique. -/
theorem answer_search {chk : Str → Int} {prog : Str} {ds : List Str} {r : Res} (h : Answer chk prog ds r) : r = search chk prog ds true := by
  have key : ∀ (before rest : List Str) (perm : Bool), (∀ e ∈ before, Abs e ∧ chk (inDir prog e) < 0) →
      search chk prog (before ++ rest) perm = search chk prog rest (perm && before.all (fun e => chk (inDir prog e) ≠ -EPERM)) := by
    intro before
    induction before with
    | nil => simp
    | cons e es ih =>
      intro rest perm hb
      have he := hb e (by simp)
      rw [List.cons_append, search, if_pos (show e.head? = some '/' from he.1), if_pos he.2, ih rest _ (fun x hx => hb x (by simp [hx]))]
      simp [Bool.and_assoc]
  cases h with
  | found before after d he hb hd hc => rw [he, key _ _ _ hb, search, if_pos (show d.head? = some '/' from hd), if_neg (by omega)]
  | bad before after d he hb hd => rw [he, key _ _ _ hb, search, if_neg (show ¬ d.head? = some '/' from hd)]
  | perm hb hp =>
    have := key ds [] true hb
    rw [List.append_nil] at this
    rw [this, search]
    obtain ⟨e, he, h⟩ := hp
    have hf : ds.all (fun e => decide (chk (inDir prog e) ≠ -EPERM)) = false := by
      rw [List.all_eq_false]
      exact ⟨e, he, by simp [h]⟩
    rw [hf]
    rfl
  | none hb hp =>
    have := key ds [] true hb
    rw [List.append_nil] at this
    rw [this, search]
    have hf : ds.all (fun e => decide (chk (inDir prog e) ≠ -EPERM)) = true := by
      rw [List.all_eq_true]
      intro e he
      simp [hp e he]
    rw [hf]
    rfl

/-- The whole search. -/
theorem check_search {chk : Str → Int} {junk : Nat → List Char} {prog p : Str} {rest : List Char} (hj : ∀ n, (junk n).length = n) (hp : NUL ∉ prog)
    (hs : '/' ∉ prog) (hne : p ≠ []) (hn : NUL ∉ p) :
    ∃ env', checkProgPath chk junk prog (some (p ++ NUL :: rest)) = .ok (some env', search chk prog (dirs p) true) ∧
      (∀ d ds, dirs p = d :: ds → Abs d → ∃ r, env' = d ++ NUL :: r) ∧ env'.length = p.length + 1 + rest.length := by
  obtain ⟨tmp1, tmp2, ht, h1, h2⟩ : ∃ a b, junk (p.length + prog.length + 2) = a ++ b ∧ a.length = p.length + 1 ∧ b.length = prog.length + 1 :=
    ⟨(junk (p.length + prog.length + 2)).take (p.length + 1), (junk (p.length + prog.length + 2)).drop (p.length + 1), by simp,
      by simp [hj]; omega, by simp [hj]; omega⟩
  have hc := copy_append prog tmp1 tmp2 [] (p.length + 1) h1.symm h2
  obtain ⟨tail, hl, hd, hlen⟩ := loop_search (chk := chk) (prog := prog) (tstop := p.length) hp p.length p [] rest tmp1 (p.length + 2) true (Nat.le_refl _) hn h1
    (Nat.le_refl _) (Nat.le_refl _)
  refine ⟨tail, ?_, hd, hlen⟩
  have hl0 : p.length ≠ 0 := fun h => hne (List.length_eq_zero_iff.mp h)
  rw [checkProgPath, cstr_append hn]
  simp only [Outcome.bind_ok]
  rw [if_neg (by simp [hne, hs]), ht, ← List.append_nil (tmp1 ++ tmp2), hc]
  simp only [Outcome.bind_ok]
  simp only [List.length_nil, Nat.zero_add, List.nil_append] at hl
  rw [List.append_assoc, hl]
  rfl

end Ouro.ProgPath

namespace Ouro.ProgPath

theorem dirs_cases (p : Str) : (':' ∉ p ∧ dirs p = [p]) ∨ ∃ d q, p = d ++ ':' :: q ∧ ':' ∉ d ∧ dirs p = d :: dirs q := by
  rcases split_first p with h | ⟨d, q, rfl, h⟩
  · exact .inl ⟨h, dirs_single h⟩
  · exact .inr ⟨d, q, rfl, h, dirs_colon h⟩

theorem dirs_head {p d : Str} {ds : List Str} (h : dirs p = d :: ds) (hn : NUL ∉ p) : NUL ∉ d ∧ ':' ∉ d := by
  rcases dirs_cases p with ⟨hc, hp⟩ | ⟨d', q, rfl, hc, hp⟩ <;> rw [hp, List.cons.injEq] at h <;> rw [← h.1]
  · exact ⟨hn, hc⟩
  · simp only [List.mem_append, not_or] at hn
    exact ⟨hn.1, hc⟩

theorem check_direct {chk : Str → Int} {junk : Nat → List Char} {prog p : Str} {env : List Char} (he : Reads env p) (h : p = [] ∨ '/' ∈ prog) :
    checkProgPath chk junk prog (some env) = .ok (some env, direct chk prog) := by
  obtain ⟨hn, rest, rfl⟩ := he
  rw [checkProgPath, cstr_append hn]
  simp only [Outcome.bind_ok]
  rw [if_pos (by rcases h with h | h <;> simp [h]), direct]
  split <;> rfl

theorem loop_bad {chk : Str → Int} {junk : Nat → List Char} {prog p d : Str} {ds : List Str} {env : List Char} (hj : ∀ n, (junk n).length = n) (hp : NUL ∉ prog)
    (he : Reads env p) (hs : '/' ∉ prog) (hne : p ≠ []) (hd : dirs p = d :: ds) (hab : ¬ Abs d) :
    checkProgPath chk junk prog (some env) = .ok (some env, .err (-EINVAL)) := by
  obtain ⟨hn, rest, rfl⟩ := he
  obtain ⟨c, t, rfl⟩ : ∃ c t, p = c :: t := by cases p with
    | nil => exact absurd rfl hne
    | cons c t => exact ⟨c, t, rfl⟩
  have hc : c ≠ '/' := by
    rintro rfl
    apply hab
    simp only [dirs] at hd
    rw [if_neg (by decide)] at hd
    split at hd <;> rw [List.cons.injEq] at hd <;> rw [← hd.1] <;> rfl
  obtain ⟨tmp1, tmp2, ht, h1, h2⟩ : ∃ a b, junk ((c :: t).length + prog.length + 2) = a ++ b ∧ a.length = (c :: t).length + 1 ∧ b.length = prog.length + 1 :=
    ⟨(junk ((c :: t).length + prog.length + 2)).take ((c :: t).length + 1), (junk ((c :: t).length + prog.length + 2)).drop ((c :: t).length + 1), by simp,
      by simp [hj]; omega, by simp [hj]; omega⟩
  have hcp := copy_append prog tmp1 tmp2 [] ((c :: t).length + 1) h1.symm h2
  rw [checkProgPath, cstr_append hn]
  simp only [Outcome.bind_ok]
  rw [if_neg (by simp [hs]), ht, ← List.append_nil (tmp1 ++ tmp2), hcp]
  simp only [Outcome.bind_ok]
  rw [loop, if_pos (by simp)]
  have := rd_append (a := []) (b := t ++ NUL :: rest) (x := c) (i := 0) rfl
  rw [List.nil_append] at this
  rw [List.cons_append, this]
  simp only [Outcome.bind_ok]
  rw [if_pos hc]
  rfl

end Ouro.ProgPath
