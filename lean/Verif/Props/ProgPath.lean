import Verif.Proof.ProgPath

/-!
# C69: programs are looked for along PATH
-/

namespace Ouro.ProgPath

/-- `PATH` is `/bin:/opt/x`. -/
def exEnv : List Char := "/bin:/opt/x".toList ++ [NUL]

/-- The files of the examples: `p` can be run in `/opt/x`, and `q` is in both directories, but only in the second it can be run. -/
def exChk (f : Str) : Int :=
  if f = "/opt/x/p".toList ∨ f = "/opt/x/q".toList then 0 else if f = "/bin/q".toList then -EPERM else -ENOENT

def exJunk (n : Nat) : List Char := List.replicate n 'x'

/-- C69 (the search): for every value of `PATH` that is not empty, every program name without a slash, and whatever files there are, the lookup stays within its buffers and answers with the program in the first directory where it can be run; it says that there is none, that it may not be run, or that a directory is not absolute exactly when this is so. -/
theorem C69_search {chk : Str → Int} {junk : Nat → List Char} {prog p : Str} {env : List Char} (hj : ∀ n, (junk n).length = n) (hp : NUL ∉ prog)
    (he : Reads env p) (hne : p ≠ []) (hs : '/' ∉ prog) :
    ∃ env' r, checkProgPath chk junk prog (some env) = .ok (some env', r) ∧ env'.length = env.length ∧
      ∀ r', Answer chk prog (dirs p) r' ↔ r' = r := by
  obtain ⟨hn, rest, rfl⟩ := he
  obtain ⟨env', h, -, hl⟩ := check_search (chk := chk) (rest := rest) hj hp hs hne hn
  refine ⟨env', _, h, by simp [hl]; omega, fun r' => ⟨answer_search, ?_⟩⟩
  rintro rfl
  exact search_answer (dirs p) [] true (by simp) (by simp)

example : Reads exEnv "/bin:/opt/x".toList ∧ dirs "/bin:/opt/x".toList = ["/bin".toList, "/opt/x".toList] ∧
    ∃ e, checkProgPath exChk exJunk "q".toList (some exEnv) = .ok (some e, .found "/opt/x/q".toList) :=
  ⟨⟨by decide +kernel, [], rfl⟩, by decide +kernel, _, rfl⟩

/-- C69 (paths): a name with a slash, and any name if `PATH` is empty, is taken as it is, and `PATH` stays. -/
theorem C69_direct {chk : Str → Int} {junk : Nat → List Char} {prog p : Str} {env : List Char} (he : Reads env p) (h : p = [] ∨ '/' ∈ prog) :
    checkProgPath chk junk prog (some env) = .ok (some env, if chk prog < 0 then .err (chk prog) else .found prog) :=
  check_direct he h

example : checkProgPath exChk exJunk "/opt/x/p".toList (some exEnv) = .ok (some exEnv, .found "/opt/x/p".toList) := rfl

/-- C69 (what the daemon gets): a request is sent exactly if the program was found; the daemon then has its path, followed by the arguments, all of them and in order. -/
theorem C69_bind_request {chk : Str → Int} {junk : Nat → List Char} {prog name : Str} {argv : List Str} {env env' : Option (List Char)} {r : Res}
    (h : checkProgPath chk junk prog env = .ok (env', r)) :
    ∃ o, bindRequest chk junk (some prog) (some name) argv env = .ok (env', o) ∧
      (∀ f, r = .found f → ∃ exec, o = .inr exec ∧ received exec = f :: argv) ∧ (∀ e, r = .err e → o = .inl e) := by
  rw [bindRequest, h]
  cases r with
  | found f =>
    refine ⟨_, rfl, fun g hg => ⟨_, rfl, ?_⟩, fun e he => by simp at he⟩
    rw [Res.found.injEq] at hg
    rw [received, List.dropLast_concat, hg]
  | err e => exact ⟨_, rfl, fun g hg => by simp at hg, fun e' he => by rw [Res.err.injEq] at he; rw [he]⟩

example : ∃ e x, bindRequest exChk exJunk (some "p".toList) (some "n".toList) ["-v".toList] (some exEnv) = .ok (e, .inr x) ∧
    received x = ["/opt/x/p".toList, "-v".toList] := ⟨_, _, rfl, rfl⟩

/-- C69 (missing names): without a program or a name nothing is sent. -/
theorem C69_bind_invalid {chk : Str → Int} {junk : Nat → List Char} {prog name : Option Str} {argv : List Str} {env : Option (List Char)}
    (h : prog = none ∨ name = none) : bindRequest chk junk prog name argv env = .ok (env, .inl (-EINVAL)) := by
  unfold bindRequest
  split
  · rcases h with h | h <;> simp at h
  · rfl

example : bindRequest exChk exJunk (some "p".toList) none [] (some exEnv) = .ok (some exEnv, .inl (-EINVAL)) := rfl

/-- C69 (no PATH, what fails): a process without the variable `PATH` finds no program at all, not even one that is given by its absolute path. -/
theorem C69_unset_violated {chk : Str → Int} {junk : Nat → List Char} {prog : Str} : checkProgPath chk junk prog none = .ok (none, .err (-ENOENT)) := rfl

example : exChk "/opt/x/p".toList = 0 := by decide +kernel

/-- C69 (PATH is cut, what fails): whatever is looked for, the lookup overwrites the environment: `PATH` is its first directory from then on. -/
theorem C69_path_cut_violated {chk : Str → Int} {junk : Nat → List Char} {prog p d : Str} {ds : List Str} {env : List Char} (hj : ∀ n, (junk n).length = n)
    (hp : NUL ∉ prog) (he : Reads env p) (hd : dirs p = d :: ds) (hab : Abs d) (hs : '/' ∉ prog) :
    ∃ env' r, checkProgPath chk junk prog (some env) = .ok (some env', r) ∧ Reads env' d := by
  obtain ⟨hn, rest, rfl⟩ := he
  have hne : p ≠ [] := by
    rintro rfl
    simp only [dirs, List.cons.injEq] at hd
    rw [← hd.1] at hab
    simp [Abs] at hab
  obtain ⟨env', h, hr, -⟩ := check_search (chk := chk) (rest := rest) hj hp hs hne hn
  exact ⟨env', _, h, (dirs_head hd hn).1, hr d ds hd hab⟩

example : Reads exEnv "/bin:/opt/x".toList ∧ dirs "/bin:/opt/x".toList = ["/bin".toList, "/opt/x".toList] ∧ Abs "/bin".toList :=
  ⟨⟨by decide +kernel, [], rfl⟩, by decide +kernel, rfl⟩

/-- C69 (the second lookup, what fails): a program that is not in the first directory is found at most once: with the same files, the same process does not find it the next time. -/
theorem C69_second_lookup_violated {chk : Str → Int} {junk : Nat → List Char} {prog prog' p d : Str} {ds : List Str} {env : List Char}
    (hj : ∀ n, (junk n).length = n) (hp : NUL ∉ prog) (hp' : NUL ∉ prog') (he : Reads env p) (hd : dirs p = d :: ds) (hab : Abs d) (hs : '/' ∉ prog)
    (hs' : '/' ∉ prog') (hno : chk (inDir prog d) < 0) :
    ∃ env' env'' r e, checkProgPath chk junk prog' (some env) = .ok (some env', r) ∧
      checkProgPath chk junk prog (some env') = .ok (some env'', .err e) ∧ (e = -EPERM ∨ e = -ENOENT) := by
  obtain ⟨env', r, h, hr⟩ := C69_path_cut_violated (chk := chk) hj hp' he hd hab hs'
  obtain ⟨hn, rest, rfl⟩ := hr
  have hdh := dirs_head hd he.1
  have hdd := dirs_single hdh.2
  have hne : d ≠ [] := by rintro rfl; simp [Abs] at hab
  obtain ⟨env'', h2, -, -⟩ := check_search (chk := chk) (rest := rest) hj hp hs hne hn
  rw [hdd, search, if_pos (show d.head? = some '/' from hab), if_pos hno, search] at h2
  refine ⟨d ++ NUL :: rest, env'', r, _, h, h2, ?_⟩
  by_cases hx : chk (inDir prog d) = -EPERM <;> simp [hx]

example : ∃ e e', checkProgPath exChk exJunk "p".toList (some exEnv) = .ok (some e, .found "/opt/x/p".toList) ∧
    checkProgPath exChk exJunk "p".toList (some e) = .ok (some e', .err (-ENOENT)) := ⟨_, _, rfl, rfl⟩

/-- C69 (histories): however many programs a process looks for, with whatever files, no lookup leaves its buffers, and the answer of every lookup is right for `PATH` as it was at the start or for its first directory alone. -/
theorem C69_history_partial {junk : Nat → List Char} (hj : ∀ n, (junk n).length = n) {p d : Str} {ds : List Str} (hd : dirs p = d :: ds) :
    ∀ (l : List ((Str → Int) × Str)) (env : List Char), (∀ x ∈ l, NUL ∉ x.2) → Reads env p →
      ∃ env' rs, lookups junk l (some env) = .ok (some env', rs) ∧ (Reads env' p ∨ Reads env' d) ∧ rs.length = l.length ∧
        ∀ x ∈ l.zip rs, ('/' ∈ x.1.2 ∨ p = [] → x.2 = direct x.1.1 x.1.2) ∧
          ('/' ∉ x.1.2 ∧ p ≠ [] → Answer x.1.1 x.1.2 (dirs p) x.2 ∨ Answer x.1.1 x.1.2 [d] x.2) := by
  -- once cut, `PATH` stays what it is
  have key : ∀ (q : Str), (q = p ∨ (q = d ∧ Abs d)) → ∀ (l : List ((Str → Int) × Str)) (env : List Char), (∀ x ∈ l, NUL ∉ x.2) → NUL ∉ p → Reads env q →
      ∃ env' rs, lookups junk l (some env) = .ok (some env', rs) ∧ (Reads env' p ∨ Reads env' d) ∧ rs.length = l.length ∧
        ∀ x ∈ l.zip rs, ('/' ∈ x.1.2 ∨ p = [] → x.2 = direct x.1.1 x.1.2) ∧
          ('/' ∉ x.1.2 ∧ p ≠ [] → Answer x.1.1 x.1.2 (dirs p) x.2 ∨ Answer x.1.1 x.1.2 [d] x.2) := by
    intro q hq l
    induction l generalizing q with
    | nil =>
      intro env _ _ he
      refine ⟨env, [], rfl, ?_, rfl, by simp⟩
      rcases hq with rfl | ⟨rfl, -⟩
      · exact .inl he
      · exact .inr he
    | cons x l ih =>
      obtain ⟨chk, prog⟩ := x
      intro env hl hnp he
      have hprog : NUL ∉ prog := hl (chk, prog) (by simp)
      have hl' : ∀ x ∈ l, NUL ∉ x.2 := fun x hx => hl x (by simp [hx])
      have hpd : p = [] → ¬ Abs d := by
        intro h0 hab
        rw [h0, show dirs [] = [[]] from rfl, List.cons.injEq] at hd
        rw [← hd.1] at hab
        simp [Abs] at hab
      have hqd : q ≠ [] → ∃ es, dirs q = d :: es ∧ (dirs q = dirs p ∨ es = []) := by
        intro _
        rcases hq with rfl | ⟨rfl, _⟩
        · exact ⟨ds, hd, .inl rfl⟩
        · exact ⟨[], dirs_single (dirs_head hd hnp).2, .inr rfl⟩
      have hqp : q = [] ↔ p = [] := by
        rcases hq with rfl | ⟨rfl, hab⟩
        · rfl
        · exact ⟨fun h => by rw [h] at hab; simp [Abs] at hab, fun h => absurd hab (hpd h)⟩
      -- one lookup
      obtain ⟨env1, r, q1, hc, hq1, hr1, ho⟩ : ∃ env1 r q1, checkProgPath chk junk prog (some env) = .ok (some env1, r) ∧ (q1 = p ∨ (q1 = d ∧ Abs d)) ∧
          Reads env1 q1 ∧ (('/' ∈ prog ∨ p = [] → r = direct chk prog) ∧
          ('/' ∉ prog ∧ p ≠ [] → Answer chk prog (dirs p) r ∨ Answer chk prog [d] r)) := by
        by_cases hdir : '/' ∈ prog ∨ p = []
        · refine ⟨env, direct chk prog, q, check_direct he (by rw [hqp]; exact hdir.symm), hq, he, fun _ => rfl, ?_⟩
          rintro ⟨h1, h2⟩
          rcases hdir with h | h
          · exact absurd h h1
          · exact absurd h h2
        · rw [not_or] at hdir
          have hqne : q ≠ [] := fun h => hdir.2 (hqp.mp h)
          obtain ⟨es, hes, hqds⟩ := hqd hqne
          by_cases hab : Abs d
          · obtain ⟨env1, r, h, hrd⟩ := C69_path_cut_violated (chk := chk) hj hprog he hes hab hdir.1
            obtain ⟨e2, r2, h2, -, ha⟩ := C69_search (chk := chk) hj hprog he hqne hdir.1
            rw [h2] at h
            simp only [Outcome.ok.injEq, Prod.mk.injEq, Option.some.injEq] at h
            obtain ⟨rfl, rfl⟩ := h
            refine ⟨e2, r2, d, h2, .inr ⟨rfl, hab⟩, hrd, fun h => absurd h (by rw [not_or]; exact hdir), fun _ => ?_⟩
            have := (ha r2).mpr rfl
            rcases hqds with hx | rfl
            · rw [hx] at this; exact .inl this
            · rw [hes] at this; exact .inr this
          · refine ⟨env, _, q, loop_bad hj hprog he hdir.1 hqne hes hab, hq, he, fun h => absurd h (by rw [not_or]; exact hdir), fun _ => ?_⟩
            exact .inl (.bad [] ds d hd (by simp) hab)
      obtain ⟨env2, rs, h2, hrd, hlen, hall⟩ := ih q1 hq1 env1 hl' hnp hr1
      refine ⟨env2, r :: rs, ?_, hrd, by simp [hlen], ?_⟩
      · rw [lookups, hc]
        simp only [Outcome.bind_ok]
        rw [h2]
        rfl
      · intro y hy
        rw [List.zip_cons_cons, List.mem_cons] at hy
        rcases hy with rfl | hy
        · exact ho
        · exact hall y hy
  intro l env hl he
  exact key p (.inl rfl) l env hl he.1 he

example : ∃ e, lookups exJunk [(exChk, "q".toList), (exChk, "/opt/x/p".toList), (exChk, "q".toList)] (some exEnv) =
    .ok (some e, [.found "/opt/x/q".toList, .found "/opt/x/p".toList, .err (-EPERM)]) := ⟨_, rfl⟩

end Ouro.ProgPath
