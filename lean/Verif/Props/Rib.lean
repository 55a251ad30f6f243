import Verif.Proof.Rib

/-!
# C73: the tree of the resource information base
-/

namespace Ouro.Rib

/-- A history: three components register, one leaves, a name is tried twice. -/
def exOps : List Op :=
  [.init true, .reg [110] 1 true, .reg [98] 2 true, .reg [110] 3 true, .reg [99, 99] 4 true, .unreg [98]]

/-- **C73.**  In every history each call gives the result of the abstract tree: a name is refused exactly when it is
taken, memory runs out or it is too long. -/
theorem C73_results (l : List Op) (o : Op) :
    (step (run empty l) o).2 = ((Tree.empty.run l).step o).2 :=
  (step_rel (run_rel rel_empty l) o).2

example : (step (run empty [.init true, .reg [110] 1 true]) (.reg [110] 3 true)).2 = -1 := by decide +kernel

/-- **C73.**  In every history the root lists exactly the names registered at that moment, each once, in byte order. -/
theorem C73_root (l : List Op) (f : Ops) :
    ∃ names, readdir (run empty l) f [47] = (0, dots ++ names) ∧ names.Pairwise Before ∧
      ∀ p, p ∈ names ↔ (Tree.empty.run l).at_ p ≠ none := by
  have h := run_rel rel_empty l
  refine ⟨(run empty l).comps.map (·.path), rfl, ?_, fun p => ?_⟩
  · rw [List.pairwise_map]; exact h.sorted
  · rw [← h.look, look_some]
    simp

example : (readdir (run empty exOps) ⟨fun _ _ _ => (0, []), fun _ => none, fun _ _ => 0⟩ [47]).2 =
    dots ++ [[99, 99], [110]] := by decide +kernel

/-- **C73.**  In every history reading a file below a registered name calls the operations registered for that name,
with the path relative to the mount point, and nothing else. -/
theorem C73_read (l : List Op) (f : Ops) (name file : Path) (ops size offset : Nat)
    (hslash : 47 ∉ name) (hlen : (filePath name file).length ≤ 300)
    (hreg : (Tree.empty.run l).at_ name = some ops) :
    read (run empty l) f (filePath name file) size offset = f.read ops (name ++ 47 :: file) size := by
  have h := run_rel rel_empty l
  rw [← h.look] at hreg
  obtain ⟨c, hc, rfl⟩ := find_of_look hreg
  unfold read
  rw [if_neg (by simp only [RIB_PATH_LEN]; omega), compOf_file hslash, hc]
  rfl

example : (Tree.empty.run exOps).at_ [110] = some 1 := by decide +kernel

/-- **C73.**  Below a name that is not registered nothing can be read and no operation is called. -/
theorem C73_read_unknown (l : List Op) (f : Ops) (name file : Path) (size offset : Nat) (hslash : 47 ∉ name)
    (hreg : (Tree.empty.run l).at_ name = none) :
    read (run empty l) f (filePath name file) size offset = (-1, []) := by
  have h := run_rel rel_empty l
  rw [← h.look] at hreg
  unfold read
  split
  · rfl
  · rw [compOf_file hslash, find_of_look_none hreg]

example : (Tree.empty.run exOps).at_ [98] = none := by decide +kernel

/-- **C73.**  Directories are the root and the registered names; the directory of a name lists what its operations
give, after the dots. -/
theorem C73_directories (l : List Op) (f : Ops) (name : Path) (hslash : 47 ∉ name) (hne : name ≠ []) :
    (getattr (run empty l) f (47 :: name) = .dir ↔ (Tree.empty.run l).at_ name ≠ none) ∧
    ∀ ops, (Tree.empty.run l).at_ name = some ops →
      readdir (run empty l) f (47 :: name) = (0, dots ++ (f.readdir ops).getD []) := by
  have h := run_rel rel_empty l
  have hroot : (47 :: name) ≠ [SEP] := by
    intro e
    simp only [SEP, List.cons.injEq, true_and] at e
    exact hne e
  refine ⟨?_, fun ops hops => ?_⟩
  · rw [← h.look]
    unfold getattr
    rw [if_neg hroot, List.tail_cons]
    cases hl : look (run empty l).comps name with
    | none =>
      rw [find_of_look_none hl]
      simp only [ne_eq, not_true_eq_false, iff_false]
      unfold getattrFile
      rw [List.tail_cons, compOf_name hslash, find_of_look_none hl]
      split <;> simp
    | some n =>
      obtain ⟨c, hc, _⟩ := find_of_look hl
      rw [hc]; simp
  · rw [← h.look] at hops
    obtain ⟨c, hc, rfl⟩ := find_of_look hops
    unfold readdir
    rw [if_neg hroot, List.tail_cons, hc]

example : getattr (run empty exOps) ⟨fun _ _ _ => (0, []), fun _ => none, fun _ _ => 0⟩ [47, 110] = .dir := by
  decide +kernel

/-- **C73 violated: reading in pieces.**  The offset of a read has no effect: a reader who goes on after the first
piece gets the start of the file again, whatever the file. -/
theorem C73_offset_violated (s : St) (f : Ops) (path : Path) (size : Nat) (offset : Nat) :
    read s f path size offset = read s f path size 0 := rfl

/-- A document of four bytes read two bytes at a time: the second piece should be `[3, 4]`. -/
example :
    let f : Ops := ⟨fun _ _ n => (min n 4, [1, 2, 3, 4].take n), fun _ => none, fun _ _ => 4⟩
    let s := run empty [.init true, .reg [110] 1 true]
    (read s f [47, 110, 47, 97] 2 0).2 = [1, 2] ∧ (read s f [47, 110, 47, 97] 2 2).2 = [1, 2] := by
  decide +kernel

/-- **C73 violated: missing files.**  A path below no registered name is reported as "operation not permitted", not as
"no such file"; but listing such a directory succeeds and gives an empty one. -/
theorem C73_missing_violated (l : List Op) (f : Ops) (name : Path) (hslash : 47 ∉ name) (hne : name ≠ [])
    (hreg : (Tree.empty.run l).at_ name = none) :
    getattr (run empty l) f (47 :: name) = .fail (-EPERM) ∧
      readdir (run empty l) f (47 :: name) = (0, dots) := by
  have h := run_rel rel_empty l
  rw [← h.look] at hreg
  have hroot : (47 :: name) ≠ [SEP] := by
    intro e
    simp only [SEP, List.cons.injEq, true_and] at e
    exact hne e
  constructor
  · unfold getattr
    rw [if_neg hroot, List.tail_cons, find_of_look_none hreg]
    show getattrFile _ _ _ = _
    unfold getattrFile
    rw [List.tail_cons, compOf_name hslash, find_of_look_none hreg]
    split <;> rfl
  · unfold readdir
    rw [if_neg hroot, List.tail_cons, find_of_look_none hreg]

example : (Tree.empty.run exOps).at_ [98] = none := by decide +kernel

/-- **C73 violated: long names.**  A name of 299 or 300 bytes is registered and listed, but no file below it can be
read. -/
theorem C73_long_name_violated (l : List Op) (f : Ops) (name file : Path) (size offset : Nat)
    (hlen : 299 ≤ name.length) :
    read (run empty l) f (filePath name file) size offset = (-1, []) := by
  unfold read
  rw [if_pos]
  simp only [filePath, RIB_PATH_LEN, List.length_cons, List.length_append]
  omega

example : (Tree.empty.run [.init true, .reg (List.replicate 300 97) 1 true]).at_ (List.replicate 300 97) =
    some 1 := by decide +kernel

/-- **C73 violated: no mount point.**  While nothing is mounted a registration succeeds and has no effect, and the name
is not there after a later mount. -/
theorem C73_unmounted_violated (path : Path) (ops : Nat) (mem : Bool) :
    (step empty (.reg path ops mem)).2 = 0 ∧
      (Tree.empty.run [.reg path ops mem, .init true]).at_ path = none := ⟨rfl, rfl⟩

end Ouro.Rib
