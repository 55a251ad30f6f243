import Verif.Model.Base
import Verif.Model.Errno

/-!
# The resource information base: the tree of components

Model of src/lib/rib.c with FUSE: components register a directory with the operations that serve it, and the file
system operations find the component for a path.  Strings are lists of bytes without the terminating zero.  The lock
is not modelled: every operation holds it from the first to the last access to the list.
-/

namespace Ouro.Rib

/-- A string (src/lib/rib.c:57), without its terminating zero. -/
abbrev Path := List Nat

/-- `RIB_PATH_LEN` (include/ouroboros/rib.h:26). -/
def RIB_PATH_LEN : Nat := 300

/-- `RIB_SEPARATOR` (include/ouroboros/rib.h:27). -/
def SEP : Nat := 47

/-- `strcmp` as used in src/lib/rib.c:419-424. -/
def strcmp : Path → Path → Ordering
  | [], [] => .eq
  | [], _ :: _ => .lt
  | _ :: _, [] => .gt
  | a :: as, b :: bs => if a < b then .lt else if b < a then .gt else strcmp as bs

/-- `struct reg_comp` (src/lib/rib.c:54-59); the operations are a number. -/
structure Comp where
  path : Path
  ops : Nat
  deriving DecidableEq, Repr

/-- The static `rib` (src/lib/rib.c:61-72): whether `mnt` is set, and the list of components. -/
structure St where
  mounted : Bool
  comps : List Comp
  deriving DecidableEq, Repr

/-- Before `rib_init` (src/lib/rib.c:61). -/
def empty : St := ⟨false, []⟩

/-- `rib_init` (src/lib/rib.c:297-367), which is called when nothing is mounted; `ok` says whether mounting works. -/
def init (s : St) (ok : Bool) : St := if ok then ⟨true, []⟩ else { s with mounted := false }

/-- `rib_fini` (src/lib/rib.c:369-402). -/
def fini (s : St) : St := if s.mounted then ⟨false, []⟩ else s

/-- The loop of `rib_reg` and `list_add_tail` (src/lib/rib.c:417-426, 442): a new component goes before the first
whose path is greater; none if the path is there. -/
def insert (r : Comp) : List Comp → Option (List Comp)
  | [] => some [r]
  | c :: cs => match strcmp c.path r.path with
    | .eq => none
    | .gt => some (r :: c :: cs)
    | .lt => (insert r cs).map (c :: ·)

/-- `rib_reg` (src/lib/rib.c:404-447); `mem` says whether `malloc` works. -/
def reg (s : St) (path : Path) (ops : Nat) (mem : Bool) : St × Int :=
  if !s.mounted then (s, 0)
  else match insert ⟨path, ops⟩ s.comps with
    | none => (s, -EPERM)
    | some cs =>
      if !mem then (s, -ENOMEM)
      else if path.length > RIB_PATH_LEN then (s, -1)
      else ({ s with comps := cs }, 0)

/-- The loop of `rib_unreg` (src/lib/rib.c:461-468): the first component with the path is removed. -/
def remove (path : Path) : List Comp → List Comp
  | [] => []
  | c :: cs => if strcmp c.path path = .eq then cs else c :: remove path cs

/-- `rib_unreg` (src/lib/rib.c:449-476). -/
def unreg (s : St) (path : Path) : St :=
  if !s.mounted then s else { s with comps := remove path s.comps }

/-- The search for a component (src/lib/rib.c:114-121, 215-217, 258-263). -/
def find (path : Path) (cs : List Comp) : Option Comp := cs.find? (fun c => strcmp path c.path == .eq)

/-- The component part of a path: up to the next separator (src/lib/rib.c:104-108, 204-208). -/
def compOf (path : Path) : Path := path.takeWhile (· ≠ SEP)

/-- The operations of the components: `read`, `readdir` and `getattr` (include/ouroboros/rib.h:38-45). -/
structure Ops where
  read : Nat → Path → Nat → Int × List Nat
  readdir : Nat → Option (List Path)
  getattr : Nat → Path → Nat

/-- `rib_read` (src/lib/rib.c:92-128): the result and what is in the buffer. -/
def read (s : St) (f : Ops) (path : Path) (size _offset : Nat) : Int × List Nat :=
  if path.length > RIB_PATH_LEN then (-1, [])
  else match find (compOf path.tail) s.comps with
    | some r => f.read r.ops path.tail size
    | none => (-1, [])

/-- The names `"."` and `".."` (src/lib/rib.c:145-146). -/
def dots : List Path := [[46], [46, 46]]

/-- `rib_readdir` (src/lib/rib.c:130-179) on a directory that was opened with `rib_opendir`: the result and the
entries.  Only one component can have the path, so that the loop after the first match is left out. -/
def readdir (s : St) (f : Ops) (path : Path) : Int × List Path :=
  if path = [SEP] then (0, dots ++ s.comps.map (·.path))
  else match find path.tail s.comps with
    | some c => (0, dots ++ (f.readdir c.ops).getD [])
    | none => (0, dots)

/-- What `rib_getattr` reports (src/lib/rib.c:238-277). -/
inductive Attr
  | dir
  | file (size : Nat)
  | fail (err : Int)
  deriving DecidableEq, Repr

/-- `__getattr` (src/lib/rib.c:181-236); `getattr` of every component gives 0. -/
def getattrFile (s : St) (f : Ops) (path : Path) : Attr :=
  if path.length > RIB_PATH_LEN then .fail (-1)
  else match find (compOf path.tail) s.comps with
    | some r => .file (f.getattr r.ops path.tail)
    | none => .fail (-1)

/-- `rib_getattr` (src/lib/rib.c:238-277). -/
def getattr (s : St) (f : Ops) (path : Path) : Attr :=
  if path = [SEP] then .dir
  else match find path.tail s.comps with
    | some _ => .dir
    | none => getattrFile s f path

/-- What a process does with its tree (the calls of include/ouroboros/rib.h:47-57). -/
inductive Op
  | init (ok : Bool)
  | fini
  | reg (path : Path) (ops : Nat) (mem : Bool)
  | unreg (path : Path)
  deriving DecidableEq, Repr

/-- One call (src/lib/rib.c:297-476). -/
def step (s : St) : Op → St × Int
  | .init ok => (init s ok, if ok then 0 else -1)
  | .fini => (fini s, 0)
  | .reg path ops mem => reg s path ops mem
  | .unreg path => (unreg s path, 0)

/-- A history of calls (src/lib/rib.c:297-476). -/
def run (s : St) (l : List Op) : St := l.foldl (fun s o => (step s o).1) s

end Ouro.Rib
