import Verif.Model.Base

/-!
# Model of the B-tree (`src/lib/btree.c`)

Keys are only ever compared and are natural numbers here; a value is a number, 0 being `NULL`. Memory allocation succeeds. The array
`keyvals` of a node of order `k` is `kvs ++ stale`: the `used` first cells, and the rest, which keeps what was written there before and
which `btnode_search` reads. Of the array `children` only the `used + 1` first cells are kept (none in a leaf, where they are `NULL`):
no modelled function reads the others.
-/

namespace Ouro.Btree

open Ouro

/-- `struct key_val`, src/lib/btree.c:35-38. -/
structure KV where
  key : Nat
  val : Nat
  deriving Repr, DecidableEq

/-- `struct btnode`, src/lib/btree.c:41-50; all nodes of a tree have the same `k`. -/
inductive Node where
  | mk (leaf : Bool) (kvs stale : List KV) (ch : List Node)
  deriving Repr

namespace Node
/-- `node->leaf`, src/lib/btree.c:45 -/
def leaf : Node → Bool | mk l _ _ _ => l
/-- The cells `[0, used)` of `node->keyvals`, src/lib/btree.c:43-47 -/
def kvs : Node → List KV | mk _ x _ _ => x
/-- The cells `[used, k)` of `node->keyvals`, src/lib/btree.c:43-47 -/
def stale : Node → List KV | mk _ _ x _ => x
/-- `node->children`, src/lib/btree.c:49 -/
def ch : Node → List Node | mk _ _ _ x => x
/-- `node->used`, src/lib/btree.c:43 -/
def used (n : Node) : Nat := n.kvs.length
/-- The number of levels below a node; bounds the recursion of the modelled functions (not in src/lib/btree.c:41-50). -/
def depth : Node → Nat
  | mk _ _ _ [] => 0
  | mk _ _ _ (c :: _) => c.depth + 1
end Node

/-- The loop of `search_key`, src/lib/btree.c:66-76, with `lo = lft + 1`. -/
def searchLoop (arr : List KV) (key lo rgt : Nat) : Nat :=
  if _h : lo < rgt then
    let mid := (lo + rgt - 1) / 2
    match arr[mid]? with
    | none => rgt
    | some x =>
      if x.key = key then mid
      else if x.key < key then searchLoop arr key (mid + 1) rgt
      else searchLoop arr key lo mid
  else rgt
termination_by rgt - lo
decreasing_by all_goals omega

/-- `search_key`, src/lib/btree.c:58-77, on the cells in use. -/
def searchKey (arr : List KV) (key : Nat) : Nat := searchLoop arr key 0 arr.length

/-- The cells of a new node, src/lib/btree.c:98-102. -/
def zeros (n : Nat) : List KV := List.replicate n ⟨0, 0⟩

/-- `btnode_create`, src/lib/btree.c:79-116. -/
def create (k : Nat) : Node := .mk true [] (zeros k) []

/-- Splitting a full node, src/lib/btree.c:181-200: what remains, the median and the new node. -/
def split (k : Nat) (n : Node) : Outcome (Node × Option (KV × Node)) :=
  if n.used = k then
    let mid := n.used / 2
    match n.kvs[mid]? with
    | none => .ub
    | some med =>
      .ok (.mk n.leaf (n.kvs.take mid) (n.kvs.drop mid ++ n.stale) (n.ch.take (mid + 1)),
        some (med, .mk n.leaf (n.kvs.drop (mid + 1)) (zeros (mid + 1)) (n.ch.drop (mid + 1))))
  else .ok (n, none)

/-- `btnode_insert`, src/lib/btree.c:137-203; `none` is a failure, which leaves the tree unchanged. -/
def insertNode (k : Nat) (kv : KV) : Nat → Node → Outcome (Option (Node × Option (KV × Node)))
  | 0, _ => .ub
  | fuel + 1, n =>
    let p := searchKey n.kvs kv.key
    if n.kvs[p]?.map (·.key) = some kv.key then .ok none
    else if k ≤ p then .ub
    else if n.leaf then
      match n.stale with
      | [] => .ub
      | _ :: st => do
        let r ← split k (.mk true (n.kvs.insertIdx p kv) st n.ch)
        .ok (some r)
    else
      match n.ch[p]? with
      | none => .ub
      | some c => do
        match ← insertNode k kv fuel c with
        | none => .ok none
        | some (c', none) =>
          let r ← split k (.mk false n.kvs n.stale (n.ch.set p c'))
          .ok (some r)
        | some (c', some (m, rgt)) =>
          match n.stale with
          | [] => .ub
          | _ :: st => do
            let r ← split k (.mk false (n.kvs.insertIdx p m) st ((n.ch.set p c').insertIdx (p + 1) rgt))
            .ok (some r)

/-- `merge`, src/lib/btree.c:206-235. It takes for granted that child `i` has `k / 2 - 1` keys: otherwise keys are overwritten or
    garbage becomes a key, which is `ub` here. -/
def merge (k : Nat) (n : Node) (i : Nat) : Outcome Node :=
  match n.ch[i]?, n.ch[i + 1]?, n.kvs[i]? with
  | some c, some d, some x =>
    if c.used + 1 ≠ k / 2 ∨ c.stale.length < d.used + 1 then .ub
    else
      let m := Node.mk c.leaf (c.kvs ++ x :: d.kvs) (c.stale.drop (d.used + 1)) (if c.leaf then c.ch else c.ch ++ d.ch)
      match n.kvs.getLast? with
      | none => .ub
      | some l => .ok (.mk n.leaf (n.kvs.eraseIdx i) (l :: n.stale) ((n.ch.set i m).eraseIdx (i + 1)))
  | _, _, _ => .ub

/-- Feeding child `i` from the previous one, src/lib/btree.c:245-266. -/
def feedPrev (n : Node) (i : Nat) (c p : Node) : Outcome Node :=
  match c.stale, n.kvs[i - 1]?, p.kvs.getLast? with
  | _ :: st, some x, some y =>
    let (cch, pch) := if c.leaf then (c.ch, p.ch) else (p.ch.getLast?.toList ++ c.ch, p.ch.dropLast)
    .ok (.mk n.leaf (n.kvs.set (i - 1) y) n.stale
      ((n.ch.set i (.mk c.leaf (x :: c.kvs) st cch)).set (i - 1) (.mk p.leaf p.kvs.dropLast (y :: p.stale) pch)))
  | _, _, _ => .ub

/-- Feeding child `i` from the next one, src/lib/btree.c:271-292. Line 280 moves one cell that is not in use. -/
def feedNext (n : Node) (i : Nat) (c d : Node) : Outcome Node :=
  match c.stale, n.kvs[i]?, d.kvs, d.stale with
  | _ :: st, some x, y :: ys, z :: zs =>
    let (cch, dch) := if c.leaf then (c.ch, d.ch) else (c.ch ++ d.ch.head?.toList, d.ch.tail)
    .ok (.mk n.leaf (n.kvs.set i y) n.stale
      ((n.ch.set i (.mk c.leaf (c.kvs ++ [x]) st cch)).set (i + 1) (.mk d.leaf ys (z :: z :: zs) dch)))
  | _, _, _, _ => .ub

/-- `fill`, src/lib/btree.c:238-300. -/
def fill (k : Nat) (n : Node) (i : Nat) : Outcome Node :=
  match n.ch[i]? with
  | none => .ub
  | some c =>
    match (if i ≠ 0 then n.ch[i - 1]? else none) with
    | some p =>
      if k / 2 ≤ p.used then feedPrev n i c p
      else
        match (if i ≠ n.used then n.ch[i + 1]? else none) with
        | some d => if k / 2 ≤ d.used then feedNext n i c d else merge k n i
        | none => merge k n (i - 1)
    | none =>
      match (if i ≠ n.used then n.ch[i + 1]? else none) with
      | some d => if k / 2 ≤ d.used then feedNext n i c d else merge k n i
      | none => .ub

/-- The loop of `btnode_pred`, src/lib/btree.c:302-310. -/
def predNode : Nat → Node → Outcome KV
  | 0, _ => .ub
  | fuel + 1, n =>
    if n.leaf then (match n.kvs.getLast? with | some x => .ok x | none => .ub)
    else (match n.ch.getLast? with | some c => predNode fuel c | none => .ub)

/-- The loop of `btnode_succ`, src/lib/btree.c:312-319; in an empty leaf `keyvals[0]` is not a key, which is `ub` here. -/
def succNode : Nat → Node → Outcome KV
  | 0, _ => .ub
  | fuel + 1, n =>
    if n.leaf then (match n.kvs.head? with | some x => .ok x | none => .ub)
    else (match n.ch.head? with | some c => succNode fuel c | none => .ub)

/-- `btnode_delete`, src/lib/btree.c:321-367: the node and whether the key was found. -/
def deleteNode (k : Nat) : Nat → Nat → Node → Outcome (Node × Bool)
  | 0, _, _ => .ub
  | fuel + 1, key, n =>
    let i := searchKey n.kvs key
    if n.kvs[i]?.map (·.key) = some key then
      if n.leaf then
        match n.kvs.getLast? with
        | some l => .ok (.mk true (n.kvs.eraseIdx i) (l :: n.stale) n.ch, true)
        | none => .ub
      else
        match n.ch[i]?, n.ch[i + 1]? with
        | some c, some d =>
          if k / 2 ≤ c.used then do
            let x ← predNode (c.depth + 1) c
            let (c', r) ← deleteNode k fuel x.key c
            .ok (.mk false (n.kvs.set i x) n.stale (n.ch.set i c'), r)
          else if k / 2 ≤ d.used then do
            let x ← succNode (d.depth + 1) d
            let (d', r) ← deleteNode k fuel x.key d
            .ok (.mk false (n.kvs.set i x) n.stale (n.ch.set (i + 1) d'), r)
          else do
            let n' ← merge k n i
            deleteNode k fuel key n'
        | _, _ => .ub
    else if n.leaf then .ok (n, false)
    else
      match n.ch[i]? with
      | none => .ub
      | some c => do
        let n' ← if c.used < k / 2 then fill k n i else .ok n
        let j := if i = n.used ∧ n'.used < i then i - 1 else i
        match n'.ch[j]? with
        | none => .ub
        | some c' => do
          let (c'', r) ← deleteNode k fuel key c'
          .ok (.mk n'.leaf n'.kvs n'.stale (n'.ch.set j c''), r)

/-- `btnode_search`, src/lib/btree.c:476-492; `keyvals[i]` is read even if `i` is not in use. -/
def searchNode : Nat → Nat → Node → Outcome Nat
  | 0, _, _ => .ub
  | fuel + 1, key, n =>
    let i := searchKey n.kvs key
    match (n.kvs ++ n.stale)[i]? with
    | none => .ub
    | some x =>
      if x.key = key then .ok x.val
      else
        match n.ch[i]? with
        | some c => searchNode fuel key c
        | none => .ok 0

/-- `btree_insert`, src/lib/btree.c:397-446, on `tree->root`: the root and the result; `-EINVAL` (408-409), `-1` (418) or 0. -/
def insert (k : Nat) (root : Option Node) (key val : Nat) : Outcome (Option Node × Int) :=
  if val = 0 then .ok (root, -22)
  else
    let n := root.getD (create k)
    do
    match ← insertNode k ⟨key, val⟩ (n.depth + 1) n with
    | none => .ok (some n, -1)
    | some (n', none) => .ok (some n', 0)
    | some (n', some (med, rgt)) =>
      let lft := Node.mk n'.leaf n'.kvs (zeros (k - n'.used)) n'.ch
      .ok (some (.mk false [med] ((n'.kvs ++ n'.stale).drop 1) [lft, rgt]), 0)

/-- `btree_remove`, src/lib/btree.c:448-474. -/
def remove (k : Nat) (root : Option Node) (key : Nat) : Outcome (Option Node × Int) :=
  match root with
  | none => .ok (none, 0)
  | some n => do
    let (n', r) ← deleteNode k (2 * n.depth + 2) key n
    if !r then .ok (some n', -1)
    else if n'.used = 0 then
      if n'.leaf then .ok (none, 0)
      else
        match n'.ch[0]? with
        | some c => .ok (some c, 0)
        | none => .ub
    else .ok (some n', 0)

/-- `btree_search`, src/lib/btree.c:494-502. -/
def search (root : Option Node) (key : Nat) : Outcome Nat :=
  match root with
  | none => .ok 0
  | some n => searchNode (n.depth + 1) key n

/-- An operation on the tree, src/lib/btree.c:397-502. -/
inductive Op where
  | insert (key val : Nat)
  | remove (key : Nat)
  | search (key : Nat)
  deriving Repr, DecidableEq

/-- An operation and its result, src/lib/btree.c:397-502. -/
def step (k : Nat) (root : Option Node) : Op → Outcome (Option Node × Int)
  | .insert key val => insert k root key val
  | .remove key => remove k root key
  | .search key => do
    let v ← search root key
    .ok (root, (v : Int))

/-- A sequence of operations on a new tree (src/lib/btree.c:369-384) and their results. -/
def run (k : Nat) : Option Node → List Op → Outcome (Option Node × List Int)
  | root, [] => .ok (root, [])
  | root, op :: ops => do
    let (root', r) ← step k root op
    let (root'', rs) ← run k root' ops
    .ok (root'', r :: rs)

end Ouro.Btree
