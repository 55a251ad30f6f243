import Verif.Model.Base

/-!
# Model of the routing graph (src/ipcpd/unicast/routing/graph.c)

Vertices are identified by address: a pointer to a vertex is its address, following it looks the vertex up and is undefined if there is
none (a pointer to freed memory). Addresses are only compared, so they are natural numbers. `malloc` succeeds. The QoS of an edge is
stored but never used by the code and is left out. `announced` does not overflow `int`. All functions run under `graph->lock`.

`int` sums that can overflow are computed with `addInt`, which wraps around as compiled code does.
-/

namespace Ouro.Graph

/-- `struct edge` (src/ipcpd/unicast/routing/graph.c:52-57). -/
structure Edge where
  nb : Nat
  announced : Nat
  deriving DecidableEq, Repr

/-- `struct vertex` (src/ipcpd/unicast/routing/graph.c:45-50). -/
structure Vertex where
  addr : Nat
  index : Nat
  edges : List Edge
  deriving DecidableEq, Repr

/-- `struct graph` (src/ipcpd/unicast/routing/graph.c:59-63). -/
structure Graph where
  nr : Nat
  verts : List Vertex
  deriving DecidableEq, Repr

/-- `graph_create` (src/ipcpd/unicast/routing/graph.c:193-210). -/
def create : Graph := ⟨0, []⟩

/-- `find_edge_by_addr` (src/ipcpd/unicast/routing/graph.c:65-79). -/
def findEdge (es : List Edge) (d : Nat) : Option Edge := es.find? (fun e => e.nb == d)

/-- `find_vertex_by_addr` (src/ipcpd/unicast/routing/graph.c:81-95). -/
def findVertex (g : Graph) (a : Nat) : Option Vertex := g.verts.find? (fun v => v.addr == a)

/-- `add_vertex` (src/ipcpd/unicast/routing/graph.c:125-163). -/
def addVertex (g : Graph) (a : Nat) : Graph :=
  let pre := g.verts.takeWhile (fun v => ¬ v.addr > a)
  let post := g.verts.dropWhile (fun v => ¬ v.addr > a)
  ⟨g.nr + 1, (pre ++ ⟨a, pre.length, []⟩ :: post).map (fun v => if v.addr > a then { v with index := v.index + 1 } else v)⟩

/-- `del_vertex` (src/ipcpd/unicast/routing/graph.c:165-191). -/
def delVertex (g : Graph) (a : Nat) : Graph :=
  ⟨g.nr - 1, (g.verts.filter (fun v => v.addr ≠ a)).map (fun v => if v.addr > a then { v with index := v.index - 1 } else v)⟩

/-- Find or add a vertex (src/ipcpd/unicast/routing/graph.c:247-267). -/
def ensure (g : Graph) (a : Nat) : Graph :=
  match findVertex g a with
  | some _ => g
  | none => addVertex g a

/-- Change of the edge list of the vertex with address `a` (used for src/ipcpd/unicast/routing/graph.c:269-303, 351-354). -/
def setEdges (g : Graph) (a : Nat) (f : List Edge → List Edge) : Graph :=
  ⟨g.nr, g.verts.map (fun v => if v.addr = a then { v with edges := f v.edges } else v)⟩

/-- Find the edge to `d`, or add it at the head, and increment `announced` (src/ipcpd/unicast/routing/graph.c:97-115, 269-284). -/
def announce (d : Nat) (es : List Edge) : List Edge :=
  match findEdge es d with
  | some _ => es.map (fun e => if e.nb = d then { e with announced := e.announced + 1 } else e)
  | none => ⟨d, 1⟩ :: es

/-- Decrement `announced` of the edge to `d`, and delete it when 0 (src/ipcpd/unicast/routing/graph.c:117-123, 351-354). -/
def withdraw (d : Nat) (es : List Edge) : List Edge :=
  (es.map (fun e => if e.nb = d then { e with announced := e.announced - 1 } else e)).filter
    (fun e => ¬ (e.nb = d ∧ e.announced = 0))

/-- `graph_update_edge` (src/ipcpd/unicast/routing/graph.c:233-308). -/
def updateEdge (g : Graph) (s d : Nat) : Graph :=
  let g := ensure g s
  let g := ensure g d
  let g := setEdges g s (announce d)
  setEdges g d (announce s)

/-- The vertex is removed if it has no edges left (src/ipcpd/unicast/routing/graph.c:357-360). -/
def prune (g : Graph) (a : Nat) : Graph :=
  match findVertex g a with
  | some v => if v.edges = [] then delVertex g a else g
  | none => g

/-- `graph_del_edge` (src/ipcpd/unicast/routing/graph.c:310-365): result and new graph. If source and destination are the same, the
same edge and vertex are freed and used again: undefined. (Deleting an edge from a vertex to itself always ends there, since its count
is even and it is the only way in which it is decremented; a vertex with further edges survives and is treated as undefined too.) -/
def delEdge (g : Graph) (s d : Nat) : Outcome (Graph × Int) :=
  match findVertex g s with
  | none => .ok (g, -1)
  | some v =>
    match findVertex g d with
    | none => .ok (g, -1)
    | some nb =>
      match findEdge v.edges d with
      | none => .ok (g, -1)
      | some _ =>
        match findEdge nb.edges s with
        | none => .ok (g, -1)
        | some _ =>
          if s = d then .ub
          else
            let g := setEdges g s (withdraw d)
            let g := setEdges g d (withdraw s)
            let g := prune g s
            .ok (prune g d, 0)

/-- INT_MAX (src/ipcpd/unicast/routing/graph.c:372, 435). -/
def INT_MAX : Nat := 2147483647

/-- `a + b` for `int`, wrapping (src/ipcpd/unicast/routing/graph.c:680, 750). -/
def addInt (a b : Nat) : Int := Int.bmod ((a : Int) + b) (2 ^ 32)

/-- Following a pointer to a vertex (src/ipcpd/unicast/routing/graph.c:454-459). -/
def deref (g : Graph) (a : Nat) : Outcome Vertex :=
  match findVertex g a with
  | some v => .ok v
  | none => .ub

/-- `get_min_vertex`, the loop (src/ipcpd/unicast/routing/graph.c:384-392). -/
def minLoop (dist : List Nat) (used : List Bool) : List Vertex → Nat → Nat → Option (Nat × Vertex) → Outcome (Option (Nat × Vertex))
  | [], _, _, best => .ok best
  | v :: vs, i, min, best => do
    let u ← rd used i
    let d ← rd dist i
    if u = false ∧ d < min then minLoop dist used vs (i + 1) d (some (i, v))
    else minLoop dist used vs (i + 1) min best

/-- The arrays of `dijkstra` (src/ipcpd/unicast/routing/graph.c:402-405). -/
structure DState where
  dist : List Nat
  nhops : List (Option Nat)
  used : List Bool
  deriving DecidableEq, Repr

/-- The next hop handed on to a neighbour that got nearer (src/ipcpd/unicast/routing/graph.c:456-459). -/
def viaHop (src i : Nat) (v nb : Vertex) (st : DState) : Outcome (Option Nat) :=
  if v.addr = src then .ok (some nb.addr) else rd st.nhops i

/-- The body of the loop over the edges of `v`, which has position `i` (src/ipcpd/unicast/routing/graph.c:442-460). -/
def relax (g : Graph) (src i : Nat) (v : Vertex) (st : DState) (e : Edge) : Outcome DState :=
  if e.announced ≠ 2 then .ok st
  else do
    let di ← rd st.dist i
    let nb ← deref g e.nb
    let dn ← rd st.dist nb.index
    if addInt di 1 < dn then
      let dist ← wr st.dist nb.index (di + 1)
      let nh ← viaHop src i v nb st
      let nhops ← wr st.nhops nb.index nh
      return { st with dist := dist, nhops := nhops }
    else return st

/-- The loop over the edges (src/ipcpd/unicast/routing/graph.c:441-461). -/
def relaxAll (g : Graph) (src i : Nat) (v : Vertex) : DState → List Edge → Outcome DState
  | st, [] => .ok st
  | st, e :: es => do
    let st ← relax g src i v st e
    relaxAll g src i v st es

/-- The main loop (src/ipcpd/unicast/routing/graph.c:439-463). Running out of fuel stands for not terminating. -/
def dijkstraLoop (g : Graph) (src : Nat) : Nat → DState → Outcome DState
  | 0, _ => .ub
  | fuel + 1, st => do
    match ← minLoop st.dist st.used g.verts 0 INT_MAX none with
    | none => return st
    | some (i, v) =>
      let used ← wr st.used i true
      let st ← relaxAll g src i v { st with used := used } v.edges
      dijkstraLoop g src fuel st

/-- `dijkstra` (src/ipcpd/unicast/routing/graph.c:400-476). The initial loop writes one cell per vertex into arrays of `nr_vertices`
cells. -/
def dijkstra (g : Graph) (src : Nat) : Outcome DState :=
  if g.nr < g.verts.length then .ub
  else
    dijkstraLoop g src (g.verts.length + 1)
      { dist := g.verts.map (fun v => if v.addr = src then 0 else INT_MAX) ++ List.replicate (g.nr - g.verts.length) 0,
        nhops := List.replicate g.nr none, used := List.replicate g.nr false }

/-- A routing table: destinations with their next hops (src/ipcpd/unicast/routing/graph.h:37-46). -/
abbrev Table := List (Nat × List Nat)

/-- The construction of the table (src/ipcpd/unicast/routing/graph.c:539-565); entries are added at the head. -/
def simpleLoop (nhops : List (Option Nat)) : List Vertex → Nat → Table → Outcome Table
  | [], _, t => .ok t
  | v :: vs, i, t => do
    match ← rd nhops i with
    | none => simpleLoop nhops vs (i + 1) t
    | some h => simpleLoop nhops vs (i + 1) ((v.addr, [h]) :: t)

/-- `graph_routing_table_simple` (src/ipcpd/unicast/routing/graph.c:513-580): the table and the distances, `none` for -1. -/
def simple (g : Graph) (src : Nat) : Outcome (Option (Table × List Nat)) :=
  if g.nr < 2 then .ok none
  else do
    let st ← dijkstra g src
    let t ← simpleLoop st.nhops g.verts 0 []
    return some (t, st.dist)

/-- `add_lfa_to_table` (src/ipcpd/unicast/routing/graph.c:582-609); `none` for -1. -/
def addLfa : Table → Nat → Nat → Option Table
  | [], _, _ => none
  | (dst, nhs) :: t, a, lfa => if dst = a then some ((dst, nhs ++ [lfa]) :: t) else (addLfa t a lfa).map ((dst, nhs) :: ·)

/-- PROG_MAX_FLOWS (src/lib/config.h.in:65), the size of the arrays at src/ipcpd/unicast/routing/graph.c:616-618. -/
def maxFlows : Nat := 4096

/-- The distances of every neighbour (src/ipcpd/unicast/routing/graph.c:647-657): address, index, distances. -/
def nbDists (g : Graph) : List Edge → Outcome (List (Nat × Nat × List Nat))
  | [] => .ok []
  | e :: es => do
    let nb ← deref g e.nb
    let st ← dijkstra g nb.addr
    let l ← nbDists g es
    return (nb.addr, nb.index, st.dist) :: l

/-- The loop over the neighbours for one destination (src/ipcpd/unicast/routing/graph.c:674-684). -/
def lfaNbs (dist : List Nat) (v : Vertex) : List (Nat × Nat × List Nat) → Table → Outcome (Option Table)
  | [], t => .ok (some t)
  | (a, ix, nd) :: l, t =>
    if a = v.addr then lfaNbs dist v l t
    else do
      let x ← rd nd v.index
      let dn ← rd dist ix
      let dv ← rd dist v.index
      if (x : Int) < addInt dn dv then
        match addLfa t v.addr a with
        | some t => lfaNbs dist v l t
        | none => return none
      else lfaNbs dist v l t

/-- The loop over the destinations (src/ipcpd/unicast/routing/graph.c:663-685). -/
def lfaLoop (src : Nat) (dist : List Nat) (nbs : List (Nat × Nat × List Nat)) : List Vertex → Table → Outcome (Option Table)
  | [], t => .ok (some t)
  | v :: vs, t =>
    if v.addr = src then lfaLoop src dist nbs vs t
    else do
      match ← lfaNbs dist v nbs t with
      | some t => lfaLoop src dist nbs vs t
      | none => return none

/-- `graph_routing_table_lfa` (src/ipcpd/unicast/routing/graph.c:611-699). More than 4096 neighbours overflow the arrays. -/
def lfa (g : Graph) (src : Nat) : Outcome (Option Table) := do
  match ← simple g src with
  | none => return none
  | some (t, dist) =>
    let es := match findVertex g src with
      | some v => v.edges
      | none => []
    if maxFlows < es.length then .ub
    else
      let nbs ← nbDists g es
      lfaLoop src dist nbs g.verts t

/-- The vertices for which `nb` is an equal-cost next hop (src/ipcpd/unicast/routing/graph.c:748-759). -/
def ecmpVerts (nb : Nat) (tmp dist : List Nat) : List Vertex → List (List Nat) → Outcome (List (List Nat))
  | [], fw => .ok fw
  | v :: vs, fw => do
    let x ← rd tmp v.index
    let d ← rd dist v.index
    if addInt x 1 = d then
      let l ← rd fw v.index
      let fw ← wr fw v.index (l ++ [nb])
      ecmpVerts nb tmp dist vs fw
    else ecmpVerts nb tmp dist vs fw

/-- The loop over the neighbours (src/ipcpd/unicast/routing/graph.c:739-762). -/
def ecmpNbs (g : Graph) (dist : List Nat) : List Edge → List (List Nat) → Outcome (List (List Nat))
  | [], fw => .ok fw
  | e :: es, fw => do
    let nb ← deref g e.nb
    let st ← dijkstra g nb.addr
    let fw ← ecmpVerts nb.addr st.dist dist g.verts fw
    ecmpNbs g dist es fw

/-- The construction of the table (src/ipcpd/unicast/routing/graph.c:765-789). -/
def ecmpTable (src : Nat) (fw : List (List Nat)) : List Vertex → Nat → Table → Outcome Table
  | [], _, t => .ok t
  | v :: vs, i, t =>
    if v.addr = src then ecmpTable src fw vs (i + 1) t
    else do
      let l ← rd fw i
      ecmpTable src fw vs (i + 1) ((v.addr, l) :: t)

/-- `graph_routing_table_ecmp` (src/ipcpd/unicast/routing/graph.c:701-806). -/
def ecmp (g : Graph) (src : Nat) : Outcome (Option Table) :=
  if g.nr < 2 then .ok none
  else do
    let st ← dijkstra g src
    match findVertex g src with
    | none => return none
    | some v =>
      let fw ← ecmpNbs g st.dist v.edges (List.replicate g.nr [])
      let t ← ecmpTable src fw g.verts 0 []
      return some t

/-- The two calls that change a graph (src/ipcpd/unicast/routing/graph.h:52-59). -/
inductive Call where
  | update (s d : Nat)
  | del (s d : Nat)
  deriving DecidableEq, Repr

/-- One call (src/ipcpd/unicast/routing/graph.c:233-365). -/
def call (g : Graph) : Call → Outcome Graph
  | .update s d => .ok (updateEdge g s d)
  | .del s d => do
    let r ← delEdge g s d
    return r.1

/-- A history of calls (src/ipcpd/unicast/routing/graph.c:233-365). -/
def calls (g : Graph) : List Call → Outcome Graph
  | [] => .ok g
  | x :: xs => do
    let g ← call g x
    calls g xs

end Ouro.Graph
