import Verif.Base
import Mathlib.Data.List.Basic

/-
Model of `Graph`, `Node`, `Edge` and the graph iterators
(include/ndt_gslam/slam_optimizer/pose_graph.h).

Simplifications common to the file:
* `std::vector<std::unique_ptr<E>>` is `List (Option E)`; nodes are never removed (the node pool is
  never written), so `nodes_` is a plain list;
* node pointers `from_`/`to_` of an edge are the indices of the nodes (nodes live on the heap and are
  never destroyed, so pointer and index correspond one to one; a foreign pointer is an index past the
  end);
* edge pointers in the adjacency lists are abstract addresses; the address of a new edge is chosen by
  the allocator and is a parameter of `addEdge`;
* poses, transforms, information matrices, data objects are an arbitrary payload type.
-/
namespace Verif.PoseGraph

open Verif

/-- `Node`, members at pose_graph.h:415-421; `payload` = pose, data object, visited mark. -/
structure Node (ν : Type u) where
  id : ℕ
  payload : ν
  out : List ℕ
  inn : List ℕ
  deriving DecidableEq, Repr

/-- `Edge`, members at pose_graph.h:603-611; `payload` = transform, information, state, type, used
mark.  `addr` is the address of the heap object. -/
structure Edge (ε : Type v) where
  addr : ℕ
  id : ℕ
  src : ℕ
  dst : ℕ
  payload : ε
  deriving DecidableEq, Repr

/-- `Graph`, members at pose_graph.h:70-74.  The pool is a stack; its top (the `back()` of the
vector) is the head of the list. -/
structure Graph (ν : Type u) (ε : Type v) where
  nodes : List (Node ν)
  edges : List (Option (Edge ε))
  pool : List ℕ
  deriving DecidableEq, Repr

variable {ν : Type u} {ε : Type v}

/-- pose_graph.h:32-34. -/
def empty : Graph ν ε := ⟨[], [], []⟩

/-- Edge object stored in slot `id`, if any. -/
def live (g : Graph ν ε) (id : ℕ) : Option (Edge ε) := (g.edges[id]?).join

/-- `Node::addEdgeOut`, pose_graph.h:451-461 (and `addEdgeIn`, 463-473): append unless the pointer is
already in the list. -/
def pushUnique (l : List ℕ) (a : ℕ) : List ℕ := if a ∈ l then l else l ++ [a]

/-- pose_graph.h:94-95: register the edge with its end nodes; a bad node index is undefined
behaviour. -/
def link (g : Graph ν ε) (src dst addr : ℕ) : Res (Graph ν ε) :=
  if src < g.nodes.length ∧ dst < g.nodes.length then
    let nodes := g.nodes.modify src fun n => { n with out := pushUnique n.out addr }
    let nodes := nodes.modify dst fun n => { n with inn := pushUnique n.inn addr }
    .ok { g with nodes := nodes }
  else .ub .outOfBounds

/-- `addEdge`, pose_graph.h:77-97.  `addr` is the address returned by `new` in line 80. -/
def addEdge (g : Graph ν ε) (addr src dst : ℕ) (payload : ε) : Res (ℕ × Graph ν ε) :=
  match g.pool with
  | [] =>
    let id := g.edges.length
    (link { g with edges := g.edges ++ [some ⟨addr, id, src, dst, payload⟩] } src dst addr).map
      fun g => (id, g)
  | id :: pool =>
    if id < g.edges.length then
      (link { g with
        pool := pool
        edges := g.edges.set id (some ⟨addr, id, src, dst, payload⟩) } src dst addr).map
        fun g => (id, g)
    else .ub .outOfBounds

/-- `removeEdge`, pose_graph.h:99-110.  Line 102 compares with `>`: `id = size` passes and line 108
accesses one past the end. -/
def removeEdge (g : Graph ν ε) (id : ℕ) : Res (Bool × Graph ν ε) :=
  if g.edges.length < id then .ok (false, g)
  else if id ∈ g.pool then .ok (false, g)
  else if id < g.edges.length then
    .ok (true, { g with pool := id :: g.pool, edges := g.edges.set id none })
  else .ub .outOfBounds

/-- `addNode`, pose_graph.h:112-131. -/
def addNode (g : Graph ν ε) (payload : ν) : ℕ × Graph ν ε :=
  (g.nodes.length, { g with nodes := g.nodes ++ [⟨g.nodes.length, payload, [], []⟩] })

/-- `getEdge`, pose_graph.h:133-157: dereferences the slot. -/
def getEdge (g : Graph ν ε) (id : ℕ) : Res (Edge ε) :=
  if g.edges.length ≤ id then .throw .outOfRange
  else if id ∈ g.pool then .throw .outOfRange
  else match live g id with
    | some e => .ok e
    | none => .ub .nullDeref

/-- `getNode`, pose_graph.h:159-177. -/
def getNode (g : Graph ν ε) (id : ℕ) : Res (Node ν) :=
  match g.nodes[id]? with
  | none => .throw .outOfRange
  | some n => .ok n

/-- Writing through the reference returned by `getNode` (`setPose`, `setVisited`, data object),
pose_graph.h:435-449, 510-532. -/
def modifyNode (g : Graph ν ε) (id : ℕ) (f : ν → ν) : Res (Graph ν ε) :=
  (getNode g id).map fun _ =>
    { g with nodes := g.nodes.modify id fun n => { n with payload := f n.payload } }

/-- Writing through the reference returned by `getEdge` (`setState`, `setType`, `setUsed`),
pose_graph.h:673-707. -/
def modifyEdge (g : Graph ν ε) (id : ℕ) (f : ε → ε) : Res (Graph ν ε) :=
  (getEdge g id).map fun _ =>
    { g with edges := g.edges.modify id fun e => e.map fun e => { e with payload := f e.payload } }

/-- `edgeCount`, pose_graph.h:226-230 (`size_t` subtraction, modulo 2^64). -/
def edgeCount (g : Graph ν ε) : ℕ := (g.edges.length + (2 ^ 64 - g.pool.length)) % 2 ^ 64

/-- `nodeCount`, pose_graph.h:231-235 (the node pool is always empty). -/
def nodeCount (g : Graph ν ε) : ℕ := g.nodes.length

/-! ### Iterators -/

variable {β : Type w}

/-- The loop of the prefix increment, pose_graph.h:268-270 (and 326-328): `*current_` is evaluated
before the comparison with `end_`. -/
def skipPrefix (l : List (Option β)) (pos : ℕ) : Res ℕ :=
  if h : pos < l.length then
    match l[pos] with
    | none => skipPrefix l (pos + 1)
    | some _ => .ok pos
  else .ub .pastEnd
termination_by l.length - pos

/-- Prefix `operator++`, pose_graph.h:264-272 (322-330): advancing past the end is undefined. -/
def nextPrefix (l : List (Option β)) (pos : ℕ) : Res ℕ :=
  if pos < l.length then skipPrefix l (pos + 1) else .ub .pastEnd

/-- The loop of the postfix increment, pose_graph.h:277-279 (335-337). -/
def skipPostfix (l : List (Option β)) (pos : ℕ) : ℕ :=
  if h : pos < l.length then
    match l[pos] with
    | none => skipPostfix l (pos + 1)
    | some _ => pos
  else pos
termination_by l.length - pos

/-- Postfix `operator++`, pose_graph.h:273-281 (331-339); it returns the new position. -/
def nextPostfix (l : List (Option β)) (pos : ℕ) : Res ℕ :=
  if pos < l.length then .ok (skipPostfix l (pos + 1)) else .ub .pastEnd

/-- `operator*`, pose_graph.h:282-285. -/
def derefIter (l : List (Option β)) (pos : ℕ) : Res β :=
  match l[pos]? with
  | none => .ub .pastEnd
  | some none => .ub .nullDeref
  | some (some b) => .ok b

/-- `for (it = begin(); it != end(); step it) visit *it` started at position `pos`, e.g.
slam2d.h:376-385, 502 and `std::for_each` at loop_detector.h:287-290.  `fuel` bounds the number of
iterations; each step moves forward, so `length - pos + 1` is always enough (see
`Verif/Graph/Iter.lean`). -/
def traverse (next : List (Option β) → ℕ → Res ℕ) (l : List (Option β)) :
    (fuel : ℕ) → (pos : ℕ) → Res (List β)
  | 0, _ => .ok []
  | fuel + 1, pos =>
    if pos = l.length then .ok []
    else (derefIter l pos).bind fun b =>
      (next l pos).bind fun pos' =>
      (traverse next l fuel pos').map fun bs => b :: bs

/-- The complete loop from `begin` (position 0, pose_graph.h:190-200) to `end`. -/
def loopPrefix (l : List (Option β)) : Res (List β) := traverse nextPrefix l (l.length + 1) 0

/-- The same loop written with the postfix increment. -/
def loopPostfix (l : List (Option β)) : Res (List β) := traverse nextPostfix l (l.length + 1) 0

end Verif.PoseGraph
