import Verif.Graph.Model

/-
The project's own unit tests of the pose graph (test/slam_optimizer/pose_graph_test.cpp), run on the model.  They check
that the model behaves like the code on the cases the authors wrote down; they prove nothing else (`#guard` evaluates
a test and leaves no theorem).
-/
namespace Verif.Tests.Graph

open Verif Verif.PoseGraph

abbrev G := Graph Unit Unit

/-- New edges get the address `1000 + n`, where `n` counts the calls. -/
def join (g : Res G) (n src dst : ℕ) : Res G := g.bind fun g => (addEdge g (1000 + n) src dst ()).map Prod.snd

/-- `prepareGraph`, lines 14-25. -/
def chain : Res G :=
  (List.range 19).foldl (fun g i => join g i i (i + 1))
    (.ok ((List.range 20).foldl (fun g _ => (addNode g ()).2) empty))

/-- `prepareGraphIncrementaly`, lines 27-37. -/
def grown : Res G :=
  (List.range 19).foldl (fun g i => join (g.map fun g => (addNode g ()).2) i i (i + 1)) (.ok (addNode empty ()).2)

/-! ### TEST(PoseGraph, buildIncGraph) and addingNodesAndEdges, lines 39-73 -/

#guard chain = grown
#guard (chain.map fun g => (nodeCount g, edgeCount g)) = .ok (20, 19)
#guard (List.range 20).all fun i => (addNode ((List.range i).foldl (fun (g : G) _ => (addNode g ()).2) empty) ()).1 = i

/-! ### TEST(PoseGraph, removingEdgesAndAddBack), lines 75-96 -/

def remove (g : Res G) (id : ℕ) : Res G := g.bind fun g => (removeEdge g id).map Prod.snd
def removed (g : Res G) (id : ℕ) : Res Bool := g.bind fun g => (removeEdge g id).map Prod.fst
def newId (g : Res G) : Res ℕ := g.bind fun g => (addEdge g 2000 1 2 ()).map Prod.fst

#guard removed chain 10 = .ok true
#guard removed (remove chain 10) 11 = .ok true
#guard removed (remove (remove chain 10) 11) 200 = .ok false
#guard removed (remove (remove chain 10) 11) 10 = .ok false
#guard newId (remove (remove chain 10) 11) = .ok 11
#guard newId (join (remove (remove chain 10) 11) 19 1 2) = .ok 10
#guard newId (join (join (remove (remove chain 10) 11) 19 1 2) 20 1 2) = .ok 19

/-! ### TEST(PoseGraph, checkCorrectEdgeRoutes), lines 98-118 -/

#guard (List.range 19).all fun i => (grown.bind fun g => (getEdge g i).map fun e => (e.src, e.dst)) = .ok (i, i + 1)

/- The prefix increment of the test looks at the slot past the end before it compares with `end()` (see C31), which the
model reports; the postfix increment visits the expected edges. -/
#guard (grown.bind fun g => loopPrefix g.edges) = .ub .pastEnd
#guard (grown.bind fun g => (loopPostfix g.edges).map fun l => l.map fun e => (e.src, e.dst)) =
  .ok ((List.range 19).map fun i => (i, i + 1))

/-! ### TEST(PoseGraph, iterators), lines 120-144 -/

def holes : Res G := remove (remove (remove (remove (remove grown 4) 7) 8) 17) 18

#guard (holes.bind fun g => (loopPostfix g.edges).map fun l => l.map fun e => e.src) =
  .ok [0, 1, 2, 3, 5, 6, 9, 10, 11, 12, 13, 14, 15, 16]

/-! ### TEST(PoseGraph, inputOutputEdges), lines 146-174 -/

def both : Res G := join (join grown 19 1 3) 20 3 1

def outOf (n : ℕ) : Res (List ℕ) := both.bind fun g => (getNode g n).map fun n => n.out
def into (n : ℕ) : Res (List ℕ) := both.bind fun g => (getNode g n).map fun n => n.inn

#guard outOf 3 = .ok [1003, 1020]
#guard into 3 = .ok [1002, 1019]
#guard outOf 1 = .ok [1001, 1019]
#guard into 1 = .ok [1000, 1020]
#guard (both.map fun g => [1, 0, 3, 20, 2, 19].map fun i => (live g i).map fun e => (e.addr, e.src, e.dst)) =
  .ok [some (1001, 1, 2), some (1000, 0, 1), some (1003, 3, 4), some (1020, 3, 1), some (1002, 2, 3), some (1019, 1, 3)]

end Verif.Tests.Graph
