import Verif.Slam.Props
import Verif.Pose.Model
import Mathlib.Analysis.Real.Sqrt

/-
Model of `LoopDetector` (include/ndt_gslam/slam_optimizer/loop_detector.h).

Simplifications:
* real arithmetic; the inverse of a singular information matrix is 0 (Eigen: not finite numbers).  The
  covariance only decides the order in which the priority queue delivers its elements;
* the priority queue is a list and an arbitrary choice function `pick` (which element is delivered).  The
  theorems hold for every order unless they assume `LargestFirst` (Spec.lean), the order of
  `std::priority_queue` with `EdgeCovComparer`;
* the `cov_` and `distance_` of the start element are never initialised (loop_detector.h:33-40) and are read
  by `operator+` (lines 54-61): they are arbitrary parameters `junkCov`, `junk`.  Its `node_id_` is not
  initialised either but never read;
* the scan matcher is an arbitrary function of the attempt number, the two node ids and the guess;
* `calcScanParams` only fills a cache with values that are not used for the decision; left out;
* the loop has a fuel argument; running out of fuel is the outcome `none`, and C39 shows that it does
  not happen.
-/
namespace Verif.Loop

open Verif Verif.PoseGraph Verif.Slam

variable {τ : Type}

/-- `EdgeCov`, loop_detector.h:15-82. -/
abbrev Item := Geo.EdgeCov

/-- `MatchResult`, slam_optimizer/graph_slam_interfaces.h:197. -/
structure MatchResult where
  success : Bool
  inform : Info
  trans : Matrix (Fin 3) (Fin 3) ℝ

/-- `LoopClosure`, loop_detector.h:113-127. -/
structure LoopClosure where
  src : ℕ
  dst : ℕ
  inform : Info
  trans : Matrix (Fin 3) (Fin 3) ℝ

/-- Settings and environment of one search. -/
structure Env where
  minDist : ℝ
  maxDist : ℝ
  /-- which element the priority queue delivers (index modulo the size) -/
  pick : ℕ → List Item → ℕ
  /-- outcome of match number `k` with the given source and target node and guess -/
  matcher : ℕ → ℕ → ℕ → Geo.Trans → MatchResult
  /-- content of the uninitialised `distance_` -/
  junk : ℝ
  /-- content of the uninitialised `cov_` -/
  junkCov : Geo.Trans

/-- The start element `EdgeCov(node_id)`, loop_detector.h:33-40, 228. -/
def startItem (env : Env) (start : ℕ) : Item := ⟨start, 0, 0, env.junkCov, 1, env.junk, 0⟩

/-- The element for one constraint, loop_detector.h:340-344 (its `start_id_` is never read, line 49). -/
noncomputable def edgeItem (e : Edge EdgeP) : Item :=
  let t := (Geo.getTransFromPose e.payload.trans)⁻¹
  ⟨0, e.src, 0, (e.payload.inform)⁻¹, t, Real.sqrt (t 0 2 ^ 2 + t 1 2 ^ 2), 0⟩

/-- The guess for the scan matcher, loop_detector.h:250-252. -/
noncomputable def guessTrans (target source : Pose) : Geo.Trans :=
  let g := (Geo.getTransFromPose target)⁻¹ * Geo.getTransFromPose source
  !![g 0 0, g 0 1, 0; g 1 0, g 1 1, 0; g 2 0, g 2 1, g 2 2]

/-- Euclidean distance of two poses, loop_detector.h:242-243. -/
noncomputable def poseDist (p q : Pose) : ℝ := Real.sqrt ((p.x - q.x) ^ 2 + (p.y - q.y) ^ 2)

/-- The edge object at an address; `none` is a dangling pointer. -/
def findEdge (g : G τ) (addr : ℕ) : Option (Edge EdgeP) :=
  (g.edges.filterMap id).find? fun e => e.addr = addr

/-- `edge->setUsed(true)` through a pointer, pose_graph.h:697-701. -/
def setUsed (g : G τ) (addr : ℕ) : G τ :=
  { g with edges := g.edges.map fun e => e.map fun e =>
      if e.addr = addr then { e with payload := { e.payload with used := true } } else e }

/-- The loop of `genPossibleEdges`, loop_detector.h:334-346, over the incoming edges. -/
noncomputable def expand : List ℕ → Item → List Item × G τ → Res (List Item × G τ)
  | [], _, st => .ok st
  | addr :: rest, base, (out, g) =>
    match findEdge g addr with
    | none => .ub .dangling
    | some e =>
      if e.payload.used then expand rest base (out, g)
      else
        match g.nodes[e.src]? with
        | none => .ub .dangling
        | some n =>
          if n.payload.visited then expand rest base (out, setUsed g addr)
          else expand rest base (out ++ [base.add (edgeItem e)], setUsed g addr)

/-- `genPossibleEdges`, loop_detector.h:327-348. -/
noncomputable def genPossibleEdges (g : G τ) (node : ℕ) (base : Item) : Res (List Item × G τ) :=
  (getNode g node).bind fun n => expand n.inn base ([], g)

/-- `getNode(id).setVisited(true)`, loop_detector.h:226, 277. -/
def setVisited (g : G τ) (id : ℕ) : Res (G τ) := modifyNode g id fun n => { n with visited := true }

/-- Local variables of `genLoopClosures`; `attempts` (the sources of the scan matches made) is a trace
added for the specification. -/
structure St (τ : Type) where
  graph : G τ
  fringe : List Item
  visited : ℕ
  depth : ℕ
  found : List LoopClosure
  attempts : List ℕ

/-- loop_detector.h:140-147. -/
def maxDepth : ℕ := 50

/-- The loop condition, loop_detector.h:235. -/
def running (s : St τ) : Prop := nodeCount s.graph > s.visited ∧ s.depth < maxDepth

instance (s : St τ) : Decidable (running s) := by unfold running; infer_instance

open Classical in
/-- Lines 242-276: distance test, `isCloseMatch` (372-393, which only tests the distance), match. -/
noncomputable def tryMatch (env : Env) (start : ℕ) (s : St τ) (item : Item) (target source : Pose) :
    St τ :=
  if poseDist target source < env.maxDist ∧ ¬ item.dist < env.minDist then
    let res := env.matcher s.depth item.node start (guessTrans target source)
    { s with
      depth := s.depth + 1
      attempts := s.attempts ++ [item.node]
      found := if res.success then s.found ++ [⟨start, item.node, res.inform, res.trans⟩]
        else s.found }
  else s

/-- One iteration of the loop, loop_detector.h:235-284. -/
noncomputable def body (env : Env) (start : ℕ) (s : St τ) : Res (St τ) :=
  match s.fringe[env.pick s.visited s.fringe % s.fringe.length]? with
  | none => .ub .emptyContainer
  | some item =>
    (getNode s.graph start).bind fun target =>
    (getNode s.graph item.node).bind fun source =>
    let s1 := tryMatch env start s item target.payload.pose source.payload.pose
    (setVisited s1.graph item.node).bind fun g =>
    let rest := s.fringe.eraseIdx (env.pick s.visited s.fringe % s.fringe.length)
    (genPossibleEdges g item.node item).map fun (items, g) =>
    { s1 with
      graph := g
      fringe := rest ++ items
      visited := s.visited + 1 }

/-- The loop, loop_detector.h:235-284. -/
noncomputable def loop (env : Env) (start : ℕ) : ℕ → St τ → Option (Res (St τ))
  | 0, s => if running s then none else some (.ok s)
  | fuel + 1, s =>
    if running s then
      match body env start s with
      | .ok s' => loop env start fuel s'
      | .throw e => some (.throw e)
      | .ub u => some (.ub u)
    else some (.ok s)

/-- Lines 220-233: before the loop. -/
noncomputable def begin (env : Env) (g : G τ) (start : ℕ) : Res (St τ) :=
  (setVisited g start).bind fun g =>
  (genPossibleEdges g start (startItem env start)).map fun (items, g) => ⟨g, items, 1, 0, [], []⟩

/-- `genLoopClosures` up to the clean-up, loop_detector.h:215-284. -/
noncomputable def search (env : Env) (fuel : ℕ) (g : G τ) (start : ℕ) : Option (Res (St τ)) :=
  match begin env g start with
  | .ok s => loop env start fuel s
  | .throw e => some (.throw e)
  | .ub u => some (.ub u)

/-- All marks removed. -/
def clearMarks (g : G τ) : G τ :=
  { g with
    nodes := g.nodes.map fun n => { n with payload := { n.payload with visited := false } }
    edges := g.edges.map fun e => e.map fun e =>
      { e with payload := { e.payload with used := false } } }

/-- What a machine does with the read of `*end_` in the prefix increment (pose_graph.h:268). -/
inductive Overread
  | strict    -- undefined behaviour, as the standard says
  | tolerant  -- some value is read; the next comparison with `end_` ends the loop
  deriving DecidableEq

/-- `std::for_each` from begin to end over one container: it uses the prefix increment. -/
def forEach {β : Type*} (o : Overread) (l : List (Option β)) : Res (List β) :=
  match o with
  | .strict => loopPrefix l
  | .tolerant => loopPostfix l

/-- The clean-up, loop_detector.h:286-290: every element the two loops visit gets its mark cleared.
(On normal completion the loops visit every node and every edge, `loopPostfix_eq`.) -/
def cleanup (o : Overread) (g : G τ) : Res (G τ) :=
  (forEach o (g.nodes.map some)).bind fun ns =>
  (forEach o g.edges).bind fun es =>
  .ok
    { g with
      nodes := g.nodes.map fun n =>
        if n.id ∈ ns.map Node.id then { n with payload := { n.payload with visited := false } } else n
      edges := g.edges.map fun e => e.map fun e =>
        if e.addr ∈ es.map Edge.addr then { e with payload := { e.payload with used := false } }
        else e }

/-- `genLoopClosures`, loop_detector.h:215-292. -/
noncomputable def genLoopClosures (o : Overread) (env : Env) (fuel : ℕ) (g : G τ) (start : ℕ) :
    Option (Res (List LoopClosure × G τ)) :=
  (search env fuel g start).map fun r =>
    r.bind fun s => (cleanup o s.graph).map fun g => (s.found, g)

/-- `Slam2D::tryLoopClose(node_id)`, slam2d.h:260-302: search, then add the closures found.  `addrs`
are the allocator's choices, `toVec` is `Policy::transMatToVec` (slam2d_policy.h:29-32). -/
noncomputable def tryLoopClose (o : Overread) (env : Env) (toVec : Matrix (Fin 3) (Fin 3) ℝ → Pose)
    (addrs : List ℕ) (start : ℕ) (s : State τ) : Option (Res Bool × State τ) :=
  (genLoopClosures o env (nodeCount s.graph) s.graph start).map fun r =>
    match r with
    | .throw e => (.throw e, s)
    | .ub u => (.ub u, s)
    | .ok (cs, g) => finishLoopClose
        (addrs.zip (cs.map fun c => ⟨c.src, c.dst, toVec c.trans, c.inform⟩)) { s with graph := g }

end Verif.Loop
