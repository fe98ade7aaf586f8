import Verif.Graph.Props
import Mathlib.Data.Real.Basic
import Mathlib.Data.Matrix.Basic
import Mathlib.LinearAlgebra.Matrix.Notation
import Mathlib.Data.Matrix.Diagonal

/-
Model of `Slam2D` (include/ndt_gslam/slam_optimizer/slam2d.h) on top of the pose graph model.

Simplifications:
* the g2o optimiser is represented by what the code puts into it (vertices, edges) and by the
  estimates it returns, which are arbitrary;
* `SparseOptimizer::addVertex`/`addEdge` are assumed to accept what they are given (they return false
  for a duplicate id or a null vertex; the theorems show that this does not happen);
* `nodes_to_edge_id_` is written but never read and is left out, as is the log output;
* positions in the state space of exceptions: an operation returns the outcome together with the
  state at the moment it ended, so the effect of a throwing call is visible.
-/
namespace Verif.Slam

open Verif Verif.PoseGraph

/-- `Eigen::Vector3d` used as a pose or as a relative transform (x, y, angle). -/
structure Pose where
  x : ℝ
  y : ℝ
  th : ℝ

/-- `Eigen::Matrix3d` used as an information matrix. -/
abbrev Info := Matrix (Fin 3) (Fin 3) ℝ

/-- `Edge::State`, pose_graph.h:561. -/
inductive EState
  | removed | temp | active | constructed
  deriving DecidableEq, Repr

/-- `Edge::Type`, pose_graph.h:562. -/
inductive EKind
  | odom | loop
  deriving DecidableEq, Repr

/-- Node contents: pose, data object, visited mark; pose_graph.h:415-421. -/
structure NodeP (τ : Type) where
  pose : Pose
  obj : τ
  visited : Bool

/-- Edge contents: transform, information, state, type, used mark; pose_graph.h:603-611. -/
structure EdgeP where
  trans : Pose
  inform : Info
  state : EState
  kind : EKind
  used : Bool

abbrev G (τ : Type) := Graph (NodeP τ) EdgeP

/-- What the code stores in a `g2o::VertexSE2`: id, fixed flag, estimate. -/
structure Vertex where
  id : ℕ
  fixed : Bool
  est : Pose

/-- What the code stores in a `g2o::EdgeSE2`.  The vertex pointers are indices into the vertex list,
`none` is the null pointer. -/
structure OptEdge where
  id : ℕ
  v0 : Option ℕ
  v1 : Option ℕ
  meas : Pose
  info : Info

/-- Members of `Slam2D`, slam2d.h:120-141 (without solver objects and unused settings). -/
structure State (τ : Type) where
  lastId : ℕ
  prevId : ℕ
  firstId : ℕ
  firstAdded : Bool
  edgeSeq : ℕ
  nodeSeq : ℕ
  graph : G τ
  vertices : List Vertex
  optEdges : List OptEdge
  /-- `id_to_g2o_vertex_` -/
  vertexOf : ℕ → Option ℕ

variable {τ : Type}

/-- Constructor, slam2d.h:56-82. -/
def init : State τ := ⟨0, 0, 0, false, 0, 0, PoseGraph.empty, [], [], fun _ => none⟩

/-- An operation that may end with an exception and keeps the state it has reached. -/
abbrev Op (σ α : Type*) := σ → Res α × σ

namespace Op
variable {σ : Type*} {α β : Type*}

def pure (a : α) : Op σ α := fun s => (.ok a, s)

def bind (m : Op σ α) (f : α → Op σ β) : Op σ β := fun s =>
  match m s with
  | (.ok a, s') => f a s'
  | (.throw e, s') => (.throw e, s')
  | (.ub u, s') => (.ub u, s')

/-- Statement without failure that changes the state. -/
def modify (f : σ → σ) : Op σ Unit := fun s => (.ok (), f s)

@[simp] theorem bind_apply_ok {m : Op σ α} {f : α → Op σ β} {s s' : σ} {a : α}
    (h : m s = (.ok a, s')) : bind m f s = f a s' := by simp [bind, h]

theorem bind_apply_throw {m : Op σ α} {f : α → Op σ β} {s s' : σ} {e : Exn}
    (h : m s = (.throw e, s')) : bind m f s = (.throw e, s') := by simp [bind, h]

theorem bind_apply_ub {m : Op σ α} {f : α → Op σ β} {s s' : σ} {u : UB}
    (h : m s = (.ub u, s')) : bind m f s = (.ub u, s') := by simp [bind, h]

end Op

/-- Read access to the graph. -/
def query (f : G τ → Res α) : Op (State τ) α := fun s => (f s.graph, s)

/-- Change of the graph; nothing happens if it fails. -/
def change (f : G τ → Res (α × G τ)) : Op (State τ) α := fun s =>
  match f s.graph with
  | .ok (a, g) => (.ok a, { s with graph := g })
  | .throw e => (.throw e, s)
  | .ub u => (.ub u, s)

/-- `addPose`, slam2d.h:187-212. -/
def addPose (s : State τ) (position : Pose) (obj : τ) : ℕ × State τ :=
  let (id, graph) := addNode s.graph ⟨position, obj, false⟩
  if s.firstAdded then
    (id,
      { s with
        graph := graph
        prevId := s.lastId
        lastId := id
        vertices := s.vertices ++ [⟨s.nodeSeq, false, position⟩]
        vertexOf := Function.update s.vertexOf id (some s.vertices.length)
        nodeSeq := s.nodeSeq + 1 })
  else
    (id,
      { s with
        graph := graph
        firstAdded := true
        firstId := id
        lastId := id
        vertices := s.vertices ++ [⟨s.nodeSeq, true, position⟩]
        vertexOf := Function.update s.vertexOf id (some s.vertices.length)
        nodeSeq := s.nodeSeq + 1 })

/-- The information matrix built at slam2d.h:221-224. -/
def stdInfo : Info := Matrix.diagonal ![500, 500, 5000]

/-- `addConstrain`, slam2d.h:214-244.  `addr` is the allocator's choice for the edge object.  The
parameter `_inform` is never read, as in the code. -/
def addConstrain (addr src dst : ℕ) (trans : Pose) (_inform : Info) : Op (State τ) ℕ :=
  .bind (query fun g => getNode g src) fun _ =>
  .bind (query fun g => getNode g dst) fun _ =>
  .bind (change fun g => addEdge g addr src dst ⟨trans, stdInfo, .constructed, .odom, false⟩) fun id =>
  .bind (change fun g => (modifyEdge g id fun e => { e with state := .active }).map ((), ·)) fun _ =>
  .bind (change fun g => (modifyEdge g id fun e => { e with kind := .odom }).map ((), ·)) fun _ =>
  .bind (.modify fun s =>
    { s with
      optEdges := s.optEdges ++ [⟨s.edgeSeq, s.vertexOf src, s.vertexOf dst, trans, stdInfo⟩]
      edgeSeq := s.edgeSeq + 1 }) fun _ =>
  .pure id

/-- `addLastConstrain`, slam2d.h:246-251. -/
def addLastConstrain (addr : ℕ) (trans : Pose) (inform : Info) : Op (State τ) ℕ := fun s =>
  addConstrain addr s.prevId s.lastId trans inform s

/-- `LoopClosure`, loop_detector.h:113-127, with the transform already converted to a vector by
`transMatToVec` (slam2d.h:270). -/
structure Closure where
  src : ℕ
  dst : ℕ
  trans : Pose
  inform : Info

/-- The loop of `tryLoopClose`, slam2d.h:267-297, over the closures found by the detector.  One
allocator address per closure. -/
def addLoops : List (ℕ × Closure) → Op (State τ) Unit
  | [] => .pure ()
  | (addr, c) :: rest =>
    .bind (addConstrain addr c.src c.dst c.trans c.inform) fun id =>
    .bind (change fun g => (modifyEdge g id fun e => { e with kind := .loop }).map ((), ·)) fun _ =>
    addLoops rest

/-- `tryLoopClose(node_id)` after the search, slam2d.h:266-301. -/
def finishLoopClose (loops : List (ℕ × Closure)) : Op (State τ) Bool :=
  .bind (addLoops loops) fun _ => .pure (decide (0 < loops.length))

/-- `updatePoseGraph`, slam2d.h:480-491.  `order` is the iteration order of the `unordered_map`,
`upd` is the data object's `updatePosition`.  A key without vertex would be a null dereference. -/
def updatePoseGraph (upd : τ → Pose → τ) : (order : List ℕ) → Op (State τ) Unit
  | [] => .pure ()
  | id :: rest => fun s =>
    match (s.vertexOf id).bind fun i => s.vertices[i]? with
    | none => (.ub .nullDeref, s)
    | some v =>
      Op.bind (change fun g => (modifyNode g id fun n =>
        { n with
          pose := v.est
          obj := upd n.obj v.est }).map ((), ·)) (fun _ => updatePoseGraph upd rest) s

/-- `optimalize`, slam2d.h:157-172: the optimiser replaces the estimates of the vertices that are not
fixed by arbitrary values `est`, then the result is copied into the pose graph. -/
def optimalize (est : ℕ → Pose) (upd : τ → Pose → τ) (order : List ℕ) : Op (State τ) Bool :=
  .bind (.modify fun s =>
    { s with
      vertices := s.vertices.map fun v => if v.fixed then v else { v with est := est v.id } })
    fun _ =>
  .bind (updatePoseGraph upd order) fun _ => .pure true

/-- `getPoseLocation`, slam2d.h:304-308. -/
def getPoseLocation (s : State τ) (id : ℕ) : Res Pose := (getNode s.graph id).map (·.payload.pose)

/-- `getPoseData`, slam2d.h:310-314. -/
def getPoseData (s : State τ) (id : ℕ) : Res τ := (getNode s.graph id).map (·.payload.obj)

/-- `getConstrainTransform`, slam2d.h:316-320. -/
def getConstrainTransform (s : State τ) (id : ℕ) : Res Pose :=
  (getEdge s.graph id).map (·.payload.trans)

/-- `getConstrainInformMat`, slam2d.h:322-326. -/
def getConstrainInformMat (s : State τ) (id : ℕ) : Res Info :=
  (getEdge s.graph id).map (·.payload.inform)

/-- `getConstrainPoses`, slam2d.h:328-335. -/
def getConstrainPoses (s : State τ) (id : ℕ) : Res (ℕ × ℕ) :=
  (getEdge s.graph id).map fun e => (e.src, e.dst)

end Verif.Slam
