import Verif.Pose.Model
import Verif.Pose.Spec
import Verif.NDTGrid.Model
import Verif.Slam.Model

/-
Model of `NdtSlamAlgortihm` (include/ndt_gslam/ndt_slam_algorithm.h) on top of the models of `Slam2D` and of
eigen_tools.h.

Simplifications:
* the grids are represented by their origins and by a list of the scans merged into them (where the scan was
  placed and where its rays started); their contents are the subject of `Verif.NDTGrid`;
* the results of the scan matcher, the loop closures found by the detector, the estimates of the optimiser
  and the addresses chosen by the allocator are inputs;
* conversion to `float` and back at the interface of the matcher is exact;
* the order in which the mapper merges the frames is left out (C56); `placed` holds for every frame the origin
  with which it was last merged into the map;
* log output, `window_seq_` and `window_update_time_` are left out.
-/
namespace Verif.Algo

open Verif Verif.Geo Matrix

/-- One call of `mergeInTraced(pcl, ..)`: the transform from the coordinates of the scan (robot) to those of
the frame, and the start of the rays in the frame. -/
structure Insert where
  place : Trans
  ray : ℝ × ℝ

/-- `NDTGrid2D` as a frame. -/
structure Frame where
  origin : Pose
  inserts : List Insert

/-- `pcl::transformPointCloud(in, out, convertFromTransform(t))` acts on planar points as this matrix. -/
noncomputable def viaPcl (t : Trans) : Trans := convertToTransform (convertFromTransform t)

/-- `mergeInTraced(pcl, origin, true)`, ndt_grid2d.h:546-576, for the cloud that is the current scan
transformed by `cloud`. -/
noncomputable def Frame.mergeTraced (f : Frame) (cloud : Trans) (origin : Pose) : Frame :=
  let trans := transBtwFrames origin f.origin
  { f with inserts := f.inserts ++ [⟨viaPcl trans * cloud, act trans (0, 0)⟩] }

/-- `initialize(pcl)`, ndt_grid2d.h:597-602. -/
noncomputable def Frame.initialize (f : Frame) : Frame := Frame.mergeTraced { f with inserts := [] } 1 f.origin

/-- `NDTGrid2DHolder::updatePosition`, ndt_grid2d_holder.h:50-53. -/
def Frame.updatePosition (f : Frame) (p : Pose) : Frame := { f with origin := p }

/-- Members of `NdtSlamAlgortihm`, ndt_slam_algorithm.h:111-144. -/
structure State where
  initialized : Bool
  firstNodeAdded : Bool
  minDistance : ℝ
  minRotation : ℝ
  maxTraveled : ℝ
  cellSize : ℝ
  lastNodeId : ℕ
  lastCovar : Trans
  lastTrans : Trans
  unused : Trans
  position : Trans
  positionCumul : Trans
  transTemp : Trans
  lastMatcherPose : Pose
  covarTemp : Trans
  /-- origin of `running_window_` -/
  window : Pose
  /-- `frame_temp_` -/
  temp : Frame
  /-- origins used by `map_` for the frames added so far -/
  placed : List Pose
  engine : Slam.State Frame

/-- Constructor, ndt_slam_algorithm.h:155-183. -/
noncomputable def init : State where
  initialized := false
  firstNodeAdded := false
  minDistance := 1 / 5
  minRotation := 1 / 10
  maxTraveled := 3 / 2
  cellSize := 1 / 4
  lastNodeId := 0
  lastCovar := 1
  lastTrans := 1
  unused := 1
  position := 1
  positionCumul := 1
  transTemp := 1
  lastMatcherPose := ⟨0, 0, 0⟩
  covarTemp := 1
  window := ⟨0, 0, 0⟩
  temp := ⟨⟨0, 0, 0⟩, []⟩
  placed := []
  engine := Slam.init

/-- Everything that comes from outside during one `update`: the motion, the answer of the scan matcher
(`none` if it did not converge), and, for the case that a node is inserted, the address of the new edge, the
loop closures, the estimates of the optimiser and the iteration order of its result. -/
structure Input where
  motion : Trans
  matcher : Option (Matrix (Fin 4) (Fin 4) ℝ)
  addr : ℕ
  loops : List (ℕ × Slam.Closure)
  est : ℕ → Pose
  order : List ℕ

/-- What happened during one `update` (not part of the code; used to state properties): the guess handed to
the matcher as world pose of the robot, the odometry increment, and the world pose computed from the answer
of the matcher. -/
inductive Event
  | first
  | idle (motion : Trans)
  | failed (guess motion : Trans)
  | matched (guess motion : Trans) (pose : Pose)

/-- `movedEnough(trans)`, ndt_slam_algorithm.h:389-396. -/
def movedEnough (s : State) (t : Trans) : Prop :=
  |getAngle t| > s.minRotation ∨ |getDisplacement t| > s.minDistance

/-- `movedEnough(trans, covar)`, ndt_slam_algorithm.h:372-387 (the covariance is not used). -/
def movedFar (s : State) (t : Trans) : Prop := |getDisplacement t| > s.maxTraveled

/-- `NDTGrid2D::move` as far as origin and result are concerned, ndt_grid2d.h:789-857 (the grid itself is
`NDTGrid.move`): the new origin and the returned transform. -/
noncomputable def moveWindow (cs : ℝ) (origin : Pose) (t : Trans) : Pose × Trans :=
  if |origin.th| > 1 / 10000000 then (origin, t)
  else
    let mx := NDTGrid.axisSteps cs (t 0 2)
    let my := NDTGrid.axisSteps cs (t 1 2)
    (⟨origin.x + mx * cs, origin.y + my * cs, origin.th⟩,
      !![t 0 0, t 0 1, t 0 2 - mx * cs; t 1 0, t 1 1, t 1 2 - my * cs; t 2 0, t 2 1, t 2 2])

/-- Result of an engine operation. -/
def lift {α : Type} (r : Res α × Slam.State Frame) : Res (α × Slam.State Frame) := r.1.map (·, r.2)

/-- Insertion of the temporary frame, ndt_slam_algorithm.h:307-325. -/
noncomputable def insertFrame (addr : ℕ) (s : State) : Res State :=
  let frame := s.temp
  let (id, e) := Slam.addPose s.engine frame.origin frame
  let constrained :=
    if s.firstNodeAdded then
      (lift (Slam.addLastConstrain addr (getPoseFromTransform s.lastTrans) s.lastCovar⁻¹ e)).map Prod.snd
    else .ok e
  constrained.bind fun e =>
  .ok { s with
        temp := ⟨⟨0, 0, 0⟩, []⟩
        placed := s.placed ++ [frame.origin]
        engine := e
        lastNodeId := id
        lastCovar := s.covarTemp
        lastTrans := s.transTemp
        covarTemp := 1
        transTemp := 1
        firstNodeAdded := true }

/-- Loop closing and optimisation, ndt_slam_algorithm.h:328-336. -/
noncomputable def closeLoops (inp : Input) (s : State) : Res State :=
  (Slam.getPoseLocation s.engine s.lastNodeId).bind fun _ =>
  (lift (Slam.finishLoopClose inp.loops s.engine)).bind fun r =>
  let s := { s with engine := r.2 }
  if r.1 then
    (lift (Slam.optimalize inp.est Frame.updatePosition inp.order s.engine)).bind fun r =>
    let s := { s with engine := r.2 }
    .ok (if r.1 then
      { s with placed := s.engine.graph.nodes.map fun n => n.payload.obj.origin } else s)
  else .ok s

/-- Start of the next temporary frame, ndt_slam_algorithm.h:338-347. -/
noncomputable def restart (s : State) : Res State :=
  (Slam.getPoseLocation s.engine s.lastNodeId).bind fun after =>
  let position := getTransFromPose after * s.lastTrans
  let temp : Frame := { s.temp with origin := getPoseFromTransform position }
  .ok { s with position := position, temp := temp.mergeTraced 1 temp.origin }

open Classical in
/-- `updateGraph`, ndt_slam_algorithm.h:294-370. -/
noncomputable def updateGraph (increase covariance : Trans) (inp : Input) (s : State) : Res State :=
  let s := { s with
             transTemp := s.transTemp * increase
             covarTemp := addToCovar s.covarTemp covariance increase }
  if movedFar s s.transTemp then
    (insertFrame inp.addr s).bind fun s => (closeLoops inp s).bind restart
  else
    .ok { s with
          position := s.position * increase
          temp := s.temp.mergeTraced (viaPcl s.transTemp) s.temp.origin }

open Classical in
/-- `update`, ndt_slam_algorithm.h:185-292: what happened, the returned pose and the new state. -/
noncomputable def update (inp : Input) (s : State) : Res ((Event × Pose) × State) :=
  if !s.initialized then
    .ok ((.first, getPoseFromTransform 1),
      { s with
        window := ⟨0, 0, 0⟩
        position := 1
        lastMatcherPose := ⟨0, 0, 0⟩
        initialized := true
        temp := Frame.initialize { s.temp with origin := ⟨0, 0, 0⟩ } })
  else
    let s := { s with unused := s.unused * inp.motion }
    if ¬ movedEnough s s.unused then
      .ok ((.idle inp.motion, getPoseFromTransform (s.position * inp.motion)), s)
    else
      let s := { s with unused := 1 }
      let guess := getTransFromPose s.window * viaPcl (s.positionCumul * inp.motion)
      match inp.matcher with
      | some final =>
        let registration := convertToTransform final
        let pose := getPoseFromTransform (getTransFromPose s.window * registration)
        let increase := (getTransFromPose s.lastMatcherPose)⁻¹ * getTransFromPose pose
        let s := { s with lastMatcherPose := pose }
        (updateGraph increase ((1 / 100 : ℝ) • 1) inp s).bind fun s =>
        let w := moveWindow s.cellSize s.window registration
        .ok ((.matched guess inp.motion pose, getPoseFromTransform s.position),
          { s with window := w.1, positionCumul := w.2 })
      | none =>
        (updateGraph inp.motion ((100 : ℝ) • 1) inp s).bind fun s =>
        .ok ((.failed guess inp.motion, getPoseFromTransform s.position), s)

end Verif.Algo
