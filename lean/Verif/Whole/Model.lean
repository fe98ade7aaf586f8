import Verif.Algo.Model
import Verif.World.Model

/-
`NdtSlamAlgortihm` (include/ndt_gslam/ndt_slam_algorithm.h) with the contents of its maps: the statements of
`Verif.Algo` (poses, graph, thresholds) and those of `Verif.World` (cells) run together, in the order of the code.

Simplifications, besides those of the two models:
* a frame is one object in the code, shared by the node of the pose graph, by `frames_` and by the mapper.  Here
  its pose is kept with the node (`Algo.Frame.origin`) and its cells in `store`; `sync` copies the poses when the
  optimiser has changed them.  The mapper refers to the frames by their position in `frames_`;
* the order in which `std::sort` leaves the mapper's frames is an input (see C56);
* the covariance argument of `update` is not used by the code and left out.
-/
namespace Verif.Whole

open Verif Verif.Geo Verif.NDTGrid Verif.World

/-- Members of `NdtSlamAlgortihm` (ndt_slam_algorithm.h:111-144) and of its mapper (ndt_mapper.h:104-111). -/
structure State where
  /-- everything but the cells -/
  alg : Algo.State
  /-- `win_radius_` -/
  radius : ℝ
  /-- `frame_temp_` -/
  temp : Map
  /-- `frames_` -/
  store : List Map
  /-- `map_.map_` -/
  global : Map
  /-- `map_.frames_`, as positions in `store` -/
  order : List ℕ
  /-- `map_.means_` -/
  cloud : List NDT.Vec
  /-- `running_window_` -/
  window : Map
  /-- `map_.map_`, as shown by `calcOccupancyGridMsg` (ndt_mapper.h:204-216) -/
  occ : OccupancyMsg
  /-- `map_.map_recalc_time_` -/
  loadTime : ℝ
  /-- `window_update_time_` -/
  windowTime : ℝ
  /-- `window_seq_` -/
  windowSeq : ℕ

/-- Input of one update: that of `Algo.update`, the scan, its time, and the order in which `std::sort` leaves the
frames of the mapper. -/
structure Input where
  alg : Algo.Input
  scan : List NDT.Vec
  time : ℝ
  sorted : List ℕ

/-- `new FrameType()` followed by `setCellSize(cs)`. -/
noncomputable def emptyMap (eig : NDT.Eig) (cs : ℝ) : Map := NDTGrid.init (cellI eig) 0 0 0 cs

/-- `NDTGrid2D::setCellSize`, ndt_grid2d.h:170-174. -/
noncomputable def setCellSize (n : Map) (cs : ℝ) : Map := { n with grid := Voxel.setCellSize n.grid cs }

/-- The occupancy grid of a new mapper, ndt_mapper.h:120 (`map_()`, all members zero), as a message. -/
noncomputable def noGrid : OccupancyMsg :=
  ⟨0, 0, 0, 0, 0, 0, Real.sin (0 / 2) * 0, Real.sin (0 / 2) * 0, Real.sin (0 / 2) * 1, Real.cos (0 / 2), []⟩

/-- Constructor, ndt_slam_algorithm.h:155-183; the default cell size of a grid is 0.25 (ndt_grid2d.h:441-462). -/
noncomputable def init (eig : NDT.Eig) : State where
  alg := Algo.init
  radius := 80
  temp := emptyMap eig (1 / 4)
  store := []
  global := (Mapper.init eig).map
  order := []
  cloud := []
  window := emptyMap eig (1 / 4)
  occ := noGrid
  loadTime := 0
  windowTime := 0
  windowSeq := 0

/-- The frames of the nodes and those in `frames_` are the same objects: the poses in the graph are the poses of
the frames. -/
def sync (e : Slam.State Algo.Frame) (store : List Map) : List Map :=
  store.mapIdx fun i f => match e.graph.nodes[i]? with
    | some n => setOrigin f n.payload.obj.origin
    | none => f

/-- `frames_.back().swap(frame_temp_)` and `map_.addFrame(frames_.back(), update_time)`,
ndt_slam_algorithm.h:307-310 and ndt_mapper.h:132-154. -/
noncomputable def addFrame (eig : NDT.Eig) (time : ℝ) (s : State) : Res State :=
  (addToMap eig s.global s.temp).bind fun g =>
  .ok { s with
        temp := emptyMap eig s.alg.cellSize
        store := s.store ++ [{ s.temp with timestamp := time }]
        global := g
        order := s.order ++ [s.store.length]
        cloud := meansTransformed g
        occ := occupancyMsg eig g }

/-- `map_.recalc(update_time)`, ndt_mapper.h:182-196 (without frames the means cloud is a null pointer, see
`Mapper.recalc`). -/
noncomputable def recalc (eig : NDT.Eig) (time : ℝ) (sorted : List ℕ) (s : State) : Res State :=
  (addAll eig (NDTGrid.clear s.global) (sorted.filterMap fun i => s.store[i]?)).bind fun g =>
  if sorted = [] then .ub .nullDeref
  else .ok { s with global := g, order := sorted, cloud := meansTransformed g, occ := occupancyMsg eig g
                    loadTime := time }

/-- Loop closing and optimisation, ndt_slam_algorithm.h:328-336. -/
noncomputable def closeLoops (eig : NDT.Eig) (inp : Input) (s : State) : Res State :=
  (Slam.getPoseLocation s.alg.engine s.alg.lastNodeId).bind fun _ =>
  (Algo.lift (Slam.finishLoopClose inp.alg.loops s.alg.engine)).bind fun r =>
  let s := { s with alg := { s.alg with engine := r.2 } }
  if r.1 then
    (Algo.lift (Slam.optimalize inp.alg.est Algo.Frame.updatePosition inp.alg.order s.alg.engine)).bind fun r =>
    let s := { s with alg := { s.alg with engine := r.2 }, store := sync r.2 s.store }
    if r.1 then
      recalc eig inp.time inp.sorted { s with
        alg := { s.alg with placed := s.alg.engine.graph.nodes.map fun n => n.payload.obj.origin } }
    else .ok s
  else .ok s

/-- Start of the next temporary frame, ndt_slam_algorithm.h:338-347. -/
noncomputable def restart (eig : NDT.Eig) (inp : Input) (s : State) : Res State :=
  (Algo.restart s.alg).bind fun a =>
  let temp := setCellSize (setOrigin s.temp a.temp.origin) a.cellSize
  (mergeCloudTraced eig temp inp.scan (origin temp) true).bind fun temp =>
  .ok { s with alg := a, temp := temp }

open Classical in
/-- `updateGraph`, ndt_slam_algorithm.h:294-370. -/
noncomputable def updateGraph (eig : NDT.Eig) (increase covariance : Trans) (inp : Input) (s : State) : Res State :=
  let a := { s.alg with
             transTemp := s.alg.transTemp * increase
             covarTemp := addToCovar s.alg.covarTemp covariance increase }
  if Algo.movedFar a a.transTemp then
    (addFrame eig inp.time { s with alg := a }).bind fun s =>
    (Algo.insertFrame inp.alg.addr s.alg).bind fun a =>
    (closeLoops eig inp { s with alg := a }).bind (restart eig inp)
  else
    let cloud := transformCloud a.transTemp inp.scan
    (mergeCloudTraced eig s.temp cloud (origin s.temp) true).bind fun temp =>
    .ok { s with
          alg := { a with
                   position := a.position * increase
                   temp := a.temp.mergeTraced (Algo.viaPcl a.transTemp) a.temp.origin }
          temp := temp }

/-- The first update, ndt_slam_algorithm.h:203-220. -/
noncomputable def firstUpdate (eig : NDT.Eig) (inp : Input) (s : State) : Res State :=
  let window := setCellSize (setOrigin s.window ⟨0, 0, 0⟩) s.alg.cellSize
  let temp := setCellSize (setOrigin s.temp ⟨0, 0, 0⟩) s.alg.cellSize
  (Voxel.enlarge window.grid (-s.radius) (-s.radius) s.radius s.radius).bind fun g =>
  (initializeMap eig { window with grid := g } inp.scan).bind fun window =>
  (initializeMap eig temp inp.scan).bind fun temp =>
  .ok { s with
        alg := { s.alg with
                 window := ⟨0, 0, 0⟩
                 position := 1
                 lastMatcherPose := ⟨0, 0, 0⟩
                 initialized := true
                 temp := Algo.Frame.initialize { s.alg.temp with origin := ⟨0, 0, 0⟩ } }
        window := window
        temp := temp
        windowTime := inp.time
        windowSeq := 0 }

open Classical in
/-- `update`, ndt_slam_algorithm.h:185-292: what happened, the returned pose and the new state. -/
noncomputable def update (eig : NDT.Eig) (inp : Input) (s : State) : Res ((Algo.Event × Pose) × State) :=
  if !s.alg.initialized then
    (firstUpdate eig inp s).bind fun s => .ok ((.first, getPoseFromTransform 1), s)
  else
    let s := { s with alg := { s.alg with unused := s.alg.unused * inp.alg.motion } }
    if ¬ Algo.movedEnough s.alg s.alg.unused then
      .ok ((.idle inp.alg.motion, getPoseFromTransform (s.alg.position * inp.alg.motion)), s)
    else
      let s := { s with alg := { s.alg with unused := 1 } }
      let guess := getTransFromPose (origin s.window) * Algo.viaPcl (s.alg.positionCumul * inp.alg.motion)
      (initializeMap eig (setOrigin (emptyMap eig s.alg.cellSize) (origin s.window)) inp.scan).bind fun scan =>
      match inp.alg.matcher with
      | some final =>
        let registration := convertToTransform final
        let pose := getPoseFromTransform (getTransFromPose (origin s.window) * registration)
        let increase := (getTransFromPose s.alg.lastMatcherPose)⁻¹ * getTransFromPose pose
        let s := { s with alg := { s.alg with lastMatcherPose := pose } }
        (updateGraph eig increase ((1 / 100 : ℝ) • 1) inp s).bind fun s =>
        (transform eig scan registration).bind fun scan =>
        (mergeGridTraced eig s.window scan true true).bind fun window =>
        (move (cellI eig) window (registration 0 2) (registration 1 2)).bind fun r =>
        let cumul := !![registration 0 0, registration 0 1, r.1.1; registration 1 0, registration 1 1, r.1.2;
          registration 2 0, registration 2 1, registration 2 2]
        .ok ((.matched guess inp.alg.motion pose, getPoseFromTransform s.alg.position),
          { s with alg := { s.alg with window := origin r.2, positionCumul := cumul }, window := r.2
                   windowTime := inp.time, windowSeq := (s.windowSeq + 1) % 2 ^ 32 })
      | none =>
        (updateGraph eig inp.alg.motion ((100 : ℝ) • 1) inp s).bind fun s =>
        .ok ((.failed guess inp.alg.motion, getPoseFromTransform s.alg.position), s)

/-- `setRunWindowRadius`, ndt_slam_algorithm.h:85-88. -/
def setRadius (s : State) (r : ℝ) : State := { s with radius := r }

/-- `setGenerationDistance`, ndt_slam_algorithm.h:90-93. -/
def setDistance (s : State) (d : ℝ) : State := { s with alg := { s.alg with maxTraveled := d } }

/-- `getPclMap`, ndt_slam_algorithm.h:67-73: the published map. -/
def pclMap (s : State) : List NDT.Vec := s.cloud

/-- `getPclMap2`, ndt_slam_algorithm.h:75-81: the published running window. -/
noncomputable def pclWindow (s : State) : List NDT.Vec := meansTransformed s.window

/-- `getNDTMap`, ndt_slam_algorithm.h:61-65. -/
noncomputable def ndtMap (s : State) : Res MapMsg := toMapMsg (serialize s.window)

end Verif.Whole
