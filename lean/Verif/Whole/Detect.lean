import Verif.Whole.Model
import Verif.Loop.Model

/-
`NdtSlamAlgortihm::update` with its own loop detector: the model of `Verif.Whole` in which the loop closures are not
an input but the result of `Slam2D::tryLoopClose()` (model of the detector: `Verif.Loop`).

The scan matcher of the detector, the order of its priority queue and the content of its uninitialised variables are
inputs (`Loop.Env`), new ones in each update.  What a machine does with the read past the end of the clean-up loops
is a parameter (`Loop.Overread`).
-/
namespace Verif.Whole

open Verif Verif.Geo Verif.NDTGrid Verif.World

/-- Input of one update: as `Input`, with addresses for the constraints of loop closures (the allocator's choices) and
the environment of the loop search in place of the closures. -/
structure Outer where
  motion : Trans
  matcher : Option (Matrix (Fin 4) (Fin 4) ℝ)
  addr : ℕ
  addrs : List ℕ
  env : Loop.Env
  est : ℕ → Pose
  order : List ℕ
  scan : List NDT.Vec
  time : ℝ
  sorted : List ℕ

/-- The same input with the loop closures given. -/
def Outer.withLoops (d : Outer) (loops : List (ℕ × Slam.Closure)) : Input :=
  ⟨⟨d.motion, d.matcher, d.addr, loops, d.est, d.order⟩, d.scan, d.time, d.sorted⟩

/-- What follows `tryLoopClose` in `updateGraph`, ndt_slam_algorithm.h:329-336; `r` is its result and the engine
after it. -/
noncomputable def afterSearch (eig : NDT.Eig) (inp : Input) (s : State) (r : Bool × Slam.State Algo.Frame) : Res State :=
  let s := { s with alg := { s.alg with engine := r.2 } }
  if r.1 then
    (Algo.lift (Slam.optimalize inp.alg.est Algo.Frame.updatePosition inp.alg.order s.alg.engine)).bind fun r =>
    let s := { s with alg := { s.alg with engine := r.2 }, store := sync r.2 s.store }
    if r.1 then
      recalc eig inp.time inp.sorted { s with
        alg := { s.alg with placed := s.alg.engine.graph.nodes.map fun n => n.payload.obj.origin } }
    else .ok s
  else .ok s

/-- Loop closing and optimisation, ndt_slam_algorithm.h:328-336, with `tryLoopClose()`, slam2d.h:251-256.
(A search that does not end, `none`, is a failure here; it does not occur, see C39.) -/
noncomputable def searchLoops (o : Loop.Overread) (eig : NDT.Eig) (d : Outer) (s : State) : Res State :=
  (Slam.getPoseLocation s.alg.engine s.alg.lastNodeId).bind fun _ =>
  match Loop.tryLoopClose o d.env getPoseFromTransform d.addrs s.alg.engine.lastId s.alg.engine with
  | none => .ub .uninitialised
  | some r => (Algo.lift r).bind (afterSearch eig (d.withLoops []) s)

open Classical in
/-- `updateGraph`, ndt_slam_algorithm.h:294-370, as in Model.lean, with the loop closing (lines 328-336) as a
parameter. -/
noncomputable def updateGraphWith (close : State → Res State) (eig : NDT.Eig) (increase covariance : Trans)
    (inp : Input) (s : State) : Res State :=
  let a := { s.alg with
             transTemp := s.alg.transTemp * increase
             covarTemp := addToCovar s.alg.covarTemp covariance increase }
  if Algo.movedFar a a.transTemp then
    (addFrame eig inp.time { s with alg := a }).bind fun s =>
    (Algo.insertFrame inp.alg.addr s.alg).bind fun a =>
    (close { s with alg := a }).bind (restart eig inp)
  else
    let cloud := transformCloud a.transTemp inp.scan
    (mergeCloudTraced eig s.temp cloud (origin s.temp) true).bind fun temp =>
    .ok { s with
          alg := { a with
                   position := a.position * increase
                   temp := a.temp.mergeTraced (Algo.viaPcl a.transTemp) a.temp.origin }
          temp := temp }

open Classical in
/-- `update`, ndt_slam_algorithm.h:185-292, as in Model.lean, with the loop closing as a parameter. -/
noncomputable def updateWith (close : State → Res State) (eig : NDT.Eig) (inp : Input) (s : State) :
    Res ((Algo.Event × Pose) × State) :=
  if !s.alg.initialized then
    (firstUpdate eig inp s).bind fun s => .ok ((.first, getPoseFromTransform 1), s)
  else
    let s := { s with alg := { s.alg with unused := s.alg.unused * inp.alg.motion } }
    if ¬ Algo.movedEnough s.alg s.alg.unused then
      .ok ((.idle inp.alg.motion, getPoseFromTransform (s.alg.position * inp.alg.motion)), s)
    else
      let s := { s with alg := { s.alg with unused := 1 } }
      let guess := getTransFromPose (origin s.window) * Algo.viaPcl (s.alg.positionCumul * inp.alg.motion)
      (initializeMap eig (setOrigin (emptyMap eig s.alg.cellSize) (origin s.window)) inp.scan).bind fun scan =>
      match inp.alg.matcher with
      | some final =>
        let registration := convertToTransform final
        let pose := getPoseFromTransform (getTransFromPose (origin s.window) * registration)
        let increase := (getTransFromPose s.alg.lastMatcherPose)⁻¹ * getTransFromPose pose
        let s := { s with alg := { s.alg with lastMatcherPose := pose } }
        (updateGraphWith close eig increase ((1 / 100 : ℝ) • 1) inp s).bind fun s =>
        (transform eig scan registration).bind fun scan =>
        (mergeGridTraced eig s.window scan true true).bind fun window =>
        (move (cellI eig) window (registration 0 2) (registration 1 2)).bind fun r =>
        let cumul := !![registration 0 0, registration 0 1, r.1.1; registration 1 0, registration 1 1, r.1.2;
          registration 2 0, registration 2 1, registration 2 2]
        .ok ((.matched guess inp.alg.motion pose, getPoseFromTransform s.alg.position),
          { s with alg := { s.alg with window := origin r.2, positionCumul := cumul }, window := r.2
                   windowTime := inp.time, windowSeq := (s.windowSeq + 1) % 2 ^ 32 })
      | none =>
        (updateGraphWith close eig inp.alg.motion ((100 : ℝ) • 1) inp s).bind fun s =>
        .ok ((.failed guess inp.alg.motion, getPoseFromTransform s.alg.position), s)

/-- `update` with its own loop search. -/
noncomputable def updateOwn (o : Loop.Overread) (eig : NDT.Eig) (d : Outer) (s : State) :
    Res ((Algo.Event × Pose) × State) :=
  updateWith (searchLoops o eig d) eig (d.withLoops []) s

/-- With given loop closures it is the function of Model.lean. -/
theorem updateWith_closeLoops (eig : NDT.Eig) (inp : Input) (s : State) :
    updateWith (closeLoops eig inp) eig inp s = update eig inp s := rfl

end Verif.Whole
