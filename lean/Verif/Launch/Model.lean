import Verif.Whole.Detect
import Verif.Robust.Model

/-
Start of the program: `main`, the constructor of `GraphSlamNode` and `initParameters` (src/graph_slam2d_node.cpp), the
setters of the algorithm they call, and the running algorithm with the settings made there.

Simplifications:
* the parameter server is what the private node handle finds under a name; a number given as an integer is already
  converted (third party), and a number is not NaN;
* `static_cast<float>` is an arbitrary function `rnd`;
* the publishers are left out.
-/
namespace Verif.Launch

open Verif Verif.Geo

/-- The parameter server as seen through the private node handle: the value of the nearest `tf_prefix`, and the values
of the parameters by type. -/
structure Server where
  tfPrefix : Option String
  str : String → Option String
  num : String → Option ℝ
  flag : String → Option Bool

/-- Members of the node set by `initParameters`, graph_slam2d_node.h. -/
structure Names where
  base : String
  odom : String
  fixed : String
  mode : String
  laserTopic : String
  serialize : Bool

/-- The algorithm as far as the setters reach: its state, the two distances of the loop detector and the rejection
limit of the scan matcher for loops. -/
structure Alg where
  state : Whole.State
  loopMin : ℝ
  loopMax : ℝ
  limit : ℝ

/-- `NdtSlamAlgortihm()`, ndt_slam_algorithm.h:155-183; the defaults of the detector are those of
loop_detector.h:139-147, the limit is set in ndt_scanmatcher.h:18-24. -/
noncomputable def construct (eig : NDT.Eig) : Alg := ⟨Whole.init eig, 20, 15, 0.6⟩

/-- `setRunWindowRadius`, ndt_slam_algorithm.h:85-88. -/
def setRunWindowRadius (r : ℝ) (a : Alg) : Alg := { a with state := Whole.setRadius a.state r }

/-- `setGenerationDistance`, ndt_slam_algorithm.h:90-93. -/
def setGenerationDistance (d : ℝ) (a : Alg) : Alg := { a with state := Whole.setDistance a.state d }

/-- `setLoopClosureMaxDist`, ndt_slam_algorithm.h:95-98, slam2d.h:354-358, loop_detector.h:188-191. -/
def setLoopClosureMaxDist (d : ℝ) (a : Alg) : Alg := { a with loopMax := d }

/-- `setLoopClosureMinDist`, ndt_slam_algorithm.h:100-103, slam2d.h:348-352, loop_detector.h:179-182. -/
def setLoopClosureMinDist (d : ℝ) (a : Alg) : Alg := { a with loopMin := d }

/-- `setLoopClosureScoreThreshold`, ndt_slam_algorithm.h:105-108, slam2d.h:360-364, ndt_scanmatcher.h:32-35. -/
noncomputable def setLoopClosureScoreThreshold (t : ℝ) (a : Alg) : Res Alg :=
  (Robust.setRejectionLimit t).map fun l => { a with limit := l }

/-- `initParameters`, graph_slam2d_node.cpp:60-106. -/
noncomputable def initParameters (rnd : ℝ → ℝ) (srv : Server) (a : Alg) : Res (Names × Alg) :=
  let tfPrefix := srv.tfPrefix.getD ""
  let base := (srv.str "robot_base_frame_id").getD "base_link"
  let odom := (srv.str "odom_farme_id").getD "odom"
  let fixed := (srv.str "map_farme_id").getD "map"
  let mode := (srv.str "subscribe_mode").getD "NON"
  let a := setRunWindowRadius (rnd ((srv.num "scanmatch_window_radius").getD 40)) a
  let a := setGenerationDistance (rnd ((srv.num "node_gen_distance").getD 2)) a
  let a := setLoopClosureMaxDist (rnd ((srv.num "loop_max_distance").getD 30)) a
  let a := setLoopClosureMinDist (rnd ((srv.num "loop_min_distance").getD 14)) a
  (setLoopClosureScoreThreshold (rnd ((srv.num "loop_score_threshold").getD 0.6)) a).map fun a =>
  let serialize := (srv.flag "serialize_graph").getD true
  if tfPrefix ≠ "" then
    (⟨tfPrefix ++ "/" ++ base, tfPrefix ++ "/" ++ odom, tfPrefix ++ "/" ++ fixed, mode, "/scan", serialize⟩, a)
  else (⟨base, odom, fixed, mode, "/scan", serialize⟩, a)

/-- The callbacks of the node. -/
inductive Callback
  | odom
  | pose
  | laser

/-- The subscriptions made by the constructor, graph_slam2d_node.cpp:29-50: the topics and the callback for
(synchronised) messages. -/
def subscribe (n : Names) : List String × Callback :=
  if n.mode = "ODOM" then ([n.laserTopic, "odom"], .odom)
  else if n.mode = "POSE" then ([n.laserTopic, "pose"], .pose)
  else ([n.laserTopic], .laser)

/-- `main` up to `start`, graph_slam2d_node.cpp:309-319.  An exception of `initParameters` is not caught: the program
ends. -/
noncomputable def launch (eig : NDT.Eig) (rnd : ℝ → ℝ) (srv : Server) : Res (Names × Alg) :=
  initParameters rnd srv (construct eig)

/-- What the registrations of one loop match deliver, and the content of the transform that may be copied from memory
that was never written. -/
structure Matching where
  env : Robust.Env (Matrix (Fin 4) (Fin 4) ℝ)
  junk : Trans

/-- `NdtScanmatcher::match`, ndt_scanmatcher.h:47-100, without the files it writes. -/
noncomputable def matchLoop (limit : ℝ) (m : Matching) (guess : Trans) : Loop.MatchResult :=
  let r := Robust.scanMatch m.env limit convertFromTransform convertToTransform guess
  ⟨r.success, !![5000, 0, 0; 0, 5000, 0; 0, 0, 10000], r.transform.getD m.junk⟩

/-- What one update depends on besides the state and the settings: see `Whole.Outer`, `Loop.Env`; `matching` gives the
registrations for match number `k` with the given source and target frame. -/
structure Step where
  motion : Trans
  matcher : Option (Matrix (Fin 4) (Fin 4) ℝ)
  addr : ℕ
  addrs : List ℕ
  pick : ℕ → List Loop.Item → ℕ
  matching : ℕ → ℕ → ℕ → Matching
  junk : ℝ
  junkCov : Trans
  est : ℕ → Pose
  order : List ℕ
  scan : List NDT.Vec
  time : ℝ
  sorted : List ℕ

/-- The update with the settings of the algorithm. -/
noncomputable def Step.outer (d : Step) (a : Alg) : Whole.Outer :=
  ⟨d.motion, d.matcher, d.addr, d.addrs,
    ⟨a.loopMin, a.loopMax, d.pick, fun k i j g => matchLoop a.limit (d.matching k i j) g, d.junk, d.junkCov⟩,
    d.est, d.order, d.scan, d.time, d.sorted⟩

/-- `update` after the launch. -/
noncomputable def update (o : Loop.Overread) (eig : NDT.Eig) (d : Step) (a : Alg) :
    Res ((Algo.Event × Pose) × Alg) :=
  (Whole.updateOwn o eig (d.outer a) a.state).map fun r => (r.1, { a with state := r.2 })

end Verif.Launch
