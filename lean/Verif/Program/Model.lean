import Verif.Launch.Model
import Verif.Node.Model
import Verif.Algo.Output

/-
The program as a whole: the node of `Verif.Node` with the launched algorithm of `Verif.Launch`, and what each message
makes it publish (src/graph_slam2d_node.cpp).

Simplifications:
* as in `Verif.Node`: the transport of messages, their synchronisation and the lookups in TF are inputs;
* topic names are those given to `advertise`, without remapping;
* parts of published messages that are constant are left out: the stamps of the point clouds and of the arrows (never
  set: zero), the sequence numbers other than that of the window message (overwritten by the transport).
-/
namespace Verif.Program

open Verif Verif.Geo Verif.World

/-- One (synchronised) message: time stamps of the odometry or pose message and of the laser scan, the results of the
lookups in TF and of the conversion to a point cloud in the frame of the robot, and what the algorithm depends on
besides (the fields `motion`, `scan` and `time` of `step` are not used); the clock at publishing, and the content of
the coordinate that is never written (C108; `none`: reading it is not allowed). -/
structure Message where
  odomStamp : ℝ
  laserStamp : ℝ
  tfFound : Bool
  odomTf : Matrix (Fin 4) (Fin 4) ℝ
  cloudOk : Bool
  cloud : List NDT.Vec
  step : Launch.Step
  now : ℝ
  junk : Option ℝ

/-- Everything that is published. -/
inductive Pub
  /-- `publishTF`: transform, stamp, frame and child frame -/
  | tf (t : Option Trans) (stamp : ℝ) (frame child : String)
  /-- `win_map_pub_`: header and body -/
  | window (stamp : ℝ) (frame : String) (seq : ℕ) (msg : MapMsg)
  /-- `occ_map_pub_`: header, `info.map_load_time` and the rest -/
  | grid (stamp : ℝ) (frame : String) (loadTime : ℝ) (msg : OccupancyMsg)
  /-- `win_pcl_pub_` -/
  | windowCloud (frame : String) (points : List NDT.Vec)
  /-- `map_pcl_pub_` -/
  | mapCloud (frame : String) (points : List NDT.Vec)
  /-- `graph_pub_` -/
  | graph (arrows : List Slam.Arrow)

/-- The topics, graph_slam2d_node.cpp:22-27; the transform broadcaster sends to `/tf`. -/
def Pub.topic : Pub → String
  | .tf .. => "/tf"
  | .window .. => "win_ndt"
  | .grid .. => "map"
  | .windowCloud .. => "win_pcl"
  | .mapCloud .. => "map_pcl"
  | .graph .. => "graph"

/-- The time used by the callback, graph_slam2d_node.cpp:113, 127 and 139. -/
def Message.stamp (c : Launch.Callback) (m : Message) : ℝ :=
  match c with
  | .odom => m.odomStamp
  | .pose => m.odomStamp
  | .laser => m.laserStamp

/-- Input of the update, graph_slam2d_node.cpp:234 and 244. -/
def Message.input (c : Launch.Callback) (m : Message) (motion : Trans) : Launch.Step :=
  { m.step with motion := motion, scan := m.cloud, time := m.stamp c }

/-- The message as seen by the node. -/
def Message.node (m : Message) : Node.Msg Message := ⟨m.tfFound, m.odomTf, m.cloudOk, m.cloud.length, m⟩

/-- `NdtSlamAlgortihm::update` as called by the node. -/
noncomputable def algorithm (o : Loop.Overread) (eig : NDT.Eig) (c : Launch.Callback) (m : Message) (motion : Trans)
    (a : Launch.Alg) : Res (Pose × Launch.Alg) :=
  (Launch.update o eig (m.input c motion) a).map fun r => (r.1.2, r.2)

/-- `getNDTMap`, ndt_slam_algorithm.h:61-65 and 398-404. -/
noncomputable def getNDTMap (junk : Option ℝ) (s : Whole.State) (frame : String) : Res Pub :=
  let m := serialize s.window
  (toMapMsg { m with origin := (m.origin.1, m.origin.2.1, junk) }).map fun msg =>
  .window s.windowTime frame s.windowSeq msg

/-- `getOccupancyGrid`, ndt_slam_algorithm.h:46-53, ndt_mapper.h:204-216. -/
def getOccupancyGrid (now : ℝ) (s : Whole.State) (frame : String) : Pub := .grid now frame s.loadTime s.occ

/-- `getPclMap2`, ndt_slam_algorithm.h:75-81. -/
noncomputable def getPclMap2 (s : Whole.State) (frame : String) : Pub := .windowCloud frame (Whole.pclWindow s)

/-- `getPclMap`, ndt_slam_algorithm.h:67-73. -/
def getPclMap (s : Whole.State) (frame : String) : Pub := .mapCloud frame (Whole.pclMap s)

/-- The publishing at the end of `doAlgorithm`, graph_slam2d_node.cpp:250-259. -/
noncomputable def publish (o : Loop.Overread) (n : Launch.Names) (m : Message) (s : Whole.State) : Res (List Pub) :=
  (getNDTMap m.junk s n.fixed).bind fun w =>
  let rest := [w, getOccupancyGrid m.now s n.fixed, getPclMap2 s n.fixed, getPclMap s n.fixed]
  if n.serialize then
    (Algo.getGraphSerialized o s.alg n.fixed).map fun g => rest ++ [.graph g]
  else .ok rest

/-- One message, graph_slam2d_node.cpp:108-148 and 226-268: `Node.callback` gives what is computed; the transform is
published in any case, the rest only at the end of `doAlgorithm`, which returns early the first time. -/
noncomputable def message (o : Loop.Overread) (eig : NDT.Eig) (n : Launch.Names) (m : Message)
    (s : Node.State Launch.Alg) : Res (List Pub × Node.State Launch.Alg) :=
  let c := (Launch.subscribe n).2
  (Node.callback (algorithm o eig c) m.node s).bind fun r =>
  let tf := Pub.tf r.1.published (m.stamp c) n.fixed n.odom
  if s.ready && r.1.processed.isSome then
    (publish o n m r.2.alg.state).map fun l => (tf :: l, r.2)
  else .ok ([tf], r.2)

end Verif.Program
