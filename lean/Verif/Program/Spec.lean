import Verif.Program.Model
import Verif.Launch.Spec
import Verif.Node.Filter

/-
Specification vocabulary for the program.
-/
namespace Verif.Program

open Verif Verif.Geo Verif.World

/-- One message and what was published in reply. -/
structure Served where
  msg : Message
  pubs : List Pub

/-- The message can be used: its transforms are known to TF and it has at least 400 points. -/
def Usable (m : Message) : Prop := m.tfFound = true ∧ m.cloudOk = true ∧ 400 ≤ m.cloud.length

/-- Pose of the robot in the odometry frame according to TF. -/
noncomputable def Message.odom (m : Message) : Pose := getPoseFromTransform (convertToTransform m.odomTf)

/-- What is assumed about a message that can be used: see `Whole.AdmissibleOwn` (nothing is assumed about the motion). -/
def Admissible (n : Launch.Names) (m : Message) (s : Node.State Launch.Alg) : Prop :=
  Usable m → Whole.AdmissibleOwn s.alg.state ((m.input (Launch.subscribe n).2 1).outer s.alg)

/-- `Live o eig rnd srv n log s`: the program was launched with these parameters, and messages arrived, which it all
dealt with without failing; `log` lists them. -/
inductive Live (o : Loop.Overread) (eig : NDT.Eig) (rnd : ℝ → ℝ) (srv : Launch.Server) :
    Launch.Names → List Served → Node.State Launch.Alg → Prop
  | start {n a} : Launch.launch eig rnd srv = .ok (n, a) → Live o eig rnd srv n [] (Node.init a)
  | message {n log s m pubs s'} : Live o eig rnd srv n log s → Admissible n m s →
      message o eig n m s = .ok (pubs, s') → Live o eig rnd srv n (log ++ [⟨m, pubs⟩]) s'

/-- One update of the algorithm: time, pose in the odometry frame, and what happened. -/
structure Update where
  time : ℝ
  odom : Pose
  entry : Whole.Entry

/-- The scan went into the running window: it was the first one, or it was matched. -/
def Update.inWindow (u : Update) : Bool :=
  match u.entry.event with
  | .first => true
  | .matched _ _ _ => true
  | _ => false

/-- The scan was matched. -/
def Update.matched (u : Update) : Bool :=
  match u.entry.event with
  | .matched _ _ _ => true
  | _ => false

open Classical in
/-- The messages that could be used. -/
noncomputable def usable (log : List Served) : List Message := (log.map Served.msg).filter fun m => decide (Usable m)

/-- The updates `us` are those made for these messages: one for each, with its time, pose and scan. -/
def MadeFor (time : Message → ℝ) (ms : List Message) (us : List Update) : Prop :=
  us.map (fun u => (u.time, u.odom, u.entry.scan)) = ms.map fun m => (time m, m.odom, m.cloud)

/-- Number of loop constraints in the graph. -/
def loopCount (s : Whole.State) : ℕ :=
  ((Whole.bookOf s).cons.filter fun c => decide (c.2.2.2 = .loop)).length

/-- Name of the frame of the map. -/
def mapFrame (srv : Launch.Server) : String := Launch.frameName srv "map_farme_id" "map"

/-- Name of the odometry frame. -/
def odomFrame (srv : Launch.Server) : String := Launch.frameName srv "odom_farme_id" "odom"

/-- The time of a message: that of the odometry or pose message if one of them was asked for, else that of the scan. -/
def timeOf (srv : Launch.Server) (m : Message) : ℝ :=
  if srv.str "subscribe_mode" = some "ODOM" ∨ srv.str "subscribe_mode" = some "POSE" then m.odomStamp else m.laserStamp

/-- The window message describes the map `n`, except for its centre. -/
def Describes (n : Map) (msg : MapMsg) : Prop :=
  msg.size = (n.grid.width * n.grid.cellSize, n.grid.height * n.grid.cellSize, 0) ∧
  msg.cellSize = (n.grid.cellSize, n.grid.cellSize, 0) ∧
  msg.cells = (Voxel.getValidCells n.grid).map fun c =>
    { mean := (c.mean 0, c.mean 1, c.mean 2)
      cov := [c.cov 0 0, c.cov 0 1, c.cov 0 2, c.cov 1 0, c.cov 1 1, c.cov 1 2, c.cov 2 0, c.cov 2 1, c.cov 2 2]
      occupancy := c.occ, n := c.points }

/-- `pubs` is the complete answer to the message `m`, with `us` the updates so far, including that for `m`, and `s` the
state of the algorithm after it. -/
structure Complete (eig : NDT.Eig) (srv : Launch.Server) (us : List Update) (m : Message) (s : Whole.State)
    (pubs : List Pub) : Prop where
  /-- one message on each topic -/
  topics : pubs.map Pub.topic = ["/tf", "win_ndt", "map", "win_pcl", "map_pcl"] ++
    if srv.flag "serialize_graph" = some false then [] else ["graph"]
  /-- the transform from the map to the odometry frame leads to the estimated pose -/
  tf : ∀ t stamp frame child, .tf t stamp frame child ∈ pubs →
    stamp = timeOf srv m ∧ frame = mapFrame srv ∧ child = odomFrame srv ∧
    ∃ u ∈ us.getLast?, Node.Consistent t u.odom u.entry.pose
  /-- the window, with the time of the last scan merged into it and the number of the scans matched -/
  window : ∀ stamp frame seq msg, .window stamp frame seq msg ∈ pubs →
    (∃ u ∈ (us.filter Update.inWindow).getLast?, stamp = u.time) ∧ frame = mapFrame srv ∧
    seq = (us.filter Update.matched).length % 2 ^ 32 ∧ Describes s.window msg
  /-- the map, empty as long as there is no finished frame -/
  grid : ∀ stamp frame load msg, .grid stamp frame load msg ∈ pubs →
    stamp = m.now ∧ frame = mapFrame srv ∧
    (s.alg.engine.graph.nodes = [] → msg.width = 0 ∧ msg.height = 0 ∧ msg.data = []) ∧
    (s.alg.engine.graph.nodes ≠ [] → msg = occupancyMsg eig s.global)
  /-- the points of the window were seen -/
  windowCloud : ∀ frame points, .windowCloud frame points ∈ pubs →
    frame = mapFrame srv ∧ ∀ v ∈ points, Whole.WindowPoint (us.map Update.entry) (v 0, v 1)
  /-- the points of the map were seen -/
  mapCloud : ∀ frame points, .mapCloud frame points ∈ pubs →
    frame = mapFrame srv ∧ ∀ v ∈ points, ∃ x ∈ (Whole.scanPoses s).zip ((Whole.used (us.map Update.entry)).map
      Whole.Entry.scan), Whole.SeenFrom x.1 x.2 (v 0, v 1)
  /-- the graph -/
  graph : ∀ arrows, .graph arrows ∈ pubs →
    (∀ (i : ℕ) p q, (Algo.finished s.alg)[i]? = some p → (Algo.finished s.alg)[i + 1]? = some q →
      ∃ a ∈ arrows, Algo.Red a ∧ Algo.Joins p q a) ∧
    ∀ a ∈ arrows, (Algo.Red a ∨ Algo.Green a) ∧ ∃ p ∈ Algo.finished s.alg, ∃ q ∈ Algo.finished s.alg, Algo.Joins p q a

end Verif.Program
