import Verif.Algo.Model
import Verif.Slam.Spec

/-
Specification vocabulary for the SLAM algorithm.
-/
namespace Verif.Algo

open Verif Verif.Geo Matrix

/-- What is assumed about one `update`: motion and matcher result are rigid, the allocator does not hand out
addresses in use, loop closures join existing nodes, and the optimiser reports each node once. -/
structure Admissible (s : State) (inp : Input) : Prop where
  motion : IsRigid inp.motion
  matcher : ∀ m, inp.matcher = some m → IsRigid (convertToTransform m)
  addrs : (inp.addr :: inp.loops.map Prod.fst).Nodup
  fresh : ∀ a ∈ inp.addr :: inp.loops.map Prod.fst, PoseGraph.Fresh s.engine.graph a
  loops : ∀ c ∈ inp.loops,
    c.2.src < s.engine.graph.nodes.length + 1 ∧ c.2.dst < s.engine.graph.nodes.length + 1
  order : inp.order.Perm (List.range (s.engine.graph.nodes.length + 1))

/-- `Reach P log s`: the algorithm is in state `s` after a series of updates with inputs satisfying `P`
(and changes of the generation distance in between); `log` lists what happened and which poses were returned. -/
inductive Reach (P : Input → Prop) : List (Event × Pose) → State → Prop
  | init : Reach P [] init
  | setDistance {log s} (d : ℝ) : Reach P log s → Reach P log { s with maxTraveled := d }
  | update {log s inp o s'} : Reach P log s → P inp → Admissible s inp → update inp s = .ok (o, s') →
      Reach P (log ++ [o]) s'

/-- No loop closure is found. -/
def NoLoops (inp : Input) : Prop := inp.loops = []

/-- No loop closure is found and the scan matcher never converges. -/
def OdometryOnly (inp : Input) : Prop := inp.loops = [] ∧ inp.matcher = none

/-- What an event says about the update in which it was recorded; `log` is the history before. -/
def Describes (log : List (Event × Pose)) (s : State) (inp : Input) : Event → Prop
  | .first => log = []
  | .idle m => log ≠ [] ∧ m = inp.motion
  | .failed _ m => log ≠ [] ∧ m = inp.motion ∧ inp.matcher = none
  | .matched _ m q => log ≠ [] ∧ m = inp.motion ∧ ∃ r, inp.matcher = some r ∧
      getTransFromPose q = getTransFromPose s.window * convertToTransform r

/-- Pose obtained by composing the estimated motions: the odometry where matching failed, and the motion
since the last matched pose where it succeeded.  The second component is the last matched pose. -/
noncomputable def estimate : List Event → Trans × Pose :=
  List.foldl (fun s e => match e with
    | .first => s
    | .idle _ => s
    | .failed _ m => (s.1 * m, s.2)
    | .matched _ _ p => (s.1 * ((getTransFromPose s.2)⁻¹ * getTransFromPose p), p)) (1, ⟨0, 0, 0⟩)

/-- Odometry received in the last update if it was not processed. -/
noncomputable def pending : Event → Trans
  | .idle m => m
  | _ => 1

/-- Odometry increment of an update. -/
noncomputable def motionOf : Event → Trans
  | .first => 1
  | .idle m => m
  | .failed _ m => m
  | .matched _ m _ => m

/-- Increment of an update in which the motion threshold was reached. -/
noncomputable def processedOf : Event → Trans
  | .failed _ m => m
  | .matched _ m _ => m
  | _ => 1

/-- The scan of an update is used, i.e. the motion threshold was reached or it is the first scan. -/
def Event.scanUsed : Event → Bool
  | .idle _ => false
  | _ => true

/-- World poses of the robot for the scans contained in a frame. -/
noncomputable def Frame.scans (f : Frame) : List Trans :=
  f.inserts.map fun i => getTransFromPose f.origin * i.place

/-- The finished frames, in the order of their nodes, and the active frame. -/
def frames (s : State) : List Frame := s.engine.graph.nodes.map (fun n => n.payload.obj) ++ [s.temp]

/-- World pose last found by the matcher (the start pose before) and the odometry received since. -/
noncomputable def lastFix : List Event → Pose × Trans :=
  List.foldl (fun s e => match e with
    | .matched _ _ p => (p, 1)
    | e => (s.1, s.2 * motionOf e)) (⟨0, 0, 0⟩, 1)

end Verif.Algo
