import Verif.Pose.Model
import Verif.Algo.Model

/-
Model of `GraphSlamNode` (src/graph_slam2d_node.cpp): what one synchronised message does.

Simplifications:
* ROS transport, message synchronisation and the other published topics are left out;
* the results of the lookups in TF, the number of points of the transformed scan and everything the algorithm
  reads besides the motion are inputs;
* `tf::Transform` is its planar part, a 3x3 matrix: the poses converted have z = 0 and rotate about z;
* the algorithm is any implementation of `ISlamAlgorithm::update`.
-/
namespace Verif.Node

open Verif Verif.Geo Matrix

/-- `tf::Transform` of the quaternion `(0, 0, z, w)` and the origin `(x, y, 0)`: `Matrix3x3::setRotation` of
tf/LinearMath (third party). -/
noncomputable def tfOf (x y z w : ℝ) : Trans :=
  let s := 2 / (z * z + w * w)
  let zs := z * s
  !![1 - z * zs, -(w * zs), x; w * zs, 1 - z * zs, y; 0, 0, 1]

/-- `tf::Transform::inverse` (third party): the transpose of the basis, and the origin turned by it. -/
def tfInverse (t : Trans) : Trans :=
  !![t 0 0, t 1 0, t 0 0 * -t 0 2 + t 1 0 * -t 1 2; t 0 1, t 1 1, t 0 1 * -t 0 2 + t 1 1 * -t 1 2; 0, 0, 1]

/-- `eigenPoseToTF`, graph_slam2d_node.cpp:294-305.  The components of the message that are not set are zero;
`poseMsgToTF` normalises the quaternion only if its length is not one. -/
noncomputable def eigenPoseToTF (p : Pose) : Trans :=
  tfOf p.x p.y (Real.sin (p.th * (1 / 2))) (Real.cos (p.th * (1 / 2)))

/-- `arrayToMatrix`, graph_slam2d_node.cpp:278-285. -/
def arrayToMatrix (a : Fin 36 → ℝ) : Trans :=
  !![a 0, a 1, a 5; a 6, a 7, a 11; a 30, a 31, a 35]

/-- Members of the node.  `tf` is `world_tf_trans_`: `none` as long as it was not written, because its
initialisation is commented out (line 15) and the default constructor of `tf::Transform` writes nothing. -/
structure State (σ : Type) where
  ready : Bool
  lastOdom : Pose
  lastPose : Pose
  tf : Option Trans
  alg : σ

/-- Constructor, graph_slam2d_node.cpp:6-18. -/
noncomputable def init {σ : Type} (alg : σ) : State σ := ⟨false, ⟨0, 0, 0⟩, ⟨0, 0, 0⟩, none, alg⟩

/-- One message: whether the transforms were found in TF, the pose of the robot in the odometry frame, whether
the point cloud could be transformed, its size, and whatever else the algorithm depends on. -/
structure Msg (ι : Type) where
  tfFound : Bool
  odomTf : Matrix (Fin 4) (Fin 4) ℝ
  cloudOk : Bool
  points : ℕ
  env : ι

/-- What can be observed of one message: the odometry pose and the increment handed to the algorithm and the
estimate returned by it (if the message was processed), and the transform published from the fixed frame to
the odometry frame (`none` is an indeterminate value). -/
structure Out where
  processed : Option (Pose × Trans × Pose)
  published : Option Trans

/-- `prepareAllData`, graph_slam2d_node.cpp:150-224. -/
noncomputable def prepareAllData {ι : Type} (m : Msg ι) : Option Pose :=
  if m.tfFound then
    if m.cloudOk then
      if m.points < 400 then none else some (getPoseFromTransform (convertToTransform m.odomTf))
    else none
  else none

/-- `updateTFTrans`, graph_slam2d_node.cpp:270-276. -/
noncomputable def updateTFTrans (odom slam : Pose) : Trans :=
  eigenPoseToTF slam * tfInverse (eigenPoseToTF odom)

/-- `doAlgorithm`, graph_slam2d_node.cpp:226-262; `publishTF`, 264-268, sends the current transform. -/
noncomputable def doAlgorithm {σ ι : Type} (upd : ι → Trans → σ → Res (Pose × σ)) (env : ι) (odom : Pose)
    (s : State σ) : Res (Out × State σ) :=
  if !s.ready then
    (upd env 1 s.alg).bind fun r =>
    .ok (⟨some (odom, 1, r.1), s.tf⟩,
      { s with ready := true, lastOdom := odom, lastPose := ⟨0, 0, 0⟩, alg := r.2 })
  else
    let inc := (getTransFromPose s.lastOdom)⁻¹ * getTransFromPose odom
    (upd env inc s.alg).bind fun r =>
    let tf := updateTFTrans odom r.1
    .ok (⟨some (odom, inc, r.1), some tf⟩,
      { s with lastOdom := odom, lastPose := r.1, alg := r.2, tf := some tf })

/-- The callbacks `odom_cb`, `pose_cb` and `laser_cb`, graph_slam2d_node.cpp:108-148 (they differ in the
covariance, which the algorithm does not use). -/
noncomputable def callback {σ ι : Type} (upd : ι → Trans → σ → Res (Pose × σ)) (m : Msg ι) (s : State σ) :
    Res (Out × State σ) :=
  match prepareAllData m with
  | none => .ok (⟨none, s.tf⟩, s)
  | some odom => doAlgorithm upd m.env odom s

end Verif.Node
