import Verif.Round.Model
import Verif.Pose.Model

/-
The estimated pose of `NdtSlamAlgorithm` (include/ndt_gslam/ndt_slam_algorithm.h) and the functions of
include/ndt_gslam/utils/eigen_tools.h on which it depends, with the rounding of `double`.

Simplifications:
* rounding is an arbitrary function, see `Verif.Round.Model`; sine and cosine are rounded exact values;
* `getAngle` computes the rotation with an SVD and then `atan2`; here it is an arbitrary function `ang`;
* there are no loop closures here: the pose of a node is the one with which it was added; `Track.next` in
  `Verif.Round.PoseClose` is the step with closures.
-/
namespace Verif.Round

open Verif Verif.Geo

/-- Product of two `Eigen::Transform<double, 2, Affine>`: the linear parts are multiplied, the translation of
the right one is mapped by the left one's linear part and the left one's translation is added. -/
def mulT (F : Fmt ℝ) (a b : Trans) : Trans :=
  let e (i j : Fin 3) := F.d (F.d (a i 0 * b 0 j) + F.d (a i 1 * b 1 j))
  !![e 0 0, e 0 1, F.d (e 0 2 + a 0 2); e 1 0, e 1 1, F.d (e 1 2 + a 1 2); 0, 0, 1]

/-- `getTransFromPose`, eigen_tools.h:193-200. -/
noncomputable def transOf (F : Fmt ℝ) (p : Pose) : Trans :=
  !![F.d (Real.cos p.th), -F.d (Real.sin p.th), p.x; F.d (Real.sin p.th), F.d (Real.cos p.th), p.y; 0, 0, 1]

/-- `getPoseFromTransform`, eigen_tools.h:142-151. -/
def poseOf (ang : Trans → ℝ) (t : Trans) : Pose := ⟨t 0 2, t 1 2, ang t⟩

/-- The part of the state of `NdtSlamAlgorithm` from which the estimated pose is computed: the origin of
`frame_temp_` (later the pose of its node), `transform_temp_` and `position_`. -/
structure Track where
  origin : Pose
  temp : Trans
  position : Trans

/-- After the first scan, ndt_slam_algorithm.h:190-204. -/
def Track.start : Track := ⟨⟨0, 0, 0⟩, 1, 1⟩

/-- `updateGraph`, ndt_slam_algorithm.h:294-357, without loop closures; `far` is `movedEnough` (line 303). -/
noncomputable def Track.update (F : Fmt ℝ) (ang : Trans → ℝ) (far : Trans → Bool) (s : Track)
    (increase : Trans) : Track :=
  let temp := mulT F s.temp increase
  if far temp then
    let position := mulT F (transOf F s.origin) temp
    ⟨poseOf ang position, 1, position⟩
  else ⟨s.origin, temp, mulT F s.position increase⟩

/-- A sequence of updates. -/
noncomputable def Track.updates (F : Fmt ℝ) (ang : Trans → ℝ) (far : Trans → Bool) (s : Track)
    (incs : List Trans) : Track := incs.foldl (Track.update F ang far) s

/-- The increment after a successful match, ndt_slam_algorithm.h:250-251:
`getTransFromPose(last).inverse() * getTransFromPose(pose)`.  `inverse()` of an affine transform inverts the
linear part (2x2, adjugate times reciprocal determinant) and maps the negated translation with it. -/
noncomputable def inverseT (F : Fmt ℝ) (a : Trans) : Trans :=
  let r := F.d (1 / F.d (F.d (a 0 0 * a 1 1) - F.d (a 1 0 * a 0 1)))
  let l00 := F.d (a 1 1 * r)
  let l01 := F.d (-a 0 1 * r)
  let l10 := F.d (-a 1 0 * r)
  let l11 := F.d (a 0 0 * r)
  !![l00, l01, -F.d (F.d (l00 * a 0 2) + F.d (l01 * a 1 2));
     l10, l11, -F.d (F.d (l10 * a 0 2) + F.d (l11 * a 1 2)); 0, 0, 1]

/-- `increase`, ndt_slam_algorithm.h:250-251. -/
noncomputable def increment (F : Fmt ℝ) (last pose : Pose) : Trans :=
  mulT F (inverseT F (transOf F last)) (transOf F pose)

end Verif.Round
