import Verif.Slam.Model
import Verif.Cell.Model
import Mathlib.Analysis.SpecialFunctions.Complex.Arg
import Mathlib.LinearAlgebra.Matrix.NonsingularInverse

/-
Model of include/ndt_gslam/utils/eigen_tools.h, slam_optimizer/slam2d_policy.h,
utils/covariance_wrapper.h, utils/covariance_inverse.h and the covariance arithmetic of
slam_optimizer/loop_detector.h.

Simplifications common to the file:
* real arithmetic; `atan2` is `Complex.arg`, which has the values of `std::atan2` (including
  `atan2(0, 0) = 0`) except for signed zeros, which do not exist here;
* `Eigen::Transform<T, 2, Affine>` is its 3x3 matrix; `inverse()` is the matrix inverse;
* `Transform::rotation()` is the orthogonal factor of the linear part (computed by Eigen with an SVD).
  It is modelled by the linear part itself, to which it is equal for rigid transforms.  All transforms in
  the code are built from poses by products and inverses, or come from the matchers as rigid matrices.
-/
namespace Verif.Geo

open Verif Matrix

export Verif.Slam (Pose)

/-- 3x3 matrix of a planar transform. -/
abbrev Trans := Matrix (Fin 3) (Fin 3) ℝ

/-- `std::atan2(y, x)`. -/
noncomputable def atan2 (y x : ℝ) : ℝ := Complex.arg ⟨x, y⟩

/-- `normalizeAngle`, eigen_tools.h:202-207. -/
noncomputable def normalizeAngle (a : ℝ) : ℝ := atan2 (Real.sin a) (Real.cos a)

/-- `getTransFromPose`, eigen_tools.h:193-200. -/
noncomputable def getTransFromPose (p : Pose) : Trans :=
  !![Real.cos p.th, -Real.sin p.th, p.x; Real.sin p.th, Real.cos p.th, p.y; 0, 0, 1]

/-- `getAngle`, eigen_tools.h:153-157. -/
noncomputable def getAngle (t : Trans) : ℝ := atan2 (t 1 0) (t 0 0)

/-- `getPoseFromTransform`, eigen_tools.h:142-151. -/
noncomputable def getPoseFromTransform (t : Trans) : Pose := ⟨t 0 2, t 1 2, getAngle t⟩

/-- `transBtwPoses`, eigen_tools.h:85-94. -/
noncomputable def transBtwPoses (src dst : Pose) : Trans :=
  getTransFromPose ⟨dst.x - src.x, dst.y - src.y, normalizeAngle (dst.th - src.th)⟩

/-- `.linear()` of a transform. -/
def linear (t : Trans) : Matrix (Fin 2) (Fin 2) ℝ := !![t 0 0, t 0 1; t 1 0, t 1 1]

/-- A transform from its linear and translation part. -/
def affine (r : Matrix (Fin 2) (Fin 2) ℝ) (v : Fin 2 → ℝ) : Trans :=
  !![r 0 0, r 0 1, v 0; r 1 0, r 1 1, v 1; 0, 0, 1]

/-- `transBtwFrames`, eigen_tools.h:96-121.  `T1.linear() << from_base0, from_base1` puts the images of
the base vectors into the columns, i.e. reproduces the linear part. -/
noncomputable def transBtwFrames (src dst : Pose) : Trans :=
  let t1 := linear (getTransFromPose src)
  let t2 := linear (getTransFromPose dst)
  affine (t1 * t2⁻¹) (t2⁻¹.mulVec ![src.x - dst.x, src.y - dst.y])

/-- `transformPose`, eigen_tools.h:123-133. -/
noncomputable def transformPose (p : Pose) (t : Trans) : Pose :=
  let inc := getPoseFromTransform t
  ⟨p.x + inc.x, p.y + inc.y, normalizeAngle (p.th + inc.th)⟩

/-- `transformConcat`, eigen_tools.h:135-140. -/
noncomputable def transformConcat (p : Pose) (t : Trans) : Pose :=
  getPoseFromTransform (getTransFromPose p * t)

/-- `getDisplacement`, eigen_tools.h:159-164. -/
noncomputable def getDisplacement (t : Trans) : ℝ := Real.sqrt (t 0 2 ^ 2 + t 1 2 ^ 2)

/-- `getAngleDiffrence`, eigen_tools.h:166-170. -/
noncomputable def getAngleDiffrence (src dst : Pose) : ℝ :=
  atan2 (Real.sin (dst.th - src.th)) (Real.cos (dst.th - src.th))

/-- `convertToTransform`, eigen_tools.h:172-181. -/
def convertToTransform (t : Matrix (Fin 4) (Fin 4) ℝ) : Trans :=
  !![t 0 0, t 0 1, t 0 3; t 1 0, t 1 1, t 1 3; 0, 0, 1]

/-- Translation by `(x, y, 0)` times rotation by `th` about the z axis. -/
noncomputable def planar4 (x y th : ℝ) : Matrix (Fin 4) (Fin 4) ℝ :=
  !![Real.cos th, -Real.sin th, 0, x; Real.sin th, Real.cos th, 0, y; 0, 0, 1, 0; 0, 0, 0, 1]

/-- `convertFromTransform`, eigen_tools.h:183-191. -/
noncomputable def convertFromTransform (t : Trans) : Matrix (Fin 4) (Fin 4) ℝ :=
  let p := getPoseFromTransform t
  planar4 p.x p.y p.th

/-- `vecToMat3d`, eigen_tools.h:209-222 (also registration/ndt_reg_tools.h:278-291). -/
noncomputable def vecToMat3d (p : Pose) : Matrix (Fin 4) (Fin 4) ℝ := planar4 p.x p.y p.th

/-- `vecToMat2d`, eigen_tools.h:224-234. -/
noncomputable def vecToMat2d (p : Pose) : Trans :=
  !![Real.cos p.th, -Real.sin p.th, p.x; Real.sin p.th, Real.cos p.th, p.y; 0, 0, 1]

/-- `matToVec2d` for 3x3 matrices, eigen_tools.h:236-246 (defined outside the namespace in which it is
declared, so only the unqualified name is usable). -/
noncomputable def matToVec2d (t : Trans) : Pose := ⟨t 0 2, t 1 2, atan2 (t 1 0) (t 0 0)⟩

/-- `matToVec2d` for 4x4 matrices, eigen_tools.h:248-258 (also registration/ndt_reg_tools.h:303-312). -/
noncomputable def matToVec3d (t : Matrix (Fin 4) (Fin 4) ℝ) : Pose := ⟨t 0 3, t 1 3, atan2 (t 1 0) (t 0 0)⟩

/-! ### Policy of the pose graph -/

/-- `calcError`, slam2d_policy.h:66-72 (`vecToTransMat` and `transMatToVec`, 24-32, are the functions
above). -/
noncomputable def calcError (x y trans : Pose) : Pose :=
  let xi := getTransFromPose x
  let xj := getTransFromPose y
  let zij := getTransFromPose trans
  getPoseFromTransform (zij⁻¹ * (xi⁻¹ * xj))

/-- `calcJacobianBlocks`, slam2d_policy.h:34-64: the pair `(aij, bij)`. -/
noncomputable def calcJacobianBlocks (xi xj trans : Pose) : Trans × Trans :=
  let angle := trans.th + xi.th
  let d0 := xj.x - xi.x
  let d1 := xj.y - xi.y
  let co := Real.cos angle
  let si := Real.sin angle
  (!![-co, -si, -si * d0 + co * d1; si, -co, -co * d0 - si * d1; 0, 0, -1],
   !![co, si, 0; -si, co, 0; 0, 0, 1])

/-- `addPoses`, slam2d_policy.h:74-80. -/
noncomputable def addPoses (a b : Pose) : Pose := ⟨a.x + b.x, a.y + b.y, normalizeAngle (a.th + b.th)⟩

/-! ### Covariances -/

/-- `computeJacc1`, covariance_wrapper.h:42-49 and loop_detector.h:68-75. -/
def jacc1 (co si tx ty : ℝ) : Trans := !![1, 0, -si * tx - co * ty; 0, 1, co * tx - si * ty; 0, 0, 1]

/-- `computeJacc2`, covariance_wrapper.h:50-55 and loop_detector.h:76-81. -/
def jacc2 (co si : ℝ) : Trans := !![co, -si, 0; si, co, 0; 0, 0, 1]

/-- `addToCovar`, covariance_wrapper.h:27-36: the new value of `covar_`. -/
noncomputable def addToCovar (covar other : Trans) (trans : Trans) : Trans :=
  let angle := atan2 (trans 1 0) (trans 0 0)
  let co := Real.cos angle
  let si := Real.sin angle
  jacc1 co si (trans 0 2) (trans 1 2) * covar * (jacc1 co si (trans 0 2) (trans 1 2)).transpose +
    jacc2 co si * other * (jacc2 co si).transpose

/-- `EdgeCov`, loop_detector.h:15-82 (the uninitialised `cov_` and `distance_` of a start element are
whatever the caller supplies). -/
structure EdgeCov where
  start : ℕ
  node : ℕ
  hop : ℕ
  cov : Trans
  t : Trans
  dist : ℝ
  det : ℝ

/-- `EdgeCov::operator+`, loop_detector.h:46-63. -/
noncomputable def EdgeCov.add (e new : EdgeCov) : EdgeCov :=
  let angle := atan2 (e.t 1 0) (e.t 0 0)
  let co := Real.cos angle
  let si := Real.sin angle
  let cov :=
    jacc1 co si (new.t 0 2) (new.t 1 2) * e.cov * (jacc1 co si (new.t 0 2) (new.t 1 2)).transpose +
      jacc2 co si * new.cov * (jacc2 co si).transpose
  { start := e.start, hop := e.hop + 1, node := new.node, cov := cov, det := cov.det,
    t := new.t * e.t, dist := e.dist + new.dist }

/-- Entries of a diagonal 3x3 matrix in storage (column-major) order, `evals(i)` with one index,
covariance_inverse.h:34: only the first is an eigenvalue. -/
def linearIndex (d : Fin 3 → ℝ) (i : Fin 3) : ℝ := if i = 0 then d 0 else 0

/-- Largest coefficient of the diagonal matrix, covariance_inverse.h:31. -/
noncomputable def maxCoeff (d : Fin 3 → ℝ) : ℝ := max (max (max (d 0) (d 1)) (d 2)) 0

/-- The loop of `covarInverse`, covariance_inverse.h:33-38: eigenvalue `i` and whether it was replaced. -/
noncomputable def clampEval (d : Fin 3 → ℝ) (i : Fin 3) : ℝ × Bool :=
  if maxCoeff d > linearIndex d i * 100 then (maxCoeff d / 100, true) else (d i, false)

/-- `covarInverse`, covariance_inverse.h:17-48, for an eigen solver `eig` (`eigenvectors()`,
`eigenvalues()`); `none` is the result `false`, otherwise `(adjusted_cov, icov)`.  Entry `(i, i)` is
written and entry `i` (linear) is read, and no later read sees an earlier write, except that `evals(0)`
is read before `evals(0, 0)` is written. -/
noncomputable def covarInverse (eig : NDT.Eig) (cov : Trans) : Option (Trans × Trans) :=
  let q := (eig cov).1
  let d := (eig cov).2
  if d 0 + d 1 + d 2 ≤ 0 then none
  else
    let e := fun i => (clampEval d i).1
    let recalc := (clampEval d 0).2 || (clampEval d 1).2 || (clampEval d 2).2
    some (if recalc then q * diagonal e * q.transpose else cov, q * (diagonal e)⁻¹ * q.transpose)

end Verif.Geo
