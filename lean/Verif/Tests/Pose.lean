import Mathlib.Analysis.Real.Pi.Bounds
import Verif.Pose.Props

/-
The project's own unit tests of eigen_tools.h (test/utils/eigen_tools_test.cpp) on the model.  The tests compare within
a tolerance; in exact arithmetic the values are equal.  They check that the model behaves like the code on the cases the
authors wrote down; they prove nothing else.

One case differs: CycleTest (lines 106-124) ends at the angle `-M_PI`.  The code returns `-M_PI` because `M_PI` is
slightly less than π; in exact arithmetic the same direction is normalised to π (C43: the result lies in (-π, π]).
-/
namespace Verif.Tests.Pose

open Verif Verif.Geo

/-- Angles of the tests that are already normalised. -/
theorem norm_id {a : ℝ} (h1 : -3 ≤ a) (h2 : a ≤ 3) : normalizeAngle a = a :=
  normalizeAngle_of_mem (by linarith [Real.pi_gt_three]) (by linarith [Real.pi_gt_three])

/-! ### createTransFromPoses, lines 11-60 -/

example : transBtwPoses ⟨0, 0, 0⟩ ⟨10, 10, 0⟩ = !![1, 0, 10; 0, 1, 10; 0, 0, 1] := by
  simp [transBtwPoses, getTransFromPose, cos_normalizeAngle, sin_normalizeAngle]

example : transBtwPoses ⟨10, 10, 0⟩ ⟨20, 20, 0⟩ = !![1, 0, 10; 0, 1, 10; 0, 0, 1] := by
  simp only [transBtwPoses, getTransFromPose, cos_normalizeAngle, sin_normalizeAngle]
  norm_num

example : transBtwPoses ⟨0, 0, 0⟩ ⟨0, 0, Real.pi⟩ = !![-1, 0, 0; 0, -1, 0; 0, 0, 1] := by
  simp [transBtwPoses, getTransFromPose, cos_normalizeAngle, sin_normalizeAngle]

/-! ### transBtwPoses and the cycle tests, lines 61-160 -/

example (p : Pose) : transBtwPoses ⟨0, 0, 0⟩ p = vecToMat2d p ∧ vecToMat2d p = getTransFromPose p := by
  simp [transBtwPoses, getTransFromPose, vecToMat2d, cos_normalizeAngle, sin_normalizeAngle]

/-- The cycles of the tests end where they should if the last angle is in (-π, π]. -/
example (p q : Pose) (h1 : -Real.pi < q.th) (h2 : q.th ≤ Real.pi) : transformPose p (transBtwPoses p q) = q := by
  unfold transformPose transBtwPoses
  rw [pose_trans]
  have h : normalizeAngle (p.th + normalizeAngle (q.th - p.th)) = q.th := by
    rw [normalizeAngle_add, add_sub_cancel, normalizeAngle_of_mem h1 h2]
  simp only [normalized, normalizeAngle_idem, h, add_sub_cancel]

/-- CycleTest in exact arithmetic. -/
example : transformPose ⟨10, 20, 0⟩ (transBtwPoses ⟨10, 20, 0⟩ ⟨-10, 30, -Real.pi⟩) = ⟨-10, 30, Real.pi⟩ := by
  have h : normalizeAngle (-Real.pi) = Real.pi := by
    rw [normalizeAngle_congr (b := Real.pi) ⟨-1, by push_cast; ring⟩]
    exact normalizeAngle_of_mem (by linarith [Real.pi_pos]) le_rfl
  unfold transformPose transBtwPoses
  rw [pose_trans]
  simp only [normalized, normalizeAngle_idem, zero_add, sub_zero, h,
    normalizeAngle_of_mem (a := Real.pi) (by linarith [Real.pi_pos]) le_rfl]
  norm_num

/-! ### complexInterfaceTest, lines 162-204 -/

example : getPoseFromTransform (transBtwPoses ⟨-10, 5, 6 / 5⟩ ⟨10, 6, 2⟩) = ⟨20, 1, 4 / 5⟩ ∧
    getAngle (transBtwPoses ⟨-10, 5, 6 / 5⟩ ⟨10, 6, 2⟩) = 4 / 5 ∧
    getDisplacement (transBtwPoses ⟨-10, 5, 6 / 5⟩ ⟨10, 6, 2⟩) = Real.sqrt ((-10 - 10) ^ 2 + (5 - 6) ^ 2) := by
  have e : getPoseFromTransform (transBtwPoses ⟨-10, 5, 6 / 5⟩ ⟨10, 6, 2⟩) = ⟨20, 1, 4 / 5⟩ := by
    unfold transBtwPoses
    rw [pose_trans]
    simp only [normalized, normalizeAngle_idem]
    rw [norm_id (by norm_num) (by norm_num)]
    norm_num
  refine ⟨e, congrArg Slam.Pose.th e, ?_⟩
  have d : ∀ t : Trans, getDisplacement t = Real.sqrt ((getPoseFromTransform t).x ^ 2 + (getPoseFromTransform t).y ^ 2) :=
    fun _ => rfl
  rw [d, e]
  norm_num

/-! ### normalizeAngle, lines 206-217 -/

example : normalizeAngle Real.pi = Real.pi ∧ normalizeAngle (3 * Real.pi) = Real.pi ∧
    normalizeAngle (2 * Real.pi) = 0 ∧ normalizeAngle (3 * (Real.pi / 2)) = -(Real.pi / 2) := by
  have h := Real.pi_pos
  refine ⟨normalizeAngle_of_mem (by linarith) le_rfl, ?_, ?_, ?_⟩
  · rw [normalizeAngle_congr (b := Real.pi) ⟨1, by push_cast; ring⟩]
    exact normalizeAngle_of_mem (by linarith) le_rfl
  · rw [normalizeAngle_congr (b := 0) ⟨1, by push_cast; ring⟩]
    exact normalizeAngle_of_mem (by linarith) h.le
  · rw [normalizeAngle_congr (b := -(Real.pi / 2)) ⟨1, by push_cast; ring⟩]
    exact normalizeAngle_of_mem (by linarith) (by linarith)

/-! ### transBtwFrames, lines 235-256 -/

example : transBtwFrames ⟨2, 2, Real.pi / 2⟩ ⟨0, 0, 0⟩ = !![0, -1, 2; 1, 0, 2; 0, 0, 1] := by
  have h1 : linear (getTransFromPose ⟨0, 0, 0⟩) = 1 := by
    ext i j; fin_cases i <;> fin_cases j <;> simp [linear, getTransFromPose]
  unfold transBtwFrames
  simp only [h1]
  apply mat_ext <;> simp [affine, linear, getTransFromPose]

end Verif.Tests.Pose
