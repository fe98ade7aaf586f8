import Verif.Pose.Model
import Mathlib.Analysis.Calculus.FDeriv.Basic
import Mathlib.Analysis.Normed.Operator.Prod

/-
Specification vocabulary for poses, transforms and covariances.
-/
namespace Verif.Geo

open Verif Matrix

/-- Rigid transform of the plane: the linear part is orthogonal with determinant one, the last row is
`(0, 0, 1)`. -/
def IsRigid (t : Trans) : Prop :=
  linear t * (linear t).transpose = 1 ∧ (linear t).det = 1 ∧ t 2 0 = 0 ∧ t 2 1 = 0 ∧ t 2 2 = 1

/-- Equal modulo full turns. -/
def SameAngle (a b : ℝ) : Prop := ∃ k : ℤ, a = b + k * (2 * Real.pi)

/-- Equal position, orientation equal modulo full turns. -/
def SamePose (p q : Pose) : Prop := p.x = q.x ∧ p.y = q.y ∧ SameAngle p.th q.th

/-- World coordinates of a point given in the frame of the pose `p`. -/
noncomputable def toWorld (p : Pose) (v : ℝ × ℝ) : ℝ × ℝ :=
  (p.x + (Real.cos p.th * v.1 - Real.sin p.th * v.2), p.y + (Real.sin p.th * v.1 + Real.cos p.th * v.2))

/-- Image of a point under a transform. -/
def act (t : Trans) (v : ℝ × ℝ) : ℝ × ℝ :=
  (t 0 0 * v.1 + t 0 1 * v.2 + t 0 2, t 1 0 * v.1 + t 1 1 * v.2 + t 1 2)

/-- The pose that `q`, given in the frame of `p`, has in the world. -/
noncomputable def compose (p q : Pose) : Pose :=
  ⟨(toWorld p (q.x, q.y)).1, (toWorld p (q.x, q.y)).2, p.th + q.th⟩

/-- The same pose with its angle in `(-π, π]`. -/
noncomputable def normalized (p : Pose) : Pose := ⟨p.x, p.y, normalizeAngle p.th⟩

/-- Poses as vectors, for derivatives. -/
def vec (p : Pose) : Fin 3 → ℝ := ![p.x, p.y, p.th]

/-- Vectors as poses. -/
def ofVec (v : Fin 3 → ℝ) : Pose := ⟨v 0, v 1, v 2⟩

/-- `f` has at `(p, q)` the partial Jacobians `a` and `b`. -/
def HasJacobians (f : Pose → Pose → Pose) (a b : Trans) (p q : Pose) : Prop :=
  ∃ L : (Fin 3 → ℝ) × (Fin 3 → ℝ) →L[ℝ] (Fin 3 → ℝ),
    HasFDerivAt (fun v : (Fin 3 → ℝ) × (Fin 3 → ℝ) => vec (f (ofVec v.1) (ofVec v.2))) L (vec p, vec q) ∧
    ∀ u w, L (u, w) = a.mulVec u + b.mulVec w

end Verif.Geo
