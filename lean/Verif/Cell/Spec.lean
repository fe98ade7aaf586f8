import Verif.Cell.Model

/-
Specification vocabulary for cells.
-/
namespace Verif.NDT

open Verif

/-- Arithmetic mean of points. -/
noncomputable def sampleMean (l : List Vec) : Vec := (1 / (l.length : ℝ)) • l.sum

/-- Unbiased sample covariance of points. -/
noncomputable def sampleCov (l : List Vec) : Mat :=
  (1 / ((l.length : ℝ) - 1)) •
    (l.map fun p => Matrix.vecMulVec (p - sampleMean l) (p - sampleMean l)).sum

/-- What is assumed of the eigenvalue solver: for a symmetric matrix it returns an orthogonal matrix
and eigenvalues in ascending order that reproduce the matrix. -/
def EigOk (eig : Eig) : Prop :=
  ∀ A : Mat, A.transpose = A →
    (eig A).1 * (eig A).1.transpose = 1 ∧
    A = (eig A).1 * Matrix.diagonal (eig A).2 * (eig A).1.transpose ∧
    (eig A).2 0 ≤ (eig A).2 1 ∧ (eig A).2 1 ≤ (eig A).2 2

/-- No direction has less than one percent of the variance of another direction. -/
def Conditioned (A : Mat) : Prop :=
  ∀ x y : Vec, x ⬝ᵥ x = y ⬝ᵥ y → 0.01 * (y ⬝ᵥ A.mulVec y) ≤ x ⬝ᵥ A.mulVec x

/-- Cells obtainable from new cells by public calls (`setMean` and `setOccupancy`, with which a client
can write anything, are left out; `setCentroid` does not matter).  `allowed` restricts the rays. -/
inductive Reach (eig : Eig) (allowed : Vec → Vec → Prop) : Cell → Prop
  | init : Reach eig allowed init
  | addPoint {c} (p : Vec) : Reach eig allowed c → Reach eig allowed (addPoint c p)
  | computeGaussian {c} : Reach eig allowed c → Reach eig allowed (computeGaussian eig c)
  | merge {c d} : Reach eig allowed c → Reach eig allowed d → Reach eig allowed (merge eig c d)
  | ray {c c'} (s e : Vec) (n : ℕ) : Reach eig allowed c → allowed s e →
      rayUpdate c s e n = .ok c' → Reach eig allowed c'
  | transform {c} (a r : Mat) (t : Vec) : Reach eig allowed c → r * r.transpose = 1 →
      Reach eig allowed (transform eig c a r t)

/-- All rays. -/
def anyRay : Vec → Vec → Prop := fun _ _ => True

/-- Rays of positive length. -/
def properRay : Vec → Vec → Prop := fun s e => s ≠ e

end Verif.NDT
