import Verif.Newton.Model

/-
Model of the score functions of the NDT matchers: `calcScore` and `calcPointScore` of
include/ndt_gslam/registration/ndt2d.h, `calcScore`, `computeDerivatives` and `calcSourceCellScore` of d2d_ndt2d.h.

Simplifications:
* no rounding (in the code positions pass through `float`), no NaN;
* a cell is its mean, covariance and inverse covariance; the search for the nearest cells is an arbitrary function of
  the position (it is modelled in `Verif/NDTGrid`);
* the sum over threads of d2d_ndt2d.h is in `Verif/Newton` (`parallelScore`).
-/
namespace Verif.Score

open Verif Verif.Geo Verif.Newton Matrix

/-- Three by three matrices. -/
abbrev Mat := Matrix (Fin 3) (Fin 3) ℝ

/-- What the scores need of a cell. -/
structure Cell where
  mean : Vec
  cov : Mat
  icov : Mat

/-! ### Points to distributions -/

open Classical in
/-- `calcPointScore`, ndt2d.h:497-555. -/
noncomputable def pointScore (pt : ℝ × ℝ) (cell : Cell) (transPt : ℝ × ℝ) (co si : ℝ) (param : FittingParams) : Score :=
  let x := pt.1
  let y := pt.2
  let jacobian : Matrix (Fin 2) (Fin 3) ℝ := !![1, 0, -x * si - y * co; 0, 1, x * co - y * si]
  let hessDerivative : Fin 2 → ℝ := ![-x * co + y * si, -x * si - y * co]
  let hessDerivatives2 : Fin 2 → ℝ := ![0, 0]
  let icov : Matrix (Fin 2) (Fin 2) ℝ := !![cell.icov 0 0, cell.icov 0 1; cell.icov 1 0, cell.icov 1 1]
  let diff : Fin 2 → ℝ := ![transPt.1 - cell.mean 0, transPt.2 - cell.mean 1]
  let diffIcov : Fin 2 → ℝ := diff ᵥ* icov
  let e := Real.exp (-param.d2half * (diffIcov ⬝ᵥ diff))
  let d2e := param.d2 * e
  let d1d2e := param.d1 * d2e
  if d2e > 1 ∨ d2e < 0 then .zero
  else
    ⟨-param.d1 * e,
      fun i => (diffIcov ⬝ᵥ fun k => jacobian k i) * d1d2e,
      fun i j =>
        let hessPart := if i = 2 ∧ j = 2 then hessDerivatives2 else hessDerivative
        let ji := diffIcov ⬝ᵥ fun k => jacobian k i
        let jj := diffIcov ⬝ᵥ fun k => jacobian k j
        d1d2e * (-param.d2 * ji * jj + diffIcov ⬝ᵥ hessPart + (fun k => jacobian k j) ⬝ᵥ (icov *ᵥ fun k => jacobian k i))⟩

/-- `pcl::transformPointCloud` for one point of the plane, called in ndt2d.h:477. -/
def transformPoint (t : Trans) (v : ℝ × ℝ) : ℝ × ℝ :=
  (t 0 0 * v.1 + t 0 1 * v.2 + t 0 2, t 1 0 * v.1 + t 1 1 * v.2 + t 1 2)

open Classical in
/-- The cosine and sine used for the derivatives, ndt2d.h:469-475. -/
noncomputable def smallAngle (th : ℝ) : ℝ × ℝ := if |th| < 10e-5 then (1, 0) else (Real.cos th, Real.sin th)

/-- `calcScore`, ndt2d.h:459-494, for the nearest cells `knn` (at most four) of a position. -/
noncomputable def ndtScore (knn : ℝ × ℝ → List Cell) (source : List (ℝ × ℝ)) (trans : Vec) (param : FittingParams) :
    Score :=
  let cs := smallAngle (trans 2)
  source.foldl (fun res pt =>
    let transPt := transformPoint (vecToMat trans) pt
    (knn transPt).foldl (fun res cell => res.add (pointScore pt cell transPt cs.1 cs.2 param)) res) .zero

/-! ### Distributions to distributions -/

/-- `JacobianHessianDerivatives`, ndt_reg_tools.h:81-104; `Hest`, `Zest` and `ZHest` by their blocks of three rows or
columns. -/
structure Derivatives where
  jest : Mat
  hest : Fin 3 → Fin 3 → Vec
  zest : Fin 3 → Mat
  zhest : Fin 3 → Fin 3 → Mat

/-- `computeDerivatives`, d2d_ndt2d.h:583-605. -/
noncomputable def computeDerivatives (x : Vec) (cov : Mat) (calcHessian : Bool) : Derivatives where
  jest := !![1, 0, -x 1; 0, 1, x 0; 0, 0, 0]
  zest := fun j => if j = 2 then
      !![-2 * cov 0 1, -cov 1 1 + cov 0 0, -cov 1 2;
         -cov 1 1 + cov 0 0, 2 * cov 0 1, cov 0 2;
         -cov 1 2, cov 0 2, 0]
    else 0
  hest := fun i j => if calcHessian ∧ i = 2 ∧ j = 2 then ![-x 0, -x 1, 0] else 0
  zhest := fun i j => if calcHessian ∧ i = 2 ∧ j = 2 then
      !![2 * cov 1 1 - 2 * cov 0 0, -4 * cov 0 1, -cov 0 2;
         -4 * cov 0 1, 2 * cov 0 0 - 2 * cov 1 1, -cov 1 2;
         -cov 0 2, -cov 1 2, 0]
    else 0

open Classical in
/-- `calcSourceCellScore`, d2d_ndt2d.h:607-681.  `computeInverseAndDetWithCheck` calls a matrix invertible if its
determinant is above 1e-12 in absolute value. -/
noncomputable def cellScore (mean : Vec) (cov : Mat) (target : Cell) (deriv : Derivatives) (param : FittingParams)
    (calcHessian : Bool) : Score :=
  let diff : Vec := mean - target.mean
  let covSum := target.cov + cov
  if |covSum.det| ≤ 1e-12 then .zero
  else
    let icov := covSum⁻¹
    let dist := diff ⬝ᵥ (icov *ᵥ diff)
    let value := -param.d1 * Real.exp (-param.d2half * dist)
    let xtB := diff ᵥ* icov
    let xtBJ := xtB ᵥ* deriv.jest
    let tmp := (xtB ᵥ* deriv.zest 2) ᵥ* icov
    let xtBZBx : Vec := fun i => if i = 2 then tmp ⬝ᵥ diff else 0
    let xtBZBJ : Mat := Matrix.of fun i j => if calcHessian ∧ j = 2 then (tmp ᵥ* deriv.jest) i else 0
    let xtBH : Mat := Matrix.of fun i j => if calcHessian ∧ i = 2 then xtB ⬝ᵥ deriv.hest 2 j else 0
    let xtBZBZBx : Mat := Matrix.of fun i j => if calcHessian ∧ i = 2 then ((tmp ᵥ* deriv.zest j) ᵥ* icov) ⬝ᵥ diff else 0
    let xtBZhBx : Mat := Matrix.of fun i j => if calcHessian ∧ i = 2 then ((xtB ᵥ* deriv.zhest 2 j) ᵥ* icov) ⬝ᵥ diff else 0
    let q : Vec := (2 : ℝ) • xtBJ - xtBZBx
    let factor := -param.d2half * value
    ⟨value, factor • q,
      if calcHessian then factor • ((2 : ℝ) • (deriv.jestᵀ * icov * deriv.jest) + (2 : ℝ) • xtBH - xtBZhBx -
        (2 : ℝ) • xtBZBJᵀ - (2 : ℝ) • xtBZBJ + xtBZBZBx + xtBZBZBxᵀ - param.d2half • vecMulVec q q)
      else 0⟩

/-- Rotation about the z axis. -/
noncomputable def rotZ (a : ℝ) : Mat := !![Real.cos a, -Real.sin a, 0; Real.sin a, Real.cos a, 0; 0, 0, 1]

/-- Contribution of one source cell, the body of the loop of `calcScore`, d2d_ndt2d.h:543-573; `knn` gives the nearest
target cells (at most two).  `rotation()` is the linear part (see `Verif/Pose/Model.lean`). -/
noncomputable def sourceCellScore (knn : ℝ × ℝ → List Cell) (source : Cell) (trans : Vec) (param : FittingParams)
    (calcHessian : Bool) : Score :=
  let mean : Vec := rotZ (trans 2) *ᵥ source.mean + ![trans 0, trans 1, 0]
  let cov := rotZ (trans 2) * source.cov * (rotZ (trans 2))ᵀ
  let deriv := computeDerivatives mean cov calcHessian
  (knn (mean 0, mean 1)).foldl (fun res t => res.add (cellScore mean cov t deriv param calcHessian)) .zero

/-- `calcScore`, d2d_ndt2d.h:514-580, summed by one thread (for the others see `parallelScore` in
`Verif/Newton/Model.lean`). -/
noncomputable def d2dScore (knn : ℝ × ℝ → List Cell) (source : List Cell) (trans : Vec) (param : FittingParams)
    (calcHessian : Bool) : Score :=
  source.foldl (fun res c => res.add (sourceCellScore knn c trans param calcHessian)) .zero

end Verif.Score
