import Verif.Score.Model
import Verif.Score.Calc
import Verif.Newton.Tools
import Mathlib.LinearAlgebra.Matrix.PosDef

/-
Lemmas on the score of a point (ndt2d.h).
-/
namespace Verif.Score

open Verif Verif.Geo Verif.Newton Filter Topology Matrix

theorem exp_grad (d h : ℝ) {q : Vec → ℝ} {g v : Vec} (a : IsGradient q g v) :
    IsGradient (fun w => -d * Real.exp (-h * q w)) (fun k => -h * (-d * Real.exp (-h * q v)) * g k) v := by
  refine ((a.const_mul (-h)).exp.const_mul (-d)).of_eq ?_
  funext k
  ring

theorem exp_hess (d h : ℝ) {q : Vec → ℝ} {g : Vec → Vec} {hq : Fin 3 → Fin 3 → ℝ} {v : Vec}
    (a : ∀ᶠ w in 𝓝 v, IsGradient q (g w) w) (b : ∀ i, IsGradient (fun w => g w i) (hq i) v) :
    IsHessian (fun w => -d * Real.exp (-h * q w))
      (Matrix.of fun i j => -h * (-d * Real.exp (-h * q v)) * (hq i j - h * (g v i * g v j))) v := by
  refine ⟨fun w k => -h * (-d * Real.exp (-h * q w)) * g w k, a.mono fun w aw => exp_grad d h aw, fun i => ?_⟩
  refine (((exp_grad d h a.self_of_nhds).const_mul (-h)).mul (b i)).of_eq ?_
  funext k
  simp only [Matrix.of_apply]
  ring

/-- First coordinate of the transformed point relative to the mean. -/
noncomputable def dx (pt : ℝ × ℝ) (mean : Vec) (w : Vec) : ℝ :=
  Real.cos (w 2) * pt.1 - Real.sin (w 2) * pt.2 + w 0 - mean 0

/-- Second coordinate of the transformed point relative to the mean. -/
noncomputable def dy (pt : ℝ × ℝ) (mean : Vec) (w : Vec) : ℝ :=
  Real.sin (w 2) * pt.1 + Real.cos (w 2) * pt.2 + w 1 - mean 1

theorem transformPoint_vecToMat (w : Vec) (pt : ℝ × ℝ) :
    transformPoint (vecToMat w) pt =
      (Real.cos (w 2) * pt.1 - Real.sin (w 2) * pt.2 + w 0, Real.sin (w 2) * pt.1 + Real.cos (w 2) * pt.2 + w 1) := by
  simp [transformPoint, vecToMat, getTransFromPose]
  ring

theorem dx_grad (pt : ℝ × ℝ) (mean v : Vec) :
    IsGradient (dx pt mean) ![1, 0, -Real.sin (v 2) * pt.1 - Real.cos (v 2) * pt.2] v := by
  have c := (isGradient_coord 2 v).cos
  have s := (isGradient_coord 2 v).sin
  refine ((((c.mul (isGradient_const pt.1 v)).sub (s.mul (isGradient_const pt.2 v))).add (isGradient_coord 0 v)).sub
    (isGradient_const (mean 0) v)).of_eq ?_
  funext k
  fin_cases k <;> simp

theorem dy_grad (pt : ℝ × ℝ) (mean v : Vec) :
    IsGradient (dy pt mean) ![0, 1, Real.cos (v 2) * pt.1 - Real.sin (v 2) * pt.2] v := by
  have c := (isGradient_coord 2 v).cos
  have s := (isGradient_coord 2 v).sin
  refine ((((s.mul (isGradient_const pt.1 v)).add (c.mul (isGradient_const pt.2 v))).add (isGradient_coord 1 v)).sub
    (isGradient_const (mean 1) v)).of_eq ?_
  funext k
  fin_cases k <;> simp
  ring

/-- Squared Mahalanobis distance. -/
noncomputable def quad (a b c : ℝ) (pt : ℝ × ℝ) (mean : Vec) (w : Vec) : ℝ :=
  a * dx pt mean w ^ 2 + 2 * b * (dx pt mean w * dy pt mean w) + c * dy pt mean w ^ 2

/-- Its gradient. -/
noncomputable def quadGrad (a b c : ℝ) (pt : ℝ × ℝ) (mean : Vec) (w : Vec) : Vec :=
  let ex := a * dx pt mean w + b * dy pt mean w
  let ey := b * dx pt mean w + c * dy pt mean w
  ![2 * ex, 2 * ey, 2 * (ex * (-Real.sin (w 2) * pt.1 - Real.cos (w 2) * pt.2) +
    ey * (Real.cos (w 2) * pt.1 - Real.sin (w 2) * pt.2))]

theorem quad_grad (a b c : ℝ) (pt : ℝ × ℝ) (mean v : Vec) :
    IsGradient (quad a b c pt mean) (quadGrad a b c pt mean v) v := by
  have hx := dx_grad pt mean v
  have hy := dy_grad pt mean v
  refine (((((hx.mul hx).const_mul a).add ((hx.mul hy).const_mul (2 * b))).add ((hy.mul hy).const_mul c)).of_eq ?_).congr
    (Eventually.of_forall fun w => ?_)
  · funext k
    fin_cases k <;> simp [quadGrad] <;> ring
  · simp only [quad]
    ring

/-- Its second derivatives. -/
noncomputable def quadHess (a b c : ℝ) (pt : ℝ × ℝ) (mean : Vec) (w : Vec) : Fin 3 → Vec :=
  let ex := a * dx pt mean w + b * dy pt mean w
  let ey := b * dx pt mean w + c * dy pt mean w
  let jx := -Real.sin (w 2) * pt.1 - Real.cos (w 2) * pt.2
  let jy := Real.cos (w 2) * pt.1 - Real.sin (w 2) * pt.2
  ![![2 * a, 2 * b, 2 * (a * jx + b * jy)], ![2 * b, 2 * c, 2 * (b * jx + c * jy)],
    ![2 * (a * jx + b * jy), 2 * (b * jx + c * jy),
      2 * (jx * (a * jx + b * jy) + jy * (b * jx + c * jy) + ex * -jy + ey * jx)]]

theorem quad_hess (a b c : ℝ) (pt : ℝ × ℝ) (mean v : Vec) (i : Fin 3) :
    IsGradient (fun w => quadGrad a b c pt mean w i) (quadHess a b c pt mean v i) v := by
  have hx := dx_grad pt mean v
  have hy := dy_grad pt mean v
  have hc := (isGradient_coord 2 v).cos
  have hs := (isGradient_coord 2 v).sin
  have ex := (hx.const_mul a).add (hy.const_mul b)
  have ey := (hx.const_mul b).add (hy.const_mul c)
  have jx := ((hs.const_mul (-pt.1)).sub (hc.const_mul pt.2))
  have jy := ((hc.const_mul pt.1).sub (hs.const_mul pt.2))
  fin_cases i
  · refine (ex.const_mul 2).of_eq ?_
    funext k
    fin_cases k <;> simp [quadHess]
  · refine (ey.const_mul 2).of_eq ?_
    funext k
    fin_cases k <;> simp [quadHess]
  · refine ((((ex.mul jx).add (ey.mul jy)).const_mul 2).of_eq ?_).congr (Eventually.of_forall fun w => ?_)
    · funext k
      fin_cases k <;> simp [quadHess] <;> ring
    · simp [quadGrad]
      ring

/-- The inverse covariance is symmetric and its quadratic form is not negative on the plane. -/
theorem quad_nonneg {m : Mat} (hm : m.PosSemidef) (pt : ℝ × ℝ) (mean w : Vec) :
    m 1 0 = m 0 1 ∧ 0 ≤ quad (m 0 0) (m 0 1) (m 1 1) pt mean w := by
  have hs : m 1 0 = m 0 1 := by
    have := congrFun (congrFun hm.1 0) 1
    simpa [Matrix.conjTranspose_apply] using this
  refine ⟨hs, ?_⟩
  have := hm.dotProduct_mulVec_nonneg ![dx pt mean w, dy pt mean w, 0]
  simp [Matrix.mulVec, dotProduct, Fin.sum_univ_three, hs] at this
  unfold quad
  linarith

/-- The parts of `calcPointScore`, for the cosine and sine it is given. -/
noncomputable def partGrad (cell : Cell) (pt : ℝ × ℝ) (w : Vec) (co si : ℝ) : Vec :=
  let ex := cell.icov 0 0 * dx pt cell.mean w + cell.icov 0 1 * dy pt cell.mean w
  let ey := cell.icov 0 1 * dx pt cell.mean w + cell.icov 1 1 * dy pt cell.mean w
  ![ex, ey, ex * (-pt.1 * si - pt.2 * co) + ey * (pt.1 * co - pt.2 * si)]

/-- The product of the weighted difference and the second derivative of the point. -/
noncomputable def partSecond (cell : Cell) (pt : ℝ × ℝ) (w : Vec) (co si : ℝ) : ℝ :=
  let ex := cell.icov 0 0 * dx pt cell.mean w + cell.icov 0 1 * dy pt cell.mean w
  let ey := cell.icov 0 1 * dx pt cell.mean w + cell.icov 1 1 * dy pt cell.mean w
  ex * (-pt.1 * co + pt.2 * si) + ey * (-pt.1 * si - pt.2 * co)

/-- The products of the first derivatives of the point. -/
noncomputable def partHess (cell : Cell) (pt : ℝ × ℝ) (co si : ℝ) : Fin 3 → Vec :=
  let jx := -pt.1 * si - pt.2 * co
  let jy := pt.1 * co - pt.2 * si
  let a := cell.icov 0 0
  let b := cell.icov 0 1
  let c := cell.icov 1 1
  ![![a, b, a * jx + b * jy], ![b, c, b * jx + c * jy],
    ![a * jx + b * jy, b * jx + c * jy, jx * (a * jx + b * jy) + jy * (b * jx + c * jy)]]

/-- Squared distance used for a cell. -/
noncomputable def cellQuad (cell : Cell) (pt : ℝ × ℝ) (w : Vec) : ℝ :=
  quad (cell.icov 0 0) (cell.icov 0 1) (cell.icov 1 1) pt cell.mean w

/-- The guard of `calcPointScore` never strikes for fitted parameters. -/
theorem pointScore_eq {p : FittingParams} (h0 : 0 < p.d2) (h1 : p.d2 ≤ 1) (hh : p.d2half = p.d2 / 2) (pt : ℝ × ℝ)
    (cell : Cell) (hc : cell.icov.PosSemidef) (w : Vec) (co si : ℝ) :
    pointScore pt cell (transformPoint (vecToMat w) pt) co si p =
      let e := Real.exp (-p.d2half * cellQuad cell pt w)
      ⟨-p.d1 * e, fun i => partGrad cell pt w co si i * (p.d1 * (p.d2 * e)),
        fun i j => p.d1 * (p.d2 * e) * (-p.d2 * partGrad cell pt w co si i * partGrad cell pt w co si j +
          (if i = 2 ∧ j = 2 then 0 else partSecond cell pt w co si) + partHess cell pt co si i j)⟩ := by
  obtain ⟨hs, hq⟩ := quad_nonneg hc pt cell.mean w
  have hd : ((![(transformPoint (vecToMat w) pt).1 - cell.mean 0, (transformPoint (vecToMat w) pt).2 - cell.mean 1] :
      Fin 2 → ℝ) ᵥ* !![cell.icov 0 0, cell.icov 0 1; cell.icov 1 0, cell.icov 1 1]) =
      ![cell.icov 0 0 * dx pt cell.mean w + cell.icov 0 1 * dy pt cell.mean w,
        cell.icov 0 1 * dx pt cell.mean w + cell.icov 1 1 * dy pt cell.mean w] := by
    rw [transformPoint_vecToMat]
    funext k
    fin_cases k <;> simp [Matrix.vecMul, dotProduct, dx, dy, hs] <;> ring
  have hdd : (![cell.icov 0 0 * dx pt cell.mean w + cell.icov 0 1 * dy pt cell.mean w,
        cell.icov 0 1 * dx pt cell.mean w + cell.icov 1 1 * dy pt cell.mean w] : Fin 2 → ℝ) ⬝ᵥ
      ![(transformPoint (vecToMat w) pt).1 - cell.mean 0, (transformPoint (vecToMat w) pt).2 - cell.mean 1] =
      cellQuad cell pt w := by
    rw [transformPoint_vecToMat]
    simp [dotProduct, cellQuad, quad, dx, dy]
    ring
  have hg : ¬ (p.d2 * Real.exp (-p.d2half * cellQuad cell pt w) > 1 ∨
      p.d2 * Real.exp (-p.d2half * cellQuad cell pt w) < 0) := by
    have hp := Real.exp_pos (-p.d2half * cellQuad cell pt w)
    have hle : Real.exp (-p.d2half * cellQuad cell pt w) ≤ 1 := by
      rw [Real.exp_le_one_iff]
      have : 0 ≤ p.d2half * cellQuad cell pt w := mul_nonneg (by linarith) hq
      linarith
    push Not
    constructor <;> nlinarith
  unfold pointScore
  simp only [hd, hdd]
  rw [if_neg hg]
  ext i j
  · rfl
  · fin_cases i <;> simp [partGrad]
  · simp only [Matrix.mulVec, dotProduct, Fin.sum_univ_two]
    congr 1
    fin_cases i <;> fin_cases j <;> simp [partGrad, partSecond, partHess, hs] <;> ring

theorem point_value_grad {p : FittingParams} (h0 : 0 < p.d2) (h1 : p.d2 ≤ 1) (hh : p.d2half = p.d2 / 2) (pt : ℝ × ℝ)
    (cell : Cell) (hc : cell.icov.PosSemidef) (cs : Vec → ℝ × ℝ) (v : Vec) :
    IsGradient (fun w => (pointScore pt cell (transformPoint (vecToMat w) pt) (cs w).1 (cs w).2 p).value)
      (pointScore pt cell (transformPoint (vecToMat v) pt) (Real.cos (v 2)) (Real.sin (v 2)) p).gradient v := by
  simp only [pointScore_eq h0 h1 hh pt cell hc]
  refine (exp_grad p.d1 p.d2half (quad_grad _ _ _ pt cell.mean v)).of_eq ?_
  funext k
  rw [hh]
  fin_cases k <;> simp [quadGrad, partGrad, cellQuad] <;> ring

/-- What the Hessian of `calcPointScore` lacks. -/
noncomputable def hessianError (cell : Cell) (pt : ℝ × ℝ) (p : FittingParams) (v : Vec) (i j : Fin 3) : ℝ :=
  p.d1 * (p.d2 * Real.exp (-p.d2half * cellQuad cell pt v)) * partSecond cell pt v (Real.cos (v 2)) (Real.sin (v 2)) *
    (if i = 2 ∧ j = 2 then 1 else -1)

theorem point_value_hess {p : FittingParams} (h0 : 0 < p.d2) (h1 : p.d2 ≤ 1) (hh : p.d2half = p.d2 / 2) (pt : ℝ × ℝ)
    (cell : Cell) (hc : cell.icov.PosSemidef) (cs : Vec → ℝ × ℝ) (v : Vec) :
    IsHessian (fun w => (pointScore pt cell (transformPoint (vecToMat w) pt) (cs w).1 (cs w).2 p).value)
      ((pointScore pt cell (transformPoint (vecToMat v) pt) (Real.cos (v 2)) (Real.sin (v 2)) p).hessian +
        Matrix.of (hessianError cell pt p v)) v := by
  simp only [pointScore_eq h0 h1 hh pt cell hc]
  have := exp_hess p.d1 p.d2half (Eventually.of_forall fun w => quad_grad (cell.icov 0 0) (cell.icov 0 1)
    (cell.icov 1 1) pt cell.mean w) (quad_hess (cell.icov 0 0) (cell.icov 0 1) (cell.icov 1 1) pt cell.mean v)
  refine Eq.mp (congrArg (fun m => IsHessian _ m v) ?_) this
  rw [hh]
  ext i j
  refine Eq.trans ?_ (Matrix.add_apply _ _ i j).symm
  simp only [Matrix.of_apply, hessianError, hh, cellQuad]
  generalize Real.exp (-(p.d2 / 2) * quad (cell.icov 0 0) (cell.icov 0 1) (cell.icov 1 1) pt cell.mean v) = e
  fin_cases i <;> fin_cases j <;> simp [quadGrad, quadHess, partGrad, partSecond, partHess] <;> ring

end Verif.Score
