import Verif.Score.Sums
import Mathlib.Algebra.Order.Star.Real
import Mathlib.Analysis.Real.Pi.Bounds

/-
Property theorems on the score functions of the matchers (ndt2d.h and d2d_ndt2d.h): C59, C60, C101, C102.
-/
namespace Verif.Score

open Verif Verif.Geo Verif.Newton Filter Topology Matrix

/-! ### C59 -/

/-- C59 (gradient).  The gradient computed by the point-to-distribution matcher is the derivative of the score it
computes, wherever the nearest cells do not change, if the angle is zero or at least 10e-5.

Missing: smaller angles, for which the code simplifies the derivatives but not the transform (`C59_false`). -/
theorem C59_gradient_partial {o r : ℝ} (ho : 0 < o) (ho1 : o < 1) (hr : 0 < r) (knn : ℝ × ℝ → List Cell)
    (source : List (ℝ × ℝ)) (v : Vec) (hth : v 2 = 0 ∨ 10e-5 ≤ |v 2|)
    (hcell : ∀ pos, ∀ c ∈ knn pos, c.icov.PosSemidef)
    (hloc : ∀ pt ∈ source, ∀ᶠ w in 𝓝 v,
      knn (transformPoint (vecToMat w) pt) = knn (transformPoint (vecToMat v) pt)) :
    IsGradient (fun w => (ndtScore knn source w (.mk' o r)).value) (ndtScore knn source v (.mk' o r)).gradient v := by
  obtain ⟨-, s2, s3⟩ := fit_signs ho ho1 hr
  have hcs : smallAngle (v 2) = (Real.cos (v 2), Real.sin (v 2)) := by
    unfold smallAngle
    rcases hth with h | h
    · rw [h]; simp
    · rw [if_neg (not_lt.2 h)]
  unfold ndtScore
  simp only [hcs]
  have key : ∀ (l : List (ℝ × ℝ)), (∀ pt ∈ l, ∀ᶠ w in 𝓝 v,
      knn (transformPoint (vecToMat w) pt) = knn (transformPoint (vecToMat v) pt)) → ∀ (z : Vec → Score) (z0 : Score),
      IsGradient (fun w => (z w).value) z0.gradient v →
      IsGradient (fun w => (l.foldl (fun res pt => (knn (transformPoint (vecToMat w) pt)).foldl (fun res cell =>
          res.add (pointScore pt cell (transformPoint (vecToMat w) pt) (smallAngle (w 2)).1 (smallAngle (w 2)).2
            (.mk' o r))) res) (z w)).value)
        (l.foldl (fun res pt => (knn (transformPoint (vecToMat v) pt)).foldl (fun res cell =>
          res.add (pointScore pt cell (transformPoint (vecToMat v) pt) (Real.cos (v 2)) (Real.sin (v 2)) (.mk' o r)))
            res) z0).gradient v := by
    intro l
    induction l with
    | nil => intro _ z z0 hz; exact hz
    | cons pt l ih =>
      intro hl z z0 hz
      simp only [List.foldl_cons]
      refine ih (fun p hp => hl p (List.mem_cons_of_mem _ hp)) _ _ ?_
      have hf := foldl_grad (fun w cell => pointScore pt cell (transformPoint (vecToMat w) pt) (smallAngle (w 2)).1
          (smallAngle (w 2)).2 (.mk' o r))
        (fun cell => pointScore pt cell (transformPoint (vecToMat v) pt) (Real.cos (v 2)) (Real.sin (v 2)) (.mk' o r)) v
        (knn (transformPoint (vecToMat v) pt)) z z0
        (fun c hc => point_value_grad s2 s3 rfl pt c (hcell _ c hc) (fun w => smallAngle (w 2)) v) hz
      exact hf.congr ((hl pt List.mem_cons_self).mono fun w hw => by simp only [hw])
  exact key source hloc (fun _ => .zero) .zero (isGradient_const 0 v)

/-- C59 (Hessian).  The second derivative of the score of a point is the Hessian the code computes plus a term in which
every entry but the last diagonal one is subtracted and that one is added: the code adds the second derivative of the
transform to the wrong entries.  The two agree exactly if that term is zero.

Missing: the term itself, which is not zero in general (`C59_false`). -/
theorem C59_hessian_partial {o r : ℝ} (ho : 0 < o) (ho1 : o < 1) (hr : 0 < r) (pt : ℝ × ℝ) (cell : Cell)
    (hc : cell.icov.PosSemidef) (v : Vec) (hth : v 2 = 0 ∨ 10e-5 ≤ |v 2|) :
    let s := ndtScore (fun _ => [cell]) [pt] v (.mk' o r)
    let z := transformPoint (vecToMat v) pt
    let diff : ℝ × ℝ := (z.1 - cell.mean 0, z.2 - cell.mean 1)
    let turn : ℝ × ℝ := (-(z.1 - v 0), -(z.2 - v 1))
    let term := -s.value * (FittingParams.mk' o r).d2 *
      ((cell.icov 0 0 * diff.1 + cell.icov 0 1 * diff.2) * turn.1 +
        (cell.icov 0 1 * diff.1 + cell.icov 1 1 * diff.2) * turn.2)
    IsHessian (fun w => (ndtScore (fun _ => [cell]) [pt] w (.mk' o r)).value)
      (s.hessian + Matrix.of fun i j => if i = 2 ∧ j = 2 then term else -term) v ∧
    (IsHessian (fun w => (ndtScore (fun _ => [cell]) [pt] w (.mk' o r)).value) s.hessian v ↔ term = 0) := by
  obtain ⟨-, s2, s3⟩ := fit_signs ho ho1 hr
  have hcs : smallAngle (v 2) = (Real.cos (v 2), Real.sin (v 2)) := by
    unfold smallAngle
    rcases hth with h | h
    · rw [h]; simp
    · rw [if_neg (not_lt.2 h)]
  have h0 : ∀ s : Score, Score.zero.add s = s := fun s => by
    simp [Score.add, Score.zero]
  have hv : ∀ w, ndtScore (fun _ => [cell]) [pt] w (.mk' o r) = pointScore pt cell (transformPoint (vecToMat w) pt)
      (smallAngle (w 2)).1 (smallAngle (w 2)).2 (.mk' o r) := fun w => by
    simp [ndtScore, h0]
  have hh := point_value_hess s2 s3 rfl pt cell hc (fun w => smallAngle (w 2)) v
  intro s z diff turn term
  have hs : s = pointScore pt cell (transformPoint (vecToMat v) pt) (Real.cos (v 2)) (Real.sin (v 2)) (.mk' o r) := by
    show ndtScore _ _ _ _ = _
    rw [hv, hcs]
  have hterm : Matrix.of (hessianError cell pt (.mk' o r) v) = Matrix.of fun i j => if i = 2 ∧ j = 2 then term else -term := by
    have e : (FittingParams.mk' o r).d1 * ((FittingParams.mk' o r).d2 *
        Real.exp (-(FittingParams.mk' o r).d2half * cellQuad cell pt v)) *
        partSecond cell pt v (Real.cos (v 2)) (Real.sin (v 2)) = term := by
      have hval : s.value = -(FittingParams.mk' o r).d1 *
          Real.exp (-(FittingParams.mk' o r).d2half * cellQuad cell pt v) := by
        rw [hs, pointScore_eq s2 s3 rfl pt cell hc]
      simp only [term, hval, partSecond, diff, turn, z, transformPoint_vecToMat, dx, dy]
      ring
    ext i j
    simp only [Matrix.of_apply, hessianError, e]
    split <;> ring
  have hmain : IsHessian (fun w => (ndtScore (fun _ => [cell]) [pt] w (.mk' o r)).value)
      (s.hessian + Matrix.of fun i j => if i = 2 ∧ j = 2 then term else -term) v := by
    simp only [hv]
    rw [← hterm, hs]
    exact hh
  refine ⟨hmain, fun h => ?_, fun h => ?_⟩
  · have e := congrFun (congrFun (h.unique hmain) 2) 2
    have e' : s.hessian 2 2 = s.hessian 2 2 + term := by
      simpa using e
    linarith
  · have e : (Matrix.of fun i j : Fin 3 => if i = 2 ∧ j = 2 then term else -term) = 0 := by
      ext i j
      simp [h]
    rw [e, add_zero] at hmain
    exact hmain

/-- A round cell at the origin. -/
noncomputable def roundCell : Cell := ⟨0, 1, 1⟩

theorem roundCell_psd : roundCell.icov.PosSemidef := Matrix.PosSemidef.one

/-- The hypotheses of `C59_gradient_partial` and `C59_hessian_partial` hold for a round cell. -/
example : IsGradient (fun w => (ndtScore (fun _ => [roundCell]) [(1, 0)] w (.mk' 0.5 1)).value)
    (ndtScore (fun _ => [roundCell]) [(1, 0)] ![1, 0, 1] (.mk' 0.5 1)).gradient ![1, 0, 1] :=
  C59_gradient_partial (by norm_num) (by norm_num) (by norm_num) _ _ _ (Or.inr (by simp; norm_num))
    (fun _ c hc => by rw [List.mem_singleton.1 hc]; exact roundCell_psd) (fun _ _ => Eventually.of_forall fun _ => rfl)

example := C59_hessian_partial (o := 0.5) (r := 1) (by norm_num) (by norm_num) (by norm_num) (1, 0) roundCell roundCell_psd
  ![1, 0, 0] (Or.inl rfl)

/-- C59 is false of the code.  For every choice of parameters: at a small angle the gradient is not the derivative of
the score, because the derivatives are those of the angle zero while the transform is not; and the Hessian is not the
second derivative, even at the angle zero. -/
theorem C59_false {o r : ℝ} (ho : 0 < o) (ho1 : o < 1) (hr : 0 < r) :
    (∃ v : Vec, 0 < v 2 ∧ v 2 < 10e-5 ∧
      ¬ IsGradient (fun w => (ndtScore (fun _ => [roundCell]) [(1, 0)] w (.mk' o r)).value)
        (ndtScore (fun _ => [roundCell]) [(1, 0)] v (.mk' o r)).gradient v) ∧
    ¬ IsHessian (fun w => (ndtScore (fun _ => [roundCell]) [(1, 0)] w (.mk' o r)).value)
      (ndtScore (fun _ => [roundCell]) [(1, 0)] ![1, 0, 0] (.mk' o r)).hessian ![1, 0, 0] := by
  obtain ⟨s1, s2, s3⟩ := fit_signs ho ho1 hr
  have h0 : ∀ s : Score, Score.zero.add s = s := fun s => by
    simp [Score.add, Score.zero]
  have hv : ∀ w, ndtScore (fun _ => [roundCell]) [(1, 0)] w (.mk' o r) = pointScore (1, 0) roundCell
      (transformPoint (vecToMat w) (1, 0)) (smallAngle (w 2)).1 (smallAngle (w 2)).2 (.mk' o r) := fun w => by
    simp [ndtScore, h0]
  constructor
  · refine ⟨![1 - Real.cos 5e-5, -Real.sin 5e-5, 5e-5], by simp; norm_num, by simp; norm_num, fun h => ?_⟩
    have ht := point_value_grad s2 s3 rfl (1, 0) roundCell roundCell_psd (fun w => smallAngle (w 2))
      ![1 - Real.cos 5e-5, -Real.sin 5e-5, 5e-5]
    simp only [hv] at h
    have e := congrFun (h.unique ht) 2
    rw [pointScore_eq s2 s3 rfl _ _ roundCell_psd, pointScore_eq s2 s3 rfl _ _ roundCell_psd] at e
    have hsm : smallAngle (5e-5 : ℝ) = (1, 0) := by
      unfold smallAngle
      rw [if_pos]
      rw [abs_of_pos (by norm_num)]
      norm_num
    have hsin : 0 < Real.sin 5e-5 := Real.sin_pos_of_pos_of_lt_pi (by norm_num) (by linarith [Real.pi_gt_three])
    simp [partGrad, roundCell, dx, dy, hsm] at e
    rcases e with e | e | e
    · exact hsin.ne' e
    · exact s1.ne e
    · exact s2.ne' e
  · intro h
    have := (C59_hessian_partial ho ho1 hr (1, 0) roundCell roundCell_psd ![1, 0, 0] (Or.inl rfl)).2.1 h
    rw [hv, pointScore_eq s2 s3 rfl _ _ roundCell_psd] at this
    simp [roundCell, transformPoint_vecToMat] at this
    rcases this with e | e
    · exact s1.ne e
    · exact s2.ne' e

/-! ### C60 -/

/-- C60 (increments).  The gradient and the Hessian computed by the distribution-to-distribution matcher are the
derivatives of its score with respect to an increment applied after the transform, wherever the nearest cells do not
change and no sum of covariances is at the limit of invertibility.

Missing: the code adds its steps to the parameters of the transform, for which see `C60_parameters_partial`. -/
theorem C60_increment_partial (knn : ℝ × ℝ → List Cell) (source : List Cell) (v : Vec) (p : FittingParams) (b : Bool)
    (hs : ∀ c ∈ source, c.covᵀ = c.cov)
    (ht : ∀ c ∈ source, ∀ t ∈ knn (transformPoint (vecToMat v) (c.mean 0, c.mean 1)), t.covᵀ = t.cov)
    (hdet : ∀ c ∈ source, ∀ t ∈ knn (transformPoint (vecToMat v) (c.mean 0, c.mean 1)),
      |(t.cov + rotZ (v 2) * c.cov * (rotZ (v 2))ᵀ).det| ≠ 1e-12)
    (hloc : ∀ c ∈ source, ∀ᶠ w in 𝓝 v,
      knn (transformPoint (vecToMat w) (c.mean 0, c.mean 1)) = knn (transformPoint (vecToMat v) (c.mean 0, c.mean 1))) :
    IsGradient (fun d => (d2dScore knn source (after d v) p b).value) (d2dScore knn source v p b).gradient 0 ∧
    IsHessian (fun d => (d2dScore knn source (after d v) p true).value) (d2dScore knn source v p true).hessian 0 := by
  have hpos : ∀ (c : Cell) (w : Vec), ((rotZ (w 2) *ᵥ c.mean + ![w 0, w 1, 0]) 0, (rotZ (w 2) *ᵥ c.mean + ![w 0, w 1, 0]) 1) =
      transformPoint (vecToMat w) (c.mean 0, c.mean 1) := by
    intro c w
    rw [transformPoint_vecToMat]
    simp [rotZ, dotProduct, Fin.sum_univ_three]
    ring
  have hev : ∀ c ∈ source, ∀ᶠ d in 𝓝 (0 : Vec), knn (transformPoint (vecToMat (after d v)) (c.mean 0, c.mean 1)) =
      knn (transformPoint (vecToMat v) (c.mean 0, c.mean 1)) := by
    intro c hc
    have hcont := after_continuousAt v
    unfold ContinuousAt at hcont
    simp only [after_zero] at hcont
    exact hcont.eventually (hloc c hc)
  have hcell : ∀ (b : Bool) (c : Cell) (d : Vec), sourceCellScore knn c (after d v) p b =
      (knn (transformPoint (vecToMat (after d v)) (c.mean 0, c.mean 1))).foldl (fun res t => res.add
        (incScore (rotZ (v 2) *ᵥ c.mean + ![v 0, v 1, 0]) (rotZ (v 2) * c.cov * (rotZ (v 2))ᵀ) t p b d)) .zero := by
    intro b c d
    unfold sourceCellScore
    simp only
    rw [hpos c (after d v), mean_after, cov_after]
    rfl
  have hsym : ∀ c ∈ source, (rotZ (v 2) * c.cov * (rotZ (v 2))ᵀ)ᵀ = rotZ (v 2) * c.cov * (rotZ (v 2))ᵀ := by
    intro c hc
    have := movedCov_sym (hs c hc) v
    exact this
  have hzero : ∀ b c, sourceCellScore knn c v p b = sourceCellScore knn c (after 0 v) p b := fun b c => by
    rw [after_zero]
  unfold d2dScore
  simp only [hzero]
  constructor
  · refine foldl_grad (fun d c => sourceCellScore knn c (after d v) p b) _ 0 source (fun _ => .zero) .zero ?_
      (isGradient_const 0 0)
    intro c hc
    have hg := foldl_grad (fun d t => incScore (rotZ (v 2) *ᵥ c.mean + ![v 0, v 1, 0])
      (rotZ (v 2) * c.cov * (rotZ (v 2))ᵀ) t p b d) (fun t => incScore (rotZ (v 2) *ᵥ c.mean + ![v 0, v 1, 0])
      (rotZ (v 2) * c.cov * (rotZ (v 2))ᵀ) t p b 0) 0 (knn (transformPoint (vecToMat v) (c.mean 0, c.mean 1)))
      (fun _ => .zero) .zero (fun t htm => pair_grad _ _ t p (hsym c hc) (ht c hc t htm) b (hdet c hc t htm))
      (isGradient_const 0 0)
    simp only [hcell]
    rw [after_zero]
    exact hg.congr ((hev c hc).mono fun d hd => by simp only [hd])
  · refine foldl_hess (fun d c => sourceCellScore knn c (after d v) p true) _ 0 source (fun _ => .zero) .zero ?_
      (isHessian_zero 0)
    intro c hc
    have hg := foldl_hess (fun d t => incScore (rotZ (v 2) *ᵥ c.mean + ![v 0, v 1, 0])
      (rotZ (v 2) * c.cov * (rotZ (v 2))ᵀ) t p true d) (fun t => incScore (rotZ (v 2) *ᵥ c.mean + ![v 0, v 1, 0])
      (rotZ (v 2) * c.cov * (rotZ (v 2))ᵀ) t p true 0) 0 (knn (transformPoint (vecToMat v) (c.mean 0, c.mean 1)))
      (fun _ => .zero) .zero (fun t htm => pair_hess _ _ t p (hsym c hc) (ht c hc t htm) (hdet c hc t htm))
      (isHessian_zero 0)
    simp only [hcell]
    rw [after_zero]
    exact hg.congr ((hev c hc).mono fun d hd => by simp only [hd])

/-- C60 (parameters).  With respect to the parameters the optimiser changes, the derivatives by x and y are those the code
computes; the derivative by the angle differs from the computed one by the moment of the translation.  So the computed
gradient is the derivative exactly if that moment vanishes, for instance if the translation is zero.

Missing: translations other than zero (`C60_false`). -/
theorem C60_parameters_partial (knn : ℝ × ℝ → List Cell) (source : List Cell) (v : Vec) (p : FittingParams) (b : Bool)
    (hs : ∀ c ∈ source, c.covᵀ = c.cov)
    (ht : ∀ c ∈ source, ∀ t ∈ knn (transformPoint (vecToMat v) (c.mean 0, c.mean 1)), t.covᵀ = t.cov)
    (hdet : ∀ c ∈ source, ∀ t ∈ knn (transformPoint (vecToMat v) (c.mean 0, c.mean 1)),
      |(t.cov + rotZ (v 2) * c.cov * (rotZ (v 2))ᵀ).det| ≠ 1e-12)
    (hloc : ∀ c ∈ source, ∀ᶠ w in 𝓝 v,
      knn (transformPoint (vecToMat w) (c.mean 0, c.mean 1)) = knn (transformPoint (vecToMat v) (c.mean 0, c.mean 1))) :
    let g := (d2dScore knn source v p b).gradient
    IsGradient (fun w => (d2dScore knn source w p b).value) ![g 0, g 1, g 2 + (v 1 * g 0 - v 0 * g 1)] v ∧
    (IsGradient (fun w => (d2dScore knn source w p b).value) g v ↔ v 1 * g 0 = v 0 * g 1) := by
  intro g
  have hg := (C60_increment_partial knn source v p b hs ht hdet hloc).1
  have hmain : IsGradient (fun w => (d2dScore knn source w p b).value) ![g 0, g 1, g 2 + (v 1 * g 0 - v 0 * g 1)] v := by
    rw [← increment_self v] at hg
    have := hg.change (increment_grad v)
    simp only [after_increment] at this
    refine this.of_eq ?_
    funext k
    fin_cases k <;> simp [Fin.sum_univ_three] <;> ring
  refine ⟨hmain, fun h => ?_, fun h => ?_⟩
  · have := congrFun (h.unique hmain) 2
    simp at this
    linarith
  · refine hmain.of_eq ?_
    funext k
    fin_cases k <;> simp [h]

/-- A cell with half the unit covariance. -/
noncomputable def halfCell (mean : Vec) : Cell := ⟨mean, (0.5 : ℝ) • 1, (2 : ℝ) • 1⟩

theorem half_sum (a : ℝ) : (0.5 : ℝ) • (1 : Mat) + rotZ a * ((0.5 : ℝ) • (1 : Mat)) * (rotZ a)ᵀ = 1 := by
  rw [Matrix.mul_smul, Matrix.smul_mul, Matrix.mul_one, rotZ_orth, ← add_smul]
  norm_num

/-- The hypotheses of `C60_increment_partial` and `C60_parameters_partial` hold for two round cells. -/
theorem half_case (v : Vec) (p : FittingParams) (b : Bool) (m t : Vec) :
    let g := (d2dScore (fun _ => [halfCell t]) [halfCell m] v p b).gradient
    (IsGradient (fun w => (d2dScore (fun _ => [halfCell t]) [halfCell m] w p b).value) g v ↔ v 1 * g 0 = v 0 * g 1) := by
  refine (C60_parameters_partial (fun _ => [halfCell t]) [halfCell m] v p b ?_ ?_ ?_ ?_).2
  · intro c hc
    rw [List.mem_singleton.1 hc]
    simp [halfCell]
  · intro c _ t' ht
    rw [List.mem_singleton.1 ht]
    simp [halfCell]
  · intro c hc t' ht
    rw [List.mem_singleton.1 ht, List.mem_singleton.1 hc]
    show |((0.5 : ℝ) • (1 : Mat) + rotZ (v 2) * ((0.5 : ℝ) • (1 : Mat)) * (rotZ (v 2))ᵀ).det| ≠ _
    rw [half_sum, Matrix.det_one, abs_one]
    norm_num
  · exact fun _ _ => Eventually.of_forall fun _ => rfl

/-- C60 is false of the code: for every choice of parameters there is a pair of cells and a transform for which the
gradient is not the derivative of the score with respect to the parameters of the transform. -/
theorem C60_false {o r : ℝ} (ho : 0 < o) (ho1 : o < 1) (hr : 0 < r) (b : Bool) :
    ¬ IsGradient (fun w => (d2dScore (fun _ => [halfCell ![-1, 1, 0]]) [halfCell 0] w (.mk' o r) b).value)
      (d2dScore (fun _ => [halfCell ![-1, 1, 0]]) [halfCell 0] ![0, 1, 0] (.mk' o r) b).gradient ![0, 1, 0] := by
  obtain ⟨s1, s2, s3⟩ := fit_signs ho ho1 hr
  intro h
  have e := (half_case ![0, 1, 0] (.mk' o r) b 0 ![-1, 1, 0]).1 h
  have hsum := half_sum ((![0, 1, 0] : Vec) 2)
  have h0 : ∀ s : Score, Score.zero.add s = s := fun s => by
    simp [Score.add, Score.zero]
  have hm : rotZ ((![0, 1, 0] : Vec) 2) *ᵥ (0 : Vec) + ![(![0, 1, 0] : Vec) 0, (![0, 1, 0] : Vec) 1, 0] = ![0, 1, 0] := by
    rw [Matrix.mulVec_zero, zero_add]
    funext k
    fin_cases k <;> simp
  have hd : (![0, 1, 0] : Vec) - ![-1, 1, 0] = ![1, 0, 0] := by
    funext k
    fin_cases k <;> simp
  simp only [d2dScore, sourceCellScore, List.foldl_cons, List.foldl_nil, h0, halfCell, hm, cellScore, hsum, hd] at e
  rw [if_neg (by norm_num)] at e
  simp only [Pi.smul_apply, Pi.sub_apply, if_neg (show (0 : Fin 3) ≠ 2 by decide),
    if_neg (show (1 : Fin 3) ≠ 2 by decide), computeDerivatives] at e
  simp at e
  rcases e with e | e
  · have : (FittingParams.mk' o r).d2half = (FittingParams.mk' o r).d2 / 2 := rfl
    rw [this] at e
    linarith
  · exact s1.ne e

/-! ### C101 -/

/-- C101.  The score of the distribution-to-distribution matcher does not depend on the frame: move the target cells by
a rigid motion `d` and apply the same motion after the transform, and the score stays the same. -/
theorem C101_frame (knn knn' : ℝ × ℝ → List Cell) (source : List Cell) (v d : Vec) (p : FittingParams) (b : Bool)
    (hk : ∀ pos, knn' (transformPoint (vecToMat d) pos) = (knn pos).map fun t =>
      ⟨rotZ (d 2) *ᵥ t.mean + ![d 0, d 1, 0], rotZ (d 2) * t.cov * (rotZ (d 2))ᵀ, rotZ (d 2) * t.icov * (rotZ (d 2))ᵀ⟩) :
    (d2dScore knn' source (after d v) p b).value = (d2dScore knn source v p b).value := by
  have hR : rotZ (d 2) * (rotZ (d 2))ᵀ = 1 := rotZ_orth (d 2)
  have hR' : (rotZ (d 2))ᵀ * rotZ (d 2) = 1 := mul_eq_one_comm.1 hR
  have hinv : (rotZ (d 2))⁻¹ = (rotZ (d 2))ᵀ := Matrix.inv_eq_right_inv hR
  have hinv' : ((rotZ (d 2))ᵀ)⁻¹ = rotZ (d 2) := Matrix.inv_eq_right_inv hR'
  have hdetR : (rotZ (d 2)).det * (rotZ (d 2))ᵀ.det = 1 := by rw [← Matrix.det_mul, hR, Matrix.det_one]
  have hpair : ∀ (m : Vec) (c : Mat) (t : Cell) (D D' : Derivatives) (i : Mat),
      (cellScore (movedMean m d) (movedCov c d) ⟨rotZ (d 2) *ᵥ t.mean + ![d 0, d 1, 0],
        rotZ (d 2) * t.cov * (rotZ (d 2))ᵀ, i⟩ D' p b).value = (cellScore m c t D p b).value := by
    intro m c t D D' i
    rw [cellScore_value, cellScore_value]
    have hsum : rotZ (d 2) * t.cov * (rotZ (d 2))ᵀ + movedCov c d = rotZ (d 2) * (t.cov + c) * (rotZ (d 2))ᵀ := by
      simp only [movedCov, Matrix.mul_add, Matrix.add_mul]
    have hdiff : movedMean m d - (rotZ (d 2) *ᵥ t.mean + ![d 0, d 1, 0]) = rotZ (d 2) *ᵥ (m - t.mean) := by
      rw [movedMean, Matrix.mulVec_sub]
      abel
    simp only [hsum, hdiff]
    have hdet : (rotZ (d 2) * (t.cov + c) * (rotZ (d 2))ᵀ).det = (t.cov + c).det := by
      rw [Matrix.det_mul, Matrix.det_mul, mul_right_comm, hdetR, one_mul]
    rw [hdet, Matrix.mul_inv_rev, Matrix.mul_inv_rev, hinv, hinv']
    have hq : (rotZ (d 2) *ᵥ (m - t.mean)) ⬝ᵥ ((rotZ (d 2) * ((t.cov + c)⁻¹ * (rotZ (d 2))ᵀ)) *ᵥ (rotZ (d 2) *ᵥ (m - t.mean))) =
        (m - t.mean) ⬝ᵥ ((t.cov + c)⁻¹ *ᵥ (m - t.mean)) := by
      rw [Matrix.mulVec_mulVec, Matrix.mul_assoc, Matrix.mul_assoc, hR', Matrix.mul_one, ← Matrix.mulVec_mulVec,
        Matrix.dotProduct_mulVec, ← Matrix.mulVec_transpose, Matrix.mulVec_mulVec, hR', Matrix.one_mulVec]
    rw [hq]
  have hfold : ∀ {α : Type} (l : List α) (f g : α → Score) (z z' : Score), z.value = z'.value →
      (∀ a ∈ l, (f a).value = (g a).value) →
      (l.foldl (fun r a => r.add (f a)) z).value = (l.foldl (fun r a => r.add (g a)) z').value := by
    intro α l f g
    induction l with
    | nil => intro z z' h _; exact h
    | cons a l ih =>
      intro z z' h hl
      refine ih _ _ ?_ fun a' ha => hl a' (List.mem_cons_of_mem _ ha)
      show z.value + (f a).value = z'.value + (g a).value
      rw [h, hl a List.mem_cons_self]
  refine hfold source _ _ _ _ rfl fun c _ => ?_
  simp only [sourceCellScore]
  rw [mean_after, cov_after]
  have hpos : ((movedMean (rotZ (v 2) *ᵥ c.mean + ![v 0, v 1, 0]) d) 0, (movedMean (rotZ (v 2) *ᵥ c.mean + ![v 0, v 1, 0]) d) 1) =
      transformPoint (vecToMat d) ((rotZ (v 2) *ᵥ c.mean + ![v 0, v 1, 0]) 0, (rotZ (v 2) *ᵥ c.mean + ![v 0, v 1, 0]) 1) := by
    generalize rotZ (v 2) *ᵥ c.mean + ![v 0, v 1, 0] = m
    rw [transformPoint_vecToMat]
    simp [movedMean, rotZ, dotProduct, Fin.sum_univ_three]
    ring
  rw [hpos, hk, List.foldl_map]
  exact hfold _ _ _ _ _ rfl fun t _ => hpair _ _ t _ _ _

/-- The hypothesis of `C101_frame` holds for a single target cell that is moved. -/
example (t : Cell) (d : Vec) : ∃ knn knn' : ℝ × ℝ → List Cell,
    (∀ pos, knn' (transformPoint (vecToMat d) pos) = (knn pos).map fun t =>
      ⟨rotZ (d 2) *ᵥ t.mean + ![d 0, d 1, 0], rotZ (d 2) * t.cov * (rotZ (d 2))ᵀ, rotZ (d 2) * t.icov * (rotZ (d 2))ᵀ⟩) ∧
    knn 0 = [t] :=
  ⟨fun _ => [t], fun _ => [⟨rotZ (d 2) *ᵥ t.mean + ![d 0, d 1, 0], rotZ (d 2) * t.cov * (rotZ (d 2))ᵀ,
    rotZ (d 2) * t.icov * (rotZ (d 2))ᵀ⟩], fun _ => rfl, rfl⟩

/-! ### C102 -/

theorem foldl_bounds {α : Type} (l : List α) (f : α → Score) (top : ℝ) (h : ∀ a ∈ l, 0 ≤ (f a).value ∧ (f a).value ≤ top)
    (z : Score) : z.value ≤ (l.foldl (fun r a => r.add (f a)) z).value ∧
      (l.foldl (fun r a => r.add (f a)) z).value ≤ z.value + l.length * top := by
  induction l generalizing z with
  | nil => simp
  | cons a l ih =>
    have := ih (fun a' ha => h a' (List.mem_cons_of_mem _ ha)) (z.add (f a))
    have ha := h a List.mem_cons_self
    have e : (z.add (f a)).value = z.value + (f a).value := rfl
    rw [e] at this
    simp only [List.foldl_cons, List.length_cons]
    push_cast
    constructor <;> linarith

/-- C102 (distributions).  With covariances that are positive semidefinite and at most two nearest cells, the score lies between
zero and `-2 d1` per source cell. -/
theorem C102_d2d {o r : ℝ} (ho : 0 < o) (ho1 : o < 1) (hr : 0 < r) (knn : ℝ × ℝ → List Cell) (source : List Cell) (v : Vec)
    (b : Bool) (hs : ∀ c ∈ source, c.cov.PosSemidef) (ht : ∀ pos, ∀ t ∈ knn pos, t.cov.PosSemidef)
    (hk : ∀ pos, (knn pos).length ≤ 2) :
    0 ≤ (d2dScore knn source v (.mk' o r) b).value ∧
    (d2dScore knn source v (.mk' o r) b).value ≤ source.length * (2 * -(FittingParams.mk' o r).d1) := by
  obtain ⟨s1, s2, -⟩ := fit_signs ho ho1 hr
  have hpair : ∀ (m : Vec) (c : Mat) (t : Cell) (D : Derivatives), c.PosSemidef → t.cov.PosSemidef →
      0 ≤ (cellScore m c t D (.mk' o r) b).value ∧ (cellScore m c t D (.mk' o r) b).value ≤ -(FittingParams.mk' o r).d1 := by
    intro m c t D hc ht
    rw [cellScore_value]
    split
    · exact ⟨le_rfl, by linarith⟩
    · have hp := (ht.add hc).inv
      have hq := hp.dotProduct_mulVec_nonneg (m - t.mean)
      simp only [star_trivial] at hq
      have he : Real.exp (-(FittingParams.mk' o r).d2half * ((m - t.mean) ⬝ᵥ ((t.cov + c)⁻¹ *ᵥ (m - t.mean)))) ≤ 1 := by
        rw [Real.exp_le_one_iff]
        have : 0 ≤ (FittingParams.mk' o r).d2half * ((m - t.mean) ⬝ᵥ ((t.cov + c)⁻¹ *ᵥ (m - t.mean))) :=
          mul_nonneg (show 0 ≤ (FittingParams.mk' o r).d2 / 2 by linarith) hq
        linarith
      have hep := Real.exp_pos (-(FittingParams.mk' o r).d2half * ((m - t.mean) ⬝ᵥ ((t.cov + c)⁻¹ *ᵥ (m - t.mean))))
      constructor <;> nlinarith
  have hcell : ∀ c ∈ source, 0 ≤ (sourceCellScore knn c v (.mk' o r) b).value ∧
      (sourceCellScore knn c v (.mk' o r) b).value ≤ 2 * -(FittingParams.mk' o r).d1 := by
    intro c hc
    have hps : (rotZ (v 2) * c.cov * (rotZ (v 2))ᵀ).PosSemidef := by
      have := (hs c hc).mul_mul_conjTranspose_same (rotZ (v 2))
      simpa using this
    unfold sourceCellScore
    simp only
    have hb := foldl_bounds (knn ((rotZ (v 2) *ᵥ c.mean + ![v 0, v 1, 0]) 0, (rotZ (v 2) *ᵥ c.mean + ![v 0, v 1, 0]) 1))
      (fun t => cellScore (rotZ (v 2) *ᵥ c.mean + ![v 0, v 1, 0]) (rotZ (v 2) * c.cov * (rotZ (v 2))ᵀ) t
        (computeDerivatives (rotZ (v 2) *ᵥ c.mean + ![v 0, v 1, 0]) (rotZ (v 2) * c.cov * (rotZ (v 2))ᵀ) b) (.mk' o r) b)
      (-(FittingParams.mk' o r).d1) (fun t htm => hpair _ _ t _ hps (ht _ t htm)) .zero
    have hz : Score.zero.value = 0 := rfl
    rw [hz] at hb
    refine ⟨hb.1, hb.2.trans ?_⟩
    have hl : ((knn ((rotZ (v 2) *ᵥ c.mean + ![v 0, v 1, 0]) 0, (rotZ (v 2) *ᵥ c.mean + ![v 0, v 1, 0]) 1)).length : ℝ) ≤ 2 := by
      exact_mod_cast hk _
    nlinarith
  have := foldl_bounds source (fun c => sourceCellScore knn c v (.mk' o r) b) _ hcell .zero
  have hz : Score.zero.value = 0 := rfl
  rw [hz, zero_add] at this
  exact this

/-- C102 (a pair of equal means).  A pair of cells whose means coincide after the transform gets the largest score. -/
theorem C102_attained {p : FittingParams} (mean : Vec) (cov : Mat) (t : Cell) (D : Derivatives) (b : Bool)
    (hm : mean = t.mean) (hdet : 1e-12 < |(t.cov + cov).det|) : (cellScore mean cov t D p b).value = -p.d1 := by
  rw [cellScore_value, if_neg (not_le.2 hdet), hm]
  simp

/-- C102 (points).  With inverse covariances that are positive semidefinite and at most four nearest cells, the score
lies between zero and `-4 d1` per point. -/
theorem C102_points {o r : ℝ} (ho : 0 < o) (ho1 : o < 1) (hr : 0 < r) (knn : ℝ × ℝ → List Cell) (source : List (ℝ × ℝ))
    (v : Vec) (ht : ∀ pos, ∀ t ∈ knn pos, t.icov.PosSemidef) (hk : ∀ pos, (knn pos).length ≤ 4) :
    0 ≤ (ndtScore knn source v (.mk' o r)).value ∧
    (ndtScore knn source v (.mk' o r)).value ≤ source.length * (4 * -(FittingParams.mk' o r).d1) := by
  obtain ⟨s1, s2, s3⟩ := fit_signs ho ho1 hr
  have hpt : ∀ pt, ∀ t : Cell, t.icov.PosSemidef → ∀ co si,
      0 ≤ (pointScore pt t (transformPoint (vecToMat v) pt) co si (.mk' o r)).value ∧
      (pointScore pt t (transformPoint (vecToMat v) pt) co si (.mk' o r)).value ≤ -(FittingParams.mk' o r).d1 := by
    intro pt t ht co si
    rw [pointScore_eq s2 s3 rfl pt t ht]
    have hq := (quad_nonneg ht pt t.mean v).2
    have he : Real.exp (-(FittingParams.mk' o r).d2half * cellQuad t pt v) ≤ 1 := by
      rw [Real.exp_le_one_iff]
      have : 0 ≤ (FittingParams.mk' o r).d2half * cellQuad t pt v :=
        mul_nonneg (show 0 ≤ (FittingParams.mk' o r).d2 / 2 by linarith) hq
      linarith
    have hep := Real.exp_pos (-(FittingParams.mk' o r).d2half * cellQuad t pt v)
    simp only
    constructor <;> nlinarith
  unfold ndtScore
  simp only
  have key : ∀ (l : List (ℝ × ℝ)) (z : Score),
      z.value ≤ (l.foldl (fun res pt => (knn (transformPoint (vecToMat v) pt)).foldl (fun res cell =>
        res.add (pointScore pt cell (transformPoint (vecToMat v) pt) (smallAngle (v 2)).1 (smallAngle (v 2)).2
          (.mk' o r))) res) z).value ∧
      (l.foldl (fun res pt => (knn (transformPoint (vecToMat v) pt)).foldl (fun res cell =>
        res.add (pointScore pt cell (transformPoint (vecToMat v) pt) (smallAngle (v 2)).1 (smallAngle (v 2)).2
          (.mk' o r))) res) z).value ≤ z.value + l.length * (4 * -(FittingParams.mk' o r).d1) := by
    intro l
    induction l with
    | nil => intro z; simp
    | cons pt l ih =>
      intro z
      have hb := foldl_bounds (knn (transformPoint (vecToMat v) pt)) (fun cell => pointScore pt cell
        (transformPoint (vecToMat v) pt) (smallAngle (v 2)).1 (smallAngle (v 2)).2 (.mk' o r))
        (-(FittingParams.mk' o r).d1) (fun t htm => hpt pt t (ht _ t htm) _ _) z
      have hl : ((knn (transformPoint (vecToMat v) pt)).length : ℝ) ≤ 4 := by exact_mod_cast hk _
      simp only [List.foldl_cons, List.length_cons]
      have hi := ih ((knn (transformPoint (vecToMat v) pt)).foldl (fun res cell =>
        res.add (pointScore pt cell (transformPoint (vecToMat v) pt) (smallAngle (v 2)).1 (smallAngle (v 2)).2
          (.mk' o r))) z)
      push_cast
      have hm : ((knn (transformPoint (vecToMat v) pt)).length : ℝ) * -(FittingParams.mk' o r).d1 ≤
          4 * -(FittingParams.mk' o r).d1 := by nlinarith
      constructor
      · exact hb.1.trans hi.1
      · have := hi.2
        have := hb.2
        linarith
  have := key source .zero
  have hz : Score.zero.value = 0 := rfl
  rw [hz] at this
  exact ⟨this.1, by linarith [this.2]⟩

/-- The hypotheses of `C102_d2d` and `C102_points` hold for round cells. -/
example := C102_d2d (o := 0.5) (r := 1) (by norm_num) (by norm_num) (by norm_num) (fun _ => [roundCell]) [roundCell] 0 true
  (fun c hc => by rw [List.mem_singleton.1 hc]; exact Matrix.PosSemidef.one)
  (fun _ c hc => by rw [List.mem_singleton.1 hc]; exact Matrix.PosSemidef.one) (fun _ => by simp)

example := C102_points (o := 0.5) (r := 1) (by norm_num) (by norm_num) (by norm_num) (fun _ => [roundCell]) [(1, 2)] 0
  (fun _ c hc => by rw [List.mem_singleton.1 hc]; exact Matrix.PosSemidef.one) (fun _ => by simp)

end Verif.Score
