import Verif.Score.Point

/-
Lemmas on the score of a pair of cells (d2d_ndt2d.h).
-/
namespace Verif.Score

open Verif Verif.Geo Verif.Newton Filter Topology Matrix

section Form
variable {v : Vec} {x : Vec → Vec} {m : Vec → Mat} {x1 : Fin 3 → Vec} {m1 : Fin 3 → Mat}

theorem sym_dot {b : Mat} (hb : bᵀ = b) (x y : Vec) : x ⬝ᵥ (b *ᵥ y) = (b *ᵥ x) ⬝ᵥ y := by
  rw [Matrix.dotProduct_mulVec]
  congr 1
  rw [← Matrix.mulVec_transpose, hb]

theorem inv_sym {b : Mat} (hb : bᵀ = b) : (b⁻¹)ᵀ = b⁻¹ := by
  rw [Matrix.transpose_nonsing_inv, hb]

/-- The weighted difference. -/
theorem weighted_grad (hx : VecGrad x x1 v) (hm : MatGrad m m1 v) (hd : (m v).det ≠ 0) :
    VecGrad (fun w => (m w)⁻¹ *ᵥ x w) (fun k => (m v)⁻¹ *ᵥ (x1 k - m1 k *ᵥ ((m v)⁻¹ *ᵥ x v))) v := by
  refine ((hm.inv hd).mulVec hx).of_eq ?_
  funext k
  simp only [Matrix.neg_mulVec, Matrix.mulVec_sub, Matrix.mulVec_mulVec, Matrix.mul_assoc]
  abel

theorem form_grad (hx : VecGrad x x1 v) (hm : MatGrad m m1 v) (hd : (m v).det ≠ 0) (hs : (m v)ᵀ = m v) :
    IsGradient (fun w => x w ⬝ᵥ ((m w)⁻¹ *ᵥ x w))
      (fun k => 2 * (x1 k ⬝ᵥ ((m v)⁻¹ *ᵥ x v)) -
        ((m v)⁻¹ *ᵥ x v) ⬝ᵥ (m1 k *ᵥ ((m v)⁻¹ *ᵥ x v))) v := by
  refine (hx.dot (weighted_grad hx hm hd)).of_eq ?_
  funext k
  rw [sym_dot (inv_sym hs) (x v)]
  simp only [dotProduct_sub]
  rw [dotProduct_comm _ (x1 k)]
  ring

theorem form_hess {x1 : Vec → Fin 3 → Vec} {m1 : Vec → Fin 3 → Mat} {x2 : Fin 3 → Fin 3 → Vec} {m2 : Fin 3 → Fin 3 → Mat}
    (hx : VecGrad x (x1 v) v) (hm : MatGrad m (m1 v) v) (hd : (m v).det ≠ 0)
    (hx1 : ∀ k, VecGrad (fun w => x1 w k) (x2 k) v) (hm1 : ∀ k, MatGrad (fun w => m1 w k) (m2 k) v)
    (hs1 : ∀ k, (m1 v k)ᵀ = m1 v k) (k : Fin 3) :
    IsGradient (fun w => 2 * (x1 w k ⬝ᵥ ((m w)⁻¹ *ᵥ x w)) - ((m w)⁻¹ *ᵥ x w) ⬝ᵥ (m1 w k *ᵥ ((m w)⁻¹ *ᵥ x w)))
      (fun l =>
        let u := (m v)⁻¹ *ᵥ x v
        let u1 := (m v)⁻¹ *ᵥ (x1 v l - m1 v l *ᵥ u)
        2 * (x2 k l ⬝ᵥ u) + 2 * (x1 v k ⬝ᵥ u1) - 2 * (u1 ⬝ᵥ (m1 v k *ᵥ u)) - u ⬝ᵥ (m2 k l *ᵥ u)) v := by
  have hu := weighted_grad hx hm hd
  refine ((((hx1 k).dot hu).const_mul 2).sub (hu.dot ((hm1 k).mulVec hu))).of_eq ?_
  funext l
  simp only [dotProduct_add]
  rw [sym_dot (hs1 k) ((m v)⁻¹ *ᵥ x v) ((m v)⁻¹ *ᵥ (x1 v l - m1 v l *ᵥ ((m v)⁻¹ *ᵥ x v))),
    dotProduct_comm (m1 v k *ᵥ _)]
  ring

end Form

/-- Generator of the rotations about the z axis. -/
def gen : Mat := !![0, -1, 0; 1, 0, 0; 0, 0, 0]

theorem rotZ_grad (v : Vec) : MatGrad (fun w => rotZ (w 2)) ![0, 0, gen * rotZ (v 2)] v := by
  have c := (isGradient_coord 2 v).cos
  have s := (isGradient_coord 2 v).sin
  have ns := s.const_mul (-1)
  have z : ∀ a : ℝ, IsGradient (fun _ => a) 0 v := fun a => isGradient_const a v
  intro i j
  fin_cases i <;> fin_cases j
  · refine c.of_eq ?_
    funext k; fin_cases k <;> simp [gen, rotZ]
  · refine (ns.of_eq ?_).congr (Eventually.of_forall fun w => by simp [rotZ])
    funext k; fin_cases k <;> simp [gen, rotZ]
  · refine (z 0).of_eq ?_
    funext k; fin_cases k <;> simp [gen, rotZ]
  · refine s.of_eq ?_
    funext k; fin_cases k <;> simp [gen, rotZ]
  · refine c.of_eq ?_
    funext k; fin_cases k <;> simp [gen, rotZ]
  · refine (z 0).of_eq ?_
    funext k; fin_cases k <;> simp [gen, rotZ]
  · refine (z 0).of_eq ?_
    funext k; fin_cases k <;> simp [gen, rotZ]
  · refine (z 0).of_eq ?_
    funext k; fin_cases k <;> simp [gen, rotZ]
  · refine (z 1).of_eq ?_
    funext k; fin_cases k <;> simp [gen, rotZ]

/-- Mean moved by an increment. -/
noncomputable def movedMean (mean : Vec) (w : Vec) : Vec := rotZ (w 2) *ᵥ mean + ![w 0, w 1, 0]

/-- Covariance moved by an increment. -/
noncomputable def movedCov (cov : Mat) (w : Vec) : Mat := rotZ (w 2) * cov * (rotZ (w 2))ᵀ

/-- Its derivatives. -/
noncomputable def meanD (mean : Vec) (w : Vec) : Fin 3 → Vec := ![![1, 0, 0], ![0, 1, 0], gen *ᵥ (rotZ (w 2) *ᵥ mean)]

/-- Its derivatives. -/
noncomputable def covD (cov : Mat) (w : Vec) : Fin 3 → Mat := ![0, 0, gen * movedCov cov w + movedCov cov w * genᵀ]

theorem rotMean_grad (mean v : Vec) :
    VecGrad (fun w => rotZ (w 2) *ᵥ mean) ![0, 0, gen *ᵥ (rotZ (v 2) *ᵥ mean)] v := by
  refine ((rotZ_grad v).mulVec (vecGrad_const mean)).of_eq ?_
  funext k
  fin_cases k <;> simp [Matrix.mulVec_mulVec]

theorem movedMean_grad (mean v : Vec) : VecGrad (movedMean mean) (meanD mean v) v := by
  have ht : VecGrad (fun w => ![w 0, w 1, 0]) ![![1, 0, 0], ![0, 1, 0], 0] v := by
    intro i
    fin_cases i
    · refine (isGradient_coord 0 v).of_eq ?_
      funext k; fin_cases k <;> simp
    · refine (isGradient_coord 1 v).of_eq ?_
      funext k; fin_cases k <;> simp
    · refine (isGradient_const 0 v).of_eq ?_
      funext k; fin_cases k <;> simp
  refine ((rotMean_grad mean v).add ht).of_eq ?_
  funext k
  fin_cases k <;> simp [meanD]

theorem movedCov_grad (cov : Mat) (v : Vec) : MatGrad (movedCov cov) (covD cov v) v := by
  refine (((rotZ_grad v).mul (matGrad_const cov)).mul (rotZ_grad v).transpose).of_eq ?_
  funext k
  fin_cases k <;> simp [covD, movedCov, Matrix.transpose_mul, Matrix.mul_assoc]

theorem meanD_grad (mean v : Vec) (k : Fin 3) :
    VecGrad (fun w => meanD mean w k)
      ((![0, 0, ![0, 0, gen *ᵥ (gen *ᵥ (rotZ (v 2) *ᵥ mean))]] : Fin 3 → Fin 3 → Vec) k) v := by
  fin_cases k
  · exact vecGrad_const _
  · exact vecGrad_const _
  · have hg : MatGrad (fun _ => gen) 0 v := matGrad_const gen
    refine (hg.mulVec (rotMean_grad mean v)).of_eq ?_
    funext l
    fin_cases l <;> simp

theorem covD_grad (cov : Mat) (v : Vec) (k : Fin 3) :
    MatGrad (fun w => covD cov w k)
      ((![0, 0, ![0, 0, gen * (gen * movedCov cov v + movedCov cov v * genᵀ) +
        (gen * movedCov cov v + movedCov cov v * genᵀ) * genᵀ]] : Fin 3 → Fin 3 → Mat) k) v := by
  fin_cases k
  · exact matGrad_const _
  · exact matGrad_const _
  · have hg : MatGrad (fun _ => gen) 0 v := matGrad_const gen
    have hgt : MatGrad (fun _ => genᵀ) 0 v := matGrad_const genᵀ
    refine ((hg.mul (movedCov_grad cov v)).add ((movedCov_grad cov v).mul hgt)).of_eq ?_
    funext l
    fin_cases l <;> simp [covD]

theorem rotZ_zero : rotZ 0 = 1 := by
  ext i j
  fin_cases i <;> fin_cases j <;> simp [rotZ]

theorem movedMean_zero (mean : Vec) : movedMean mean 0 = mean := by
  unfold movedMean
  simp only [Pi.zero_apply, rotZ_zero, Matrix.one_mulVec]
  funext k
  fin_cases k <;> simp

theorem movedCov_zero (cov : Mat) : movedCov cov 0 = cov := by
  simp [movedCov, rotZ_zero]

theorem movedCov_sym {cov : Mat} (h : covᵀ = cov) (w : Vec) : (movedCov cov w)ᵀ = movedCov cov w := by
  simp [movedCov, Matrix.transpose_mul, h, Matrix.mul_assoc]

theorem covD_sym {cov : Mat} (h : covᵀ = cov) (w : Vec) (k : Fin 3) : (covD cov w k)ᵀ = covD cov w k := by
  fin_cases k
  · simp [covD]
  · simp [covD]
  · simp [covD, Matrix.transpose_mul, movedCov_sym h, add_comm]

/-- The first derivatives of `computeDerivatives` are those of the moved cell. -/
theorem jest_eq (mean : Vec) (cov : Mat) (b : Bool) (k : Fin 3) :
    (fun i => (computeDerivatives mean cov b).jest i k) = meanD mean 0 k := by
  funext i
  fin_cases k <;> fin_cases i <;> simp [computeDerivatives, meanD, rotZ_zero, gen, dotProduct, Fin.sum_univ_three]

theorem zest_eq (mean : Vec) {cov : Mat} (h : covᵀ = cov) (b : Bool) (k : Fin 3) :
    (computeDerivatives mean cov b).zest k = covD cov 0 k := by
  have hs : ∀ i j, cov i j = cov j i := fun i j => congrFun (congrFun h j) i
  have h10 := hs 1 0
  have h20 := hs 2 0
  have h21 := hs 2 1
  fin_cases k
  · simp [computeDerivatives, covD]
  · simp [computeDerivatives, covD]
  · ext i j
    have e : covD cov 0 2 = gen * cov + cov * genᵀ := by simp [covD, movedCov_zero]
    rw [show ((⟨2, by decide⟩ : Fin 3)) = 2 from rfl, e]
    simp only [Matrix.add_apply, Matrix.mul_apply, Fin.sum_univ_three, Matrix.transpose_apply]
    fin_cases i <;> fin_cases j <;> simp [computeDerivatives, gen, h10, h20, h21] <;> ring

theorem hest_eq (mean : Vec) (cov : Mat) (l : Fin 3) :
    (computeDerivatives mean cov true).hest 2 l =
      (![0, 0, gen *ᵥ (gen *ᵥ (rotZ ((0 : Vec) 2) *ᵥ mean))] : Fin 3 → Vec) l := by
  funext i
  simp only [Pi.zero_apply, rotZ_zero, Matrix.one_mulVec]
  fin_cases l <;> fin_cases i <;> simp [computeDerivatives, gen, dotProduct, Fin.sum_univ_three]

theorem zhest_eq (mean : Vec) {cov : Mat} (h : covᵀ = cov) (l : Fin 3) :
    (computeDerivatives mean cov true).zhest 2 l =
      (![0, 0, gen * (gen * movedCov cov 0 + movedCov cov 0 * genᵀ) +
        (gen * movedCov cov 0 + movedCov cov 0 * genᵀ) * genᵀ] : Fin 3 → Mat) l := by
  have hs : ∀ i j, cov i j = cov j i := fun i j => congrFun (congrFun h j) i
  have h10 := hs 1 0
  have h20 := hs 2 0
  have h21 := hs 2 1
  simp only [movedCov_zero]
  fin_cases l
  · simp [computeDerivatives]
  · simp [computeDerivatives]
  · rw [show ((⟨2, by decide⟩ : Fin 3)) = 2 from rfl]
    ext i j
    simp only [Matrix.cons_val, Matrix.add_apply, Matrix.mul_apply, Fin.sum_univ_three, Matrix.transpose_apply]
    fin_cases i <;> fin_cases j <;> simp [computeDerivatives, gen, h10, h20, h21] <;> ring

theorem cellScore_value (mean : Vec) (cov : Mat) (t : Cell) (d : Derivatives) (p : FittingParams) (b : Bool) :
    (cellScore mean cov t d p b).value =
      if |(t.cov + cov).det| ≤ 1e-12 then 0
      else -p.d1 * Real.exp (-p.d2half * ((mean - t.mean) ⬝ᵥ ((t.cov + cov)⁻¹ *ᵥ (mean - t.mean)))) := by
  unfold cellScore
  simp only
  split <;> rfl

section Match
variable (mean : Vec) (cov : Mat) (t : Cell) (p : FittingParams)

theorem vecMul_sym {b : Mat} (hb : bᵀ = b) (x : Vec) : x ᵥ* b = b *ᵥ x := by
  rw [← Matrix.mulVec_transpose, hb]

theorem diff_grad (v : Vec) : VecGrad (fun w => movedMean mean w - t.mean) (meanD mean v) v := by
  intro i
  refine ((movedMean_grad mean v i).sub (isGradient_const (t.mean i) v)).of_eq ?_
  funext k
  simp

theorem sum_grad (v : Vec) : MatGrad (fun w => t.cov + movedCov cov w) (covD cov v) v := by
  refine ((matGrad_const t.cov).add (movedCov_grad cov v)).of_eq ?_
  funext k
  simp

theorem sum_sym {cov : Mat} (h : covᵀ = cov) {t : Cell} (ht : t.covᵀ = t.cov) (w : Vec) :
    (t.cov + movedCov cov w)ᵀ = t.cov + movedCov cov w := by
  rw [Matrix.transpose_add, ht, movedCov_sym h]

theorem det_cont (v : Vec) : ContinuousAt (fun w => |(t.cov + movedCov cov w).det|) v :=
  ((sum_grad cov t v).differentiableAt_det.continuousAt).abs

/-- The score as a function of the increment. -/
noncomputable def incScore (b : Bool) (w : Vec) : Score :=
  cellScore (movedMean mean w) (movedCov cov w) t (computeDerivatives (movedMean mean w) (movedCov cov w) b) p b

theorem incScore_zero (b : Bool) :
    incScore mean cov t p b 0 = cellScore mean cov t (computeDerivatives mean cov b) p b := by
  simp [incScore, movedMean_zero, movedCov_zero]

theorem incScore_degenerate (b : Bool) (h : |(t.cov + cov).det| < 1e-12) :
    ∀ᶠ w in 𝓝 (0 : Vec), incScore mean cov t p b w = .zero := by
  have hc := det_cont cov t 0
  have : |(t.cov + movedCov cov 0).det| < 1e-12 := by rw [movedCov_zero]; exact h
  filter_upwards [hc.eventually_lt continuousAt_const this] with w hw
  simp only [incScore, cellScore]
  rw [if_pos hw.le]

theorem incScore_regular (b : Bool) (h : 1e-12 < |(t.cov + cov).det|) :
    ∀ᶠ w in 𝓝 (0 : Vec), (t.cov + movedCov cov w).det ≠ 0 ∧ (incScore mean cov t p b w).value =
      -p.d1 * Real.exp (-p.d2half * ((movedMean mean w - t.mean) ⬝ᵥ
        ((t.cov + movedCov cov w)⁻¹ *ᵥ (movedMean mean w - t.mean)))) := by
  have hc := det_cont cov t 0
  have : 1e-12 < |(t.cov + movedCov cov 0).det| := by rw [movedCov_zero]; exact h
  filter_upwards [continuousAt_const.eventually_lt hc this] with w hw
  constructor
  · intro h0
    rw [h0] at hw
    norm_num at hw
  · simp only [incScore]
    rw [cellScore_value, if_neg (not_le.2 hw)]

theorem pair_grad (hc : covᵀ = cov) (ht : t.covᵀ = t.cov) (b : Bool) (h : |(t.cov + cov).det| ≠ 1e-12) :
    IsGradient (fun w => (incScore mean cov t p b w).value) (incScore mean cov t p b 0).gradient 0 := by
  rcases lt_or_gt_of_ne h with h | h
  · have hz := incScore_degenerate mean cov t p b h
    rw [hz.self_of_nhds]
    exact (isGradient_const 0 0).congr (hz.mono fun w hw => by simp only [hw]; rfl)
  · have hr := incScore_regular mean cov t p b h
    have hd := hr.self_of_nhds.1
    refine ((exp_grad p.d1 p.d2half (form_grad (diff_grad mean t 0) (sum_grad cov t 0) hd (sum_sym hc ht 0))).of_eq
      ?_).congr (hr.mono fun w hw => hw.2)
    rw [incScore_zero]
    have hs : (t.cov + cov)ᵀ = t.cov + cov := by rw [Matrix.transpose_add, ht, hc]
    simp only [movedMean_zero, movedCov_zero]
    unfold cellScore
    simp only
    rw [if_neg (not_le.2 h)]
    funext k
    have hJ : ((mean - t.mean) ᵥ* (t.cov + cov)⁻¹) ᵥ* (computeDerivatives mean cov b).jest =
        fun k => meanD mean 0 k ⬝ᵥ ((t.cov + cov)⁻¹ *ᵥ (mean - t.mean)) := by
      funext k
      rw [vecMul_sym (inv_sym hs), ← jest_eq mean cov b k, dotProduct_comm]
      rfl
    have hZ : (if k = 2 then ((((mean - t.mean) ᵥ* (t.cov + cov)⁻¹) ᵥ* (computeDerivatives mean cov b).zest 2) ᵥ*
        (t.cov + cov)⁻¹) ⬝ᵥ (mean - t.mean) else 0) =
        ((t.cov + cov)⁻¹ *ᵥ (mean - t.mean)) ⬝ᵥ (covD cov 0 k *ᵥ ((t.cov + cov)⁻¹ *ᵥ (mean - t.mean))) := by
      simp only [vecMul_sym (inv_sym hs), zest_eq mean hc]
      rw [← sym_dot (inv_sym hs), ← Matrix.dotProduct_mulVec]
      fin_cases k <;> simp [covD]
    simp only [Pi.smul_apply, Pi.sub_apply, hJ, hZ, smul_eq_mul]

theorem pair_hess (hc : covᵀ = cov) (ht : t.covᵀ = t.cov) (h : |(t.cov + cov).det| ≠ 1e-12) :
    IsHessian (fun w => (incScore mean cov t p true w).value) (incScore mean cov t p true 0).hessian 0 := by
  rcases lt_or_gt_of_ne h with h | h
  · have hz := incScore_degenerate mean cov t p true h
    rw [hz.self_of_nhds]
    refine ⟨fun _ => 0, ?_, fun i => isGradient_const 0 0⟩
    filter_upwards [hz.eventually_nhds] with w hw
    exact (isGradient_const 0 w).congr (hw.mono fun w hw => by simp only [hw]; rfl)
  · have hr := incScore_regular mean cov t p true h
    have hd := hr.self_of_nhds.1
    have key := exp_hess p.d1 p.d2half (v := 0) (hr.mono fun w hw => form_grad (diff_grad mean t w) (sum_grad cov t w) hw.1
      (sum_sym hc ht w)) (fun k => form_hess (diff_grad mean t 0) (sum_grad cov t 0) hd (meanD_grad mean 0)
        (covD_grad cov 0) (covD_sym hc 0) k)
    refine IsHessian.congr ?_ (hr.mono fun w hw => hw.2)
    refine Eq.mp (congrArg (fun m => IsHessian _ m 0) ?_) key
    rw [incScore_zero]
    have hs : (t.cov + cov)ᵀ = t.cov + cov := by rw [Matrix.transpose_add, ht, hc]
    have hsi := inv_sym hs
    simp only [movedMean_zero, movedCov_zero]
    unfold cellScore
    simp only
    rw [if_neg (not_le.2 h)]
    simp only [vecMul_sym hsi, zest_eq mean hc, hest_eq, zhest_eq mean hc, ← Matrix.dotProduct_mulVec, ← sym_dot hsi,
      movedCov_zero]
    rw [if_pos trivial]
    have hJ : ∀ x : Vec, x ᵥ* (computeDerivatives mean cov true).jest = fun k => meanD mean 0 k ⬝ᵥ x := by
      intro x
      funext k
      rw [← jest_eq mean cov true k, dotProduct_comm]
      rfl
    have hJB : (computeDerivatives mean cov true).jestᵀ * (t.cov + cov)⁻¹ * (computeDerivatives mean cov true).jest =
        Matrix.of fun i j => meanD mean 0 i ⬝ᵥ ((t.cov + cov)⁻¹ *ᵥ meanD mean 0 j) := by
      ext i j
      rw [Matrix.mul_assoc, Matrix.of_apply, ← jest_eq mean cov true i, ← jest_eq mean cov true j]
      rfl
    have hZ2 : ∀ x : Vec, x ᵥ* covD cov 0 2 = covD cov 0 2 *ᵥ x := vecMul_sym (covD_sym hc 0 2)
    have hu : ∀ x y : Vec, x ⬝ᵥ ((t.cov + cov)⁻¹ *ᵥ y) = y ⬝ᵥ ((t.cov + cov)⁻¹ *ᵥ x) := fun x y => by
      rw [sym_dot hsi, dotProduct_comm]
    have hz0 : covD cov 0 0 = 0 := rfl
    have hz1 : covD cov 0 1 = 0 := rfl
    rw [hJB]
    simp only [hJ, hZ2]
    generalize (t.cov + cov)⁻¹ = B at *
    generalize mean - t.mean = d at *
    ext i j
    simp only [Matrix.smul_apply, Matrix.sub_apply, Matrix.add_apply, Matrix.transpose_apply, Matrix.of_apply,
      Matrix.vecMulVec_apply, Pi.smul_apply, Pi.sub_apply, smul_eq_mul]
    congr 1
    have e1 := hu d (gen *ᵥ gen *ᵥ rotZ ((0 : Vec) 2) *ᵥ mean)
    have e3 : d ⬝ᵥ (B *ᵥ covD cov 0 2 *ᵥ B *ᵥ covD cov 0 2 *ᵥ B *ᵥ d) =
        (covD cov 0 2 *ᵥ B *ᵥ d) ⬝ᵥ (B *ᵥ covD cov 0 2 *ᵥ B *ᵥ d) := by
      rw [sym_dot hsi, sym_dot (covD_sym hc 0 2)]
    fin_cases i <;> fin_cases j <;>
      simp [-Matrix.mulVec_mulVec, hz0, hz1, Matrix.mulVec_sub] <;> (try simp only [Pi.zero_apply] at e1) <;>
      (try rw [e1, e3]) <;> ring
end Match

end Verif.Score
