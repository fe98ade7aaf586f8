import Verif.Score.Pair

/-
Lemmas on sums of scores, and the change of parameters.
-/
namespace Verif.Score

open Verif Verif.Geo Verif.Newton Filter Topology Matrix

theorem IsHessian.add {f f' : Vec → ℝ} {h h' : Mat} {v : Vec} (a : IsHessian f h v) (b : IsHessian f' h' v) :
    IsHessian (fun w => f w + f' w) (h + h') v := by
  obtain ⟨g, a1, a2⟩ := a
  obtain ⟨g', b1, b2⟩ := b
  refine ⟨fun w k => g w k + g' w k, ?_, fun i => (a2 i).add (b2 i)⟩
  filter_upwards [a1, b1] with w aw bw
  exact aw.add bw

theorem isHessian_zero (v : Vec) : IsHessian (fun _ => 0) 0 v :=
  ⟨fun _ => 0, Eventually.of_forall fun w => isGradient_const 0 w, fun _ => isGradient_const 0 v⟩

theorem foldl_grad {α : Type} (f : Vec → α → Score) (f0 : α → Score) (v : Vec) (l : List α) :
    ∀ (z : Vec → Score) (z0 : Score), (∀ c ∈ l, IsGradient (fun w => (f w c).value) (f0 c).gradient v) →
      IsGradient (fun w => (z w).value) z0.gradient v →
      IsGradient (fun w => (l.foldl (fun r c => r.add (f w c)) (z w)).value) (l.foldl (fun r c => r.add (f0 c)) z0).gradient v := by
  induction l with
  | nil => intro z z0 _ hz; exact hz
  | cons c l ih =>
    intro z z0 h hz
    simp only [List.foldl_cons]
    refine ih (fun w => (z w).add (f w c)) (z0.add (f0 c)) (fun c' hc => h c' (List.mem_cons_of_mem _ hc)) ?_
    exact hz.add (h c List.mem_cons_self)

theorem foldl_hess {α : Type} (f : Vec → α → Score) (f0 : α → Score) (v : Vec) (l : List α) :
    ∀ (z : Vec → Score) (z0 : Score), (∀ c ∈ l, IsHessian (fun w => (f w c).value) (f0 c).hessian v) →
      IsHessian (fun w => (z w).value) z0.hessian v →
      IsHessian (fun w => (l.foldl (fun r c => r.add (f w c)) (z w)).value) (l.foldl (fun r c => r.add (f0 c)) z0).hessian v := by
  induction l with
  | nil => intro z z0 _ hz; exact hz
  | cons c l ih =>
    intro z z0 h hz
    simp only [List.foldl_cons]
    refine ih (fun w => (z w).add (f w c)) (z0.add (f0 c)) (fun c' hc => h c' (List.mem_cons_of_mem _ hc)) ?_
    exact hz.add (h c List.mem_cons_self)

/-- Change of parameters. -/
theorem IsGradient.change {f : Vec → ℝ} {g v : Vec} {d : Vec → Vec} {d1 : Fin 3 → Vec} (a : IsGradient f g (d v))
    (b : VecGrad d d1 v) : IsGradient (fun w => f (d w)) (fun k => ∑ i, g i * d1 k i) v := by
  have hd : HasFDerivAt d (ContinuousLinearMap.pi fun i => lin fun k => d1 k i) v :=
    hasFDerivAt_pi.2 fun i => b i
  have := HasFDerivAt.comp v a hd
  unfold IsGradient
  have e : lin (fun k => ∑ i, g i * d1 k i) = (lin g).comp (ContinuousLinearMap.pi fun i => lin fun k => d1 k i) := by
    ext u
    simp only [lin_apply, ContinuousLinearMap.comp_apply, ContinuousLinearMap.pi_apply, Fin.sum_univ_three]
    ring
  rw [e]
  exact this

theorem rotZ_add (a b : ℝ) : rotZ (a + b) = rotZ a * rotZ b := by
  ext i j
  fin_cases i <;> fin_cases j <;> simp [rotZ, Real.cos_add, Real.sin_add] <;> ring

theorem rotZ_orth (a : ℝ) : rotZ a * (rotZ a)ᵀ = 1 := by
  have h := Real.sin_sq_add_cos_sq a
  ext i j
  simp only [Matrix.mul_apply, Fin.sum_univ_three, Matrix.transpose_apply]
  fin_cases i <;> fin_cases j <;> simp [rotZ] <;> linarith

/-- The transform after an increment moves the mean by the increment. -/
theorem mean_after (d v m : Vec) :
    rotZ (after d v 2) *ᵥ m + ![after d v 0, after d v 1, 0] =
      movedMean (rotZ (v 2) *ᵥ m + ![v 0, v 1, 0]) d := by
  have h2 : after d v 2 = d 2 + v 2 := rfl
  unfold movedMean
  rw [h2, rotZ_add, Matrix.mulVec_add, Matrix.mulVec_mulVec, add_assoc]
  congr 1
  funext k
  fin_cases k <;> simp [after, rotZ] <;> ring

theorem cov_after (d v : Vec) (c : Mat) :
    rotZ (after d v 2) * c * (rotZ (after d v 2))ᵀ = movedCov (rotZ (v 2) * c * (rotZ (v 2))ᵀ) d := by
  have h2 : after d v 2 = d 2 + v 2 := rfl
  unfold movedCov
  rw [h2, rotZ_add, Matrix.transpose_mul]
  simp only [Matrix.mul_assoc]

/-- The increment that leads from `v` to `w`. -/
noncomputable def increment (v w : Vec) : Vec :=
  ![w 0 - (Real.cos (w 2 - v 2) * v 0 - Real.sin (w 2 - v 2) * v 1),
    w 1 - (Real.sin (w 2 - v 2) * v 0 + Real.cos (w 2 - v 2) * v 1), w 2 - v 2]

theorem after_increment (v w : Vec) : after (increment v w) v = w := by
  funext k
  fin_cases k <;> simp [after, increment]

theorem increment_self (v : Vec) : increment v v = 0 := by
  funext k
  fin_cases k <;> simp [increment]

theorem increment_grad (v : Vec) :
    VecGrad (increment v) ![![1, 0, 0], ![0, 1, 0], ![v 1, -v 0, 1]] v := by
  have a := (isGradient_coord 2 v).sub (isGradient_const (v 2) v)
  have c := a.cos
  have s := a.sin
  have k0 := isGradient_const (v 0) v
  have k1 := isGradient_const (v 1) v
  intro i
  fin_cases i
  · refine ((isGradient_coord 0 v).sub ((c.mul k0).sub (s.mul k1))).of_eq ?_
    funext k; fin_cases k <;> simp
  · refine ((isGradient_coord 1 v).sub ((s.mul k0).add (c.mul k1))).of_eq ?_
    funext k; fin_cases k <;> simp
  · refine a.of_eq ?_
    funext k; fin_cases k <;> simp

theorem after_zero (v : Vec) : after 0 v = v := by
  funext k
  fin_cases k <;> simp [after]

theorem after_continuousAt (v : Vec) : ContinuousAt (fun d => after d v) 0 := by
  have c : ∀ i : Fin 3, Continuous fun d : Vec => d i := fun i => continuous_apply i
  have hc := Real.continuous_cos.comp (c 2)
  have hs := Real.continuous_sin.comp (c 2)
  refine continuousAt_pi.2 fun i => Continuous.continuousAt ?_
  fin_cases i
  · exact (c 0).add ((hc.mul continuous_const).sub (hs.mul continuous_const))
  · exact (c 1).add ((hs.mul continuous_const).add (hc.mul continuous_const))
  · exact (c 2).add continuous_const

end Verif.Score
