import Verif.Score.Spec
import Mathlib.Analysis.Calculus.FDeriv.Mul
import Mathlib.Analysis.Calculus.FDeriv.Add
import Mathlib.Analysis.Calculus.FDeriv.Pi
import Mathlib.Analysis.SpecialFunctions.ExpDeriv
import Mathlib.Analysis.SpecialFunctions.Trigonometric.Deriv
import Mathlib.LinearAlgebra.Matrix.NonsingularInverse
import Mathlib.LinearAlgebra.Matrix.Adjugate
import Mathlib.Analysis.Calculus.Deriv.Inv

/-
Calculus for `IsGradient`, for scalars, vectors and matrices that depend on three parameters.
-/
namespace Verif.Score

open Verif Verif.Newton Filter Topology Matrix

theorem lin_apply (g u : Vec) : lin g u = ∑ k, g k * u k := by
  simp [lin]

theorem lin_inj {g h : Vec} (e : lin g = lin h) : g = h := by
  funext k
  have := congrArg (fun L => L (Pi.single k 1)) e
  simpa [lin_apply, Pi.single_apply] using this

theorem exists_lin (L : Vec →L[ℝ] ℝ) : ∃ g, L = lin g := by
  refine ⟨fun k => L (Pi.single k 1), ?_⟩
  ext u
  rw [lin_apply]
  conv_lhs => rw [pi_eq_sum_univ' u]
  rw [map_sum]
  refine Finset.sum_congr rfl fun k _ => ?_
  rw [map_smul, smul_eq_mul, mul_comm]

theorem IsGradient.unique {f : Vec → ℝ} {g h v : Vec} (a : IsGradient f g v) (b : IsGradient f h v) : g = h :=
  lin_inj (HasFDerivAt.unique a b)

theorem isGradient_of_differentiableAt {f : Vec → ℝ} {v : Vec} (h : DifferentiableAt ℝ f v) : ∃ g, IsGradient f g v := by
  obtain ⟨g, e⟩ := exists_lin (fderiv ℝ f v)
  exact ⟨g, by unfold IsGradient; rw [← e]; exact h.hasFDerivAt⟩

theorem IsGradient.congr {f f' : Vec → ℝ} {g v : Vec} (a : IsGradient f g v) (e : f' =ᶠ[𝓝 v] f) : IsGradient f' g v :=
  HasFDerivAt.congr_of_eventuallyEq a e

theorem IsGradient.of_eq {f : Vec → ℝ} {g g' v : Vec} (a : IsGradient f g v) (e : g = g') : IsGradient f g' v := e ▸ a

theorem IsHessian.congr {f f' : Vec → ℝ} {h : Matrix (Fin 3) (Fin 3) ℝ} {v : Vec} (a : IsHessian f h v) (e : f' =ᶠ[𝓝 v] f) :
    IsHessian f' h v := by
  obtain ⟨g, a, b⟩ := a
  refine ⟨g, ?_, b⟩
  filter_upwards [a, e.eventuallyEq_nhds] with w aw ew
  exact aw.congr ew

theorem IsHessian.unique {f : Vec → ℝ} {h h' : Matrix (Fin 3) (Fin 3) ℝ} {v : Vec} (a : IsHessian f h v)
    (b : IsHessian f h' v) : h = h' := by
  obtain ⟨g, a1, a2⟩ := a
  obtain ⟨g', b1, b2⟩ := b
  funext i
  refine (a2 i).unique ((b2 i).congr ?_)
  filter_upwards [a1, b1] with w aw bw
  rw [aw.unique bw]

theorem isGradient_const (c : ℝ) (v : Vec) : IsGradient (fun _ => c) 0 v := by
  have : lin 0 = 0 := by ext u; simp [lin_apply]
  unfold IsGradient
  rw [this]
  exact hasFDerivAt_const c v

theorem isGradient_coord (k : Fin 3) (v : Vec) : IsGradient (fun w => w k) (Pi.single k 1) v := by
  have : lin (Pi.single k 1) = ContinuousLinearMap.proj k := by
    ext u; simp [lin_apply, Pi.single_apply]
  unfold IsGradient
  rw [this]
  exact hasFDerivAt_apply k v

variable {f f' : Vec → ℝ} {g g' v : Vec}

theorem IsGradient.add (a : IsGradient f g v) (b : IsGradient f' g' v) :
    IsGradient (fun w => f w + f' w) (fun k => g k + g' k) v := by
  have : lin (fun k => g k + g' k) = lin g + lin g' := by
    ext u; simp [lin_apply, add_mul, Finset.sum_add_distrib]
  unfold IsGradient
  rw [this]
  exact HasFDerivAt.add a b

theorem IsGradient.sub (a : IsGradient f g v) (b : IsGradient f' g' v) :
    IsGradient (fun w => f w - f' w) (fun k => g k - g' k) v := by
  have : lin (fun k => g k - g' k) = lin g - lin g' := by
    ext u; simp [lin_apply, sub_mul, Finset.sum_sub_distrib]
  unfold IsGradient
  rw [this]
  exact HasFDerivAt.sub a b

theorem IsGradient.mul (a : IsGradient f g v) (b : IsGradient f' g' v) :
    IsGradient (fun w => f w * f' w) (fun k => g k * f' v + f v * g' k) v := by
  have : lin (fun k => g k * f' v + f v * g' k) = f v • lin g' + f' v • lin g := by
    ext u
    simp only [lin_apply, _root_.add_apply, _root_.smul_apply, smul_eq_mul, Finset.mul_sum,
      ← Finset.sum_add_distrib]
    exact Finset.sum_congr rfl fun k _ => by ring
  unfold IsGradient
  rw [this]
  exact HasFDerivAt.mul a b

theorem IsGradient.const_mul (c : ℝ) (a : IsGradient f g v) : IsGradient (fun w => c * f w) (fun k => c * g k) v := by
  refine ((isGradient_const c v).mul a).of_eq ?_
  funext k; simp

theorem IsGradient.comp {r : ℝ → ℝ} {r' : ℝ} (h : HasDerivAt r r' (f v)) (a : IsGradient f g v) :
    IsGradient (fun w => r (f w)) (fun k => r' * g k) v := by
  have : lin (fun k => r' * g k) = r' • lin g := by
    ext u
    simp only [lin_apply, _root_.smul_apply, smul_eq_mul, Finset.mul_sum]
    exact Finset.sum_congr rfl fun k _ => by ring
  unfold IsGradient
  rw [this]
  exact h.comp_hasFDerivAt v a

theorem IsGradient.exp (a : IsGradient f g v) :
    IsGradient (fun w => Real.exp (f w)) (fun k => Real.exp (f v) * g k) v :=
  a.comp (Real.hasDerivAt_exp (f v))

theorem IsGradient.cos (a : IsGradient f g v) :
    IsGradient (fun w => Real.cos (f w)) (fun k => -Real.sin (f v) * g k) v :=
  a.comp (Real.hasDerivAt_cos (f v))

theorem IsGradient.sin (a : IsGradient f g v) :
    IsGradient (fun w => Real.sin (f w)) (fun k => Real.cos (f v) * g k) v :=
  a.comp (Real.hasDerivAt_sin (f v))

theorem IsGradient.sum {n : ℕ} {f : Fin n → Vec → ℝ} {g : Fin n → Vec} (a : ∀ i, IsGradient (f i) (g i) v) :
    IsGradient (fun w => ∑ i, f i w) (fun k => ∑ i, g i k) v := by
  have : lin (fun k => ∑ i, g i k) = ∑ i, lin (g i) := by
    ext u
    simp only [lin_apply, _root_.sum_apply, Finset.sum_mul]
    exact Finset.sum_comm
  unfold IsGradient
  rw [this]
  exact HasFDerivAt.fun_sum fun i _ => a i

/-- Gradient of a vector that depends on the parameters. -/
def VecGrad (x : Vec → Vec) (x' : Fin 3 → Vec) (v : Vec) : Prop := ∀ i, IsGradient (fun w => x w i) (fun k => x' k i) v

/-- Gradient of a matrix that depends on the parameters. -/
def MatGrad (m : Vec → Matrix (Fin 3) (Fin 3) ℝ) (m' : Fin 3 → Matrix (Fin 3) (Fin 3) ℝ) (v : Vec) : Prop :=
  ∀ i j, IsGradient (fun w => m w i j) (fun k => m' k i j) v

variable {x y : Vec → Vec} {x' y' : Fin 3 → Vec} {m n : Vec → Matrix (Fin 3) (Fin 3) ℝ}
  {m' n' : Fin 3 → Matrix (Fin 3) (Fin 3) ℝ}

theorem VecGrad.dot (a : VecGrad x x' v) (b : VecGrad y y' v) :
    IsGradient (fun w => x w ⬝ᵥ y w) (fun k => x' k ⬝ᵥ y v + x v ⬝ᵥ y' k) v := by
  refine (IsGradient.sum fun i => (a i).mul (b i)).of_eq ?_
  funext k
  simp only [dotProduct, Finset.sum_add_distrib]

theorem VecGrad.add (a : VecGrad x x' v) (b : VecGrad y y' v) :
    VecGrad (fun w => x w + y w) (fun k => x' k + y' k) v := fun i => (a i).add (b i)

theorem VecGrad.congr {z : Vec → Vec} (a : VecGrad x x' v) (e : z =ᶠ[𝓝 v] x) : VecGrad z x' v :=
  fun i => (a i).congr (e.mono fun w h => by simp only [h])

theorem vecGrad_const (c : Vec) : VecGrad (fun _ => c) 0 v := fun i => isGradient_const (c i) v

theorem MatGrad.mulVec (a : MatGrad m m' v) (b : VecGrad x x' v) :
    VecGrad (fun w => m w *ᵥ x w) (fun k => m' k *ᵥ x v + m v *ᵥ x' k) v := by
  intro i
  refine (IsGradient.sum fun j => (a i j).mul (b j)).of_eq ?_
  funext k
  simp only [Matrix.mulVec, dotProduct, Pi.add_apply, Finset.sum_add_distrib]

theorem MatGrad.mul (a : MatGrad m m' v) (b : MatGrad n n' v) :
    MatGrad (fun w => m w * n w) (fun k => m' k * n v + m v * n' k) v := by
  intro i j
  refine (IsGradient.sum fun l => (a i l).mul (b l j)).of_eq ?_ |>.congr ?_
  · funext k
    simp only [Matrix.add_apply, Matrix.mul_apply, Finset.sum_add_distrib]
  · exact Eventually.of_forall fun w => by simp only [Matrix.mul_apply]

theorem MatGrad.add (a : MatGrad m m' v) (b : MatGrad n n' v) :
    MatGrad (fun w => m w + n w) (fun k => m' k + n' k) v := fun i j => (a i j).add (b i j)

theorem MatGrad.transpose (a : MatGrad m m' v) : MatGrad (fun w => (m w)ᵀ) (fun k => (m' k)ᵀ) v := fun i j => a j i

theorem matGrad_const (c : Matrix (Fin 3) (Fin 3) ℝ) : MatGrad (fun _ => c) 0 v := fun i j => isGradient_const (c i j) v

theorem MatGrad.congr {z : Vec → Matrix (Fin 3) (Fin 3) ℝ} (a : MatGrad m m' v) (e : z =ᶠ[𝓝 v] m) : MatGrad z m' v :=
  fun i j => (a i j).congr (e.mono fun w h => by simp only [h])

theorem MatGrad.of_eq {m'' : Fin 3 → Matrix (Fin 3) (Fin 3) ℝ} (a : MatGrad m m' v) (e : m' = m'') : MatGrad m m'' v := e ▸ a

theorem VecGrad.of_eq {x'' : Fin 3 → Vec} (a : VecGrad x x' v) (e : x' = x'') : VecGrad x x'' v := e ▸ a

theorem MatGrad.unique (a : MatGrad m m' v) (b : MatGrad m n' v) : m' = n' := by
  funext k
  ext i j
  exact congrFun ((a i j).unique (b i j)) k

theorem MatGrad.differentiableAt_det (a : MatGrad m m' v) : DifferentiableAt ℝ (fun w => (m w).det) v := by
  have h : ∀ i j, DifferentiableAt ℝ (fun w => m w i j) v := fun i j => (a i j).differentiableAt
  simp only [Matrix.det_fin_three]
  fun_prop (disch := exact h _ _)

theorem MatGrad.inv (a : MatGrad m m' v) (h : (m v).det ≠ 0) :
    MatGrad (fun w => (m w)⁻¹) (fun k => -((m v)⁻¹ * m' k * (m v)⁻¹)) v := by
  have hd : ∀ i j, DifferentiableAt ℝ (fun w => m w i j) v := fun i j => (a i j).differentiableAt
  have hdet := a.differentiableAt_det
  have hadj : ∀ i j, DifferentiableAt ℝ (fun w => (m w).adjugate i j) v := by
    intro i j
    simp only [Matrix.adjugate_fin_three]
    fin_cases i <;> fin_cases j <;> simp <;> fun_prop (disch := exact hd _ _)
  have hinv : ∀ i j, DifferentiableAt ℝ (fun w => (m w)⁻¹ i j) v := by
    intro i j
    simp only [Matrix.inv_def, Matrix.smul_apply, Ring.inverse_eq_inv', smul_eq_mul]
    exact (hdet.inv h).mul (hadj i j)
  choose b hb using fun i j => isGradient_of_differentiableAt (hinv i j)
  have hB : MatGrad (fun w => (m w)⁻¹) (fun k => Matrix.of fun i j => b i j k) v := fun i j => hb i j
  have hprod := a.mul hB
  have hne : ∀ᶠ w in 𝓝 v, (m w).det ≠ 0 := hdet.continuousAt.eventually_ne h
  have hone : MatGrad (fun w => m w * (m w)⁻¹) 0 v := by
    refine (matGrad_const 1).congr ?_
    filter_upwards [hne] with w hw
    exact Matrix.mul_nonsing_inv _ (isUnit_iff_ne_zero.2 hw)
  have e := hprod.unique hone
  refine hB.of_eq ?_
  funext k
  have ek : m' k * (m v)⁻¹ + m v * (Matrix.of fun i j => b i j k) = 0 := congrFun e k
  have hu : IsUnit (m v).det := isUnit_iff_ne_zero.2 h
  have := congrArg (fun z => (m v)⁻¹ * z) ek
  simp only [Matrix.mul_add, Matrix.mul_zero, ← Matrix.mul_assoc, Matrix.nonsing_inv_mul _ hu, Matrix.one_mul] at this
  exact (neg_eq_of_add_eq_zero_right this).symm

end Verif.Score
