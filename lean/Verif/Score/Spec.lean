import Verif.Newton.Model
import Mathlib.Analysis.Calculus.FDeriv.Basic
import Mathlib.Analysis.Normed.Operator.Prod
import Mathlib.Topology.Algebra.Module.Basic

/-
Specification vocabulary for scores: derivatives of functions of three parameters.
-/
namespace Verif.Score

open Verif Verif.Newton Filter Topology

/-- The linear function with the coefficients `g`. -/
noncomputable def lin (g : Vec) : Vec →L[ℝ] ℝ := ∑ k, g k • ContinuousLinearMap.proj k

/-- `f` is differentiable at `v` and `g` holds its partial derivatives. -/
def IsGradient (f : Vec → ℝ) (g : Vec) (v : Vec) : Prop := HasFDerivAt f (lin g) v

/-- `f` is twice differentiable at `v` and `h` holds its second partial derivatives. -/
def IsHessian (f : Vec → ℝ) (h : Matrix (Fin 3) (Fin 3) ℝ) (v : Vec) : Prop :=
  ∃ g : Vec → Vec, (∀ᶠ w in 𝓝 v, IsGradient f (g w) w) ∧ ∀ i, IsGradient (fun w => g w i) (h i) v

/-- Apply the increment `d` after the transform `v`: rotate by `d 2` about the origin of the target frame, then
translate. -/
noncomputable def after (d v : Vec) : Vec :=
  ![d 0 + (Real.cos (d 2) * v 0 - Real.sin (d 2) * v 1), d 1 + (Real.sin (d 2) * v 0 + Real.cos (d 2) * v 1), d 2 + v 2]

end Verif.Score
