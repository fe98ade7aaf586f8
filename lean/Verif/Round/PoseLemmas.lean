import Verif.Round.Pose
import Verif.Round.Move
import Verif.Pose.Lemmas
import Mathlib.Analysis.SpecialFunctions.Trigonometric.Bounds

/- Rounding in the estimated pose: specification and lemmas for single operations (C147). -/
namespace Verif.Round

open Verif Verif.Geo

set_option linter.unusedSectionVars false

/-! ### Specification -/

/-- Row of the linear part of a transform as a complex number. -/
def row (t : Trans) (i : Fin 2) : ℂ := ⟨t i.castSucc 0, t i.castSucc 1⟩

/-- Row of the rotation by `θ`. -/
noncomputable def rot (θ : ℝ) : Fin 2 → ℂ := ![⟨Real.cos θ, -Real.sin θ⟩, ⟨Real.sin θ, Real.cos θ⟩]

/-- The linear part of the transform is the rotation by `θ` up to `ε` (Euclidean distance of the rows). -/
def Turned (ε : ℝ) (t : Trans) (θ : ℝ) : Prop := ∀ i, ‖row t i - rot θ i‖ ≤ ε

/-- The computed transform `t` is the rigid motion `m` up to `ω` in the rows and `τ` in the translation. -/
structure Near (ω τ : ℝ) (t : Trans) (m : Pose) : Prop where
  turned : Turned ω t m.th
  x : |t 0 2 - m.x| ≤ τ
  y : |t 1 2 - m.y| ≤ τ

/-- Exact composition of rigid motions; angles are not normalised. -/
noncomputable def comp (p m : Pose) : Pose :=
  ⟨p.x + (Real.cos p.th * m.x + -Real.sin p.th * m.y), p.y + (Real.sin p.th * m.x + Real.cos p.th * m.y),
    p.th + m.th⟩

/-- The angle that is read from a computed transform close to a rotation is the angle of the rotation, up to
three times the distance and an error `ρ` of its own, and whole turns. -/
def AngleOk (ang : Trans → ℝ) (ρ : ℝ) : Prop :=
  ∀ t θ ε, ε ≤ 1 / 4 → Turned ε t θ → ∃ k : ℤ, |ang t - θ - k * (2 * Real.pi)| ≤ 3 * ε + ρ

/-- `comp` is the product of the matrices. -/
theorem comp_trans (p m : Pose) : getTransFromPose (comp p m) = getTransFromPose p * getTransFromPose m := by
  apply mat_ext <;> simp [getTransFromPose, comp, Matrix.mul_apply, Fin.sum_univ_three, Real.cos_add,
    Real.sin_add] <;> ring

theorem comp_assoc (p a b : Pose) : comp (comp p a) b = comp p (comp a b) := by
  unfold comp
  simp only [Real.cos_add, Real.sin_add]
  congr 1 <;> ring

theorem comp_zero (p : Pose) : comp p ⟨0, 0, 0⟩ = p := by
  unfold comp; simp

theorem zero_comp (p : Pose) : comp ⟨0, 0, 0⟩ p = p := by
  unfold comp; simp

/-! ### One product -/

section
variable {F : Fmt ℝ} {v : ℝ} (h0 : 0 ≤ v) (h1 : v ≤ 1 / 64) (hd : ∀ x, |F.d x - x| ≤ v * |x|)

include h0 h1 hd

theorem dot_err (p q : ℝ) : |F.d (F.d p + F.d q) - (p + q)| ≤ 3 * v * (|p| + |q|) := by
  have a := hd p
  have b := hd q
  have c := hd (F.d p + F.d q)
  have e : |F.d p + F.d q - (p + q)| ≤ v * (|p| + |q|) := by
    have := abs_add_le (F.d p - p) (F.d q - q)
    rw [show F.d p + F.d q - (p + q) = F.d p - p + (F.d q - q) by ring]
    linarith
  have hs : 0 ≤ |p| + |q| := by positivity
  have f : |F.d p + F.d q| ≤ 2 * (|p| + |q|) := by
    have h2 := abs_add_le (F.d p + F.d q - (p + q)) (p + q)
    rw [sub_add_cancel] at h2
    have h3 := abs_add_le p q
    have : v * (|p| + |q|) ≤ 1 * (|p| + |q|) := mul_le_mul_of_nonneg_right (by linarith) hs
    linarith
  have g : v * |F.d p + F.d q| ≤ v * (2 * (|p| + |q|)) := mul_le_mul_of_nonneg_left f h0
  have := abs_add_le (F.d (F.d p + F.d q) - (F.d p + F.d q)) (F.d p + F.d q - (p + q))
  rw [sub_add_sub_cancel] at this
  linarith

end

theorem rot_abs (θ : ℝ) (i : Fin 2) : |(rot θ i).re| + |(rot θ i).im| ≤ 3 / 2 := by
  have key : ∀ a b : ℝ, a ^ 2 + b ^ 2 = 1 → |a| + |b| ≤ 3 / 2 := by
    intro a b h
    have ha := sq_abs a
    have hb := sq_abs b
    nlinarith [sq_nonneg (|a| - |b|), abs_nonneg a, abs_nonneg b]
  fin_cases i
  · exact key _ _ (by simp [rot])
  · exact key _ _ (by simp [rot])

theorem rot_abs_le (θ : ℝ) (i : Fin 2) : |(rot θ i).re| ≤ 1 ∧ |(rot θ i).im| ≤ 1 := by
  fin_cases i <;> simp [rot, Real.abs_cos_le_one, Real.abs_sin_le_one]

/-- Sizes of the entries of a computed rotation. -/
theorem Turned.entries {ε : ℝ} {t : Trans} {θ : ℝ} (h : Turned ε t θ) (he : ε ≤ 1 / 4) (i : Fin 2) :
    |t i.castSucc 0| + |t i.castSucc 1| ≤ 2 ∧ |t i.castSucc 0| ≤ 5 / 4 ∧ |t i.castSucc 1| ≤ 5 / 4 ∧
    |t i.castSucc 0 - (rot θ i).re| ≤ ε ∧ |t i.castSucc 1 - (rot θ i).im| ≤ ε := by
  have a1 : |t i.castSucc 0 - (rot θ i).re| ≤ ε := (Complex.abs_re_le_norm _).trans (h i)
  have a2 : |t i.castSucc 1 - (rot θ i).im| ≤ ε := (Complex.abs_im_le_norm _).trans (h i)
  have b1 := abs_add_le (t i.castSucc 0 - (rot θ i).re) (rot θ i).re
  have b2 := abs_add_le (t i.castSucc 1 - (rot θ i).im) (rot θ i).im
  rw [sub_add_cancel] at b1 b2
  have c1 := rot_abs θ i
  have c2 := rot_abs_le θ i
  exact ⟨by linarith, by linarith [c2.1], by linarith [c2.2], a1, a2⟩

theorem mulT_row (F : Fmt ℝ) (a b : Trans) (i : Fin 2) (j : Fin 2) :
    mulT F a b i.castSucc j.castSucc = F.d (F.d (a i.castSucc 0 * b 0 j.castSucc) +
      F.d (a i.castSucc 1 * b 1 j.castSucc)) := by
  fin_cases i <;> fin_cases j <;> rfl

theorem mulT_shift (F : Fmt ℝ) (a b : Trans) (i : Fin 2) :
    mulT F a b i.castSucc 2 = F.d (F.d (F.d (a i.castSucc 0 * b 0 2) + F.d (a i.castSucc 1 * b 1 2)) +
      a i.castSucc 2) := by
  fin_cases i <;> rfl

section
variable {F : Fmt ℝ} {v : ℝ} (h0 : 0 ≤ v) (h1 : v ≤ 1 / 64) (hd : ∀ x, |F.d x - x| ≤ v * |x|)

include h0 h1 hd

/-- Linear part of a product. -/
theorem mulT_turned {ε ω θ μ : ℝ} {a b : Trans} (he : ε ≤ 1 / 4) (hw : ω ≤ 1 / 4) (ha : Turned ε a θ)
    (hb : Turned ω b μ) : Turned (ε + 2 * ω + 15 * v) (mulT F a b) (θ + μ) := by
  intro i
  obtain ⟨a1, -, -, -, -⟩ := ha.entries he i
  obtain ⟨-, b1, b2, -, -⟩ := hb.entries hw 0
  obtain ⟨-, c1, c2, -, -⟩ := hb.entries hw 1
  set x := a i.castSucc 0
  set y := a i.castSucc 1
  have hxy : ∀ p q : ℝ, |p| ≤ 5 / 4 → |q| ≤ 5 / 4 → |x * p| + |y * q| ≤ 5 / 2 := by
    intro p q hp hq
    rw [abs_mul, abs_mul]
    have := mul_le_mul_of_nonneg_left hp (abs_nonneg x)
    have := mul_le_mul_of_nonneg_left hq (abs_nonneg y)
    linarith
  have e1 := dot_err h0 h1 hd (x * b 0 0) (y * b 1 0)
  have e2 := dot_err h0 h1 hd (x * b 0 1) (y * b 1 1)
  have f1 := mul_le_mul_of_nonneg_left (hxy _ _ b1 c1) (by linarith : 0 ≤ 3 * v)
  have f2 := mul_le_mul_of_nonneg_left (hxy _ _ b2 c2) (by linarith : 0 ≤ 3 * v)
  have split : row (mulT F a b) i - rot (θ + μ) i =
      (⟨F.d (F.d (x * b 0 0) + F.d (y * b 1 0)) - (x * b 0 0 + y * b 1 0),
        F.d (F.d (x * b 0 1) + F.d (y * b 1 1)) - (x * b 0 1 + y * b 1 1)⟩ : ℂ) +
      ((x : ℂ) * (row b 0 - rot μ 0) + (y : ℂ) * (row b 1 - rot μ 1)) +
      (row a i - rot θ i) * ⟨Real.cos μ, -Real.sin μ⟩ := by
    have hr : row (mulT F a b) i = ⟨F.d (F.d (x * b 0 0) + F.d (y * b 1 0)),
        F.d (F.d (x * b 0 1) + F.d (y * b 1 1))⟩ := by
      unfold row
      rw [show (0 : Fin 3) = Fin.castSucc (0 : Fin 2) from rfl, show (1 : Fin 3) = Fin.castSucc (1 : Fin 2) from rfl,
        mulT_row, mulT_row]
      rfl
    have ht : rot (θ + μ) i = rot θ i * ⟨Real.cos μ, -Real.sin μ⟩ := by
      fin_cases i <;> apply Complex.ext <;> simp [rot, Real.cos_add, Real.sin_add] <;> ring
    rw [hr, ht]
    have hra : row a i = ⟨x, y⟩ := rfl
    rw [hra]
    apply Complex.ext <;> simp [row, rot] <;> ring
  rw [split]
  have n1 : ‖(⟨F.d (F.d (x * b 0 0) + F.d (y * b 1 0)) - (x * b 0 0 + y * b 1 0),
        F.d (F.d (x * b 0 1) + F.d (y * b 1 1)) - (x * b 0 1 + y * b 1 1)⟩ : ℂ)‖ ≤ 15 * v := by
    refine (Complex.norm_le_abs_re_add_abs_im _).trans ?_
    simp only
    rw [show (Fin.castSucc 0 : Fin 3) = 0 from rfl, show (Fin.castSucc 1 : Fin 3) = 1 from rfl] at f1 f2
    linarith
  have n2 : ‖(x : ℂ) * (row b 0 - rot μ 0) + (y : ℂ) * (row b 1 - rot μ 1)‖ ≤ 2 * ω := by
    refine (norm_add_le _ _).trans ?_
    rw [norm_mul, norm_mul, Complex.norm_real, Complex.norm_real, Real.norm_eq_abs, Real.norm_eq_abs]
    have w0 : 0 ≤ ω := (norm_nonneg _).trans (hb 0)
    have := mul_le_mul_of_nonneg_left (hb 0) (abs_nonneg x)
    have := mul_le_mul_of_nonneg_left (hb 1) (abs_nonneg y)
    have := mul_le_mul_of_nonneg_right a1 w0
    linarith
  have n3 : ‖(row a i - rot θ i) * (⟨Real.cos μ, -Real.sin μ⟩ : ℂ)‖ ≤ ε := by
    have hu : ‖(⟨Real.cos μ, -Real.sin μ⟩ : ℂ)‖ = 1 := by
      rw [Complex.norm_def, Complex.normSq_mk, Real.sqrt_eq_one]
      have := Real.sin_sq_add_cos_sq μ
      linarith [this]
    rw [norm_mul, hu, mul_one]
    exact ha i
  have := norm_add_le ((⟨F.d (F.d (x * b 0 0) + F.d (y * b 1 0)) - (x * b 0 0 + y * b 1 0),
        F.d (F.d (x * b 0 1) + F.d (y * b 1 1)) - (x * b 0 1 + y * b 1 1)⟩ : ℂ) +
      ((x : ℂ) * (row b 0 - rot μ 0) + (y : ℂ) * (row b 1 - rot μ 1)))
      ((row a i - rot θ i) * ⟨Real.cos μ, -Real.sin μ⟩)
  have := norm_add_le (⟨F.d (F.d (x * b 0 0) + F.d (y * b 1 0)) - (x * b 0 0 + y * b 1 0),
        F.d (F.d (x * b 0 1) + F.d (y * b 1 1)) - (x * b 0 1 + y * b 1 1)⟩ : ℂ)
      ((x : ℂ) * (row b 0 - rot μ 0) + (y : ℂ) * (row b 1 - rot μ 1))
  linarith

/-- Translation of a product, for one row `(x, y)` that should be `(p, q)`. -/
theorem shift_err {x y p q e b c m n τ S t s f R : ℝ} (hx : |x - p| ≤ e) (hy : |y - q| ≤ e)
    (hxy : |x| + |y| ≤ 2) (hb : |b - m| ≤ τ) (hc : |c - n| ≤ τ) (hm : |m| + |n| ≤ S) (ht : |t - s| ≤ f)
    (hR : |s + (p * m + q * n)| ≤ R) (hsmall : f + e * S + 2 * τ + 6 * v * (S + τ) ≤ R) :
    |F.d (F.d (F.d (x * b) + F.d (y * c)) + t) - (s + (p * m + q * n))| ≤
      f + e * S + 2 * τ + 6 * v * (S + τ) + 2 * v * R := by
  have a1 := dot_err h0 h1 hd (x * b) (y * c)
  have hτ : 0 ≤ τ := (abs_nonneg _).trans hb
  have he : 0 ≤ e := (abs_nonneg _).trans hx
  have hbS : |b| ≤ S + τ := by
    have := abs_add_le (b - m) m
    rw [sub_add_cancel] at this
    linarith [abs_nonneg n]
  have hcS : |c| ≤ S + τ := by
    have := abs_add_le (c - n) n
    rw [sub_add_cancel] at this
    linarith [abs_nonneg m]
  have hS : 0 ≤ S + τ := (abs_nonneg _).trans hbS
  have a2 : |x * b| + |y * c| ≤ 2 * (S + τ) := by
    rw [abs_mul, abs_mul]
    have := mul_le_mul_of_nonneg_left hbS (abs_nonneg x)
    have := mul_le_mul_of_nonneg_left hcS (abs_nonneg y)
    have := mul_le_mul_of_nonneg_right hxy hS
    linarith
  have a3 := mul_le_mul_of_nonneg_left a2 (by linarith : 0 ≤ 3 * v)
  have a4 : |x * b + y * c - (p * m + q * n)| ≤ e * S + 2 * τ := by
    have k1 : |x * (b - m)| ≤ |x| * τ := by
      rw [abs_mul]; exact mul_le_mul_of_nonneg_left hb (abs_nonneg x)
    have k2 : |y * (c - n)| ≤ |y| * τ := by
      rw [abs_mul]; exact mul_le_mul_of_nonneg_left hc (abs_nonneg y)
    have k3 : |(x - p) * m| ≤ e * |m| := by
      rw [abs_mul]; exact mul_le_mul_of_nonneg_right hx (abs_nonneg m)
    have k4 : |(y - q) * n| ≤ e * |n| := by
      rw [abs_mul]; exact mul_le_mul_of_nonneg_right hy (abs_nonneg n)
    have k5 := mul_le_mul_of_nonneg_right hxy hτ
    have k6 := mul_le_mul_of_nonneg_left hm he
    have l1 := abs_add_le (x * (b - m) + y * (c - n)) ((x - p) * m + (y - q) * n)
    have l2 := abs_add_le (x * (b - m)) (y * (c - n))
    have l3 := abs_add_le ((x - p) * m) ((y - q) * n)
    rw [show x * b + y * c - (p * m + q * n) = x * (b - m) + y * (c - n) + ((x - p) * m + (y - q) * n) by ring]
    linarith
  set D := F.d (F.d (x * b) + F.d (y * c))
  have a5 : |D + t - (s + (p * m + q * n))| ≤ f + e * S + 2 * τ + 6 * v * (S + τ) := by
    have l1 := abs_add_le (D - (x * b + y * c)) ((x * b + y * c - (p * m + q * n)) + (t - s))
    have l2 := abs_add_le (x * b + y * c - (p * m + q * n)) (t - s)
    rw [show D + t - (s + (p * m + q * n)) =
      D - (x * b + y * c) + ((x * b + y * c - (p * m + q * n)) + (t - s)) by ring]
    linarith
  have a6 := hd (D + t)
  have a7 : |D + t| ≤ 2 * R := by
    have := abs_add_le (D + t - (s + (p * m + q * n))) (s + (p * m + q * n))
    rw [sub_add_cancel] at this
    linarith
  have a8 := mul_le_mul_of_nonneg_left a7 h0
  have l := abs_add_le (F.d (D + t) - (D + t)) (D + t - (s + (p * m + q * n)))
  rw [sub_add_sub_cancel] at l
  linarith

theorem transOf_turned (p : Pose) : Turned (2 * v) (transOf F p) p.th := by
  have c1 := hd (Real.cos p.th)
  have c2 := hd (Real.sin p.th)
  have d1 := mul_le_mul_of_nonneg_left (Real.abs_cos_le_one p.th) h0
  have d2 := mul_le_mul_of_nonneg_left (Real.abs_sin_le_one p.th) h0
  intro i
  refine (Complex.norm_le_abs_re_add_abs_im _).trans ?_
  fin_cases i
  · have : |-F.d (Real.sin p.th) - -Real.sin p.th| = |F.d (Real.sin p.th) - Real.sin p.th| := by
      rw [neg_sub_neg, abs_sub_comm]
    simp [row, rot, transOf]
    rw [show -F.d (Real.sin p.th) + Real.sin p.th = -F.d (Real.sin p.th) - -Real.sin p.th by ring, this]
    linarith
  · simp [row, rot, transOf]
    linarith

end

/-! ### A sequence of updates -/

theorem rot_close (φ θ : ℝ) (i : Fin 2) :
    |(rot φ i).re - (rot θ i).re| ≤ |φ - θ| ∧ |(rot φ i).im - (rot θ i).im| ≤ |φ - θ| := by
  have hc : |Real.cos φ - Real.cos θ| ≤ |φ - θ| := Real.abs_cos_sub_cos_le φ θ
  have hs : |Real.sin φ - Real.sin θ| ≤ |φ - θ| := Real.abs_sin_sub_sin_le φ θ
  fin_cases i
  · refine ⟨hc, ?_⟩
    change |-Real.sin φ - -Real.sin θ| ≤ _
    rw [neg_sub_neg, abs_sub_comm]; exact hs
  · exact ⟨hs, hc⟩

end Verif.Round
