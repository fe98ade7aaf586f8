import Verif.Round.PoseProps
import Verif.Round.Binary
import Mathlib.Analysis.SpecialFunctions.Complex.Arg

/- Rounding in the estimated pose: reading the angle, and motions that are computed from matched poses (C147). -/
namespace Verif.Round

open Verif Verif.Geo

/-! ### The angle -/

/-- Size of the argument of a number close to one. -/
theorem arg_le {w : ℂ} {δ : ℝ} (hδ : δ ≤ 3 / 8) (h : ‖w - 1‖ ≤ δ) : |w.arg| ≤ 8 / 5 * δ := by
  have h1 : |w.re - 1| ≤ δ := by
    have := (Complex.abs_re_le_norm (w - 1)).trans h
    simpa using this
  have h2 : |w.im| ≤ δ := by
    have := (Complex.abs_im_le_norm (w - 1)).trans h
    simpa using this
  have hre : 5 / 8 ≤ w.re := by
    have := (abs_le.1 h1).1
    linarith
  have hpos : 0 < w.re := by linarith
  have hlt : |w.arg| < Real.pi / 2 := Complex.abs_arg_lt_pi_div_two_iff.2 (Or.inl hpos)
  have ht : |w.arg| ≤ |Real.tan w.arg| := by
    have key := Real.le_tan (abs_nonneg w.arg) hlt
    rcases abs_cases w.arg with ⟨e, -⟩ | ⟨e, -⟩
    · rw [e] at key ⊢
      exact key.trans (le_abs_self _)
    · rw [e] at key ⊢
      rw [Real.tan_neg] at key
      exact key.trans (neg_le_abs _)
  rw [Complex.tan_arg, abs_div, abs_of_pos hpos] at ht
  refine ht.trans ?_
  rw [div_le_iff₀ hpos]
  have : 0 ≤ δ := (abs_nonneg _).trans h2
  nlinarith

/-- `atan2` of the first column, computed in `double`, reads the angle. -/
theorem angle_ok {F : Fmt ℝ} {v : ℝ} (h0 : 0 ≤ v) (hd : ∀ x, |F.d x - x| ≤ v * |x|) :
    AngleOk (fun t => F.d (getAngle t)) (4 * v) := by
  intro t θ ε he h
  obtain ⟨-, -, -, a1, -⟩ := h.entries he 0
  obtain ⟨-, -, -, a2, -⟩ := h.entries he 1
  have a1 : |t 0 0 - Real.cos θ| ≤ ε := a1
  have a2 : |t 1 0 - Real.sin θ| ≤ ε := a2
  have e0 : 0 ≤ ε := (abs_nonneg _).trans a1
  set z : ℂ := ⟨t 0 0, t 1 0⟩ with hz
  set w : ℂ := z * ⟨Real.cos θ, -Real.sin θ⟩ with hw
  have hu : ‖(⟨Real.cos θ, -Real.sin θ⟩ : ℂ)‖ = 1 := by
    rw [Complex.norm_def, Complex.normSq_mk, Real.sqrt_eq_one]
    linarith [Real.sin_sq_add_cos_sq θ]
  have huu : (⟨Real.cos θ, Real.sin θ⟩ : ℂ) * ⟨Real.cos θ, -Real.sin θ⟩ = 1 := by
    apply Complex.ext <;> simp
    · linarith [Real.sin_sq_add_cos_sq θ]
    · ring
  have hw1 : ‖w - 1‖ ≤ 3 / 2 * ε := by
    rw [← huu, hw, ← sub_mul, norm_mul, hu, mul_one, Complex.norm_def]
    refine Real.sqrt_le_iff.2 ⟨by linarith, ?_⟩
    rw [Complex.normSq_apply]
    simp only [hz, Complex.sub_re, Complex.sub_im]
    have b1 := (sq_le_sq' (by linarith [(abs_le.1 a1).1]) (abs_le.1 a1).2 : (t 0 0 - Real.cos θ) ^ 2 ≤ ε ^ 2)
    have b2 := (sq_le_sq' (by linarith [(abs_le.1 a2).1]) (abs_le.1 a2).2 : (t 1 0 - Real.sin θ) ^ 2 ≤ ε ^ 2)
    nlinarith [sq_nonneg ε]
  have harg := arg_le (by linarith) hw1
  have hw0 : w ≠ 0 := by
    intro e
    rw [e] at hw1
    simp at hw1
    linarith
  have hz0 : z ≠ 0 := by
    intro e
    rw [hw, e, zero_mul] at hw0
    exact hw0 rfl
  have hsum : (z.arg : Real.Angle) = ((w.arg + θ : ℝ) : Real.Angle) := by
    have e : z = w * (⟨Real.cos θ, Real.sin θ⟩ : ℂ) := by
      rw [hw, mul_assoc, mul_comm (⟨Real.cos θ, -Real.sin θ⟩ : ℂ), huu, mul_one]
    have hc0 : (⟨Real.cos θ, Real.sin θ⟩ : ℂ) ≠ 0 := by
      intro e'
      rw [e', zero_mul] at huu
      exact zero_ne_one huu
    have hca : (((⟨Real.cos θ, Real.sin θ⟩ : ℂ).arg : ℝ) : Real.Angle) = (θ : Real.Angle) := by
      have := Complex.arg_cos_add_sin_mul_I_coe_angle (θ : Real.Angle)
      rw [← this]
      congr 2
      rw [Real.Angle.cos_coe, Real.Angle.sin_coe]
      apply Complex.ext
      · rw [Complex.add_re, Complex.ofReal_re, Complex.re_ofReal_mul, Complex.I_re, mul_zero, add_zero]
      · rw [Complex.add_im, Complex.ofReal_im, Complex.im_ofReal_mul, Complex.I_im, mul_one, zero_add]
    rw [e, Complex.arg_mul_coe_angle hw0 hc0, hca, Real.Angle.coe_add]
  obtain ⟨k, hk⟩ := Real.Angle.angle_eq_iff_two_pi_dvd_sub.1 hsum
  refine ⟨k, ?_⟩
  have hg : getAngle t = z.arg := rfl
  have r1 := hd (getAngle t)
  have r2 : v * |getAngle t| ≤ v * 4 := by
    refine mul_le_mul_of_nonneg_left ?_ h0
    rw [hg]
    exact (Complex.abs_arg_le_pi z).trans Real.pi_le_four
  have r3 := abs_add_le (F.d (getAngle t) - getAngle t) w.arg
  rw [show F.d (getAngle t) - θ - k * (2 * Real.pi) = F.d (getAngle t) - getAngle t + w.arg by
    rw [hg]; linarith]
  linarith

/-! ### The increment between two matched poses -/

/-- Exact inverse of a rigid motion. -/
noncomputable def inv (p : Pose) : Pose :=
  ⟨-(Real.cos p.th * p.x + Real.sin p.th * p.y), -(-Real.sin p.th * p.x + Real.cos p.th * p.y), -p.th⟩

/-- The motion from `p` to `q`, seen from `p`. -/
noncomputable def between (p q : Pose) : Pose := comp (inv p) q

theorem comp_inv (p : Pose) : comp p (inv p) = ⟨0, 0, 0⟩ := by
  unfold comp inv
  congr 1
  · linear_combination -p.x * Real.sin_sq_add_cos_sq p.th
  · linear_combination -p.y * Real.sin_sq_add_cos_sq p.th
  · ring

/-- The motion from `p` to `q` leads from `p` to `q`. -/
theorem comp_between (p q : Pose) : comp p (between p q) = q := by
  unfold between
  rw [← comp_assoc, comp_inv, zero_comp]

/-- Length of the motion from `p` to `q`. -/
theorem between_len (p q : Pose) : |(between p q).x| + |(between p q).y| ≤ 2 * (|q.x - p.x| + |q.y - p.y|) := by
  have a := rot_dot_le (-p.th) (q.x - p.x) (q.y - p.y) 0
  have b := rot_dot_le (-p.th) (q.x - p.x) (q.y - p.y) 1
  have e1 : (between p q).x = (rot (-p.th) 0).re * (q.x - p.x) + (rot (-p.th) 0).im * (q.y - p.y) := by
    simp [between, comp, inv, rot]; ring
  have e2 : (between p q).y = (rot (-p.th) 1).re * (q.x - p.x) + (rot (-p.th) 1).im * (q.y - p.y) := by
    simp [between, comp, inv, rot]; ring
  rw [e1, e2]
  linarith

section
variable {F : Fmt ℝ} {v : ℝ} (h0 : 0 ≤ v) (h1 : v ≤ 1 / 128) (hd : ∀ x, |F.d x - x| ≤ v * |x|)

include h0 h1 hd

/-- The reciprocal determinant of a computed rotation. -/
theorem recip_err (θ : ℝ) :
    |F.d (1 / F.d (F.d (F.d (Real.cos θ) * F.d (Real.cos θ)) -
      F.d (F.d (Real.sin θ) * -F.d (Real.sin θ)))) - 1| ≤ 8 * v := by
  set c := Real.cos θ
  set s := Real.sin θ
  have hcs : s ^ 2 + c ^ 2 = 1 := Real.sin_sq_add_cos_sq θ
  have sq : ∀ x : ℝ, |F.d x * F.d x - x ^ 2| ≤ (2 * v + v ^ 2) * x ^ 2 := by
    intro x
    have hx := hd x
    rw [show F.d x * F.d x - x ^ 2 = (F.d x - x) * (F.d x - x) + 2 * (x * (F.d x - x)) by ring]
    refine (abs_add_le _ _).trans ?_
    rw [abs_mul, abs_mul, abs_mul, abs_of_pos (two_pos : (0 : ℝ) < 2)]
    have k1 := mul_le_mul hx hx (abs_nonneg _) (by positivity)
    have k2 := mul_le_mul_of_nonneg_left hx (abs_nonneg x)
    have k3 := abs_mul_abs_self x
    nlinarith
  have a1 := sq c
  have a2 := sq s
  have b1 := hd (F.d c * F.d c)
  have b2 := hd (F.d s * -F.d s)
  rw [mul_neg, abs_neg] at b2
  have v2 : v ^ 2 ≤ v / 128 := by nlinarith
  have s0 := sq_nonneg s
  have c0 := sq_nonneg c
  -- sizes of the squares
  have g : ∀ x : ℝ, 0 ≤ x ^ 2 → |F.d x * F.d x - x ^ 2| ≤ (2 * v + v ^ 2) * x ^ 2 →
      v * |F.d x * F.d x| ≤ v * (33 / 32 * x ^ 2) := by
    intro x x0 hx
    refine mul_le_mul_of_nonneg_left ?_ h0
    have := abs_add_le (F.d x * F.d x - x ^ 2) (x ^ 2)
    rw [sub_add_cancel, abs_of_nonneg x0] at this
    have : (2 * v + v ^ 2) * x ^ 2 ≤ 1 / 32 * x ^ 2 := mul_le_mul_of_nonneg_right (by linarith) x0
    linarith
  have g1 := g c c0 a1
  have g2 := g s s0 a2
  have det : |F.d (F.d c * F.d c) - F.d (F.d s * -F.d s) - 1| ≤ 4 * v := by
    have l1 := abs_add_le (F.d (F.d c * F.d c) - F.d c * F.d c + (F.d c * F.d c - c ^ 2))
      (-(F.d (F.d s * -F.d s) - -(F.d s * F.d s)) + (F.d s * F.d s - s ^ 2))
    have l2 := abs_add_le (F.d (F.d c * F.d c) - F.d c * F.d c) (F.d c * F.d c - c ^ 2)
    have l3 := abs_add_le (-(F.d (F.d s * -F.d s) - -(F.d s * F.d s))) (F.d s * F.d s - s ^ 2)
    rw [abs_neg] at l3
    rw [show F.d (F.d c * F.d c) - F.d (F.d s * -F.d s) - 1 =
      F.d (F.d c * F.d c) - F.d c * F.d c + (F.d c * F.d c - c ^ 2) +
      (-(F.d (F.d s * -F.d s) - -(F.d s * F.d s)) + (F.d s * F.d s - s ^ 2)) by
        linear_combination hcs]
    rw [mul_neg] at l1 l3 ⊢
    have e : (2 * v + v ^ 2) * c ^ 2 + (2 * v + v ^ 2) * s ^ 2 = 2 * v + v ^ 2 := by
      rw [← mul_add, add_comm (c ^ 2), hcs, mul_one]
    have e' : v * (33 / 32 * c ^ 2) + v * (33 / 32 * s ^ 2) = v * (33 / 32) := by
      linear_combination v * (33 / 32) * hcs
    linarith
  set D := F.d (F.d c * F.d c) - F.d (F.d s * -F.d s)
  have d1 := hd D
  have dD : |D| ≤ 33 / 32 := by
    have := abs_add_le (D - 1) 1
    rw [sub_add_cancel, abs_one] at this
    linarith
  have d2 : |F.d D - 1| ≤ 6 * v := by
    have := abs_add_le (F.d D - D) (D - 1)
    rw [sub_add_sub_cancel] at this
    have := mul_le_mul_of_nonneg_left dD h0
    linarith
  set E := F.d D
  have hE := abs_le.1 d2
  have E0 : 61 / 64 ≤ E := by linarith [hE.1]
  have Epos : 0 < E := by linarith
  have r : |1 / E - 1| ≤ 13 / 2 * v := by
    rw [show 1 / E - 1 = (1 - E) / E by field_simp, abs_div, abs_of_pos Epos, div_le_iff₀ Epos,
      abs_sub_comm]
    nlinarith
  have r1 := hd (1 / E)
  have rE : |1 / E| ≤ 17 / 16 := by
    have := abs_add_le (1 / E - 1) 1
    rw [sub_add_cancel, abs_one] at this
    linarith
  have := mul_le_mul_of_nonneg_left rE h0
  have := abs_add_le (F.d (1 / E) - 1 / E) (1 / E - 1)
  rw [sub_add_sub_cancel] at this
  linarith

/-- An entry of the computed inverse rotation. -/
theorem entry_err {x y r : ℝ} (hr : |r - 1| ≤ 8 * v) (hx : |x| ≤ 1) (hy : |y - x| ≤ v) :
    |F.d (y * r) - x| ≤ 11 * v := by
  have b : |y * r - x| ≤ 19 / 2 * v := by
    have l := abs_add_le ((y - x) * r) (x * (r - 1))
    rw [abs_mul, abs_mul] at l
    have hr1 : |r| ≤ 17 / 16 := by
      have := abs_add_le (r - 1) 1
      rw [sub_add_cancel, abs_one] at this
      linarith
    have k2 := mul_le_mul hy hr1 (abs_nonneg _) h0
    have k3 := mul_le_mul hx hr (abs_nonneg _) zero_le_one
    rw [show y * r - x = (y - x) * r + x * (r - 1) by ring]
    linarith
  have c := hd (y * r)
  have d : |y * r| ≤ 9 / 8 := by
    have := abs_add_le (y * r - x) x
    rw [sub_add_cancel] at this
    linarith
  have := mul_le_mul_of_nonneg_left d h0
  have := abs_add_le (F.d (y * r) - y * r) (y * r - x)
  rw [sub_add_sub_cancel] at this
  linarith

/-- The computed inverse of a computed pose. -/
theorem inverse_near (p : Pose) :
    Near (22 * v) (15 * v * (|p.x| + |p.y|)) (inverseT F (transOf F p)) (inv p) := by
  have hr := recip_err h0 h1 hd p.th
  set r := F.d (1 / F.d (F.d (F.d (Real.cos p.th) * F.d (Real.cos p.th)) -
      F.d (F.d (Real.sin p.th) * -F.d (Real.sin p.th)))) with hrd
  have dc : |F.d (Real.cos p.th) - Real.cos p.th| ≤ v :=
    (hd _).trans (by have := mul_le_mul_of_nonneg_left (Real.abs_cos_le_one p.th) h0; linarith)
  have ds : |F.d (Real.sin p.th) - Real.sin p.th| ≤ v :=
    (hd _).trans (by have := mul_le_mul_of_nonneg_left (Real.abs_sin_le_one p.th) h0; linarith)
  have dn : |-F.d (Real.sin p.th) - -Real.sin p.th| ≤ v := by rw [neg_sub_neg, abs_sub_comm]; exact ds
  have ec : |F.d (F.d (Real.cos p.th) * r) - Real.cos p.th| ≤ 11 * v :=
    entry_err h0 h1 hd hr (Real.abs_cos_le_one _) dc
  have es : |F.d (F.d (Real.sin p.th) * r) - Real.sin p.th| ≤ 11 * v :=
    entry_err h0 h1 hd hr (Real.abs_sin_le_one _) ds
  have en : |F.d (-F.d (Real.sin p.th) * r) - -Real.sin p.th| ≤ 11 * v :=
    entry_err h0 h1 hd hr (by rw [abs_neg]; exact Real.abs_sin_le_one _) dn
  have hinv : inverseT F (transOf F p) =
      !![F.d (F.d (Real.cos p.th) * r), F.d (F.d (Real.sin p.th) * r),
          -F.d (F.d (F.d (F.d (Real.cos p.th) * r) * p.x) + F.d (F.d (F.d (Real.sin p.th) * r) * p.y));
        F.d (-F.d (Real.sin p.th) * r), F.d (F.d (Real.cos p.th) * r),
          -F.d (F.d (F.d (-F.d (Real.sin p.th) * r) * p.x) + F.d (F.d (F.d (Real.cos p.th) * r) * p.y));
        0, 0, 1] := by
    apply mat_ext <;> simp [inverseT, transOf, hrd]
  set c := F.d (F.d (Real.cos p.th) * r)
  set s := F.d (F.d (Real.sin p.th) * r)
  set n := F.d (-F.d (Real.sin p.th) * r)
  have hn : |n| ≤ 9 / 8 := by
    have := abs_add_le (n - -Real.sin p.th) (-Real.sin p.th)
    rw [sub_add_cancel, abs_neg (Real.sin p.th)] at this
    linarith [Real.abs_sin_le_one p.th]
  have hc : |c| ≤ 9 / 8 := by
    have := abs_add_le (c - Real.cos p.th) (Real.cos p.th)
    rw [sub_add_cancel] at this
    linarith [Real.abs_cos_le_one p.th]
  have hs : |s| ≤ 9 / 8 := by
    have := abs_add_le (s - Real.sin p.th) (Real.sin p.th)
    rw [sub_add_cancel] at this
    linarith [Real.abs_sin_le_one p.th]
  have tr : ∀ a b x y : ℝ, |a| ≤ 9 / 8 → |b| ≤ 9 / 8 → ∀ a' b', |a - a'| ≤ 11 * v → |b - b'| ≤ 11 * v →
      |-F.d (F.d (a * x) + F.d (b * y)) - -(a' * x + b' * y)| ≤ 15 * v * (|x| + |y|) := by
    intro a b x y ha hb a' b' ha' hb'
    have d := dot_err h0 (by linarith) hd (a * x) (b * y)
    have k1 : |a * x| + |b * y| ≤ 9 / 8 * (|x| + |y|) := by
      rw [abs_mul, abs_mul]
      have := mul_le_mul_of_nonneg_right ha (abs_nonneg x)
      have := mul_le_mul_of_nonneg_right hb (abs_nonneg y)
      linarith
    have k2 := mul_le_mul_of_nonneg_left k1 (by linarith : 0 ≤ 3 * v)
    have k3 : |a * x + b * y - (a' * x + b' * y)| ≤ 11 * v * (|x| + |y|) := by
      have l := abs_add_le ((a - a') * x) ((b - b') * y)
      rw [abs_mul, abs_mul] at l
      have := mul_le_mul_of_nonneg_right ha' (abs_nonneg x)
      have := mul_le_mul_of_nonneg_right hb' (abs_nonneg y)
      rw [show a * x + b * y - (a' * x + b' * y) = (a - a') * x + (b - b') * y by ring]
      linarith
    have k4 := abs_add_le (F.d (F.d (a * x) + F.d (b * y)) - (a * x + b * y)) (a * x + b * y - (a' * x + b' * y))
    rw [sub_add_sub_cancel] at k4
    rw [neg_sub_neg, abs_sub_comm]
    have : 0 ≤ v * (|x| + |y|) := by positivity
    linarith
  rw [hinv]
  refine ⟨?_, ?_, ?_⟩
  · intro i
    refine (Complex.norm_le_abs_re_add_abs_im _).trans ?_
    fin_cases i
    · simp [row, rot, inv]
      linarith
    · simp [row, rot, inv]
      rw [show n + Real.sin p.th = n - -Real.sin p.th by ring]
      linarith
  · exact tr c s p.x p.y hc hs _ _ ec es
  · exact tr n c p.x p.y hn hc _ _ en ec

/-- The computed increment between two matched poses is the motion between them. -/
theorem increment_near (p q : Pose) :
    Near (41 * v) (32 * v * (|p.x| + |p.y| + (|q.x| + |q.y|))) (increment F p q) (between p q) := by
  obtain ⟨t, x, y⟩ := inverse_near h0 h1 hd p
  set P := |p.x| + |p.y|
  set Q := |q.x| + |q.y|
  have P0 : 0 ≤ P := by positivity
  have Q0 : 0 ≤ Q := by positivity
  have hv : v ≤ 1 / 64 := by linarith
  have w := transOf_turned h0 hv hd q
  have hlin := mulT_turned h0 hv hd (by linarith : 22 * v ≤ 1 / 4) (by linarith : 2 * v ≤ 1 / 4) t w
  have cx := rot_dot_le (-p.th) p.x p.y 0
  have cy := rot_dot_le (-p.th) p.x p.y 1
  have bx := rot_dot_le (-p.th) q.x q.y 0
  have by' := rot_dot_le (-p.th) q.x q.y 1
  have fx : |(between p q).x| ≤ P + Q := by
    have e : (between p q).x = -((rot (-p.th) 0).re * p.x + (rot (-p.th) 0).im * p.y) +
        ((rot (-p.th) 0).re * q.x + (rot (-p.th) 0).im * q.y) := by
      simp [between, comp, inv, rot]
    rw [e]
    refine (abs_add_le _ _).trans ?_
    rw [abs_neg]; linarith
  have fy : |(between p q).y| ≤ P + Q := by
    have e : (between p q).y = -((rot (-p.th) 1).re * p.x + (rot (-p.th) 1).im * p.y) +
        ((rot (-p.th) 1).re * q.x + (rot (-p.th) 1).im * q.y) := by
      simp [between, comp, inv, rot]
    rw [e]
    refine (abs_add_le _ _).trans ?_
    rw [abs_neg]; linarith
  have vP := mul_nonneg h0 P0
  have vQ := mul_nonneg h0 Q0
  have vP1 := mul_le_mul_of_nonneg_right h1 P0
  have vQ1 := mul_le_mul_of_nonneg_right h1 Q0
  obtain ⟨sx, sy⟩ := product_shift (p := inv p) (m := q) (t := transOf F q) (τ := 0) (S := Q) (R := P + Q) h0 hv hd t
    (by linarith) (by simp : |(inv p).th - (inv p).th| ≤ 0) x y (by simp [transOf]) (by simp [transOf]) le_rfl fx fy
    (by linarith)
  refine ⟨hlin.mono (by linarith), sx.trans ?_, sy.trans ?_⟩ <;> linarith

end

end Verif.Round
