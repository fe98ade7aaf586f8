import Verif.Pose.Spec
import Verif.Cell.Lemmas
import Mathlib.Analysis.SpecialFunctions.Trigonometric.Deriv
import Mathlib.Analysis.Calculus.FDeriv.Pi
import Mathlib.Analysis.Calculus.FDeriv.Add
import Mathlib.Analysis.Calculus.FDeriv.Mul
import Mathlib.Analysis.Matrix.Spectrum
import Mathlib.Analysis.Matrix.PosDef
import Mathlib.Analysis.Matrix.Order

/-
Lemmas on angles, rigid transforms and determinants.
-/
namespace Verif.Geo

open Verif Matrix

/-! ### Angles -/

theorem mk_eq (a : ℝ) : (⟨Real.cos a, Real.sin a⟩ : ℂ) = Complex.cos a + Complex.sin a * Complex.I := by
  apply Complex.ext <;> simp [Complex.cos_ofReal_re, Complex.sin_ofReal_re]

theorem normalizeAngle_eq (a : ℝ) : normalizeAngle a = toIocMod Real.two_pi_pos (-Real.pi) a := by
  unfold normalizeAngle atan2
  rw [mk_eq, Complex.arg_cos_add_sin_mul_I_eq_toIocMod]

theorem normalizeAngle_mem (a : ℝ) : -Real.pi < normalizeAngle a ∧ normalizeAngle a ≤ Real.pi := by
  unfold normalizeAngle atan2
  exact Complex.arg_mem_Ioc _

theorem normalizeAngle_same (a : ℝ) : SameAngle (normalizeAngle a) a := by
  rw [normalizeAngle_eq]
  refine ⟨-toIocDiv Real.two_pi_pos (-Real.pi) a, ?_⟩
  have := toIocMod_add_toIocDiv_zsmul Real.two_pi_pos (-Real.pi) a
  rw [zsmul_eq_mul] at this
  push_cast
  linarith

theorem normalizeAngle_of_mem {a : ℝ} (h1 : -Real.pi < a) (h2 : a ≤ Real.pi) : normalizeAngle a = a := by
  unfold normalizeAngle atan2
  rw [mk_eq, Complex.arg_cos_add_sin_mul_I ⟨h1, h2⟩]

theorem SameAngle.symm {a b : ℝ} (h : SameAngle a b) : SameAngle b a := by
  obtain ⟨k, h⟩ := h
  exact ⟨-k, by push_cast; linarith⟩

theorem SameAngle.trans {a b c : ℝ} (h : SameAngle a b) (h' : SameAngle b c) : SameAngle a c := by
  obtain ⟨k, h⟩ := h
  obtain ⟨l, h'⟩ := h'
  exact ⟨k + l, by push_cast; linarith⟩

theorem SameAngle.cos {a b : ℝ} (h : SameAngle a b) : Real.cos a = Real.cos b := by
  obtain ⟨k, h⟩ := h
  rw [h, Real.cos_add_int_mul_two_pi]

theorem SameAngle.sin {a b : ℝ} (h : SameAngle a b) : Real.sin a = Real.sin b := by
  obtain ⟨k, h⟩ := h
  rw [h, Real.sin_add_int_mul_two_pi]

theorem normalizeAngle_congr {a b : ℝ} (h : SameAngle a b) : normalizeAngle a = normalizeAngle b := by
  unfold normalizeAngle
  rw [h.cos, h.sin]

theorem SameAngle.eq {a b : ℝ} (h : SameAngle a b) (h1 : -Real.pi < a) (h2 : a ≤ Real.pi)
    (h3 : -Real.pi < b) (h4 : b ≤ Real.pi) : a = b := by
  rw [← normalizeAngle_of_mem h1 h2, ← normalizeAngle_of_mem h3 h4, normalizeAngle_congr h]

theorem normalizeAngle_add (a b : ℝ) : normalizeAngle (a + normalizeAngle b) = normalizeAngle (a + b) := by
  apply normalizeAngle_congr
  obtain ⟨k, h⟩ := normalizeAngle_same b
  exact ⟨k, by rw [h]; ring⟩

theorem normalizeAngle_idem (a : ℝ) : normalizeAngle (normalizeAngle a) = normalizeAngle a :=
  normalizeAngle_congr (normalizeAngle_same a)

theorem cos_normalizeAngle (a : ℝ) : Real.cos (normalizeAngle a) = Real.cos a :=
  (normalizeAngle_same a).cos

theorem sin_normalizeAngle (a : ℝ) : Real.sin (normalizeAngle a) = Real.sin a :=
  (normalizeAngle_same a).sin

theorem atan2_cos_sin {x y : ℝ} (h : x ^ 2 + y ^ 2 = 1) :
    Real.cos (atan2 y x) = x ∧ Real.sin (atan2 y x) = y := by
  have hn : ‖(⟨x, y⟩ : ℂ)‖ = 1 := by
    rw [Complex.norm_eq_sqrt_sq_add_sq]
    simp only [h, Real.sqrt_one]
  have h0 : (⟨x, y⟩ : ℂ) ≠ 0 := by
    intro h0
    rw [h0, norm_zero] at hn
    exact zero_ne_one hn
  unfold atan2
  constructor
  · rw [Complex.cos_arg h0, hn, div_one]
  · rw [Complex.sin_arg, hn, div_one]

/-! ### Rigid transforms -/

theorem mat_ext {a b : Trans} (h00 : a 0 0 = b 0 0) (h01 : a 0 1 = b 0 1) (h02 : a 0 2 = b 0 2)
    (h10 : a 1 0 = b 1 0) (h11 : a 1 1 = b 1 1) (h12 : a 1 2 = b 1 2)
    (h20 : a 2 0 = b 2 0) (h21 : a 2 1 = b 2 1) (h22 : a 2 2 = b 2 2) : a = b := by
  ext i j
  fin_cases i <;> fin_cases j <;> assumption

/-- The shape of a rigid transform. -/
theorem isRigid_iff (t : Trans) : IsRigid t ↔ t 0 0 ^ 2 + t 1 0 ^ 2 = 1 ∧ t 1 1 = t 0 0 ∧
    t 0 1 = -t 1 0 ∧ t 2 0 = 0 ∧ t 2 1 = 0 ∧ t 2 2 = 1 := by
  unfold IsRigid
  constructor
  · rintro ⟨h1, h2, h3, h4, h5⟩
    have e00 := congrFun (congrFun h1 0) 0
    have e01 := congrFun (congrFun h1 0) 1
    have e11 := congrFun (congrFun h1 1) 1
    simp [linear, Matrix.mul_apply, Fin.sum_univ_two] at e00 e01 e11
    rw [Matrix.det_fin_two] at h2
    simp [linear] at h2
    have ea : t 1 1 = t 0 0 := by
      have h : t 1 1 * (t 0 0 * t 0 0 + t 0 1 * t 0 1) = t 0 0 := by
        have : t 1 1 * (t 0 0 * t 0 0 + t 0 1 * t 0 1) =
          t 0 0 * (t 0 0 * t 1 1 - t 0 1 * t 1 0) + t 0 1 * (t 0 0 * t 1 0 + t 0 1 * t 1 1) := by ring
        rw [this, h2, e01]; ring
      rw [e00] at h
      linarith
    have eb : t 0 1 = -t 1 0 := by
      have h : t 1 0 * (t 0 0 * t 0 0 + t 0 1 * t 0 1) = -t 0 1 := by
        have : t 1 0 * (t 0 0 * t 0 0 + t 0 1 * t 0 1) =
          -t 0 1 * (t 0 0 * t 1 1 - t 0 1 * t 1 0) + t 0 0 * (t 0 0 * t 1 0 + t 0 1 * t 1 1) := by ring
        rw [this, h2, e01]; ring
      rw [e00] at h
      linarith
    exact ⟨by rw [eb] at e00; nlinarith, ea, eb, h3, h4, h5⟩
  · rintro ⟨h1, h2, h3, h4, h5, h6⟩
    refine ⟨?_, ?_, h4, h5, h6⟩
    · ext i j
      fin_cases i <;> fin_cases j <;>
        simp [linear, Matrix.mul_apply, Fin.sum_univ_two, h2, h3] <;> nlinarith
    · rw [Matrix.det_fin_two]
      simp [linear, h2, h3]
      nlinarith

theorem getTransFromPose_rigid (p : Pose) : IsRigid (getTransFromPose p) := by
  rw [isRigid_iff]
  simp [getTransFromPose]

theorem trans_pose {t : Trans} (h : IsRigid t) : getTransFromPose (getPoseFromTransform t) = t := by
  obtain ⟨h1, h2, h3, h4, h5, h6⟩ := (isRigid_iff t).1 h
  obtain ⟨hc, hs⟩ := atan2_cos_sin h1
  apply mat_ext <;> simp [getTransFromPose, getPoseFromTransform, getAngle, hc, hs, *]

theorem pose_trans (p : Pose) : getPoseFromTransform (getTransFromPose p) = normalized p := by
  simp [getTransFromPose, getPoseFromTransform, getAngle, normalized, normalizeAngle]

theorem trans_normalized (p : Pose) : getTransFromPose (normalized p) = getTransFromPose p := by
  unfold getTransFromPose normalized
  simp only [cos_normalizeAngle, sin_normalizeAngle]

theorem trans_samePose {p q : Pose} (h : SamePose p q) : getTransFromPose p = getTransFromPose q := by
  unfold getTransFromPose
  rw [h.1, h.2.1, h.2.2.cos, h.2.2.sin]

theorem normalized_samePose (p : Pose) : SamePose (normalized p) p := ⟨rfl, rfl, normalizeAngle_same _⟩

theorem samePose_of_trans {p q : Pose} (h : getTransFromPose p = getTransFromPose q) : SamePose p q := by
  have e := congrArg getPoseFromTransform h
  rw [pose_trans, pose_trans] at e
  have hx : (normalized p).x = (normalized q).x := by rw [e]
  have hy : (normalized p).y = (normalized q).y := by rw [e]
  have ht : normalizeAngle p.th = normalizeAngle q.th := congrArg Slam.Pose.th e
  refine ⟨hx, hy, ?_⟩
  have h1 := normalizeAngle_same p.th
  rw [ht] at h1
  exact h1.symm.trans (normalizeAngle_same q.th)

theorem trans_mul (p q : Pose) : getTransFromPose p * getTransFromPose q = getTransFromPose (compose p q) := by
  apply mat_ext <;>
    simp [getTransFromPose, compose, toWorld, Matrix.mul_apply, Fin.sum_univ_three, Real.cos_add,
      Real.sin_add] <;> ring

theorem rigid_mul {a b : Trans} (ha : IsRigid a) (hb : IsRigid b) : IsRigid (a * b) := by
  rw [← trans_pose ha, ← trans_pose hb, trans_mul]
  exact getTransFromPose_rigid _

/-- The pose of the inverse transform. -/
noncomputable def invPose (p : Pose) : Pose :=
  ⟨-(Real.cos p.th * p.x + Real.sin p.th * p.y), -(-Real.sin p.th * p.x + Real.cos p.th * p.y), -p.th⟩

theorem compose_invPose (p : Pose) : compose p (invPose p) = ⟨0, 0, 0⟩ := by
  have h := Real.sin_sq_add_cos_sq p.th
  unfold compose invPose toWorld
  simp only [Slam.Pose.mk.injEq]
  refine ⟨?_, ?_, by ring⟩
  · linear_combination (-p.x) * h
  · linear_combination (-p.y) * h

theorem trans_zero : getTransFromPose ⟨0, 0, 0⟩ = 1 := by
  apply mat_ext <;> simp [getTransFromPose]

theorem trans_inv (p : Pose) : (getTransFromPose p)⁻¹ = getTransFromPose (invPose p) := by
  apply Matrix.inv_eq_right_inv
  rw [trans_mul, compose_invPose, trans_zero]

theorem trans_inv_mul (p : Pose) : (getTransFromPose p)⁻¹ * getTransFromPose p = 1 := by
  rw [trans_inv]
  apply mul_eq_one_comm.1
  rw [trans_mul, compose_invPose, trans_zero]

theorem trans_mul_inv (p : Pose) : getTransFromPose p * (getTransFromPose p)⁻¹ = 1 :=
  mul_eq_one_comm.1 (trans_inv_mul p)

theorem act_trans (p : Pose) (v : ℝ × ℝ) : act (getTransFromPose p) v = toWorld p v := by
  simp only [act, toWorld, getTransFromPose]
  ext <;> simp <;> ring

/-- `transBtwFrames` is the product of the inverse of the target frame and the source frame. -/
theorem transBtwFrames_eq (a b : Pose) :
    transBtwFrames a b = (getTransFromPose b)⁻¹ * getTransFromPose a := by
  have hi : (linear (getTransFromPose b))⁻¹ = linear (getTransFromPose (invPose b)) := by
    apply Matrix.inv_eq_right_inv
    have h := Real.sin_sq_add_cos_sq b.th
    ext i j
    fin_cases i <;> fin_cases j <;>
      simp [linear, getTransFromPose, invPose, Matrix.mul_apply, Fin.sum_univ_two] <;> nlinarith
  unfold transBtwFrames
  simp only [hi]
  rw [trans_inv, trans_mul]
  apply mat_ext <;>
    simp [affine, linear, getTransFromPose, invPose, compose, toWorld, Matrix.mul_apply,
      Fin.sum_univ_two, Matrix.mulVec, dotProduct, Real.cos_add, Real.sin_add] <;> ring

/-! ### Covariances -/

theorem det_jacc1 (co si tx ty : ℝ) : (jacc1 co si tx ty).det = 1 := by
  rw [Matrix.det_fin_three]
  simp [jacc1]

theorem det_jacc2 (a : ℝ) : (jacc2 (Real.cos a) (Real.sin a)).det = 1 := by
  rw [Matrix.det_fin_three]
  have := Real.sin_sq_add_cos_sq a
  simp [jacc2]
  nlinarith

/-- `det (1 + c) ≥ 1` for positive semidefinite `c`. -/
theorem one_le_det_one_add {n : Type} [Fintype n] [DecidableEq n] {c : Matrix n n ℝ}
    (hc : c.PosSemidef) : 1 ≤ (1 + c).det := by
  have hh := hc.isHermitian
  set U : Matrix n n ℝ := (hh.eigenvectorUnitary : Matrix n n ℝ)
  have h1 : U * star U = 1 := Matrix.mem_unitaryGroup_iff.1 hh.eigenvectorUnitary.2
  have h2 : c = U * diagonal hh.eigenvalues * star U := by
    have := hh.spectral_theorem
    rw [Unitary.conjStarAlgAut_apply] at this
    exact this
  have h3 : 1 + c = U * diagonal (fun i => 1 + hh.eigenvalues i) * star U := by
    have : diagonal (fun i => 1 + hh.eigenvalues i) = 1 + diagonal hh.eigenvalues := by
      rw [← diagonal_one, diagonal_add]
    rw [this, Matrix.mul_add, Matrix.add_mul, Matrix.mul_one, h1, ← h2]
  rw [h3, Matrix.det_mul_right_comm, h1, Matrix.one_mul, Matrix.det_diagonal]
  calc (1 : ℝ) = ∏ _i : n, (1 : ℝ) := by simp
    _ ≤ _ := Finset.prod_le_prod (fun _ _ => zero_le_one) fun i _ => by
      have := hc.eigenvalues_nonneg i
      linarith

open scoped MatrixOrder in
/-- The determinant is monotone on positive semidefinite matrices. -/
theorem det_le_add {n : Type} [Fintype n] [DecidableEq n] {a b : Matrix n n ℝ} (ha : a.PosSemidef)
    (hb : b.PosSemidef) : a.det ≤ (a + b).det := by
  by_cases h0 : a.det = 0
  · rw [h0]
    exact (ha.add hb).det_nonneg
  obtain ⟨B, rfl⟩ := CStarAlgebra.nonneg_iff_eq_star_mul_self.mp ha.nonneg
  rw [star_eq_conjTranspose] at h0 ⊢
  have hB : IsUnit B.det := by
    rw [Matrix.det_mul] at h0
    exact isUnit_iff_ne_zero.2 (right_ne_zero_of_mul h0)
  have hB' : IsUnit Bᴴ.det := by
    rw [Matrix.det_mul] at h0
    exact isUnit_iff_ne_zero.2 (left_ne_zero_of_mul h0)
  set c := B⁻¹ᴴ * b * B⁻¹
  have hc : c.PosSemidef := hb.conjTranspose_mul_mul_same B⁻¹
  have hb' : Bᴴ * c * B = b := by
    show Bᴴ * (B⁻¹ᴴ * b * B⁻¹) * B = b
    rw [Matrix.conjTranspose_nonsing_inv, Matrix.mul_assoc Bᴴ⁻¹, Matrix.mul_nonsing_inv_cancel_left _ _ hB',
      Matrix.nonsing_inv_mul_cancel_right _ _ hB]
  have hs : Bᴴ * B + b = Bᴴ * (1 + c) * B := by
    rw [Matrix.mul_add, Matrix.add_mul, Matrix.mul_one, hb']
  rw [hs, Matrix.det_mul, Matrix.det_mul, Matrix.det_mul]
  have h1 := one_le_det_one_add hc
  have h2 : 0 ≤ Bᴴ.det * B.det := by
    rw [← Matrix.det_mul]
    exact (posSemidef_conjTranspose_mul_self B).det_nonneg
  nlinarith

end Verif.Geo
