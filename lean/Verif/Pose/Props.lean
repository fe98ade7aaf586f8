import Verif.Pose.Lemmas

/-
Properties C43-C48, C76-C78: angles, poses, transforms, constraint errors, covariances.
-/
namespace Verif.Geo

set_option linter.unusedSimpArgs false
set_option linter.unnecessarySeqFocus false

open Verif Matrix

/-! ### C43 -/

/-- C43.  `normalizeAngle a` is the one angle in `(-π, π]` that differs from `a` by full turns; applying
it again changes nothing. -/
theorem C43_normalizeAngle (a : ℝ) :
    (-Real.pi < normalizeAngle a ∧ normalizeAngle a ≤ Real.pi) ∧
    SameAngle (normalizeAngle a) a ∧
    (∀ b, -Real.pi < b → b ≤ Real.pi → SameAngle b a → normalizeAngle a = b) ∧
    normalizeAngle (normalizeAngle a) = normalizeAngle a := by
  refine ⟨normalizeAngle_mem a, normalizeAngle_same a, fun b h1 h2 h => ?_, normalizeAngle_idem a⟩
  rw [← normalizeAngle_congr h, normalizeAngle_of_mem h1 h2]

/-- Three half turns are one half turn, and minus half a turn is half a turn. -/
example : normalizeAngle (3 * Real.pi) = Real.pi ∧ normalizeAngle (-Real.pi) = Real.pi := by
  have h := Real.pi_pos
  exact ⟨(C43_normalizeAngle _).2.2.1 _ (by linarith) le_rfl ⟨-1, by push_cast; ring⟩,
    (C43_normalizeAngle _).2.2.1 _ (by linarith) le_rfl ⟨1, by push_cast; ring⟩⟩

/-! ### C44 -/

/-- C44.  Pose to transform and back normalises the angle; transform to pose and back is the identity on
rigid transforms; the 3x3 and the 4x4 forms agree with each other and respect composition. -/
theorem C44_round_trips :
    (∀ p, getPoseFromTransform (getTransFromPose p) = ⟨p.x, p.y, normalizeAngle p.th⟩) ∧
    (∀ p, IsRigid (getTransFromPose p)) ∧
    (∀ t, IsRigid t → getTransFromPose (getPoseFromTransform t) = t) ∧
    (∀ p, vecToMat2d p = getTransFromPose p) ∧
    (∀ t, matToVec2d t = getPoseFromTransform t) ∧
    (∀ p, convertToTransform (vecToMat3d p) = getTransFromPose p) ∧
    (∀ p, matToVec3d (vecToMat3d p) = ⟨p.x, p.y, normalizeAngle p.th⟩) ∧
    (∀ t, IsRigid t → convertToTransform (convertFromTransform t) = t) ∧
    (∀ a b, IsRigid a → IsRigid b →
      convertFromTransform (a * b) = convertFromTransform a * convertFromTransform b) := by
  have h4 : ∀ p : Pose, convertToTransform (planar4 p.x p.y p.th) = getTransFromPose p := by
    intro p
    apply mat_ext <;> simp [convertToTransform, planar4, getTransFromPose]
  refine ⟨pose_trans, getTransFromPose_rigid, fun t => trans_pose, fun _ => rfl, fun _ => rfl, h4, ?_,
    ?_, ?_⟩
  · intro p
    simp [matToVec3d, vecToMat3d, planar4, normalizeAngle]
  · intro t ht
    unfold convertFromTransform
    simp only
    rw [h4, trans_pose ht]
  · intro a b ha hb
    have hcf : ∀ t, IsRigid t → convertFromTransform t =
        !![t 0 0, -t 1 0, 0, t 0 2; t 1 0, t 0 0, 0, t 1 2; 0, 0, 1, 0; 0, 0, 0, 1] := by
      intro t ht
      obtain ⟨hc, hs⟩ := atan2_cos_sin ((isRigid_iff t).1 ht).1
      simp [convertFromTransform, planar4, getPoseFromTransform, getAngle, hc, hs]
    obtain ⟨-, a2, a3, a4, a5, a6⟩ := (isRigid_iff a).1 ha
    obtain ⟨-, b2, b3, b4, b5, b6⟩ := (isRigid_iff b).1 hb
    rw [hcf _ (rigid_mul ha hb), hcf a ha, hcf b hb]
    ext i j
    fin_cases i <;> fin_cases j <;>
      simp [Matrix.mul_apply, Fin.sum_univ_three, Fin.sum_univ_four, a2, a3, a4, a5, a6, b2, b3, b4, b5, b6] <;>
      ring

/-- A quarter turn with a translation is rigid. -/
example : IsRigid !![0, -1, 3; 1, 0, -2; 0, 0, 1] := by
  rw [isRigid_iff]
  simp

/-- `getDisplacement` and `getAngle` are distance and angle of the pose the transform stands for;
`getAngleDiffrence` is the normalised difference. -/
theorem C44_displacement_angle (p q : Pose) :
    getDisplacement (getTransFromPose p) = Real.sqrt (p.x ^ 2 + p.y ^ 2) ∧
    getAngle (getTransFromPose p) = normalizeAngle p.th ∧
    getAngleDiffrence p q = normalizeAngle (q.th - p.th) := by
  refine ⟨?_, ?_, rfl⟩
  · simp [getDisplacement, getTransFromPose]
  · simp [getAngle, getTransFromPose, normalizeAngle]

/-! ### C45 -/

/-- C45 except for the product of transforms: the relative transform carries `a` to `b` (angle
normalised), also in chains; between equal poses it is the identity; `transformConcat` composes. -/
theorem C45_relative_partial (a b c : Pose) :
    transformPose a (transBtwPoses a b) = ⟨b.x, b.y, normalizeAngle b.th⟩ ∧
    transBtwPoses a a = 1 ∧
    transformPose (transformPose a (transBtwPoses a b)) (transBtwPoses b c) =
      transformPose a (transBtwPoses a c) ∧
    transformConcat a (getTransFromPose b) = ⟨(compose a b).x, (compose a b).y, normalizeAngle (a.th + b.th)⟩ := by
  have h1 : ∀ a b : Pose, transformPose a (transBtwPoses a b) = ⟨b.x, b.y, normalizeAngle b.th⟩ := by
    intro a b
    unfold transformPose transBtwPoses
    simp only [pose_trans, normalized, normalizeAngle_idem, normalizeAngle_add, Slam.Pose.mk.injEq]
    exact ⟨by ring, by ring, by congr 1; ring⟩
  refine ⟨h1 a b, ?_, ?_, ?_⟩
  · unfold transBtwPoses
    rw [← trans_zero]
    apply trans_samePose
    refine ⟨by simp, by simp, ?_⟩
    show SameAngle (normalizeAngle (a.th - a.th)) 0
    have := normalizeAngle_same (a.th - a.th)
    rwa [sub_self] at this ⊢
  · rw [h1 a b, h1 a c]
    unfold transformPose transBtwPoses
    simp only [pose_trans, normalized, normalizeAngle_idem, normalizeAngle_add, Slam.Pose.mk.injEq]
    refine ⟨by ring, by ring, ?_⟩
    rw [add_comm, normalizeAngle_add]
    congr 1
    ring
  · unfold transformConcat
    rw [trans_mul, pose_trans]
    rfl

/-- Negation of the composition law of C45 for the product of transforms: a quarter turn on the spot
followed by a step along x. -/
theorem C45_false_product :
    transBtwPoses ⟨0, 0, 0⟩ ⟨0, 0, Real.pi / 2⟩ * transBtwPoses ⟨0, 0, Real.pi / 2⟩ ⟨1, 0, Real.pi / 2⟩ ≠
      transBtwPoses ⟨0, 0, 0⟩ ⟨1, 0, Real.pi / 2⟩ := by
  intro h
  have h02 := congrFun (congrFun h 0) 2
  have e : normalizeAngle (Real.pi / 2) = Real.pi / 2 :=
    normalizeAngle_of_mem (by linarith [Real.pi_pos]) (by linarith [Real.pi_pos])
  simp [transBtwPoses, getTransFromPose, Matrix.mul_apply, Fin.sum_univ_three, e] at h02

/-! ### C46 -/

/-- C46.  The error of a constraint vanishes exactly if the second pose is the first pose composed with the
transform of the constraint, up to full turns. -/
theorem C46_error_zero_iff (x y z : Pose) : calcError x y z = ⟨0, 0, 0⟩ ↔ SamePose y (compose x z) := by
  have key : calcError x y z = getPoseFromTransform ((getTransFromPose (compose x z))⁻¹ * getTransFromPose y) := by
    unfold calcError
    simp only
    rw [← trans_mul, Matrix.mul_inv_rev, Matrix.mul_assoc]
  have hr : IsRigid ((getTransFromPose (compose x z))⁻¹ * getTransFromPose y) := by
    rw [trans_inv]
    exact rigid_mul (getTransFromPose_rigid _) (getTransFromPose_rigid _)
  constructor
  · intro h
    apply samePose_of_trans
    have h1 := trans_pose hr
    rw [← key, h, trans_zero] at h1
    rw [← Matrix.one_mul (getTransFromPose y), ← trans_mul_inv (compose x z), Matrix.mul_assoc, ← h1,
      Matrix.mul_one]
  · intro h
    rw [key, trans_samePose h, trans_inv_mul, ← trans_zero, pose_trans]
    have : normalizeAngle 0 = 0 :=
      normalizeAngle_of_mem (by linarith [Real.pi_pos]) (le_of_lt Real.pi_pos)
    simp [normalized, this]

/-- A constraint that is met up to a full turn. -/
example : calcError ⟨1, 2, Real.pi / 2⟩ ⟨1, 5, Real.pi / 2 + 2 * Real.pi⟩ ⟨3, 0, 0⟩ = ⟨0, 0, 0⟩ := by
  rw [C46_error_zero_iff]
  refine ⟨?_, ?_, ⟨1, ?_⟩⟩ <;> simp [compose, toWorld]
  norm_num

/-! ### C47 -/

/-- Closed form of the error. -/
theorem calcError_eq (x y z : Pose) : calcError x y z =
    ⟨Real.cos (z.th + x.th) * (y.x - x.x) + Real.sin (z.th + x.th) * (y.y - x.y) -
        (Real.cos z.th * z.x + Real.sin z.th * z.y),
      -Real.sin (z.th + x.th) * (y.x - x.x) + Real.cos (z.th + x.th) * (y.y - x.y) -
        (-Real.sin z.th * z.x + Real.cos z.th * z.y),
      normalizeAngle (y.th - x.th - z.th)⟩ := by
  unfold calcError
  simp only
  rw [trans_inv, trans_inv, trans_mul, trans_mul, pose_trans]
  have h := Real.sin_sq_add_cos_sq z.th
  simp only [normalized, compose, toWorld, invPose, Slam.Pose.mk.injEq, Real.cos_neg, Real.sin_neg,
    Real.cos_add, Real.sin_add]
  refine ⟨by ring, by ring, ?_⟩
  congr 1
  ring

/-- Off the branch cut `normalizeAngle` is locally a shift. -/
theorem normalizeAngle_local {a : ℝ} (h : Real.cos a ≠ -1) :
    ∃ k : ℤ, ∀ᶠ b in nhds a, normalizeAngle b = b + k * (2 * Real.pi) := by
  obtain ⟨k, hk⟩ := normalizeAngle_same a
  obtain ⟨h1, h2⟩ := normalizeAngle_mem a
  have h3 : normalizeAngle a < Real.pi := by
    rcases lt_or_eq_of_le h2 with h3 | h3
    · exact h3
    · exfalso
      apply h
      rw [← cos_normalizeAngle, h3, Real.cos_pi]
  refine ⟨k, ?_⟩
  have hc : ContinuousAt (fun b : ℝ => b + k * (2 * Real.pi)) a := by fun_prop
  have e1 : ∀ᶠ b in nhds a, -Real.pi < b + k * (2 * Real.pi) :=
    hc.eventually (lt_mem_nhds (by show _ < a + k * (2 * Real.pi); rw [← hk]; exact h1))
  have e2 : ∀ᶠ b in nhds a, b + k * (2 * Real.pi) < Real.pi :=
    hc.eventually (gt_mem_nhds (by show a + k * (2 * Real.pi) < _; rw [← hk]; exact h3))
  filter_upwards [e1, e2] with b hb1 hb2
  rw [← normalizeAngle_of_mem hb1 hb2.le]
  exact normalizeAngle_congr (SameAngle.symm ⟨k, rfl⟩)

/-- Coordinate `i` of the first pose. -/
noncomputable def projA (i : Fin 3) : (Fin 3 → ℝ) × (Fin 3 → ℝ) →L[ℝ] ℝ :=
  (ContinuousLinearMap.proj (R := ℝ) (φ := fun _ : Fin 3 => ℝ) i).comp (ContinuousLinearMap.fst ℝ _ _)

/-- Coordinate `i` of the second pose. -/
noncomputable def projB (i : Fin 3) : (Fin 3 → ℝ) × (Fin 3 → ℝ) →L[ℝ] ℝ :=
  (ContinuousLinearMap.proj (R := ℝ) (φ := fun _ : Fin 3 => ℝ) i).comp (ContinuousLinearMap.snd ℝ _ _)

theorem projA_apply (i : Fin 3) (v : (Fin 3 → ℝ) × (Fin 3 → ℝ)) : projA i v = v.1 i := rfl

theorem projB_apply (i : Fin 3) (v : (Fin 3 → ℝ) × (Fin 3 → ℝ)) : projB i v = v.2 i := rfl

theorem hasA (i : Fin 3) (v : (Fin 3 → ℝ) × (Fin 3 → ℝ)) :
    HasFDerivAt (fun v : (Fin 3 → ℝ) × (Fin 3 → ℝ) => v.1 i) (projA i) v := (projA i).hasFDerivAt

theorem hasB (i : Fin 3) (v : (Fin 3 → ℝ) × (Fin 3 → ℝ)) :
    HasFDerivAt (fun v : (Fin 3 → ℝ) × (Fin 3 → ℝ) => v.2 i) (projB i) v := (projB i).hasFDerivAt

/-- Row `r` of the Jacobians. -/
def IsRow (L : (Fin 3 → ℝ) × (Fin 3 → ℝ) →L[ℝ] ℝ) (a b : Trans) (r : Fin 3) : Prop :=
  ∀ u w, L (u, w) = a r 0 * u 0 + a r 1 * u 1 + a r 2 * u 2 + (b r 0 * w 0 + b r 1 * w 1 + b r 2 * w 2)

/-- Jacobians row by row. -/
theorem hasJacobians_of {f : Pose → Pose → Pose} {a b : Trans} {p q : Pose}
    {L0 L1 L2 : (Fin 3 → ℝ) × (Fin 3 → ℝ) →L[ℝ] ℝ}
    (h0 : HasFDerivAt (fun v : (Fin 3 → ℝ) × (Fin 3 → ℝ) => (f (ofVec v.1) (ofVec v.2)).x) L0 (vec p, vec q))
    (h1 : HasFDerivAt (fun v : (Fin 3 → ℝ) × (Fin 3 → ℝ) => (f (ofVec v.1) (ofVec v.2)).y) L1 (vec p, vec q))
    (h2 : HasFDerivAt (fun v : (Fin 3 → ℝ) × (Fin 3 → ℝ) => (f (ofVec v.1) (ofVec v.2)).th) L2 (vec p, vec q))
    (e0 : IsRow L0 a b 0) (e1 : IsRow L1 a b 1) (e2 : IsRow L2 a b 2) : HasJacobians f a b p q := by
  refine ⟨ContinuousLinearMap.pi ![L0, L1, L2], hasFDerivAt_pi.2 fun r => ?_, fun u w => ?_⟩
  · fin_cases r
    · exact h0
    · exact h1
    · exact h2
  · funext r
    rw [ContinuousLinearMap.pi_apply]
    have : ![L0, L1, L2] r (u, w) = a r 0 * u 0 + a r 1 * u 1 + a r 2 * u 2 +
        (b r 0 * w 0 + b r 1 * w 1 + b r 2 * w 2) := by
      fin_cases r
      · exact e0 u w
      · exact e1 u w
      · exact e2 u w
    rw [this]
    simp [Matrix.mulVec, dotProduct, Fin.sum_univ_three]

/-- C47.  `calcJacobianBlocks` are the partial derivatives of the constraint error with respect to the two
poses wherever the angular error is not exactly half a turn. -/
theorem C47_jacobian (xi xj z : Pose) (hcut : Real.cos (xj.th - xi.th - z.th) ≠ -1) :
    HasJacobians (fun x y => calcError x y z) (calcJacobianBlocks xi xj z).1
      (calcJacobianBlocks xi xj z).2 xi xj := by
  obtain ⟨k, hk⟩ := normalizeAngle_local hcut
  set v0 : (Fin 3 → ℝ) × (Fin 3 → ℝ) := (vec xi, vec xj) with hv0
  have hang : HasFDerivAt (fun v : (Fin 3 → ℝ) × (Fin 3 → ℝ) => z.th + v.1 2) (projA 2) v0 :=
    (hasA 2 v0).const_add z.th
  have hx := (hasB 0 v0).sub (hasA 0 v0)
  have hy := (hasB 1 v0).sub (hasA 1 v0)
  have h0 := ((hang.cos.mul hx).add (hang.sin.mul hy)).sub_const
    (Real.cos z.th * z.x + Real.sin z.th * z.y)
  have h1 := ((hang.sin.neg.mul hx).add (hang.cos.mul hy)).sub_const
    (-Real.sin z.th * z.x + Real.cos z.th * z.y)
  have h2 : HasFDerivAt (fun v : (Fin 3 → ℝ) × (Fin 3 → ℝ) => normalizeAngle (v.2 2 - v.1 2 - z.th))
      (projB 2 - projA 2) v0 := by
    have hl := (((hasB 2 v0).sub (hasA 2 v0)).sub_const z.th).add_const (k * (2 * Real.pi))
    refine hl.congr_of_eventuallyEq ?_
    have hc : ContinuousAt (fun v : (Fin 3 → ℝ) × (Fin 3 → ℝ) => v.2 2 - v.1 2 - z.th) v0 := by fun_prop
    exact hc.eventually (by exact hk)
  refine hasJacobians_of
    (h0.congr_of_eventuallyEq (Filter.Eventually.of_forall fun v => by simp [calcError_eq, ofVec]))
    (h1.congr_of_eventuallyEq (Filter.Eventually.of_forall fun v => by simp [calcError_eq, ofVec]))
    (h2.congr_of_eventuallyEq (Filter.Eventually.of_forall fun v => by simp [calcError_eq, ofVec]))
    (fun u w => ?_) (fun u w => ?_) (fun u w => ?_)
  all_goals simp [hv0, vec, projA_apply, projB_apply, calcJacobianBlocks] <;> ring

/-- The hypothesis holds for small angular errors, e.g. for a met constraint. -/
example : Real.cos ((1 / 2 : ℝ) - 1 / 4 - 1 / 4) ≠ -1 := by norm_num

/-! ### C48 -/

theorem jacc1_conj {p : Trans} (co si tx ty : ℝ) (hp : p.PosSemidef) :
    (jacc1 co si tx ty * p * (jacc1 co si tx ty).transpose).PosSemidef := by
  rw [← Matrix.conjTranspose_eq_transpose_of_trivial]
  exact hp.mul_mul_conjTranspose_same _

theorem jacc2_conj {p : Trans} (co si : ℝ) (hp : p.PosSemidef) :
    (jacc2 co si * p * (jacc2 co si).transpose).PosSemidef := by
  rw [← Matrix.conjTranspose_eq_transpose_of_trivial]
  exact hp.mul_mul_conjTranspose_same _

/-- C48.  `addToCovar` keeps covariances positive semidefinite, is monotone in both of them, and the
determinant of the result is not below that of either input. -/
theorem C48_propagation (t : Trans) :
    (∀ p q : Trans, p.PosSemidef → q.PosSemidef → (addToCovar p q t).PosSemidef ∧
      p.det ≤ (addToCovar p q t).det ∧ q.det ≤ (addToCovar p q t).det) ∧
    (∀ p p' q q' : Trans, (p' - p).PosSemidef → (q' - q).PosSemidef →
      (addToCovar p' q' t - addToCovar p q t).PosSemidef) := by
  constructor
  · intro p q hp hq
    unfold addToCovar
    simp only
    have h1 := jacc1_conj (Real.cos (atan2 (t 1 0) (t 0 0))) (Real.sin (atan2 (t 1 0) (t 0 0))) (t 0 2) (t 1 2) hp
    have h2 := jacc2_conj (Real.cos (atan2 (t 1 0) (t 0 0))) (Real.sin (atan2 (t 1 0) (t 0 0))) hq
    refine ⟨h1.add h2, ?_, ?_⟩
    · have := det_le_add h1 h2
      rwa [Matrix.det_mul, Matrix.det_mul, Matrix.det_transpose, det_jacc1, one_mul, mul_one] at this
    · have := det_le_add h2 h1
      rw [Matrix.det_mul, Matrix.det_mul, Matrix.det_transpose, det_jacc2, one_mul, mul_one] at this
      rwa [add_comm]
  · intro p p' q q' hp hq
    have h1 := jacc1_conj (Real.cos (atan2 (t 1 0) (t 0 0))) (Real.sin (atan2 (t 1 0) (t 0 0))) (t 0 2) (t 1 2) hp
    have h2 := jacc2_conj (Real.cos (atan2 (t 1 0) (t 0 0))) (Real.sin (atan2 (t 1 0) (t 0 0))) hq
    have e := h1.add h2
    rw [Matrix.mul_sub, Matrix.sub_mul, Matrix.mul_sub, Matrix.sub_mul] at e
    convert e using 1
    unfold addToCovar
    simp only
    abel

/-- C48 along a whole trajectory: starting from the identity (the default constructor), any number of
propagations with positive semidefinite covariances gives a positive definite covariance with determinant at
least one. -/
theorem C48_trajectory (steps : List (Trans × Trans)) (h : ∀ s ∈ steps, s.1.PosSemidef) :
    (steps.foldl (fun c s => addToCovar c s.1 s.2) 1).PosDef ∧
    1 ≤ (steps.foldl (fun c s => addToCovar c s.1 s.2) (1 : Trans)).det := by
  have key : ∀ (steps : List (Trans × Trans)) (c : Trans), (∀ s ∈ steps, s.1.PosSemidef) → c.PosSemidef →
      1 ≤ c.det → (steps.foldl (fun c s => addToCovar c s.1 s.2) c).PosSemidef ∧
        1 ≤ (steps.foldl (fun c s => addToCovar c s.1 s.2) c).det := by
    intro steps
    induction steps with
    | nil => intro c _ h1 h2; exact ⟨h1, h2⟩
    | cons s steps ih =>
      intro c hs h1 h2
      obtain ⟨e1, e2, -⟩ := (C48_propagation s.2).1 c s.1 h1 (hs s (by simp))
      exact ih _ (fun x hx => hs x (by simp [hx])) e1 (h2.trans e2)
  obtain ⟨h1, h2⟩ := key steps 1 h Matrix.PosSemidef.one (by simp)
  refine ⟨?_, h2⟩
  have hu : IsUnit (steps.foldl (fun c s => addToCovar c s.1 s.2) (1 : Trans)) :=
    (Matrix.isUnit_iff_isUnit_det _).2 (isUnit_iff_ne_zero.2 (by linarith))
  exact h1.posDef_iff_isUnit.2 hu

/-- Positive semidefinite matrices as used by the program. -/
example : (diagonal ![0.2, 0.2, 0.1] : Trans).PosSemidef ∧ ¬ (diagonal ![0.2, 0.2, 0.1] : Trans) = 1 := by
  constructor
  · rw [Matrix.posSemidef_diagonal_iff]
    intro i
    fin_cases i <;> norm_num
  · intro h
    have := congrFun (congrFun h 0) 0
    norm_num at this

/-! ### C76 -/

/-- What `covarInverse` computes for a matrix with positive trace. -/
theorem covarInverse_eq {eig : NDT.Eig} (he : NDT.EigOk eig) {cov : Trans} (hsym : cov.transpose = cov) :
    cov.trace = (eig cov).2 0 + (eig cov).2 1 + (eig cov).2 2 ∧
    (0 < cov.trace → 0 < (eig cov).2 2 ∧ ∃ e : Fin 3 → ℝ,
      covarInverse eig cov = some ((eig cov).1 * diagonal e * (eig cov).1.transpose,
        (eig cov).1 * (diagonal e)⁻¹ * (eig cov).1.transpose) ∧
      e 2 = (eig cov).2 2 / 100 ∧ ∀ i, (eig cov).2 2 / 100 ≤ e i ∧ e i ≤ (eig cov).2 2) := by
  obtain ⟨h1, h2, h3, h4⟩ := he cov hsym
  have htr : cov.trace = (eig cov).2 0 + (eig cov).2 1 + (eig cov).2 2 := by
    conv_lhs => rw [h2]
    rw [Matrix.trace_mul_comm, ← Matrix.mul_assoc, mul_eq_one_comm.1 h1, Matrix.one_mul, Matrix.trace_diagonal,
      Fin.sum_univ_three]
  refine ⟨htr, fun hpos => ?_⟩
  unfold covarInverse
  simp only
  set d := (eig cov).2
  have hd2 : 0 < d 2 := by
    rw [htr] at hpos
    linarith
  have hm : maxCoeff d = d 2 := by
    unfold maxCoeff
    rw [max_eq_right h3, max_eq_right h4, max_eq_left hd2.le]
  have c1 : clampEval d 1 = (d 2 / 100, true) := by
    unfold clampEval linearIndex
    rw [hm, if_pos]
    simpa using hd2
  have c2 : clampEval d 2 = (d 2 / 100, true) := by
    unfold clampEval linearIndex
    rw [hm, if_pos]
    simpa using hd2
  refine ⟨hd2, fun i => (clampEval d i).1, ?_, by simp only [c2], ?_⟩
  · rw [if_neg (by rw [← htr]; exact not_le.2 hpos), c1, c2]
    simp
  · intro i
    fin_cases i
    · show _ ≤ (clampEval d 0).1 ∧ (clampEval d 0).1 ≤ _
      unfold clampEval linearIndex
      rw [hm, if_pos rfl]
      split_ifs with h
      · exact ⟨le_rfl, by linarith⟩
      · push Not at h
        exact ⟨by simp only; linarith, h3.trans h4⟩
    · show _ ≤ (clampEval d 1).1 ∧ (clampEval d 1).1 ≤ _
      rw [c1]
      exact ⟨le_rfl, by simp only; linarith⟩
    · show _ ≤ (clampEval d 2).1 ∧ (clampEval d 2).1 ≤ _
      rw [c2]
      exact ⟨le_rfl, by simp only; linarith⟩

/-- C76 except that well-conditioned covariances should stay as they are: `covarInverse` fails exactly if the
trace is not positive; otherwise the adjusted covariance is positive definite with no direction below one
percent of another, and `icov` is its inverse. -/
theorem C76_covarInverse_partial {eig : NDT.Eig} (he : NDT.EigOk eig) (cov : Trans)
    (hsym : cov.transpose = cov) :
    (covarInverse eig cov = none ↔ cov.trace ≤ 0) ∧
    ∀ adj icov, covarInverse eig cov = some (adj, icov) →
      adj.PosDef ∧ NDT.Conditioned adj ∧ adj * icov = 1 := by
  obtain ⟨htr, hpos⟩ := covarInverse_eq he hsym
  obtain ⟨h1, -, -, -⟩ := he cov hsym
  have h1' := mul_eq_one_comm.1 h1
  constructor
  · constructor
    · intro h
      by_contra hc
      obtain ⟨-, e, h2, -⟩ := hpos (not_le.1 hc)
      rw [h2] at h
      cases h
    · intro h
      unfold covarInverse
      simp only
      rw [if_pos (by rw [← htr]; exact h)]
  · intro adj icov h
    have hp : 0 < cov.trace := by
      by_contra hc
      unfold covarInverse at h
      simp only at h
      rw [if_pos (by rw [← htr]; exact not_lt.1 hc)] at h
      cases h
    obtain ⟨hd2, e, h2, -, he'⟩ := hpos hp
    rw [h2] at h
    simp only [Option.some.injEq, Prod.mk.injEq] at h
    obtain ⟨rfl, rfl⟩ := h
    set q := (eig cov).1
    set d := (eig cov).2
    have hpd : (diagonal e).PosDef := by
      rw [Matrix.posDef_diagonal_iff]
      intro i
      have := (he' i).1
      linarith
    refine ⟨?_, ?_, ?_⟩
    · rw [← Matrix.conjTranspose_eq_transpose_of_trivial]
      exact hpd.mul_mul_conjTranspose_same
        (vecMul_injective_of_isUnit ((Matrix.isUnit_iff_isUnit_det q).2
          (Matrix.isUnit_det_of_left_inverse h1')))
    · intro x y hxy
      rw [NDT.quad_eig, NDT.quad_eig]
      have e1 : ∑ i, e i * (q.transpose.mulVec y) i ^ 2 ≤ d 2 * (y ⬝ᵥ y) := by
        rw [← NDT.norm_eig h1 y, Finset.mul_sum]
        exact Finset.sum_le_sum fun i _ => mul_le_mul_of_nonneg_right (he' i).2 (sq_nonneg _)
      have e2 : d 2 / 100 * (x ⬝ᵥ x) ≤ ∑ i, e i * (q.transpose.mulVec x) i ^ 2 := by
        rw [← NDT.norm_eig h1 x, Finset.mul_sum]
        exact Finset.sum_le_sum fun i _ => mul_le_mul_of_nonneg_right (he' i).1 (sq_nonneg _)
      rw [hxy] at e2
      linarith
    · have hu : IsUnit (diagonal e).det := isUnit_iff_ne_zero.2 (ne_of_gt hpd.det_pos)
      calc q * diagonal e * q.transpose * (q * (diagonal e)⁻¹ * q.transpose)
          = q * (diagonal e * (q.transpose * q) * (diagonal e)⁻¹) * q.transpose := by
            simp only [Matrix.mul_assoc]
        _ = 1 := by rw [h1', Matrix.mul_one, Matrix.mul_nonsing_inv _ hu, Matrix.mul_one, h1]

/-- Negation of C76: every symmetric matrix with positive trace is changed, and its largest variance is
divided by one hundred. -/
theorem C76_false {eig : NDT.Eig} (he : NDT.EigOk eig) (cov : Trans) (hsym : cov.transpose = cov)
    (htr : 0 < cov.trace) : ∃ adj icov, covarInverse eig cov = some (adj, icov) ∧ adj ≠ cov ∧
      ∃ v : Fin 3 → ℝ, v ⬝ᵥ v = 1 ∧ (∀ w : Fin 3 → ℝ, w ⬝ᵥ w = 1 → w ⬝ᵥ cov.mulVec w ≤ v ⬝ᵥ cov.mulVec v) ∧
        v ⬝ᵥ adj.mulVec v = (v ⬝ᵥ cov.mulVec v) / 100 := by
  obtain ⟨hd2, e, h2, he2, -⟩ := (covarInverse_eq he hsym).2 htr
  obtain ⟨h1, hcov, h3, h4⟩ := he cov hsym
  have h1' := mul_eq_one_comm.1 h1
  set q := (eig cov).1
  set d := (eig cov).2
  have hv : ∀ f : Fin 3 → ℝ, (q.mulVec (Pi.single 2 1)) ⬝ᵥ
      (q * diagonal f * q.transpose).mulVec (q.mulVec (Pi.single 2 1)) = f 2 := by
    intro f
    rw [NDT.quad_eig, mulVec_mulVec, h1', one_mulVec]
    simp [Pi.single_apply]
  have e1 : (q.mulVec (Pi.single 2 1)) ⬝ᵥ cov.mulVec (q.mulVec (Pi.single 2 1)) = d 2 := by
    rw [hcov]
    exact hv d
  refine ⟨_, _, h2, ?_, q.mulVec (Pi.single 2 1), ?_, ?_, ?_⟩
  · intro hc
    have := hv e
    rw [hc, e1, he2] at this
    linarith
  · rw [← NDT.norm_eig h1, mulVec_mulVec, h1', one_mulVec]
    simp [Pi.single_apply]
  · intro w hw
    rw [e1]
    conv_lhs => rw [hcov]
    rw [NDT.quad_eig]
    calc ∑ i, d i * (q.transpose.mulVec w) i ^ 2 ≤ ∑ i, d 2 * (q.transpose.mulVec w) i ^ 2 := by
          apply Finset.sum_le_sum
          intro i _
          apply mul_le_mul_of_nonneg_right _ (sq_nonneg _)
          fin_cases i
          · exact h3.trans h4
          · exact h4
          · exact le_rfl
      _ = d 2 := by rw [← Finset.mul_sum, NDT.norm_eig h1, hw, mul_one]
  · rw [hv, e1, he2]

/-! ### C77 -/

theorem compose_jacobians (p q : Pose) : HasJacobians compose (jacc1 (Real.cos p.th) (Real.sin p.th) q.x q.y)
    (jacc2 (Real.cos p.th) (Real.sin p.th)) p q := by
  set v0 : (Fin 3 → ℝ) × (Fin 3 → ℝ) := (vec p, vec q) with hv0
  have hc := (hasA 2 v0).cos
  have hs := (hasA 2 v0).sin
  have h0 := (hasA 0 v0).add ((hc.mul (hasB 0 v0)).sub (hs.mul (hasB 1 v0)))
  have h1 := (hasA 1 v0).add ((hs.mul (hasB 0 v0)).add (hc.mul (hasB 1 v0)))
  have h2 := (hasA 2 v0).add (hasB 2 v0)
  refine hasJacobians_of
    (h0.congr_of_eventuallyEq (Filter.Eventually.of_forall fun v => by simp [compose, toWorld, ofVec]))
    (h1.congr_of_eventuallyEq (Filter.Eventually.of_forall fun v => by simp [compose, toWorld, ofVec]))
    (h2.congr_of_eventuallyEq (Filter.Eventually.of_forall fun v => by simp [compose, toWorld, ofVec]))
    (fun u w => ?_) (fun u w => ?_) (fun u w => ?_)
  all_goals simp [hv0, vec, projA_apply, projB_apply, jacc1, jacc2] <;> ring

/-- Jacobians are unique. -/
theorem hasJacobians_unique {f : Pose → Pose → Pose} {a b a' b' : Trans} {p q : Pose}
    (h : HasJacobians f a b p q) (h' : HasJacobians f a' b' p q) : a = a' ∧ b = b' := by
  obtain ⟨L, h1, h2⟩ := h
  obtain ⟨L', h1', h2'⟩ := h'
  have e := h1.unique h1'
  subst e
  constructor
  · ext i j
    have := congrFun ((h2 (Pi.single j 1) 0).symm.trans (h2' (Pi.single j 1) 0)) i
    simpa using this
  · ext i j
    have := congrFun ((h2 0 (Pi.single j 1)).symm.trans (h2' 0 (Pi.single j 1))) i
    simpa using this

/-- C77 for the covariance computed by the loop search: it is the first-order propagation of the two
covariances through the composition of the two motions (the Jacobians of the composition are `J1` and `J2`). -/
theorem C77_edge_covariance_partial (e new : EdgeCov) :
    ∃ J1 J2 : Trans, HasJacobians compose J1 J2 (getPoseFromTransform e.t) (getPoseFromTransform new.t) ∧
      (e.add new).cov = J1 * e.cov * J1.transpose + J2 * new.cov * J2.transpose ∧
      (e.add new).det = (e.add new).cov.det :=
  ⟨_, _, compose_jacobians _ _, rfl, rfl⟩

/-- C77 for a chain of motions appended one after the other: the start stays, the node is the one of the last
motion, hops are counted, distances add up, and the transform is the product in the opposite order of travel
(`C77_false_transform` for why this is not the composition). -/
theorem C77_chain_partial (e : EdgeCov) (es : List EdgeCov) :
    (es.foldl EdgeCov.add e).start = e.start ∧
    (es.foldl EdgeCov.add e).node = ((e :: es).getLast (List.cons_ne_nil _ _)).node ∧
    (es.foldl EdgeCov.add e).hop = e.hop + es.length ∧
    (es.foldl EdgeCov.add e).dist = e.dist + (es.map EdgeCov.dist).sum ∧
    (es.foldl EdgeCov.add e).t = (es.map EdgeCov.t).reverse.prod * e.t := by
  induction es generalizing e with
  | nil => simp
  | cons a es ih =>
    obtain ⟨h1, h2, h3, h4, h5⟩ := ih (e.add a)
    refine ⟨h1, ?_, ?_, ?_, ?_⟩
    · rw [List.foldl_cons, h2]
      cases es <;> rfl
    · rw [List.foldl_cons, h3, show (e.add a).hop = e.hop + 1 from rfl, List.length_cons]
      omega
    · rw [List.foldl_cons, h4, show (e.add a).dist = e.dist + a.dist from rfl, List.map_cons, List.sum_cons]
      ring
    · rw [List.foldl_cons, h5, show (e.add a).t = a.t * e.t from rfl, List.map_cons, List.reverse_cons,
        List.prod_append, List.prod_singleton, Matrix.mul_assoc]

/-- Negation of C77 for the transform stored with it: it is the composition in the opposite order. -/
theorem C77_false_transform : ∃ e new : EdgeCov, IsRigid e.t ∧ IsRigid new.t ∧
    (e.add new).t ≠ e.t * new.t := by
  refine ⟨⟨0, 0, 0, 0, !![0, -1, 0; 1, 0, 0; 0, 0, 1], 0, 0⟩, ⟨0, 0, 0, 0, !![1, 0, 1; 0, 1, 0; 0, 0, 1], 0, 0⟩,
    by rw [isRigid_iff]; simp, by rw [isRigid_iff]; simp, ?_⟩
  intro h
  have := congrFun (congrFun h 0) 2
  simp [EdgeCov.add, Matrix.mul_apply, Fin.sum_univ_three] at this

/-- Negation of C77 for `addToCovar` with the accumulated motion `acc`: the Jacobian is taken at the angle of
the new motion instead of the accumulated one, so the result is wrong even for a covariance in the angle
alone. -/
theorem C77_false_wrapper : ∃ (acc t : Pose) (p q : Trans), p.PosSemidef ∧ q.PosSemidef ∧
    ∀ J1 J2, HasJacobians compose J1 J2 acc t →
      addToCovar p q (getTransFromPose t) ≠ J1 * p * J1.transpose + J2 * q * J2.transpose := by
  refine ⟨⟨0, 0, Real.pi / 2⟩, ⟨1, 0, 0⟩, diagonal ![0, 0, 1], 0, ?_, Matrix.PosSemidef.zero, ?_⟩
  · rw [Matrix.posSemidef_diagonal_iff]
    intro i
    fin_cases i <;> norm_num
  · intro J1 J2 hJ h
    obtain ⟨rfl, rfl⟩ := hasJacobians_unique hJ (compose_jacobians _ _)
    have h02 := congrFun (congrFun h 0) 0
    have ha : atan2 0 1 = 0 := by
      have h1 := normalizeAngle_of_mem (a := 0) (by linarith [Real.pi_pos]) (le_of_lt Real.pi_pos)
      simpa [normalizeAngle] using h1
    simp [addToCovar, getTransFromPose, jacc1, jacc2, Matrix.mul_apply, Fin.sum_univ_three, ha] at h02
    simp [Matrix.vecMul, dotProduct, Matrix.mul_apply, Fin.sum_univ_three, diagonal_apply] at h02

/-! ### C78 -/

/-- C78.  `transBtwFrames(a, b)` turns coordinates in the frame of `a` into coordinates in the frame of `b` of
the same point of the world; it is rigid, composes, and is the identity between equal frames. -/
theorem C78_frames (a b c : Pose) :
    (∀ v, toWorld b (act (transBtwFrames a b) v) = toWorld a v) ∧
    IsRigid (transBtwFrames a b) ∧
    transBtwFrames b c * transBtwFrames a b = transBtwFrames a c ∧
    transBtwFrames a a = 1 ∧ transBtwFrames b a = (transBtwFrames a b)⁻¹ := by
  have hmul : transBtwFrames b c * transBtwFrames a b = transBtwFrames a c := by
    rw [transBtwFrames_eq, transBtwFrames_eq, transBtwFrames_eq, Matrix.mul_assoc,
      ← Matrix.mul_assoc (getTransFromPose b), trans_mul_inv, Matrix.one_mul]
  refine ⟨fun v => ?_, ?_, hmul, ?_, ?_⟩
  · rw [← act_trans, ← act_trans, transBtwFrames_eq]
    have : act (getTransFromPose b) (act ((getTransFromPose b)⁻¹ * getTransFromPose a) v) =
        act (getTransFromPose b * ((getTransFromPose b)⁻¹ * getTransFromPose a)) v := by
      have hr : IsRigid ((getTransFromPose b)⁻¹ * getTransFromPose a) := by
        rw [trans_inv]
        exact rigid_mul (getTransFromPose_rigid _) (getTransFromPose_rigid _)
      obtain ⟨-, -, -, h4, h5, h6⟩ := (isRigid_iff _).1 hr
      generalize (getTransFromPose b)⁻¹ * getTransFromPose a = m at h4 h5 h6
      simp only [act, Matrix.mul_apply, Fin.sum_univ_three, h4, h5, h6]
      ext <;> simp <;> ring
    rw [this, ← Matrix.mul_assoc, trans_mul_inv, Matrix.one_mul]
  · rw [transBtwFrames_eq, trans_inv]
    exact rigid_mul (getTransFromPose_rigid _) (getTransFromPose_rigid _)
  · rw [transBtwFrames_eq, trans_inv_mul]
  · symm
    apply Matrix.inv_eq_right_inv
    rw [transBtwFrames_eq, transBtwFrames_eq, Matrix.mul_assoc, ← Matrix.mul_assoc (getTransFromPose a),
      trans_mul_inv, Matrix.one_mul, trans_inv_mul]

/-! ### C118 -/

/-- C118.  Adding increments to the pose of a node: position and angle are the sums, the angle normalised into
`(-π, π]`; therefore the order of the increments does not matter. -/
theorem C118_addPoses (p : Pose) (ds : List Pose) :
    (ds.foldl addPoses p).x = p.x + (ds.map (·.x)).sum ∧
    (ds.foldl addPoses p).y = p.y + (ds.map (·.y)).sum ∧
    SameAngle (ds.foldl addPoses p).th (p.th + (ds.map (·.th)).sum) ∧
    (ds ≠ [] → -Real.pi < (ds.foldl addPoses p).th ∧ (ds.foldl addPoses p).th ≤ Real.pi) ∧
    ∀ ds', ds.Perm ds' → ds.foldl addPoses p = ds'.foldl addPoses p := by
  have key : ∀ (ds : List Pose) (p : Pose),
      (ds.foldl addPoses p).x = p.x + (ds.map (·.x)).sum ∧
      (ds.foldl addPoses p).y = p.y + (ds.map (·.y)).sum ∧
      SameAngle (ds.foldl addPoses p).th (p.th + (ds.map (·.th)).sum) ∧
      (ds ≠ [] → -Real.pi < (ds.foldl addPoses p).th ∧ (ds.foldl addPoses p).th ≤ Real.pi) := by
    intro ds
    induction ds using List.reverseRecOn with
    | nil => intro p; exact ⟨by simp, by simp, ⟨0, by simp⟩, fun h => absurd rfl h⟩
    | append_singleton ds d ih =>
      intro p
      obtain ⟨h1, h2, ⟨k, h3⟩, -⟩ := ih p
      obtain ⟨⟨a1, a2⟩, ⟨m, a3⟩, -⟩ := C43_normalizeAngle ((ds.foldl addPoses p).th + d.th)
      rw [List.foldl_append, List.foldl_cons, List.foldl_nil]
      refine ⟨?_, ?_, ⟨k + m, ?_⟩, fun _ => ⟨a1, a2⟩⟩
      · show (ds.foldl addPoses p).x + d.x = _
        rw [h1, List.map_append, List.sum_append]; simp; ring
      · show (ds.foldl addPoses p).y + d.y = _
        rw [h2, List.map_append, List.sum_append]; simp; ring
      · show normalizeAngle _ = _
        rw [a3, h3, List.map_append, List.sum_append]; push_cast; simp; ring
  obtain ⟨h1, h2, h3, h4⟩ := key ds p
  refine ⟨h1, h2, h3, h4, fun ds' hp => ?_⟩
  obtain ⟨g1, g2, g3, g4⟩ := key ds' p
  by_cases hne : ds = []
  · subst hne
    rw [List.nil_perm.1 hp]
  · have hne' : ds' ≠ [] := fun h => hne (by subst h; exact List.perm_nil.1 hp)
    rw [← (hp.map _).sum_eq] at g1 g2 g3
    obtain ⟨l1, l2⟩ := h4 hne
    obtain ⟨m1, m2⟩ := g4 hne'
    obtain ⟨k, hk⟩ := h3
    obtain ⟨m, hm⟩ := g3
    have hth : (ds.foldl addPoses p).th = (ds'.foldl addPoses p).th := by
      have e1 : normalizeAngle (ds.foldl addPoses p).th = normalizeAngle (ds'.foldl addPoses p).th := by
        rw [hk, hm]
        unfold normalizeAngle
        rw [Real.sin_add_int_mul_two_pi, Real.cos_add_int_mul_two_pi, Real.sin_add_int_mul_two_pi,
          Real.cos_add_int_mul_two_pi]
      rwa [normalizeAngle_of_mem l1 l2, normalizeAngle_of_mem m1 m2] at e1
    rcases hx : ds.foldl addPoses p with ⟨x, y, t⟩
    rcases hx' : ds'.foldl addPoses p with ⟨x', y', t'⟩
    rw [hx] at h1 h2 hth
    rw [hx'] at g1 g2 hth
    simp only at h1 h2 g1 g2 hth
    rw [h1, h2, g1, g2, hth]

/-- Half a turn added twice: the order independence is not trivial, intermediate angles wrap around. -/
example : ([⟨1, 0, Real.pi⟩, ⟨0, 2, Real.pi⟩] : List Pose).foldl addPoses ⟨0, 0, 0⟩ =
    ([⟨0, 2, Real.pi⟩, ⟨1, 0, Real.pi⟩] : List Pose).foldl addPoses ⟨0, 0, 0⟩ :=
  (C118_addPoses _ _).2.2.2.2 _ (.swap _ _ _)

end Verif.Geo
