import Verif.Node.Spec
import Verif.Algo.Props
import Mathlib.Analysis.SpecialFunctions.Trigonometric.Basic

/-
Properties of the node.
-/
namespace Verif.Node

open Verif Verif.Geo Matrix

variable {σ ι : Type}

/-- The conversion to TF yields the transform of the pose. -/
theorem eigenPoseToTF_eq (p : Pose) : eigenPoseToTF p = getTransFromPose p := by
  have h1 := Real.sin_sq_add_cos_sq (p.th * (1 / 2))
  have hc : Real.cos p.th = 1 - 2 * Real.sin (p.th * (1 / 2)) ^ 2 := by
    have := Real.cos_two_mul (p.th * (1 / 2))
    rw [show 2 * (p.th * (1 / 2)) = p.th by ring] at this
    linarith
  have hs : Real.sin p.th = 2 * Real.sin (p.th * (1 / 2)) * Real.cos (p.th * (1 / 2)) := by
    have := Real.sin_two_mul (p.th * (1 / 2))
    rwa [show 2 * (p.th * (1 / 2)) = p.th by ring] at this
  have hd : Real.sin (p.th * (1 / 2)) * Real.sin (p.th * (1 / 2)) +
      Real.cos (p.th * (1 / 2)) * Real.cos (p.th * (1 / 2)) = 1 := by linarith
  unfold eigenPoseToTF tfOf getTransFromPose
  simp only [hd, div_one, hc, hs]
  apply mat_ext <;> simp <;> ring

theorem tfInverse_eq (p : Pose) : tfInverse (getTransFromPose p) = (getTransFromPose p)⁻¹ := by
  have h := Real.sin_sq_add_cos_sq p.th
  symm
  apply Matrix.inv_eq_right_inv
  unfold tfInverse getTransFromPose
  apply mat_ext <;> simp [Matrix.mul_apply, Fin.sum_univ_three] <;>
    first | nlinarith [h] | linear_combination (-p.x) * h | linear_combination (-p.y) * h

/-- Transform published after an update. -/
theorem updateTFTrans_spec (odom slam : Pose) :
    updateTFTrans odom slam * getTransFromPose odom = getTransFromPose slam := by
  unfold updateTFTrans
  rw [eigenPoseToTF_eq, eigenPoseToTF_eq, tfInverse_eq, Matrix.mul_assoc, trans_inv_mul, Matrix.mul_one]

/-! ### C54 -/

/-- Invariant of the node: the transform is written by every processed message but the first. -/
theorem run_inv {upd : ι → Trans → σ → Res (Pose × σ)} {s₀ : σ} {P : Msg ι → State σ → Prop} {log : List Out} {s : State σ}
    (h : Run upd s₀ P log s) :
    (s.ready = false ↔ processed log = []) ∧
    (∀ o ∈ log.getLast?, o.published = s.tf) ∧ (log = [] → s.tf = none) ∧
    (∀ x ∈ (processed log).getLast?, s.lastOdom = x.1) ∧
    ((processed log).length ≤ 1 → s.tf = none) ∧
    (2 ≤ (processed log).length → ∀ x ∈ (processed log).getLast?, Consistent s.tf x.1 x.2.2) := by
  induction h with
  | init => simp [init, processed]
  | @message log s m o s' r hP hc ih =>
    obtain ⟨i1, i2, i3, i4, i5, i6⟩ := ih
    have hpr : processed (log ++ [o]) = processed log ++ o.processed.toList := by
      unfold processed
      rw [List.filterMap_append]
      cases h : o.processed <;> simp [h]
    unfold callback at hc
    cases hp : prepareAllData m with
    | none =>
      rw [hp] at hc
      cases hc
      rw [hpr]
      simp only [Option.toList_none, List.append_nil]
      exact ⟨i1, by simp, by simp, i4, i5, i6⟩
    | some odom =>
      rw [hp] at hc
      simp only [doAlgorithm] at hc
      cases hr : s.ready with
      | false =>
        rw [hr] at hc
        simp only [Bool.not_false, if_true] at hc
        have h0 := i1.1 hr
        rcases hu : upd m.env 1 s.alg with r | e | u
        · rw [hu] at hc
          cases hc
          rw [hpr, h0]
          simp only [Option.toList_some, List.nil_append]
          refine ⟨by simp, by simp, by simp, by simp, fun _ => i5 (by rw [h0]; simp), by simp⟩
        · rw [hu] at hc; cases hc
        · rw [hu] at hc; cases hc
      | true =>
        rw [hr] at hc
        simp only [Bool.not_true, Bool.false_eq_true, if_false] at hc
        have hne : processed log ≠ [] := by
          intro h
          rw [← i1, hr] at h
          cases h
        rcases hu : upd m.env ((getTransFromPose s.lastOdom)⁻¹ * getTransFromPose odom) s.alg with r | e | u
        · rw [hu] at hc
          cases hc
          rw [hpr]
          simp only [Option.toList_some]
          have hl : 0 < (processed log).length := List.length_pos_iff.2 hne
          refine ⟨by simp, by simp, by simp, by simp, ?_, ?_⟩
          · intro h; simp at h; exact absurd h hne
          · intro _ x hx
            simp at hx
            subst hx
            exact ⟨_, rfl, updateTFTrans_spec _ _⟩
        · rw [hu] at hc; cases hc
        · rw [hu] at hc; cases hc

/-- C54 at full strength: whenever a message was processed, the published transform is consistent with the
odometry and the estimate. -/
def AlwaysConsistent (upd : ι → Trans → σ → Res (Pose × σ)) (s₀ : σ) : Prop :=
  ∀ log o s x, Run upd s₀ (fun _ _ => True) (log ++ [o]) s → o.processed = some x → Consistent o.published x.1 x.2.2

/-- A message with enough points at the odometry origin. -/
noncomputable def exMsg {ι : Type} (env : ι) : Msg ι := ⟨true, convertFromTransform 1, true, 400, env⟩

/-- C54 is false for every algorithm: the first processed message publishes a transform that was never
written. -/
theorem C54_false (upd : ι → Trans → σ → Res (Pose × σ)) (s₀ : σ) (env : ι) {p : Pose} {s₁ : σ}
    (h : upd env 1 s₀ = .ok (p, s₁)) : ¬ AlwaysConsistent upd s₀ := by
  intro hall
  have hc : callback upd (exMsg env) (init s₀) =
      .ok (⟨some (getPoseFromTransform (convertToTransform (convertFromTransform 1)), 1, p), none⟩,
        ⟨true, getPoseFromTransform (convertToTransform (convertFromTransform 1)), ⟨0, 0, 0⟩, none, s₁⟩) := by
    unfold callback prepareAllData exMsg doAlgorithm
    simp only [if_true, lt_irrefl, if_false]
    simp only [init, Bool.not_false, if_true, h, Res.bind_ok]
  obtain ⟨t, ht, -⟩ := hall [] _ _ _ (.message .init trivial hc) rfl
  cases ht

/-- C54, what holds: the published transform composed with the odometry pose is the estimate for every
processed message except the first.  Missing: the first one. -/
theorem C54_consistent_partial {upd : ι → Trans → σ → Res (Pose × σ)} {s₀ : σ} {P : Msg ι → State σ → Prop} {log : List Out} {o : Out}
    {s : State σ} {x : Pose × Trans × Pose} (h : Run upd s₀ P (log ++ [o]) s) (hx : o.processed = some x)
    (hl : processed log ≠ []) : Consistent o.published x.1 x.2.2 := by
  obtain ⟨-, i2, -, -, -, i6⟩ := run_inv h
  have hpr : processed (log ++ [o]) = processed log ++ [x] := by
    unfold processed
    rw [List.filterMap_append]
    simp [hx]
  rw [i2 o (by simp)]
  apply i6
  · rw [hpr]
    have := List.length_pos_iff.2 hl
    simp; omega
  · rw [hpr]; simp

/-- Inversion of a run. -/
theorem Run.last {upd : ι → Trans → σ → Res (Pose × σ)} {s₀ : σ} {P : Msg ι → State σ → Prop} {log : List Out} {s : State σ}
    (h : Run upd s₀ P log s) : ∀ l o, log = l ++ [o] → ∃ s' m, Run upd s₀ P l s' ∧ P m s' ∧ callback upd m s' = .ok (o, s) := by
  induction h with
  | init => intro l o h; simp at h
  | @message log s m o s' r hP hc ih =>
    intro l o' hl
    have := List.append_inj' hl rfl
    simp only [List.cons.injEq, and_true] at this
    obtain ⟨rfl, rfl⟩ := this
    exact ⟨s, m, r, hP, hc⟩

/-- C54, messages that are not processed: the transform published last is published again. -/
theorem C54_republished {upd : ι → Trans → σ → Res (Pose × σ)} {s₀ : σ} {P : Msg ι → State σ → Prop} {log : List Out} {o o' : Out}
    {s : State σ} (h : Run upd s₀ P (log ++ [o] ++ [o']) s) (hx : o'.processed = none) :
    o'.published = o.published := by
  obtain ⟨s', m, r, -, hc⟩ := h.last _ _ rfl
  obtain ⟨-, i2, -⟩ := run_inv r
  rw [i2 o (by simp)]
  unfold callback at hc
  cases hp : prepareAllData m with
  | none =>
    rw [hp] at hc
    cases hc
    rfl
  | some odom =>
    rw [hp] at hc
    simp only [doAlgorithm] at hc
    split_ifs at hc
    · rcases hu : upd m.env 1 s'.alg with r | e | u <;> rw [hu] at hc <;> cases hc
      cases hx
    · rcases hu : upd m.env ((getTransFromPose s'.lastOdom)⁻¹ * getTransFromPose odom) s'.alg with r | e | u <;>
        rw [hu] at hc <;> cases hc
      cases hx

/-! ### C55 -/

/-- C55.  The increments handed to the algorithm compose to the motion from the first to the last odometry
pose of the processed messages, whatever happens in between. -/
theorem C55_telescope {upd : ι → Trans → σ → Res (Pose × σ)} {s₀ : σ} {P : Msg ι → State σ → Prop} {log : List Out} {s : State σ}
    (h : Run upd s₀ P log s) {x y : Pose × Trans × Pose} (hx : (processed log).head? = some x)
    (hy : (processed log).getLast? = some y) :
    ((processed log).map fun z => z.2.1).prod = (getTransFromPose x.1)⁻¹ * getTransFromPose y.1 := by
  induction h generalizing x y with
  | init => simp [processed] at hx
  | @message log s m o s' r hP hc ih =>
    obtain ⟨i1, i2, i3, i4, i5, i6⟩ := run_inv r
    have hpr : processed (log ++ [o]) = processed log ++ o.processed.toList := by
      unfold processed
      rw [List.filterMap_append]
      cases h : o.processed <;> simp [h]
    rw [hpr] at hx hy ⊢
    unfold callback at hc
    cases hp : prepareAllData m with
    | none =>
      rw [hp] at hc
      cases hc
      simp only [Option.toList_none, List.append_nil] at hx hy ⊢
      exact ih hx hy
    | some odom =>
      rw [hp] at hc
      simp only [doAlgorithm] at hc
      cases hr : s.ready with
      | false =>
        rw [hr] at hc
        simp only [Bool.not_false, if_true] at hc
        have h0 := i1.1 hr
        rw [h0] at hx hy ⊢
        rcases hu : upd m.env 1 s.alg with r | e | u <;> rw [hu] at hc <;> cases hc
        simp only [Option.toList_some, List.nil_append, List.head?_cons, Option.some.injEq,
          List.getLast?_singleton] at hx hy
        subst hx hy
        simp [trans_inv_mul]
      | true =>
        rw [hr] at hc
        simp only [Bool.not_true, Bool.false_eq_true, if_false] at hc
        have hne : processed log ≠ [] := by
          intro h
          rw [← i1, hr] at h
          cases h
        rcases hu : upd m.env ((getTransFromPose s.lastOdom)⁻¹ * getTransFromPose odom) s.alg with r | e | u <;>
          rw [hu] at hc <;> cases hc
        obtain ⟨w, hw⟩ : ∃ w, (processed log).getLast? = some w := by
          cases h : (processed log).getLast? with
          | none => exact absurd (List.getLast?_eq_none_iff.1 h) hne
          | some w => exact ⟨w, rfl⟩
        rw [List.head?_append_of_ne_nil _ hne] at hx
        simp only [Option.toList_some, List.getLast?_append, List.getLast?_singleton, Option.some_or,
          Option.some.injEq] at hy
        subst hy
        rw [List.map_append, List.prod_append, ih hx hw, i4 w hw]
        simp only [Option.toList_some, List.map_cons, List.map_nil, List.prod_cons, List.prod_nil, mul_one]
        rw [Matrix.mul_assoc, ← Matrix.mul_assoc (getTransFromPose w.1), trans_mul_inv, Matrix.one_mul]

/-! ### C86 -/

/-- C86.  The covariance handed to the algorithm is the block of x, y and yaw of the 6x6 covariance (order x, y,
z, roll, pitch, yaw; row-major) of the message. -/
theorem C86_covariance_block (m : Matrix (Fin 6) (Fin 6) ℝ) (a : Fin 36 → ℝ)
    (ha : ∀ (i j : Fin 6) (k : Fin 36), k.val = 6 * i.val + j.val → a k = m i j) :
    arrayToMatrix a = m.submatrix ![0, 1, 5] ![0, 1, 5] := by
  unfold arrayToMatrix
  apply mat_ext <;> simp only [Matrix.submatrix_apply, Matrix.of_apply, Matrix.cons_val] <;>
    exact ha _ _ _ rfl

example : ∃ (m : Matrix (Fin 6) (Fin 6) ℝ) (a : Fin 36 → ℝ),
    ∀ (i j : Fin 6) (k : Fin 36), k.val = 6 * i.val + j.val → a k = m i j :=
  ⟨fun i j => i.val + 10 * j.val, fun k => (k.val / 6 : ℕ) + 10 * (k.val % 6 : ℕ), by
    intro i j k h
    have hj := j.isLt
    show ((k.val / 6 : ℕ) : ℝ) + 10 * ((k.val % 6 : ℕ) : ℝ) = i.val + 10 * j.val
    rw [h, show (6 * i.val + j.val) / 6 = i.val by omega, show (6 * i.val + j.val) % 6 = j.val by omega]⟩

end Verif.Node
