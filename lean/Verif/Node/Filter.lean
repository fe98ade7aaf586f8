import Verif.Node.Props

/-
C122: which messages are used.
-/
namespace Verif.Node

open Verif Verif.Geo Matrix

variable {σ ι : Type}

/-! ### Specification vocabulary -/

/-- The transforms are known, the scan could be transformed and has at least 400 points. -/
def Usable (m : Msg ι) : Prop := m.tfFound = true ∧ m.cloudOk = true ∧ 400 ≤ m.points

/-- A series of messages: observations and final state. -/
noncomputable def callbacks (upd : ι → Trans → σ → Res (Pose × σ)) : List (Msg ι) → State σ → Res (List Out × State σ)
  | [], s => .ok ([], s)
  | m :: ms, s =>
    (callback upd m s).bind fun r =>
    (callbacks upd ms r.2).map fun q => (r.1 :: q.1, q.2)

/-- The pose of the robot reported by TF: translation `(x, y, z)` and rotation by `th` about the vertical axis. -/
noncomputable def tfPose (x y z th : ℝ) : Matrix (Fin 4) (Fin 4) ℝ :=
  !![Real.cos th, -Real.sin th, 0, x; Real.sin th, Real.cos th, 0, y; 0, 0, 1, z; 0, 0, 0, 1]

/-! ### C122 -/

theorem prepare_none {m : Msg ι} (h : ¬ Usable m) : prepareAllData m = none := by
  unfold prepareAllData
  by_cases h1 : m.tfFound = true
  · by_cases h2 : m.cloudOk = true
    · have h3 : m.points < 400 := by
        by_contra h3
        exact h ⟨h1, h2, by omega⟩
      rw [if_pos h1, if_pos h2, if_pos h3]
    · rw [if_pos h1, if_neg h2]
  · rw [if_neg h1]

theorem prepare_some {m : Msg ι} (h : Usable m) :
    prepareAllData m = some (getPoseFromTransform (convertToTransform m.odomTf)) := by
  obtain ⟨h1, h2, h3⟩ := h
  unfold prepareAllData
  rw [if_pos h1, if_pos h2, if_neg (by omega)]

/-- **C122**, unusable messages: the algorithm is not called, the state does not change and the last transform is
published again. -/
theorem C122_dropped (upd : ι → Trans → σ → Res (Pose × σ)) {m : Msg ι} (s : State σ) (h : ¬ Usable m) :
    callback upd m s = .ok (⟨none, s.tf⟩, s) := by
  unfold callback
  rw [prepare_none h]

/-- **C122**, usable messages: the algorithm is called once, with the pose reported by TF; the first time with no
motion and afterwards with the motion since the last message that was used.  Its answer is what is reported, and if
it fails, the message fails. -/
theorem C122_used (upd : ι → Trans → σ → Res (Pose × σ)) {m : Msg ι} (s : State σ) (h : Usable m)
    {x y z th : ℝ} (ht : m.odomTf = tfPose x y z th) :
    let odom : Pose := ⟨x, y, normalizeAngle th⟩
    let inc := if s.ready then (getTransFromPose s.lastOdom)⁻¹ * getTransFromPose odom else 1
    (callback upd m s).map (fun r => (r.1.processed, r.2.ready, r.2.lastOdom, r.2.alg)) =
      (upd m.env inc s.alg).map fun r => (some (odom, inc, r.1), true, odom, r.2) := by
  have hp : getPoseFromTransform (convertToTransform m.odomTf) = ⟨x, y, normalizeAngle th⟩ := by
    have e : convertToTransform m.odomTf = getTransFromPose ⟨x, y, th⟩ := by
      rw [ht]
      unfold convertToTransform tfPose getTransFromPose
      apply mat_ext <;> simp
    rw [e, pose_trans]
    rfl
  simp only
  unfold callback
  rw [prepare_some h, hp]
  simp only [doAlgorithm]
  cases hr : s.ready
  · simp only [Bool.not_false, if_true, Bool.false_eq_true, if_false]
    rcases upd m.env 1 s.alg with r | e | u <;> rfl
  · simp only [Bool.not_true, Bool.false_eq_true, if_false, if_true]
    rcases upd m.env ((getTransFromPose s.lastOdom)⁻¹ * getTransFromPose ⟨x, y, normalizeAngle th⟩) s.alg
      with r | e | u
    · simp only [Res.bind_ok, Res.map_ok]
    · rfl
    · rfl

theorem map_processed (o : Out) (r : Res (List Out × State σ)) :
    (r.map fun q => (o :: q.1, q.2)).map (fun q => (processed q.1, q.2)) =
      (r.map fun q => (processed q.1, q.2)).map fun q => (o.processed.toList ++ q.1, q.2) := by
  rcases r with q | e | u
  · simp only [Res.map_ok, processed, List.filterMap_cons]
    cases o.processed <;> rfl
  · rfl
  · rfl

open Classical in
/-- **C122**, series of messages: unusable messages might as well not have been sent.  The poses reported and the
final state are those of the series without them. -/
theorem C122_series (upd : ι → Trans → σ → Res (Pose × σ)) (ms : List (Msg ι)) (s : State σ) :
    (callbacks upd ms s).map (fun r => (processed r.1, r.2)) =
      (callbacks upd (ms.filter fun m => decide (Usable m)) s).map fun r => (processed r.1, r.2) := by
  induction ms generalizing s with
  | nil => rfl
  | cons m ms ih =>
    by_cases h : Usable m
    · rw [List.filter_cons_of_pos (by simpa using h)]
      simp only [callbacks]
      rcases callback upd m s with r | e | u
      · simp only [Res.bind_ok]
        rw [map_processed, map_processed, ih r.2]
      · rfl
      · rfl
    · rw [List.filter_cons_of_neg (by simpa using h)]
      rw [← ih s]
      simp only [callbacks, C122_dropped upd s h, Res.bind_ok]
      rcases callbacks upd ms s with q | e | u
      · simp only [Res.map_ok, processed, List.filterMap_cons]
      · rfl
      · rfl

/-- A usable and an unusable message. -/
example : ∃ m m' : Msg Unit, Usable m ∧ m.odomTf = tfPose 1 2 3 4 ∧ m'.tfFound = true ∧ m'.cloudOk = true ∧
    m'.points = 399 ∧ ¬ Usable m' :=
  ⟨⟨true, tfPose 1 2 3 4, true, 400, ()⟩, ⟨true, tfPose 1 2 3 4, true, 399, ()⟩, ⟨rfl, rfl, le_rfl⟩, rfl, rfl, rfl, rfl,
    fun h => absurd h.2.2 (by norm_num)⟩

end Verif.Node
