import Verif.Algo.Props

/-
C123: when a scan is used and when a frame is finished.
-/
namespace Verif.Algo

open Verif Verif.Geo Matrix

/-! ### Specification vocabulary -/

/-- Odometry received since the last scan that was used. -/
noncomputable def sinceUsed : List (Event × Pose) → Trans :=
  List.foldl (fun t x => if x.1.scanUsed then 1 else t * motionOf x.1) 1

/-- The pose returned for the last scan that was used. -/
def lastUsed (log : List (Event × Pose)) : Option Pose :=
  ((log.filter fun x => x.1.scanUsed).getLast?).map Prod.snd

/-- The motion by which the estimate is moved on by an update, before loops are closed: the odometry if matching
failed, and otherwise the motion since the pose matched last. -/
noncomputable def advance (log : List (Event × Pose)) : Event → Trans
  | .failed _ m => m
  | .matched _ _ p => (getTransFromPose (lastFix (log.map Prod.fst)).1)⁻¹ * getTransFromPose p
  | _ => 1

/-! ### C123 -/

theorem sinceUsed_snoc (log : List (Event × Pose)) (x : Event × Pose) :
    sinceUsed (log ++ [x]) = if x.1.scanUsed then 1 else sinceUsed log * motionOf x.1 := by
  simp [sinceUsed, List.foldl_append]

theorem lastUsed_snoc (log : List (Event × Pose)) (x : Event × Pose) :
    lastUsed (log ++ [x]) = if x.1.scanUsed then some x.2 else lastUsed log := by
  unfold lastUsed
  rw [List.filter_append]
  cases h : x.1.scanUsed <;> simp [h]

theorem Reach.unused {P : Input → Prop} {log : List (Event × Pose)} {s : State} (h : Reach P log s) :
    s.unused = sinceUsed log ∧ ∀ q ∈ lastUsed log, getTransFromPose q = s.position := by
  induction h with
  | init => exact ⟨rfl, by simp [lastUsed]⟩
  | setDistance d _ ih => exact ih
  | @update log s inp o s' hr hp adm h ih =>
    obtain ⟨b, f, fa, -⟩ := hr.full
    obtain ⟨e, p, s'', b', h', f', hi, hpe, hd, hr', -, sc⟩ := update_step f adm
    rw [h] at h'
    cases h'
    rw [sinceUsed_snoc, lastUsed_snoc]
    have hpos : ∀ e : Event, e.scanUsed = true → p = getPoseFromTransform (s'.position * pending e) →
        getTransFromPose p = s'.position := by
      intro e he hpe
      have : pending e = 1 := by cases e <;> simp_all [Event.scanUsed, pending]
      rw [hpe, this, Matrix.mul_one, trans_pose (rigid_pos f'.alg)]
    cases sc with
    | first h0 _ _ hu =>
      refine ⟨?_, fun q hq => ?_⟩
      · simp only [Event.scanUsed, if_true]
        rw [hu]; exact (f.start h0).2.2.2
      · cases hq
        exact hpos .first rfl hpe
    | idle _ _ hq0 _ hu =>
      refine ⟨?_, fun q hq => ?_⟩
      · simp only [Event.scanUsed, Bool.false_eq_true, if_false, motionOf]
        rw [hu, ih.1]
      · rw [hq0]; exact ih.2 q hq
    | failed _ _ _ _ _ hu =>
      refine ⟨?_, fun q hq => ?_⟩
      · simp only [Event.scanUsed, if_true]
        exact hu
      · cases hq
        exact hpos (.failed 1 1) rfl hpe
    | matched _ _ _ _ _ _ hu =>
      refine ⟨?_, fun q hq => ?_⟩
      · simp only [Event.scanUsed, if_true]
        exact hu
      · cases hq
        exact hpos (.failed 1 1) rfl hpe

/-- **C123**, scans: apart from the first scan, a scan is used exactly if the odometry received since the last used one
turned the robot by more than 0.1 rad or moved it by more than 0.2 m. -/
theorem C123_scan_used {P : Input → Prop} {log : List (Event × Pose)} {s s' : State} (h : Reach P log s)
    (hne : log ≠ []) {inp : Input} (adm : Admissible s inp) {e : Event} {p : Pose}
    (hu : update inp s = .ok ((e, p), s')) :
    let t := getPoseFromTransform (sinceUsed log * inp.motion)
    e.scanUsed = true ↔ 0.1 < |t.th| ∨ 0.2 < dist2 0 0 t.x t.y := by
  obtain ⟨b, f, fa, -⟩ := h.full
  obtain ⟨e', p', s'', b', hu', -, -, -, -, -, -, sc⟩ := update_step f adm
  rw [hu] at hu'
  cases hu'
  have key : movedEnough s (s.unused * inp.motion) ↔
      0.1 < |(getPoseFromTransform (sinceUsed log * inp.motion)).th| ∨
      0.2 < dist2 0 0 (getPoseFromTransform (sinceUsed log * inp.motion)).x
        (getPoseFromTransform (sinceUsed log * inp.motion)).y := by
    unfold movedEnough
    rw [fa.minD, fa.minR, h.unused.1]
    have : ∀ t : Trans, |getDisplacement t| = dist2 0 0 (getPoseFromTransform t).x (getPoseFromTransform t).y := by
      intro t
      unfold getDisplacement dist2 getPoseFromTransform
      rw [abs_of_nonneg (Real.sqrt_nonneg _), sub_zero, sub_zero]
    rw [this, show (1 / 10 : ℝ) = 0.1 by norm_num, show (1 / 5 : ℝ) = 0.2 by norm_num]
    rfl
  simp only
  rw [← key]
  cases sc with
  | first h0 => exact absurd (fa.start.1 h0) hne
  | idle _ hm => simp [Event.scanUsed, hm]
  | failed _ hm => simp [Event.scanUsed, hm]
  | matched _ hm => simp [Event.scanUsed, hm]

open Classical in
/-- **C123**, frames: an update finishes the active frame and makes it a node exactly if its scan is used and the
estimate, moved on by the update, is farther from the origin of the active frame than the generation distance.
It adds at most one node. -/
theorem C123_frame_finished {P : Input → Prop} {log : List (Event × Pose)} {s s' : State} (h : Reach P log s)
    {q : Pose} (hq : lastUsed log = some q) {inp : Input} (adm : Admissible s inp) {e : Event} {p : Pose}
    (hu : update inp s = .ok ((e, p), s')) :
    let x := getPoseFromTransform (getTransFromPose q * advance log e)
    s'.engine.graph.nodes.length = s.engine.graph.nodes.length +
      if e.scanUsed = true ∧ s.maxTraveled < dist2 s.temp.origin.x s.temp.origin.y x.x x.y then 1 else 0 := by
  obtain ⟨b, f, fa, -⟩ := h.full
  obtain ⟨e', p', s'', b', hu', f', -, -, -, -, -, sc⟩ := update_step f adm
  rw [hu] at hu'
  cases hu'
  have hpos := h.unused.2 q hq
  rw [f'.alg.engine.nodesLen, f.alg.engine.nodesLen]
  have hfix : s.lastMatcherPose = (lastFix (log.map Prod.fst)).1 := by rw [fa.matcher, lastFix_eq]
  have hg : ∀ inc, IsRigid inc → Grown inp inc s s' b b' →
      let x := getPoseFromTransform (getTransFromPose q * inc)
      b'.poses.length = b.poses.length +
        if s.maxTraveled < dist2 s.temp.origin.x s.temp.origin.y x.x x.y then 1 else 0 := by
    intro inc hinc g
    have h22 : (s.transTemp * inc) 2 2 = 1 :=
      ((isRigid_iff _).1 (rigid_mul f.alg.temp hinc)).2.2.2.2.2
    have hdist := (displacement_frame s.temp.origin (s.transTemp * inc)).resolve_right (not_not_intro h22)
    rw [← Matrix.mul_assoc, ← f.alg.pos, ← hpos] at hdist
    have hfar : movedFar s (s.transTemp * inc) ↔ s.maxTraveled < dist2 s.temp.origin.x s.temp.origin.y
        (getPoseFromTransform (getTransFromPose q * inc)).x (getPoseFromTransform (getTransFromPose q * inc)).y := by
      unfold movedFar
      rw [hdist, abs_of_nonneg (by unfold dist2; exact Real.sqrt_nonneg _)]
      rfl
    simp only
    obtain ⟨ins, -, -, ⟨hb, -, -, hf⟩ | ⟨hb, -, -, -, hf⟩⟩ := g
    · rw [hb, if_neg (fun h => hf (hfar.2 h)), Nat.add_zero]
    · rw [hb, if_pos (hfar.1 hf)]
      unfold inserted
      simp only
      rw [length_optimised]
      simp
  cases sc with
  | first h0 =>
    have := fa.start.1 h0
    subst this
    cases hq
  | idle _ _ _ _ _ hb => simp [Event.scanUsed, hb]
  | failed _ _ _ _ _ _ g =>
    have := hg _ adm.motion g
    simpa only [Event.scanUsed, true_and, advance] using this
  | @matched m p _ _ _ _ _ _ _ g =>
    rw [hfix] at g
    have := hg _ (by rw [trans_inv]; exact rigid_mul (getTransFromPose_rigid _) (getTransFromPose_rigid _)) g
    simpa only [Event.scanUsed, true_and, advance] using this

/-- A run in which an update was not used and another one was. -/
example : ∃ log s inp q, Reach OdometryOnly log s ∧ log.length = 3 ∧ lastUsed log = some q ∧ Admissible s inp := by
  obtain ⟨p₀, p₁, p₂, g, s, hr, -⟩ := run_small
  obtain ⟨a, ha⟩ := exists_fresh s.engine.graph
  exact ⟨_, s, ⟨ahead 1, none, a, [], fun _ => ⟨0, 0, 0⟩, List.range (s.engine.graph.nodes.length + 1)⟩, p₂, hr, rfl,
    rfl, ⟨ahead_rigid 1, by simp, by simp, by simpa using ha, by simp, List.Perm.refl _⟩⟩

end Verif.Algo
