import Verif.Algo.Lemmas
import Verif.NDTGrid.Place

/-
Properties of `NdtSlamAlgortihm`.
-/
namespace Verif.Algo

open Verif Verif.Geo Matrix

/-! ### Concrete runs -/

/-- Motion straight ahead. -/
noncomputable def ahead (x : ℝ) : Trans := getTransFromPose ⟨x, 0, 0⟩

theorem ahead_eq (x : ℝ) : ahead x = !![1, 0, x; 0, 1, 0; 0, 0, 1] := by
  simp [ahead, getTransFromPose]

theorem ahead_mul (x y : ℝ) : ahead x * ahead y = ahead (x + y) := by
  simp only [ahead_eq]
  apply mat_ext <;> simp [Matrix.mul_apply, Fin.sum_univ_three, add_comm]

theorem ahead_inj {x y : ℝ} (h : ahead x = ahead y) : x = y := by
  have := congrFun (congrFun h 0) 2
  simpa [ahead_eq] using this

theorem ahead_zero : ahead 0 = 1 := trans_zero

theorem ahead_rigid (x : ℝ) : IsRigid (ahead x) := getTransFromPose_rigid _

theorem displacement_ahead {x : ℝ} (hx : 0 ≤ x) : getDisplacement (ahead x) = x := by
  rw [ahead_eq]
  simp [getDisplacement, Real.sqrt_sq hx]

theorem ahead_moved {s : State} (h1 : s.minDistance = 1 / 5) (h2 : s.minRotation = 1 / 10) {x : ℝ}
    (hx : 0 ≤ x) : movedEnough s (ahead x) ↔ 1 / 5 < x := by
  unfold movedEnough getAngle getDisplacement atan2
  rw [h1, h2, ahead_eq]
  have : Complex.arg ⟨1, 0⟩ = 0 := Complex.arg_one
  simp [this, Real.sqrt_sq hx, abs_of_nonneg hx]

theorem exists_fresh {ν ε : Type} (g : PoseGraph.Graph ν ε) : ∃ a, PoseGraph.Fresh g a := by
  refine ⟨(g.edges.map fun e => match e with | some e => e.addr | none => 0).sum + 1, ?_⟩
  intro id e he
  unfold PoseGraph.live at he
  have hm : some e ∈ g.edges := by
    cases h : g.edges[id]? with
    | none => rw [h] at he; cases he
    | some o =>
      rw [h] at he
      have : o = some e := he
      subst this
      exact List.mem_of_getElem? h
  have := List.single_le_sum (l := g.edges.map fun e => match e with | some e => e.addr | none => 0)
    (fun _ _ => Nat.zero_le _) e.addr (List.mem_map.2 ⟨some e, hm, rfl⟩)
  omega

/-- From every reachable state there is an update with given motion and matcher result. -/
theorem Reach.extend {P : Input → Prop} {log : List (Event × Pose)} {s : State} (h : Reach P log s)
    {m : Trans} (hm : IsRigid m) {mat : Option (Matrix (Fin 4) (Fin 4) ℝ)}
    (hmat : ∀ r, mat = some r → IsRigid (convertToTransform r))
    (hP : ∀ addr est order, P ⟨m, mat, addr, [], est, order⟩) :
    ∃ inp e p s' b b', Reach P (log ++ [(e, p)]) s' ∧ inp.motion = m ∧ inp.matcher = mat ∧
      inp.loops = [] ∧ StepCase inp s s' b b' e ∧ s'.initialized = true ∧
      s'.maxTraveled = s.maxTraveled ∧ Full s' b' := by
  obtain ⟨b, f, -⟩ := h.full
  obtain ⟨a, ha⟩ := exists_fresh s.engine.graph
  have adm : Admissible s ⟨m, mat, a, [], fun _ => ⟨0, 0, 0⟩, List.range (s.engine.graph.nodes.length + 1)⟩ :=
    ⟨hm, hmat, by simp, by simpa using ha, by simp, List.Perm.refl _⟩
  obtain ⟨e, p, s', b', hu, hf, hi, -, -, -, hmt, sc⟩ := update_step f adm
  exact ⟨_, e, p, s', b, b', .update h (hP _ _ _) adm hu, rfl, rfl, rfl, sc, hi, hmt, hf⟩

/-- A run: first scan, then two increments of 0.15 m, both without success of the matcher. -/
theorem run_small : ∃ p₀ p₁ p₂ g s, Reach OdometryOnly
    [(.first, p₀), (.idle (ahead 0.15), p₁), (.failed g (ahead 0.15), p₂)] s ∧
    s.temp.inserts.length = 2 ∧ s.temp.origin = ⟨0, 0, 0⟩ := by
  obtain ⟨_, e0, p0, s0, _, _, r0, -, -, -, c0, i0, mt0, -⟩ :=
    Reach.extend (P := OdometryOnly) .init rigid_one (mat := none) (by simp) (fun _ _ _ => ⟨rfl, rfl⟩)
  obtain ⟨b, -, f0, -⟩ := r0.full
  cases c0 with
  | idle h => simp [init] at h
  | failed h => simp [init] at h
  | matched h => simp [init] at h
  | first _ _ _ hu0 _ _ ho0 hins0 htt0 =>
  have hu0 : s0.unused = 1 := hu0
  obtain ⟨inp, e1, p1, s1, _, _, r1, hm1, hmat1, -, c1, i1, mt1, -⟩ :=
    r0.extend (ahead_rigid 0.15) (mat := none) (by simp) (fun _ _ _ => ⟨rfl, rfl⟩)
  have hmv : ¬ movedEnough s0 (s0.unused * inp.motion) := by
    rw [hu0, hm1, Matrix.one_mul, ahead_moved f0.minD f0.minR (by norm_num)]; norm_num
  obtain ⟨_, -, f1, -⟩ := r1.full
  cases c1 with
  | first h => rw [i0] at h; cases h
  | failed _ h => exact absurd h hmv
  | matched _ h => exact absurd h hmv
  | idle _ _ _ _ hu1 _ ht1 htt1 =>
  obtain ⟨inp', e2, p2, s2, _, _, r2, hm2, hmat2, -, c2, i2, mt2, -⟩ :=
    r1.extend (ahead_rigid 0.15) (mat := none) (by simp) (fun _ _ _ => ⟨rfl, rfl⟩)
  have hmv : movedEnough s1 (s1.unused * inp'.motion) := by
    rw [hu1, hu0, hm1, hm2, Matrix.one_mul, ahead_mul, ahead_moved f1.minD f1.minR (by norm_num)]
    norm_num
  rw [hm1] at r2
  cases c2 with
  | first h => rw [i1] at h; cases h
  | idle _ h => exact absurd hmv h
  | matched _ _ h => rw [hmat2] at h; cases h
  | failed _ _ _ _ _ _ g =>
    rw [hm2] at r2
    refine ⟨p0, p1, p2, _, s2, r2, ?_⟩
    obtain ⟨ins, -, -, ⟨-, h, -⟩ | ⟨-, -, -, -, h⟩⟩ := g
    · rw [h, ht1, hins0]; exact ⟨rfl, ho0⟩
    · rw [htt1, htt0, hm2, Matrix.one_mul] at h
      unfold movedFar at h
      rw [mt1, mt0, displacement_ahead (by norm_num)] at h
      simp only [init] at h
      norm_num [abs_lt, lt_abs] at h

theorem convert_ahead (x : ℝ) : convertToTransform (convertFromTransform (ahead x)) = ahead x :=
  viaPcl_rigid (ahead_rigid x)

/-- A run: first scan, then 1 m without success of the matcher, then an update in which the matcher finds the
robot 1 m from the start. -/
theorem run_failed : ∃ p₀ p₁ p₂ g₁ g₂ m s, Reach NoLoops
    [(.first, p₀), (.failed g₁ (ahead 1), p₁), (.matched g₂ m ⟨1, 0, 0⟩, p₂)] s := by
  obtain ⟨_, e0, p0, s0, _, _, r0, -, -, -, c0, i0, -⟩ :=
    Reach.extend (P := NoLoops) .init rigid_one (mat := none) (by simp) (fun _ _ _ => rfl)
  obtain ⟨b0, F0, f0, -⟩ := r0.full
  cases c0 with
  | idle h => simp [init] at h
  | failed h => simp [init] at h
  | matched h => simp [init] at h
  | first _ _ hl0 hu0 =>
  have hu0 : s0.unused = 1 := hu0
  obtain ⟨inp, e1, p1, s1, _, _, r1, hm1, hmat1, -, c1, i1, -⟩ :=
    r0.extend (ahead_rigid 1) (mat := none) (by simp) (fun _ _ _ => rfl)
  have hmv : movedEnough s0 (s0.unused * inp.motion) := by
    rw [hu0, hm1, Matrix.one_mul, ahead_moved f0.minD f0.minR (by norm_num)]; norm_num
  obtain ⟨b1, F1, f1, -⟩ := r1.full
  cases c1 with
  | first h => rw [i0] at h; cases h
  | idle _ h => exact absurd hmv h
  | matched _ _ h => rw [hmat1] at h; cases h
  | failed _ _ _ _ hl1 hu1 =>
  rw [hm1] at r1
  obtain ⟨inp', e2, p2, s2, _, _, r2, hm2, hmat2, -, c2, i2, -⟩ :=
    r1.extend (ahead_rigid 1) (mat := some (convertFromTransform ((getTransFromPose s1.window)⁻¹ * ahead 1)))
      (by
        rintro r ⟨⟩
        have : IsRigid ((getTransFromPose s1.window)⁻¹ * ahead 1) := by
          rw [trans_inv]; exact rigid_mul (getTransFromPose_rigid _) (ahead_rigid _)
        show IsRigid (viaPcl _)
        rw [viaPcl_rigid this]; exact this)
      (fun _ _ _ => rfl)
  have hmv : movedEnough s1 (s1.unused * inp'.motion) := by
    rw [hu1, hm2, Matrix.one_mul, ahead_moved f1.minD f1.minR (by norm_num)]
    norm_num
  cases c2 with
  | first h => rw [i1] at h; cases h
  | idle _ h => exact absurd hmv h
  | failed _ _ h => rw [hmat2] at h; cases h
  | @matched m p _ _ h hp =>
    have : p = ⟨1, 0, 0⟩ := by
      rw [hmat2] at h
      cases h
      have hr : IsRigid ((getTransFromPose s1.window)⁻¹ * ahead 1) := by
        rw [trans_inv]; exact rigid_mul (getTransFromPose_rigid _) (ahead_rigid _)
      have hv : convertToTransform (convertFromTransform ((getTransFromPose s1.window)⁻¹ * ahead 1)) = _ :=
        viaPcl_rigid hr
      rw [hp, hv, ← Matrix.mul_assoc, trans_mul_inv, Matrix.one_mul, ahead_eq]
      have : Complex.arg ⟨1, 0⟩ = 0 := Complex.arg_one
      simp [getPoseFromTransform, getAngle, atan2, this]
    rw [this] at r2
    exact ⟨p0, p1, p2, _, _, _, s2, r2⟩

/-- A run in which a node is inserted. -/
theorem run_node : ∃ log s, Reach NoLoops log s ∧ 0 < s.engine.graph.nodes.length := by
  obtain ⟨_, e0, p0, s0, _, _, r0, -, -, -, c0, i0, -⟩ :=
    Reach.extend (P := NoLoops) .init rigid_one (mat := none) (by simp) (fun _ _ _ => rfl)
  have hu0 : s0.unused = 1 := by
    cases c0 with
    | first _ _ _ h => exact h
    | idle h => simp [init] at h
    | failed h => simp [init] at h
    | matched h => simp [init] at h
  have r0 := Reach.setDistance (-1) r0
  obtain ⟨b0, F0, f0, -⟩ := r0.full
  obtain ⟨inp, e1, p1, s1, b, b', r1, hm1, hmat1, -, c1, i1, hmt, F1⟩ :=
    r0.extend (ahead_rigid 1) (mat := none) (by simp) (fun _ _ _ => rfl)
  refine ⟨_, s1, r1, ?_⟩
  have hmv : movedEnough { s0 with maxTraveled := -1 } (s0.unused * inp.motion) := by
    have : s0.unused * inp.motion = ahead 1 := by rw [hu0, hm1, Matrix.one_mul]
    rw [this, ahead_moved f0.minD f0.minR (by norm_num)]; norm_num
  cases c1 with
  | first h => simp only at h; rw [i0] at h; cases h
  | idle _ h => exact absurd hmv h
  | matched _ _ h => rw [hmat1] at h; cases h
  | failed _ _ _ _ _ _ g =>
    obtain ⟨ins, -, -, ⟨-, -, -, h⟩ | ⟨h, -⟩⟩ := g
    · refine absurd ?_ h
      have := abs_nonneg (getDisplacement (s0.transTemp * inp.motion))
      show (-1 : ℝ) < _
      exact lt_of_lt_of_le (by norm_num) this
    · rw [F1.alg.engine.nodesLen, h]
      unfold inserted
      rw [length_optimised]
      simp

/-! ### C51 -/

/-- C51, termination.  From every reachable state every admissible update ends normally. -/
theorem C51_update_ok {P : Input → Prop} {log : List (Event × Pose)} {s : State} (h : Reach P log s)
    {inp : Input} (adm : Admissible s inp) : ∃ o s', update inp s = .ok (o, s') := by
  obtain ⟨b, f, -⟩ := h.full
  obtain ⟨e, p, s', b', hu, -⟩ := update_step f adm
  exact ⟨(e, p), s', hu⟩

/-- C51, meaning of the recorded events: they contain the motion and the result of the matcher of the update
(in world coordinates); odometry is used only if the matcher failed. -/
theorem C51_events {P : Input → Prop} {log : List (Event × Pose)} {s s' : State} (h : Reach P log s)
    {inp : Input} (adm : Admissible s inp) {e : Event} {p : Pose} (hu : update inp s = .ok ((e, p), s')) :
    Describes log s inp e := by
  obtain ⟨b, f, fa, -⟩ := h.full
  obtain ⟨e', p', s'', b', hu', -, -, -, -, -, -, sc⟩ := update_step f adm
  rw [hu] at hu'
  cases hu'
  have hne : s.initialized = true → log ≠ [] := by
    intro h1 h2
    rw [← fa.start, h1] at h2
    cases h2
  cases sc with
  | first h0 => exact fa.start.1 h0
  | idle h0 => exact ⟨hne h0, rfl⟩
  | failed h0 _ hm => exact ⟨hne h0, rfl, hm⟩
  | matched h0 _ hm hp =>
    refine ⟨hne h0, rfl, _, hm, ?_⟩
    rw [hp, trans_pose (rigid_mul (getTransFromPose_rigid _) (adm.matcher _ hm))]

/-- C51.  Without loop closures the pose returned by the last update is the composition of all motions used
so far (followed by the odometry of this update if it was not processed yet), and the composition is also the
origin of the active frame composed with the motion since it was started. -/
theorem C51_composition {log : List (Event × Pose)} {s : State} (h : Reach NoLoops log s) :
    getTransFromPose s.temp.origin * s.transTemp = (estimate (log.map Prod.fst)).1 ∧
    ∀ l e p, log = l ++ [(e, p)] →
      getTransFromPose p = (estimate (log.map Prod.fst)).1 * pending e := by
  obtain ⟨b, f, fa, -, lf⟩ := h.full
  have lf := lf fun _ h => h
  refine ⟨by rw [← f.alg.pos, lf.pos], ?_⟩
  intro l e p hl
  obtain ⟨h1, h2⟩ := fa.last l e p hl
  rw [h1, ← lf.pos, trans_pose (rigid_mul (rigid_pos f.alg) h2)]

/-- The conditions of `C51_composition` can be met by a run of several updates. -/
example : ∃ log s, Reach NoLoops log s ∧ log.length = 3 := by
  obtain ⟨_, _, _, _, _, _, s, h⟩ := run_failed
  exact ⟨_, s, h, rfl⟩

/-- The conditions of `C51_update_ok` can be met. -/
example : ∃ inp, Admissible init inp :=
  ⟨⟨ahead 1, none, 7, [], fun _ => ⟨0, 0, 0⟩, [0]⟩, ahead_rigid 1, by simp, by simp,
    by simp [PoseGraph.Fresh, PoseGraph.live, init, Slam.init, PoseGraph.empty], by simp, List.Perm.refl _⟩

/-! ### C52 -/

theorem OdometryOnly.noLoops {log : List (Event × Pose)} {s : State} (h : Reach OdometryOnly log s) :
    Reach NoLoops log s ∧ ∀ x ∈ log, ∀ g m p, x.1 ≠ .matched g m p := by
  induction h with
  | init => exact ⟨.init, by simp⟩
  | setDistance d _ ih => exact ⟨.setDistance d ih.1, ih.2⟩
  | @update log s inp o s' r hp adm hu ih =>
    refine ⟨.update ih.1 hp.1 adm hu, ?_⟩
    intro x hx g m p he
    rcases List.mem_append.1 hx with hx | hx
    · exact ih.2 x hx g m p he
    · rw [List.mem_singleton.1 hx] at he
      have := C51_events (e := o.1) (p := o.2) r adm hu
      rw [he] at this
      obtain ⟨-, -, r, hr, -⟩ := this
      rw [hp.2] at hr
      cases hr

theorem estimate_odometry (log : List Event) (h : ∀ x ∈ log, ∀ g m p, x ≠ .matched g m p) :
    (estimate log).1 = (log.map processedOf).prod := by
  induction log using List.reverseRecOn with
  | nil => rfl
  | append_singleton l e ih =>
    have hl := ih fun x hx => h x (List.mem_append_left _ hx)
    rw [estimate_snoc, List.map_append, List.prod_append]
    cases e with
    | matched g m p => exact absurd rfl (h _ (List.mem_append_right _ (List.mem_singleton.2 rfl)) g m p)
    | _ => simp [processedOf, hl]

/-- C52 at full strength: without corrections the returned pose is the composition of all increments. -/
def KeepsAllMotion : Prop := ∀ l e p s, Reach OdometryOnly (l ++ [(e, p)]) s →
  getTransFromPose p = ((l ++ [(e, p)]).map fun x => motionOf x.1).prod

/-- C52 is false: two increments of 0.15 m are reported as 0.15 m. -/
theorem C52_false : ¬ KeepsAllMotion := by
  intro h
  obtain ⟨p₀, p₁, p₂, g, s, hr, hlen, ho⟩ := run_small
  have h1 := h [(.first, p₀), (.idle (ahead 0.15), p₁)] (.failed g (ahead 0.15)) p₂ s hr
  obtain ⟨r, hm⟩ := OdometryOnly.noLoops hr
  have h2 := (C51_composition r).2 [(.first, p₀), (.idle (ahead 0.15), p₁)] _ _ rfl
  rw [h1, estimate_odometry _ (by
    intro x hx
    obtain ⟨y, hy, rfl⟩ := List.mem_map.1 hx
    exact hm y hy)] at h2
  simp only [List.cons_append, List.nil_append, List.map_cons, List.map_nil, List.prod_cons, List.prod_nil,
    motionOf, processedOf, pending, mul_one, one_mul] at h2
  have h2 : ahead 0.15 * ahead 0.15 = ahead 0.15 := h2
  rw [ahead_mul] at h2
  have := ahead_inj h2
  norm_num at this

/-- C52, what holds: the returned pose is the composition of the increments of those updates that reached the
motion threshold, followed by the increment of the last update.  Missing: the increments of the updates that
did not reach the threshold are lost. -/
theorem C52_processed_partial {l : List (Event × Pose)} {e : Event} {p : Pose} {s : State}
    (h : Reach OdometryOnly (l ++ [(e, p)]) s) :
    getTransFromPose p = (l.map fun x => processedOf x.1).prod * motionOf e := by
  obtain ⟨r, hm⟩ := OdometryOnly.noLoops h
  rw [(C51_composition r).2 l e p rfl, estimate_odometry _ (by
    intro x hx
    obtain ⟨y, hy, rfl⟩ := List.mem_map.1 hx
    exact hm y hy)]
  simp only [List.map_append, List.map_map, List.map_cons, List.map_nil, List.prod_append, List.prod_cons,
    List.prod_nil, mul_one, mul_assoc]
  have he := hm (e, p) (by simp)
  congr 1
  cases e with
  | matched g m q => exact absurd rfl (he g m q)
  | _ => simp [processedOf, pending, motionOf]

/-- C52, what holds: if every earlier increment reached the threshold, nothing is lost. -/
theorem C52_no_idle_partial {l : List (Event × Pose)} {e : Event} {p : Pose} {s : State}
    (h : Reach OdometryOnly (l ++ [(e, p)]) s) (hl : ∀ x ∈ l, ∀ m, x.1 ≠ .idle m) :
    getTransFromPose p = ((l ++ [(e, p)]).map fun x => motionOf x.1).prod := by
  rw [C52_processed_partial h, List.map_append, List.prod_append]
  congr 1
  · congr 1
    apply List.map_congr_left
    intro x hx
    have := hl x hx
    rcases x with ⟨e, q⟩
    cases e with
    | idle m => exact absurd rfl (this m)
    | _ => rfl
  · simp

/-- The conditions of the partial theorems can be met. -/
example : ∃ l e p s, Reach OdometryOnly (l ++ [(e, p)]) s ∧ ∀ x ∈ l, ∀ m, x.1 ≠ .idle m := by
  obtain ⟨inp, e, p, s, b, b', h, -⟩ :=
    Reach.extend (P := OdometryOnly) .init (ahead_rigid 1) (mat := none) (by simp) (fun _ _ _ => ⟨rfl, rfl⟩)
  exact ⟨[], e, p, s, h, by simp⟩

/-! ### C53 -/

theorem calcError_zero {x y z : Pose} (h : getTransFromPose y = getTransFromPose x * getTransFromPose z) :
    calcError x y z = ⟨0, 0, 0⟩ := by
  unfold calcError
  simp only
  rw [h, ← Matrix.mul_assoc (getTransFromPose x)⁻¹, trans_inv_mul, Matrix.one_mul, trans_inv_mul,
    ← trans_zero]
  rw [pose_trans]
  have : Complex.arg ⟨1, 0⟩ = 0 := Complex.arg_one
  simp [normalized, normalizeAngle, atan2, this]

/-- C53.  In every reachable state with at least one node: when the active frame is inserted (whatever motion
and covariance have been accumulated), the constraint added joins the previous last node with the new one, and
its error with respect to the current poses of these nodes is zero. -/
theorem C53_new_constraint {P : Input → Prop} {log : List (Event × Pose)} {s : State} (h : Reach P log s)
    (hn : 0 < s.engine.graph.nodes.length) (t c : Trans) {addr : ℕ}
    (fresh : PoseGraph.Fresh s.engine.graph addr) :
    ∃ s' z x y, insertFrame addr { s with transTemp := t, covarTemp := c } = .ok s' ∧
      s'.engine.graph.edges.length = s.engine.graph.edges.length + 1 ∧
      s'.engine.graph.nodes.length = s.engine.graph.nodes.length + 1 ∧
      Slam.getConstrainPoses s'.engine s.engine.graph.edges.length =
        .ok (s.engine.graph.nodes.length - 1, s.engine.graph.nodes.length) ∧
      Slam.getConstrainTransform s'.engine s.engine.graph.edges.length = .ok z ∧
      Slam.getPoseLocation s'.engine (s.engine.graph.nodes.length - 1) = .ok x ∧
      Slam.getPoseLocation s'.engine s.engine.graph.nodes.length = .ok y ∧
      y = s.temp.origin ∧ calcError x y z = ⟨0, 0, 0⟩ := by
  obtain ⟨b, f, -⟩ := h.full
  obtain ⟨s', hs', inv', -, -⟩ := inv_insertFrame (s := { s with transTemp := t, covarTemp := c })
    f.alg.engine f.alg.first fresh
  have hlen := f.alg.engine.nodesLen
  rw [hlen] at hn ⊢
  rw [f.alg.engine.edgesLen]
  simp only [if_pos hn] at inv'
  obtain ⟨x, hx⟩ : ∃ x, b.poses[b.poses.length - 1]? = some x := ⟨_, List.getElem?_eq_getElem (by omega)⟩
  have hx' : (b.poses ++ [(s.temp.origin, s.temp)])[b.poses.length - 1]? = some x := by
    rw [List.getElem?_append_left (by omega), hx]
  obtain ⟨a, ha⟩ := inv'.getEdge_some (id := b.cons.length)
    (c := (b.poses.length - 1, b.poses.length, getPoseFromTransform s.lastTrans, .odom)) (by simp)
  refine ⟨s', getPoseFromTransform s.lastTrans, x.1, s.temp.origin, hs', ?_, ?_, ?_, ?_, ?_, ?_, rfl, ?_⟩
  · rw [inv'.edgesLen]; simp
  · rw [inv'.nodesLen]; simp
  · simp [Slam.getConstrainPoses, ha]
  · simp [Slam.getConstrainTransform, ha]
  · exact (getPose inv' hx').1
  · exact (getPose inv' (x := (s.temp.origin, s.temp)) (by simp)).1
  · apply calcError_zero
    rw [trans_pose f.alg.last]
    exact f.alg.chain x (by rw [List.getLast?_eq_getElem?, hx])

/-- C53 for the whole graph.  As long as no loop closure is found, the graph is a chain in which every
constraint joins two consecutive nodes and has zero error. -/
theorem C53_chain {log : List (Event × Pose)} {s : State} (h : Reach NoLoops log s) :
    s.engine.graph.edges.length = s.engine.graph.nodes.length - 1 ∧
    ∀ i, i + 1 < s.engine.graph.nodes.length → ∃ x y z,
      Slam.getConstrainPoses s.engine i = .ok (i, i + 1) ∧
      Slam.getConstrainTransform s.engine i = .ok z ∧
      Slam.getPoseLocation s.engine i = .ok x ∧ Slam.getPoseLocation s.engine (i + 1) = .ok y ∧
      calcError x y z = ⟨0, 0, 0⟩ := by
  obtain ⟨b, f, -, -, lf⟩ := h.full
  have lf := lf fun _ h => h
  rw [f.alg.engine.edgesLen, f.alg.engine.nodesLen]
  refine ⟨lf.consLen, ?_⟩
  intro i hi
  have hc := List.getElem?_eq_getElem (l := b.cons) (i := i) (by have := lf.consLen; omega)
  have hx := List.getElem?_eq_getElem (l := b.poses) (i := i) (by omega)
  have hy := List.getElem?_eq_getElem (l := b.poses) (i := i + 1) hi
  obtain ⟨h1, h2, h3⟩ := lf.cons i _ hc
  obtain ⟨a, ha⟩ := f.alg.engine.getEdge_some hc
  refine ⟨_, _, _, by simp [Slam.getConstrainPoses, ha, h1, h2],
    by simp only [Slam.getConstrainTransform, ha, Res.map_ok], (getPose f.alg.engine hx).1,
    (getPose f.alg.engine hy).1, calcError_zero (h3 _ _ hx hy)⟩

/-- The conditions of the theorems on C53 can be met. -/
example : ∃ log s addr, Reach NoLoops log s ∧ 0 < s.engine.graph.nodes.length ∧
    PoseGraph.Fresh s.engine.graph addr := by
  obtain ⟨log, s, h, hn⟩ := run_node
  obtain ⟨a, ha⟩ := exists_fresh s.engine.graph
  exact ⟨log, s, a, h, hn, ha⟩

/-! ### C79 -/

theorem estimate_matched (l : List Event) (h : ∀ x ∈ l, ∀ g m, x ≠ .failed g m) :
    (estimate l).1 = getTransFromPose (estimate l).2 := by
  induction l using List.reverseRecOn with
  | nil => exact trans_zero.symm
  | append_singleton l e ih =>
    have hl := ih fun x hx => h x (List.mem_append_left _ hx)
    rw [estimate_snoc]
    cases e with
    | failed g m => exact absurd rfl (h _ (List.mem_append_right _ (List.mem_singleton.2 rfl)) g m)
    | matched g m p => simp only; rw [hl, ← Matrix.mul_assoc, trans_mul_inv, Matrix.one_mul]
    | _ => exact hl

/-- C79 at full strength: after a successful match the returned pose is the pose found by the matcher. -/
def ReportsMatch : Prop := ∀ l g m q p s, Reach NoLoops (l ++ [(.matched g m q, p)]) s →
  getTransFromPose p = getTransFromPose q

/-- C79 is false: after a failed match over 1 m and a match at 1 m from the start, 2 m are reported. -/
theorem C79_false : ¬ ReportsMatch := by
  intro h
  obtain ⟨p₀, p₁, p₂, g₁, g₂, m, s, hr⟩ := run_failed
  have h1 := h [(.first, p₀), (.failed g₁ (ahead 1), p₁)] _ _ _ _ _ hr
  rw [(C51_composition hr).2 [(.first, p₀), (.failed g₁ (ahead 1), p₁)] _ _ rfl] at h1
  simp only [estimate, List.map_cons, List.map_nil, List.foldl_cons, List.foldl_nil, pending, mul_one,
    one_mul] at h1
  rw [trans_zero, inv_one, Matrix.one_mul] at h1
  have h1 : ahead 1 * ahead 1 = ahead 1 := h1
  rw [ahead_mul] at h1
  have := ahead_inj h1
  norm_num at this

/-- C79, what holds: the returned pose is the pose found by the matcher as long as matching has never failed
before.  Missing: after a failure the odometry used instead is counted a second time. -/
theorem C79_reports_match_partial {l : List (Event × Pose)} {g m : Trans} {q p : Pose} {s : State}
    (h : Reach NoLoops (l ++ [(.matched g m q, p)]) s) (hl : ∀ x ∈ l, ∀ g m, x.1 ≠ .failed g m) :
    getTransFromPose p = getTransFromPose q := by
  rw [(C51_composition h).2 l _ _ rfl, List.map_append, List.map_cons, List.map_nil, estimate_snoc]
  simp only [pending, mul_one]
  rw [estimate_matched _ (by
    intro x hx
    obtain ⟨y, hy, rfl⟩ := List.mem_map.1 hx
    exact hl y hy), ← Matrix.mul_assoc, trans_mul_inv, Matrix.one_mul]

/-! ### C80 -/

theorem frames_eq {s : State} {b : Slam.Book Frame} (inv : Full s b) :
    frames s = b.poses.map Prod.snd ++ [s.temp] := by
  unfold frames
  have := congrArg (List.map fun n : Slam.NodeP Frame => n.obj) inv.alg.engine.nodes
  simp only [List.map_map] at this
  rw [show (fun n : PoseGraph.Node (Slam.NodeP Frame) => n.payload.obj) =
    (fun n : Slam.NodeP Frame => n.obj) ∘ PoseGraph.Node.payload from rfl, this]
  rfl

/-- C80.  Without loop closures the frames contain exactly the scans used, in order, each once, and each at
the pose that was reported for it. -/
theorem C80_scans {log : List (Event × Pose)} {s : State} (h : Reach NoLoops log s) :
    (frames s).flatMap Frame.scans =
      (log.filter fun x => x.1.scanUsed).map fun x => getTransFromPose x.2 := by
  obtain ⟨b, f, -, -, lf⟩ := h.full
  rw [frames_eq f, (lf fun _ h => h).scans]

/-- C80 with loop closures: the frames contain every scan used exactly once, no frame is empty, and the scan
used in the last update was stored at the pose reported for it. -/
theorem C80_scans_loops {P : Input → Prop} {log : List (Event × Pose)} {s s' : State} (h : Reach P log s)
    {inp : Input} (hP : P inp) (adm : Admissible s inp) {e : Event} {p : Pose}
    (hu : update inp s = .ok ((e, p), s')) :
    ((frames s').flatMap Frame.inserts).length =
      ((log ++ [(e, p)]).filter fun x => x.1.scanUsed).length ∧
    (∀ f ∈ frames s', f.inserts ≠ []) ∧
    (e.scanUsed = true → s'.temp.scans.getLast? = some (getTransFromPose p)) := by
  obtain ⟨b', f', -, st, -⟩ := (Reach.update h hP adm hu).full
  obtain ⟨b, f, fa, -⟩ := h.full
  obtain ⟨e', p', s'', b'', hu', f'', hi, hp, -, -, -, sc⟩ := update_step f adm
  rw [hu] at hu'
  cases hu'
  have hc : contents s' b' = (frames s').map Frame.inserts := by
    rw [frames_eq f']; simp [contents]
  rw [hc] at st
  refine ⟨?_, ?_, ?_⟩
  · rw [← st.count, List.flatMap_def]
  · intro fr hfr
    exact st.nonempty hi _ (List.mem_map_of_mem hfr)
  · intro hus
    have hpt : pending e = 1 → getTransFromPose p = s'.position := by
      intro h1
      rw [hp, h1, Matrix.mul_one, trans_pose (rigid_pos f''.alg)]
    have grown : ∀ inc b b', Grown inp inc s s' b b' → s'.temp.scans.getLast? = some s'.position := by
      rintro inc b b' ⟨ins, g1, -, ⟨-, ht, -⟩ | ⟨-, ht, -⟩⟩
      · rw [ht, scans_append, ← g1, ht]; simp
      · unfold Frame.scans
        rw [ht, ← g1]; rfl
    cases sc with
    | idle => cases hus
    | first _ hpos _ _ _ _ ho hins =>
      rw [hpt rfl, hpos]
      unfold Frame.scans
      rw [hins, ho, trans_zero]
      simp
    | failed _ _ _ _ _ _ g => rw [hpt rfl]; exact grown _ _ _ g
    | matched _ _ _ _ _ _ _ g => rw [hpt rfl]; exact grown _ _ _ g

/-- C80, nothing else changes: an update, also one that closes loops, leaves all scans in their frames, in the same order
and at the same place relative to the frame.  A used scan is added as the last one of the active frame, or as the only one of
a new frame; a scan that is not used is not stored. -/
theorem C80_kept {P : Input → Prop} {log : List (Event × Pose)} {s s' : State} (h : Reach P log s)
    {inp : Input} (adm : Admissible s inp) {e : Event} {p : Pose} (hu : update inp s = .ok ((e, p), s')) :
    (e.scanUsed = false → (frames s').map Frame.inserts = (frames s).map Frame.inserts) ∧
    (e.scanUsed = true → ∃ ins,
      (frames s').map Frame.inserts = (frames s).map Frame.inserts ++ [[ins]] ∨
      ∃ done active, (frames s).map Frame.inserts = done ++ [active] ∧
        (frames s').map Frame.inserts = done ++ [active ++ [ins]]) := by
  obtain ⟨b, f, fa, st, -⟩ := h.full
  obtain ⟨e', p', s'', b', hu', f', hi, hp, -, -, -, sc⟩ := update_step f adm
  rw [hu] at hu'
  cases hu'
  have hc : contents s b = (frames s).map Frame.inserts := by rw [frames_eq f]; simp [contents]
  have hc' : contents s' b' = (frames s').map Frame.inserts := by rw [frames_eq f']; simp [contents]
  rw [← hc, ← hc']
  have grown : ∀ inc, Grown inp inc s s' b b' → ∃ ins, contents s' b' = contents s b ++ [[ins]] ∨
      ∃ done active, contents s b = done ++ [active] ∧ contents s' b' = done ++ [active ++ [ins]] := by
    rintro inc ⟨ins, -, -, ⟨rfl, ht, -⟩ | ⟨rfl, ht, -⟩⟩
    · exact ⟨ins, .inr ⟨_, _, rfl, by unfold contents; rw [ht]⟩⟩
    · refine ⟨ins, .inl ?_⟩
      unfold contents inserted
      simp only [inserts_optimised, ht, List.map_append, List.map_cons, List.map_nil]
  cases sc with
  | first h0 _ _ _ hb hbn _ hins =>
    refine ⟨(fun h => by cases h), fun _ => ⟨⟨1, (0, 0)⟩, .inr ⟨[], [], ?_, ?_⟩⟩⟩
    · have := fa.start.1 h0
      subst this
      have := st.count
      unfold contents at this ⊢
      rw [hbn] at this ⊢
      simpa using this
    · unfold contents
      rw [hb, hbn, hins]
      rfl
  | idle _ _ _ _ _ hb ht =>
    refine ⟨fun _ => ?_, fun h => by cases h⟩
    unfold contents
    rw [hb, ht]
  | failed _ _ _ _ _ _ g => exact ⟨(fun h => by cases h), fun _ => grown _ g⟩
  | matched _ _ _ _ _ _ _ g => exact ⟨(fun h => by cases h), fun _ => grown _ g⟩

/-! ### C81 -/

/-- C81.  In every reachable state, also after loop closures, the origin of every finished frame and the
origin at which it is placed in the map are the current pose of its node. -/
theorem C81_frames_follow_nodes {P : Input → Prop} {log : List (Event × Pose)} {s : State}
    (h : Reach P log s) :
    s.placed.length = s.engine.graph.nodes.length ∧
    ∀ i, i < s.engine.graph.nodes.length → ∃ p f, Slam.getPoseLocation s.engine i = .ok p ∧
      Slam.getPoseData s.engine i = .ok f ∧ f.origin = p ∧ s.placed[i]? = some p := by
  obtain ⟨b, f, -⟩ := h.full
  rw [f.alg.engine.nodesLen, f.alg.placed]
  refine ⟨by simp, ?_⟩
  intro i hi
  have hx := List.getElem?_eq_getElem hi
  obtain ⟨h1, h2⟩ := getPose f.alg.engine hx
  exact ⟨_, _, h1, h2, f.alg.origins _ (List.getElem_mem hi), by simp [hi]⟩

/-! ### C82 -/

/-- C82 at full strength: the guess handed to the matcher is the last pose it found, advanced by all odometry
received since. -/
def GuessUsesAllMotion : Prop := ∀ l e p s, Reach NoLoops (l ++ [(e, p)]) s →
  ∀ g, (∃ m, e = .failed g m) ∨ (∃ m q, e = .matched g m q) →
    g = getTransFromPose (lastFix (l.map Prod.fst)).1 * (lastFix (l.map Prod.fst)).2 * motionOf e

theorem lastFix_snoc (l : List Event) (e : Event) : lastFix (l ++ [e]) = match e with
    | .matched _ _ p => (p, 1)
    | e => ((lastFix l).1, (lastFix l).2 * motionOf e) := by
  conv_lhs => unfold lastFix
  rw [List.foldl_append]
  cases e <;> rfl

theorem lastFix_eq (l : List Event) : (lastFix l).1 = (estimate l).2 := by
  induction l using List.reverseRecOn with
  | nil => rfl
  | append_singleton l e ih =>
    rw [lastFix_snoc, estimate_snoc]
    cases e <;> simp [ih]

/-- C82, what holds: the guess is the last pose found by the matcher, advanced by the increment of the current
update only.  Missing: increments of earlier updates that were not matched. -/
theorem C82_guess_partial {P : Input → Prop} {log : List (Event × Pose)} {s s' : State} (h : Reach P log s)
    {inp : Input} (adm : Admissible s inp) {e : Event} {p : Pose} (hu : update inp s = .ok ((e, p), s'))
    (g : Trans) (hg : (∃ m, e = .failed g m) ∨ (∃ m q, e = .matched g m q)) :
    g = getTransFromPose (lastFix (log.map Prod.fst)).1 * inp.motion := by
  obtain ⟨b, f, fa, -⟩ := h.full
  obtain ⟨e', p', s'', b'', hu', f'', hi, hp, -, -, -, sc⟩ := update_step f adm
  rw [hu] at hu'
  cases hu'
  rw [lastFix_eq, ← fa.matcher]
  cases sc with
  | first => rcases hg with ⟨m, h⟩ | ⟨m, q, h⟩ <;> cases h
  | idle => rcases hg with ⟨m, h⟩ | ⟨m, q, h⟩ <;> cases h
  | failed => rcases hg with ⟨m, h⟩ | ⟨m, q, h⟩ <;> cases h; rfl
  | matched => rcases hg with ⟨m, h⟩ | ⟨m, q, h⟩ <;> cases h; rfl

/-- Inversion of a run. -/
theorem Reach.last {P : Input → Prop} {log : List (Event × Pose)} {s : State} (h : Reach P log s) :
    ∀ l o, log = l ++ [o] → ∃ s₀ s₁ inp, Reach P l s₀ ∧ P inp ∧ Admissible s₀ inp ∧
      Algo.update inp s₀ = .ok (o, s₁) := by
  induction h with
  | init => intro l o h; simp at h
  | setDistance d _ ih => exact ih
  | @update log s inp o s' r hp adm hu ih =>
    intro l o' hl
    have := List.append_inj' hl rfl
    simp only [List.cons.injEq, and_true] at this
    obtain ⟨rfl, rfl⟩ := this
    exact ⟨s, s', inp, r, hp, adm, hu⟩

/-- C82, what holds: if the previous update was a successful match (or the first scan), the guess is right. -/
theorem C82_guess_after_match_partial {l : List (Event × Pose)} {e : Event} {p : Pose} {s : State}
    (h : Reach NoLoops (l ++ [(e, p)]) s) (g : Trans)
    (hg : (∃ m, e = .failed g m) ∨ (∃ m q, e = .matched g m q))
    (hl : ∀ l' x, l = l' ++ [x] → (∃ g m q, x.1 = .matched g m q) ∨ (l' = [] ∧ x.1 = .first)) :
    g = getTransFromPose (lastFix (l.map Prod.fst)).1 * (lastFix (l.map Prod.fst)).2 * motionOf e := by
  obtain ⟨s₀, s₁, inp, r, -, adm, hu⟩ := h.last l _ rfl
  have h1 := C82_guess_partial r adm hu g hg
  have hm : motionOf e = inp.motion := by
    have := C51_events r adm hu
    rcases hg with ⟨m, rfl⟩ | ⟨m, q, rfl⟩
    · exact this.2.1
    · exact this.2.1
  have h2 : (lastFix (l.map Prod.fst)).2 = 1 := by
    rcases List.eq_nil_or_concat l with rfl | ⟨l', x, rfl⟩
    · rfl
    · rw [List.concat_eq_append, List.map_append, List.map_cons, List.map_nil, lastFix_snoc]
      rcases hl l' x (List.concat_eq_append ..) with ⟨g, m, q, hx⟩ | ⟨rfl, hx⟩
      · rw [hx]
      · rw [hx]; simp [lastFix, motionOf]
  rw [h1, h2, hm, Matrix.mul_one]

/-- C82 is false: after an increment of 0.15 m that was not processed, the guess for the next scan, 0.3 m from
the last match, is 0.15 m. -/
theorem C82_false : ¬ GuessUsesAllMotion := by
  intro h
  obtain ⟨p₀, p₁, p₂, g, s, hr, hlen, ho⟩ := run_small
  have hr := (OdometryOnly.noLoops hr).1
  have h1 := h [(.first, p₀), (.idle (ahead 0.15), p₁)] _ _ _ hr g (.inl ⟨_, rfl⟩)
  obtain ⟨s₀, s₁, inp, r, -, adm, hu⟩ := hr.last [(.first, p₀), (.idle (ahead 0.15), p₁)] _ rfl
  have h2 := C82_guess_partial r adm hu g (.inl ⟨_, rfl⟩)
  have hm : ahead 0.15 = inp.motion := (C51_events r adm hu).2.1
  rw [h2] at h1
  simp only [lastFix, List.map_cons, List.map_nil, List.foldl_cons, List.foldl_nil, motionOf, one_mul,
    ← hm, trans_zero] at h1
  rw [ahead_mul] at h1
  have := ahead_inj h1
  norm_num at this

/-! ### C83 -/

/-- C83 at full strength: the rays of every scan start where the robot was when it took the scan. -/
def RaysFromRobot : Prop := ∀ P log s, Reach P log s → ∀ f ∈ frames s, ∀ i ∈ f.inserts,
  i.ray = act i.place (0, 0)

/-- C83, what holds: all rays start at the origin of the frame, which is right for the first scan of each
frame.  Missing: all other scans of the frame. -/
theorem C83_rays_partial {P : Input → Prop} {log : List (Event × Pose)} {s : State} (h : Reach P log s)
    {f : Frame} (hf : f ∈ frames s) :
    (∀ i ∈ f.inserts, i.ray = (0, 0)) ∧ ∀ i, f.inserts.head? = some i → i.ray = act i.place (0, 0) := by
  obtain ⟨b', f', -, st, -⟩ := h.full
  have hc : contents s b' = (frames s).map Frame.inserts := by
    rw [frames_eq f']; simp [contents]
  rw [hc] at st
  have h1 := st.rays _ (List.mem_map_of_mem hf)
  refine ⟨h1, ?_⟩
  intro i hi
  rw [h1 i (List.mem_of_mem_head? hi), st.heads _ (List.mem_map_of_mem hf) i hi]
  simp [act]

/-- C83 is false: after 0.15 m of processed motion the rays of the new scan start at the old position. -/
theorem C83_false : ¬ RaysFromRobot := by
  intro h
  obtain ⟨p₀, p₁, p₂, g, s, hr, hlen, ho⟩ := run_small
  have hr := (OdometryOnly.noLoops hr).1
  have hpos := (C51_composition hr).2 [(.first, p₀), (.idle (ahead 0.15), p₁)] _ _ rfl
  simp only [estimate, List.map_cons, List.map_nil, List.foldl_cons, List.foldl_nil, pending, mul_one,
    one_mul] at hpos
  have hall := C80_scans hr
  simp only [Event.scanUsed, List.filter_cons, List.filter_nil, if_true, Bool.false_eq_true, if_false,
    List.map_cons, List.map_nil, hpos] at hall
  have hmem : s.temp ∈ frames s := by simp [frames]
  obtain ⟨a, b, hab⟩ := List.length_eq_two.1 hlen
  obtain ⟨hr0, -⟩ := C83_rays_partial hr hmem
  have hb : b ∈ s.temp.inserts := by rw [hab]; simp
  have hray := h _ _ _ hr s.temp hmem b hb
  have hlast := congrArg List.getLast? hall
  simp only [frames, List.flatMap_append, List.flatMap_cons, List.flatMap_nil, List.append_nil, Frame.scans,
    hab, ho, trans_zero, List.map_cons, List.map_nil, Matrix.one_mul] at hlast
  rw [List.getLast?_append] at hlast
  simp only [List.getLast?_cons_cons, List.getLast?_singleton, Option.some_or, Option.some.injEq] at hlast
  rw [hr0 b hb, hlast, ahead_eq] at hray
  simp [act] at hray
  norm_num at hray

/-- The conditions of the theorems on C80 to C83 can be met by a run with an inserted node. -/
example : ∃ log s inp, Reach NoLoops log s ∧ Admissible s inp ∧ 0 < s.engine.graph.nodes.length ∧
    ∃ f, f ∈ frames s := by
  obtain ⟨log, s, h, hn⟩ := run_node
  obtain ⟨a, ha⟩ := exists_fresh s.engine.graph
  exact ⟨log, s, ⟨ahead 1, none, a, [], fun _ => ⟨0, 0, 0⟩, List.range (s.engine.graph.nodes.length + 1)⟩, h,
    ⟨ahead_rigid 1, by simp, by simp, by simpa using ha, by simp, List.Perm.refl _⟩, hn, s.temp,
    by simp [frames]⟩

/-! ### C84 -/

/-- Distance between two points of the plane. -/
noncomputable def dist2 (x y x' y' : ℝ) : ℝ := Real.sqrt ((x' - x) ^ 2 + (y' - y) ^ 2)

theorem displacement_frame (o : Pose) (t : Trans) :
    getDisplacement t = dist2 o.x o.y ((getTransFromPose o * t) 0 2) ((getTransFromPose o * t) 1 2) ∨ t 2 2 ≠ 1 := by
  by_cases h : t 2 2 = 1
  · left
    unfold getDisplacement dist2
    congr 1
    simp [getTransFromPose, Matrix.mul_apply, Fin.sum_univ_three, h]
    have := Real.sin_sq_add_cos_sq o.th
    linear_combination (-(t 0 2) ^ 2 - (t 1 2) ^ 2) * this
  · exact .inr h

/-- C84.  After every update that used its scan, the robot is at most the node generation distance away from
the origin of the active frame. -/
theorem C84_frame_extent {P : Input → Prop} {log : List (Event × Pose)} {s s' : State} (h : Reach P log s)
    {inp : Input} (adm : Admissible s inp) {e : Event} {p : Pose} (hu : update inp s = .ok ((e, p), s'))
    (hs : e.scanUsed = true) (hd : 0 ≤ s.maxTraveled) :
    dist2 s'.temp.origin.x s'.temp.origin.y p.x p.y ≤ s.maxTraveled := by
  obtain ⟨b, f, fa, -⟩ := h.full
  obtain ⟨e', p', s'', b', hu', f', -, hp, -, -, hmt, sc⟩ := update_step f adm
  rw [hu] at hu'
  cases hu'
  have hpos : p.x = s'.position 0 2 ∧ p.y = s'.position 1 2 := by
    have : pending e = 1 := by cases e <;> simp_all [Event.scanUsed, pending]
    rw [hp, this, Matrix.mul_one]
    exact ⟨rfl, rfl⟩
  have h22 : s'.transTemp 2 2 = 1 := ((isRigid_iff _).1 f'.alg.temp).2.2.2.2.2
  have hdist := (displacement_frame s'.temp.origin s'.transTemp).resolve_right (not_not_intro h22)
  rw [hpos.1, hpos.2, f'.alg.pos, ← hdist]
  have h1 : getDisplacement (1 : Trans) ≤ s.maxTraveled := by simpa [getDisplacement] using hd
  have hg : ∀ inc b b', Grown inp inc s s' b b' → getDisplacement s'.transTemp ≤ s.maxTraveled := by
    rintro inc b b' ⟨ins, -, -, ⟨-, -, ht, hf⟩ | ⟨-, -, -, ⟨ht, -⟩, -⟩⟩
    · rw [ht]
      exact (le_abs_self _).trans (not_lt.1 hf)
    · rw [ht]; exact h1
  cases sc with
  | first _ _ _ _ _ _ _ _ ht => rw [ht]; exact h1
  | idle => cases hs
  | failed _ _ _ _ _ _ g => exact hg _ _ _ g
  | matched _ _ _ _ _ _ _ g => exact hg _ _ _ g

/-! ### Connection with the model of the grid -/

/-- `moveWindow` has the same effect on origin and result as the model of the whole grid. -/
theorem moveWindow_grid {γ : Type} (I : NDTGrid.CellI ℝ γ) {n n' : NDTGrid.NGrid ℝ γ} {r : ℝ × ℝ} (t : Trans)
    (hwf : Voxel.WF n.grid) (hcs : 0 < n.grid.cellSize)
    (h : NDTGrid.move I n (t 0 2) (t 1 2) = .ok (r, n')) :
    (moveWindow n.grid.cellSize ⟨n.ox, n.oy, n.th⟩ t).1 = ⟨n'.ox, n'.oy, n'.th⟩ ∧
    (moveWindow n.grid.cellSize ⟨n.ox, n.oy, n.th⟩ t).2 =
      !![t 0 0, t 0 1, r.1; t 1 0, t 1 1, r.2; t 2 0, t 2 1, t 2 2] := by
  unfold NDTGrid.move at h
  unfold moveWindow
  by_cases hth : |n.th| > 1 / 10000000
  · rw [if_pos hth] at h ⊢
    cases h
    exact ⟨rfl, by apply mat_ext <;> simp⟩
  · rw [if_neg hth, if_neg (by rintro ⟨h, -⟩; exact absurd h (ne_of_gt hcs))] at h
    rw [if_neg hth]
    simp only at h ⊢
    split_ifs at h with hc
    · obtain ⟨g, hg, -⟩ := Voxel.translate_spec hwf (-NDTGrid.axisSteps n.grid.cellSize (t 0 2))
        (-NDTGrid.axisSteps n.grid.cellSize (t 1 2)) true
      rw [hg, Res.bind_ok] at h
      cases h
      exact ⟨rfl, rfl⟩
    · cases h
      push Not at hc
      have h1 := (NDTGrid.axisSteps_spec hcs (t 0 2)).2 (not_lt.2 hc.1)
      have h2 := (NDTGrid.axisSteps_spec hcs (t 1 2)).2 (not_lt.2 hc.2)
      rw [h1, h2]
      refine ⟨by simp, by apply mat_ext <;> simp⟩

end Verif.Algo
