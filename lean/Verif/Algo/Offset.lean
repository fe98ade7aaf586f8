import Verif.Algo.Used

/-
C139: the reported pose of the robot and the running window.
-/
namespace Verif.Algo

open Verif Verif.Geo Matrix

/-! ### Specification -/

/-- How far the robot, as reported, is displaced against the pose last found by the matcher, as a motion of the
world. -/
noncomputable def displacement (log : List (Event × Pose)) : Trans :=
  match lastUsed log with
  | some r => getTransFromPose r * (getTransFromPose (lastFix (log.map Prod.fst)).1)⁻¹
  | none => 1

/-- `c` is the correction of the update that led from `s` to `s'`: the motion of the world that takes the frame
finished in it from the origin it had to the pose its node has now; the identity if no frame was finished. -/
def Correction (s s' : State) (c : Trans) : Prop :=
  (s'.engine.graph.nodes.length = s.engine.graph.nodes.length ∧ c = 1) ∨
  (s'.engine.graph.nodes.length = s.engine.graph.nodes.length + 1 ∧
    ∃ x, Slam.getPoseLocation s'.engine s.engine.graph.nodes.length = .ok x ∧
      c = getTransFromPose x * (getTransFromPose s.temp.origin)⁻¹)

/-- What an update adds to the displacement: the odometry of a failed match, starting at the pose `q` last found by
the matcher. -/
noncomputable def slip (q : Pose) : Event → Trans
  | .failed _ m => getTransFromPose q * m * (getTransFromPose q)⁻¹
  | _ => 1

/-- Updates from the state `s` on in which no match fails and no finished frame is moved by the optimisation. -/
inductive Steady (s : State) : List (Event × Pose) → State → Prop
  | start : Steady s [] s
  | setDistance {log s'} (d : ℝ) : Steady s log s' → Steady s log { s' with maxTraveled := d }
  | update {log s' inp o s''} : Steady s log s' → Admissible s' inp → update inp s' = .ok (o, s'') →
      (∀ g m, o.1 ≠ .failed g m) → Correction s' s'' 1 → Steady s (log ++ [o]) s''

/-! ### Lemmas -/

theorem inv_mul_trans (p : Pose) (x : Trans) : (getTransFromPose p)⁻¹ * (getTransFromPose p * x) = x := by
  rw [← Matrix.mul_assoc, trans_inv_mul, Matrix.one_mul]

theorem mul_inv_trans (p : Pose) (x : Trans) : getTransFromPose p * ((getTransFromPose p)⁻¹ * x) = x := by
  rw [← Matrix.mul_assoc, trans_mul_inv, Matrix.one_mul]

/-- The correction of an update in which the scan was used. -/
theorem Grown.correction {inp : Input} {inc : Trans} {s s' : State} {b b' : Slam.Book Frame} (inv : AInv s b)
    (inv' : AInv s' b') (g : Grown inp inc s s' b b') :
    ∃ c, Correction s s' c ∧ s'.position = c * s.position * inc ∧ (inp.loops = [] → c = 1) := by
  obtain ⟨ins, g1, -, ⟨rfl, g2, g3, -⟩ | ⟨rfl, -, g3, ⟨-, g4⟩, -⟩⟩ := g
  · refine ⟨1, .inl ⟨by rw [inv.engine.nodesLen, inv'.engine.nodesLen], rfl⟩, ?_, fun _ => rfl⟩
    rw [inv'.pos, g2, g3, inv.pos, Matrix.one_mul, Matrix.mul_assoc]
  · have hlen : (inserted inp s b).poses.length = b.poses.length + 1 := by
      unfold inserted; rw [length_optimised]; simp
    obtain ⟨x, hx⟩ : ∃ x, (inserted inp s b).poses[b.poses.length]? = some x :=
      ⟨_, List.getElem?_eq_getElem (by omega)⟩
    have hxl : (inserted inp s b).poses.getLast? = some x := by
      rw [List.getLast?_eq_getElem?, hlen, Nat.add_sub_cancel, hx]
    refine ⟨_, .inr ⟨by rw [inv.engine.nodesLen, inv'.engine.nodesLen, hlen], x.1, ?_, rfl⟩, ?_, ?_⟩
    · rw [inv.engine.nodesLen]
      exact (getPose inv'.engine hx).1
    · rw [← g1, g3, Matrix.mul_one, inv'.chain x hxl, g4, inv.pos]
      simp only [Matrix.mul_assoc]
      rw [inv_mul_trans]
    · intro h0
      have : x = (s.temp.origin, s.temp) := by
        have : (inserted inp s b).poses = b.poses ++ [(s.temp.origin, s.temp)] := by
          unfold inserted optimised; simp only [if_pos h0]
        rw [this] at hx
        simpa using hx.symm
      rw [this, trans_mul_inv]

/-- The displacement in terms of the members. -/
noncomputable def offset (s : State) : Trans := s.position * (getTransFromPose s.lastMatcherPose)⁻¹

theorem Reach.fresh {P : Input → Prop} {log : List (Event × Pose)} {s : State} (h : Reach P log s) :
    lastUsed log = none → offset s = 1 := by
  induction h with
  | init =>
    intro _
    show (1 : Trans) * (getTransFromPose ⟨0, 0, 0⟩)⁻¹ = 1
    rw [trans_zero, inv_one, Matrix.one_mul]
  | setDistance d _ ih => exact ih
  | @update log s inp o s' hr hp adm h ih =>
    obtain ⟨b, f, fa, -⟩ := hr.full
    obtain ⟨e, p, s'', b', h', f', hi, hpe, hd, hr', -, sc⟩ := update_step f adm
    rw [h] at h'
    cases h'
    rw [lastUsed_snoc]
    intro hn
    cases sc with
    | idle _ _ hpos hl =>
      unfold offset
      rw [hpos, hl]
      exact ih hn
    | _ => cases hn

theorem step_offset {P : Input → Prop} {log : List (Event × Pose)} {s s' : State} (h : Reach P log s)
    {inp : Input} (adm : Admissible s inp) {e : Event} {p : Pose} (hu : update inp s = .ok ((e, p), s')) :
    ∃ c, Correction s s' c ∧ offset s' = c * offset s * slip s.lastMatcherPose e ∧
      (inp.loops = [] → c = 1) := by
  obtain ⟨b, f, fa, -⟩ := h.full
  obtain ⟨e', p', s'', b', h', f', hi, hpe, hd, hr', -, sc⟩ := update_step f adm
  rw [hu] at h'
  cases h'
  cases sc with
  | first h0 hpos hl _ hb =>
    refine ⟨1, .inl ⟨by rw [f.alg.engine.nodesLen, f'.alg.engine.nodesLen, hb], rfl⟩, ?_, fun _ => rfl⟩
    have := fa.start.1 h0
    subst this
    rw [h.fresh rfl]
    unfold offset slip
    simp only [hpos, hl, trans_zero, inv_one, Matrix.one_mul]
  | idle _ _ hpos hl _ hb =>
    refine ⟨1, .inl ⟨by rw [f.alg.engine.nodesLen, f'.alg.engine.nodesLen, hb], rfl⟩, ?_, fun _ => rfl⟩
    unfold offset slip
    simp only [hpos, hl, Matrix.one_mul, Matrix.mul_one]
  | failed _ _ _ _ hl _ g =>
    obtain ⟨c, hc, hpos, h1⟩ := g.correction f.alg f'.alg
    refine ⟨c, hc, ?_, h1⟩
    unfold offset slip
    simp only [hpos, hl, Matrix.mul_assoc]
    rw [inv_mul_trans]
  | matched _ _ _ _ _ hl _ g =>
    obtain ⟨c, hc, hpos, h1⟩ := g.correction f.alg f'.alg
    refine ⟨c, hc, ?_, h1⟩
    unfold offset slip
    simp only [hpos, hl, Matrix.mul_assoc, Matrix.mul_one]
    rw [trans_mul_inv, Matrix.mul_one]

theorem Reach.displacement {P : Input → Prop} {log : List (Event × Pose)} {s : State} (h : Reach P log s) :
    Algo.displacement log = offset s := by
  obtain ⟨b, f, fa, -⟩ := h.full
  have hfix : s.lastMatcherPose = (lastFix (log.map Prod.fst)).1 := by rw [fa.matcher, lastFix_eq]
  unfold Algo.displacement
  cases hl : lastUsed log with
  | some r =>
    unfold offset
    simp only
    rw [h.unused.2 r hl, hfix]
  | none => exact (h.fresh hl).symm

/-- The correction is determined by the update. -/
theorem Correction.unique {s s' : State} {c d : Trans} (hc : Correction s s' c) (hd : Correction s s' d) : c = d := by
  rcases hc with ⟨a1, rfl⟩ | ⟨a1, x, a2, rfl⟩ <;> rcases hd with ⟨b1, rfl⟩ | ⟨b1, y, b2, rfl⟩
  · rfl
  · omega
  · omega
  · rw [a2] at b2
    cases b2
    rfl

theorem Steady.reach {log : List (Event × Pose)} {s : State} {l : List (Event × Pose)} {s' : State}
    (h : Reach (fun _ => True) log s) (st : Steady s l s') : Reach (fun _ => True) (log ++ l) s' := by
  induction st with
  | start => rwa [List.append_nil]
  | setDistance d _ ih => exact ih.setDistance d
  | update _ adm hu _ _ ih =>
    rw [← List.append_assoc]
    exact ih.update trivial adm hu

/-! ### C139 -/

/-- C139, the robot in the window.  After every series of updates, with loop closures and failed matches, the pose
reported for the last used scan is the pose of the robot in the running window (the origin of the window and the position
in it), moved by the displacement. -/
theorem C139_window {P : Input → Prop} {log : List (Event × Pose)} {s : State} (h : Reach P log s) {r : Pose}
    (hr : lastUsed log = some r) :
    getTransFromPose r = displacement log * (getTransFromPose s.window * s.positionCumul) := by
  obtain ⟨b, f, fa, -⟩ := h.full
  rw [h.displacement, f.win.pose, h.unused.2 r hr]
  unfold offset
  rw [Matrix.mul_assoc, trans_inv_mul, Matrix.mul_one]

/-- C139, one update.  An update multiplies the displacement by the correction of the frame it finished and, if its match
failed, by the odometry at the pose matched last; nothing else changes it. -/
theorem C139_step {P : Input → Prop} {log : List (Event × Pose)} {s s' : State} (h : Reach P log s)
    {inp : Input} (hP : P inp) (adm : Admissible s inp) {e : Event} {p : Pose} (hu : update inp s = .ok ((e, p), s'))
    {c : Trans} (hc : Correction s s' c) :
    displacement (log ++ [(e, p)]) = c * displacement log * slip (lastFix (log.map Prod.fst)).1 e := by
  obtain ⟨b, f, fa, -⟩ := h.full
  obtain ⟨d, hd, ho, -⟩ := step_offset h adm hu
  rw [(h.update hP adm hu).displacement, h.displacement, hc.unique hd, ho, fa.matcher, lastFix_eq]

/-- C139, every update has a correction; without loop closures it is the identity. -/
theorem C139_correction {P : Input → Prop} {log : List (Event × Pose)} {s s' : State} (h : Reach P log s)
    {inp : Input} (adm : Admissible s inp) {e : Event} {p : Pose} (hu : update inp s = .ok ((e, p), s')) :
    ∃ c, Correction s s' c ∧ (inp.loops = [] → c = 1) := by
  obtain ⟨c, hc, -, h1⟩ := step_offset h adm hu
  exact ⟨c, hc, h1⟩

/-- C139, as long as it holds.  A series of updates in which no match fails and no finished frame is moved by the
optimisation does not change the displacement, whatever it was. -/
theorem C139_kept_partial {log l : List (Event × Pose)} {s s' : State} (h : Reach (fun _ => True) log s)
    (st : Steady s l s') : displacement (log ++ l) = displacement log := by
  induction st with
  | start => rw [List.append_nil]
  | setDistance d _ ih => exact ih
  | @update l s1 inp o s2 st adm hu hn hc ih =>
    rw [← List.append_assoc]
    have := C139_step (e := o.1) (p := o.2) (st.reach h) trivial adm hu hc
    have hs : slip (lastFix ((log ++ l).map Prod.fst)).1 o.1 = 1 := by
      cases ho : o.1 with
      | failed g m => exact absurd ho (hn g m)
      | _ => rfl
    rw [hs, Matrix.one_mul, Matrix.mul_one, ih] at this
    exact this

/-- C139, what holds: from the start on, the reported pose is the pose of the robot in the window. -/
theorem C139_together_partial {l : List (Event × Pose)} {s : State} (st : Steady init l s) {r : Pose}
    (hr : lastUsed l = some r) : getTransFromPose r = getTransFromPose s.window * s.positionCumul := by
  have h := st.reach .init
  have hk := C139_kept_partial .init st
  rw [List.nil_append] at h hk
  rw [C139_window h hr, hk]
  show (1 : Trans) * _ = _
  rw [Matrix.one_mul]

/-! ### Runs -/

theorem fresh_above {ν ε : Type} (g : PoseGraph.Graph ν ε) : ∃ n, ∀ a, n < a → PoseGraph.Fresh g a := by
  refine ⟨(g.edges.map fun e => match e with | some e => e.addr | none => 0).sum, ?_⟩
  intro a ha id e he
  unfold PoseGraph.live at he
  have hm : some e ∈ g.edges := by
    cases h : g.edges[id]? with
    | none => rw [h] at he; cases he
    | some o =>
      rw [h] at he
      have : o = some e := he
      subst this
      exact List.mem_of_getElem? h
  have := List.single_le_sum (l := g.edges.map fun e => match e with | some e => e.addr | none => 0)
    (fun _ _ => Nat.zero_le _) e.addr (List.mem_map.2 ⟨some e, hm, rfl⟩)
  omega

/-- An update in which the robot moves 1 m according to odometry, the matcher finds it at `x` on the first axis, and the
closures `cl` are found. -/
theorem matched_at {log : List (Event × Pose)} {s : State} (h : Reach (fun _ => True) log s)
    (hi : s.initialized = true) (hu : s.unused = 1) (x : ℝ) (cl : List Slam.Closure) (est : ℕ → Pose)
    (hcl : ∀ c ∈ cl, c.src < s.engine.graph.nodes.length + 1 ∧ c.dst < s.engine.graph.nodes.length + 1) :
    ∃ inp g m p s' b b', Reach (fun _ => True) (log ++ [(.matched g m ⟨x, 0, 0⟩, p)]) s' ∧ Admissible s inp ∧
      update inp s = .ok ((.matched g m ⟨x, 0, 0⟩, p), s') ∧ Full s b ∧ Full s' b' ∧
      Grown inp ((getTransFromPose s.lastMatcherPose)⁻¹ * getTransFromPose ⟨x, 0, 0⟩) s s' b b' ∧
      s'.lastMatcherPose = ⟨x, 0, 0⟩ ∧ s'.unused = 1 ∧ s'.initialized = true ∧ s'.maxTraveled = s.maxTraveled ∧
      inp.est = est ∧ inp.loops.map Prod.snd = cl := by
  obtain ⟨n, hn⟩ := fresh_above s.engine.graph
  obtain ⟨b, f, fa, -⟩ := h.full
  have hr : IsRigid ((getTransFromPose s.window)⁻¹ * ahead x) := by
    rw [trans_inv]; exact rigid_mul (getTransFromPose_rigid _) (ahead_rigid _)
  have hv : convertToTransform (convertFromTransform ((getTransFromPose s.window)⁻¹ * ahead x)) = _ := viaPcl_rigid hr
  set loops : List (ℕ × Slam.Closure) := cl.mapIdx fun i c => (n + 2 + i, c) with hloops
  have hfst : loops.map Prod.fst = (List.range cl.length).map fun i => n + 2 + i := by
    apply List.ext_getElem
    · simp [hloops]
    · intro i h1 h2; simp [hloops]
  have hsnd : loops.map Prod.snd = cl := by
    apply List.ext_getElem
    · simp [hloops]
    · intro i h1 h2; simp [hloops]
  set inp : Input := ⟨ahead 1, some (convertFromTransform ((getTransFromPose s.window)⁻¹ * ahead x)), n + 1, loops, est,
    List.range (s.engine.graph.nodes.length + 1)⟩ with hinp
  have adm : Admissible s inp := by
    refine ⟨ahead_rigid 1, ?_, ?_, ?_, ?_, List.Perm.refl _⟩
    · rintro r ⟨⟩
      rw [hv]; exact hr
    · simp only [hinp, hfst, List.nodup_cons, List.mem_map, List.mem_range, not_exists, not_and]
      refine ⟨fun i _ => by omega, ?_⟩
      exact List.Nodup.map (fun a b hab => by simpa using hab) List.nodup_range
    · intro a ha
      simp only [hinp, hfst, List.mem_cons, List.mem_map, List.mem_range] at ha
      rcases ha with rfl | ⟨i, -, rfl⟩ <;> exact hn _ (by omega)
    · intro c hc
      exact hcl c.2 (hsnd ▸ List.mem_map_of_mem hc)
  obtain ⟨e, p, s', b', hu', hf, hi', -, -, -, hmt, sc⟩ := update_step f adm
  have hmv : movedEnough s (s.unused * inp.motion) := by
    rw [hu, Matrix.one_mul, ahead_moved fa.minD fa.minR (by norm_num)]
    norm_num
  cases sc with
  | first h => rw [hi] at h; cases h
  | idle _ h => exact absurd hmv h
  | failed _ _ h => cases h
  | @matched m q _ _ hm hp _ hl hun g =>
    have hq : q = ⟨x, 0, 0⟩ := by
      cases hm
      rw [hp, hv, ← Matrix.mul_assoc, trans_mul_inv, Matrix.one_mul, ahead_eq]
      have : Complex.arg ⟨1, 0⟩ = 0 := Complex.arg_one
      simp [getPoseFromTransform, getAngle, atan2, this]
    subst hq
    exact ⟨inp, _, _, p, s', b, b', h.update trivial adm hu', adm, hu', f, hf, g, hl, hun, hi', hmt, rfl, hsnd⟩

/-- The first scan. -/
theorem first_at : ∃ inp p s, Reach (fun _ => True) [(.first, p)] s ∧ Admissible init inp ∧
    update inp init = .ok ((.first, p), s) ∧ s.initialized = true ∧ s.unused = 1 ∧ s.transTemp = 1 ∧
    s.lastMatcherPose = ⟨0, 0, 0⟩ ∧ s.temp.origin = ⟨0, 0, 0⟩ ∧ s.engine.graph.nodes.length = 0 ∧
    inp.loops = [] := by
  obtain ⟨n, hn⟩ := fresh_above init.engine.graph
  have adm : Admissible init ⟨1, none, n + 1, [], fun _ => ⟨0, 0, 0⟩, List.range (init.engine.graph.nodes.length + 1)⟩ :=
    ⟨rigid_one, by simp, by simp, by simpa using hn (n + 1) (by omega), by simp, List.Perm.refl _⟩
  obtain ⟨e, p, s', b', hu', hf, hi', -, -, -, hmt, sc⟩ := update_step full_init adm
  cases sc with
  | idle h => simp [init] at h
  | failed h => simp [init] at h
  | matched h => simp [init] at h
  | first _ _ hl hu hb hbn ho _ ht =>
    exact ⟨_, p, s', Reach.update .init trivial adm hu', adm, hu', hi', hu, ht, hl, ho, by
      rw [hf.alg.engine.nodesLen, hb, hbn]; rfl, rfl⟩

/-- A run without failed matches: a scan at the start, one 1 m ahead, and one 2 m ahead, by which a loop with the first
frame is closed; the optimisation moves the frame finished last to 5 m. -/
theorem run_corrected : ∃ g₁ m₁ g₂ m₂ p₀ p₁ p₂ s s' inp, Reach (fun _ => True) [(.first, p₀), (.matched g₁ m₁ ⟨1, 0, 0⟩, p₁)] s ∧
    Admissible s inp ∧ update inp s = .ok ((.matched g₂ m₂ ⟨2, 0, 0⟩, p₂), s') ∧
    Correction s s' (ahead 4) ∧ displacement [(.first, p₀), (.matched g₁ m₁ ⟨1, 0, 0⟩, p₁)] = 1 ∧
    s'.initialized = true ∧ s'.unused = 1 := by
  obtain ⟨_, p0, s0, r0, -, -, i0, u0, t0, l0, o0, n0, -⟩ := first_at
  have r0 := r0.setDistance (1 / 2)
  obtain ⟨inp1, g1, m1, p1, s1, b, b', r1, adm1, hu1, f0, f1, gr, l1, u1, i1, mt1, -, c1⟩ :=
    matched_at r0 i0 u0 1 [] (fun _ => ⟨0, 0, 0⟩) (by simp)
  have hb : b.poses.length = 0 := by rw [← f0.alg.engine.nodesLen]; exact n0
  have hlp1 : inp1.loops = [] := List.map_eq_nil_iff.1 c1
  have hnear : ∀ y : ℝ, (getTransFromPose ⟨y, 0, 0⟩)⁻¹ * getTransFromPose ⟨y + 1, 0, 0⟩ = ahead 1 := by
    intro y
    have : getTransFromPose ⟨y + 1, 0, 0⟩ = getTransFromPose ⟨y, 0, 0⟩ * ahead 1 := (ahead_mul y 1).symm
    rw [this, inv_mul_trans]
  have hd1 : getDisplacement (ahead 1) = 1 := displacement_ahead (by norm_num)
  have e1 : (getTransFromPose s0.lastMatcherPose)⁻¹ * getTransFromPose ⟨1, 0, 0⟩ = ahead 1 := by
    have := hnear 0
    rw [zero_add] at this
    rw [l0, this]
  have hp0 : s0.position = 1 := by
    rw [show s0.position = _ from f0.alg.pos]
    show getTransFromPose s0.temp.origin * s0.transTemp = 1
    rw [o0, t0, trans_zero, Matrix.one_mul]
  have hdis : displacement [(.first, p0), (.matched g1 m1 ⟨1, 0, 0⟩, p1)] = 1 := by
    obtain ⟨c, hc, h1⟩ := C139_correction r0 adm1 hu1
    have := C139_step r0 trivial adm1 hu1 hc
    rw [h1 hlp1, r0.displacement] at this
    refine this.trans ?_
    show 1 * (s0.position * (getTransFromPose s0.lastMatcherPose)⁻¹) * 1 = 1
    rw [hp0, l0, trans_zero, inv_one, Matrix.one_mul, Matrix.one_mul, Matrix.mul_one]
  obtain ⟨n1, o1, t1⟩ : s1.engine.graph.nodes.length = 1 ∧ getTransFromPose s1.temp.origin = ahead 1 ∧
      s1.transTemp = 1 := by
    obtain ⟨c, hc, hpos, h1⟩ := gr.correction f0.alg f1.alg
    rw [h1 hlp1, Matrix.one_mul] at hpos
    obtain ⟨ins, q1, -, ⟨-, -, -, h⟩ | ⟨h, -, h3, ⟨h4, -⟩, -⟩⟩ := gr
    · refine absurd ?_ h
      unfold movedFar
      show _ > (1 / 2 : ℝ)
      have : s0.transTemp * ((getTransFromPose s0.lastMatcherPose)⁻¹ * getTransFromPose ⟨1, 0, 0⟩) = ahead 1 := by
        rw [e1, t0, Matrix.one_mul]
      simp only
      rw [this, hd1]
      norm_num
    · refine ⟨?_, ?_, h4⟩
      · rw [f1.alg.engine.nodesLen, h]
        unfold inserted
        rw [length_optimised]
        simp [hb]
      · rw [h3, Matrix.mul_one] at q1
        rw [q1, hpos]
        show s0.position * ((getTransFromPose s0.lastMatcherPose)⁻¹ * getTransFromPose ⟨1, 0, 0⟩) = ahead 1
        rw [hp0, Matrix.one_mul, e1]
  obtain ⟨inp2, g2, m2, p2, s2, d, d', r2, adm2, hu2, f2, f2', gr2, l2, u2, i2, mt2, es2, c2⟩ :=
    matched_at r1 i1 u1 2 [⟨1, 0, ⟨1, 0, 0⟩, Slam.stdInfo⟩] (fun _ => ⟨5, 0, 0⟩) (by simp [n1])
  refine ⟨g1, m1, g2, m2, p0, p1, p2, s1, s2, inp2, r1, adm2, hu2, ?_, hdis, i2, u2⟩
  have e2 : (getTransFromPose s1.lastMatcherPose)⁻¹ * getTransFromPose ⟨2, 0, 0⟩ = ahead 1 := by
    have := hnear 1
    rw [l1, ← this]
    norm_num
  have hd : d.poses.length = 1 := by rw [← f2.alg.engine.nodesLen]; exact n1
  obtain ⟨ins, -, -, ⟨-, -, -, h⟩ | ⟨h, -⟩⟩ := gr2
  · refine absurd ?_ h
    unfold movedFar
    rw [mt1, e2, t1, Matrix.one_mul, hd1]
    show _ > (1 / 2 : ℝ)
    norm_num
  · have hlp2 : inp2.loops ≠ [] := by
      intro h0
      rw [h0] at c2
      cases c2
    have hx : (inserted inp2 s1 d).poses[1]? = some (⟨5, 0, 0⟩, s1.temp.updatePosition ⟨5, 0, 0⟩) := by
      unfold inserted optimised
      simp only [if_neg hlp2, es2]
      simp [hd]
    refine .inr ⟨?_, ⟨5, 0, 0⟩, ?_, ?_⟩
    · rw [f2'.alg.engine.nodesLen, h, n1]
      unfold inserted
      rw [length_optimised]
      simp [hd]
    · rw [n1]
      have := f2'.alg.engine
      rw [h] at this
      exact (getPose this hx).1
    · have : getTransFromPose ⟨5, 0, 0⟩ = ahead 4 * getTransFromPose s1.temp.origin := by
        rw [o1, ahead_mul]
        norm_num [ahead]
      rw [this, Matrix.mul_assoc, trans_mul_inv, Matrix.mul_one]

/-- C139 in full: without failed matches the reported pose is the pose of the robot in the running window. -/
def Together : Prop :=
  ∀ log s r, Reach (fun _ => True) log s → (∀ x ∈ log, ∀ g m, x.1 ≠ .failed g m) → lastUsed log = some r →
    getTransFromPose r = getTransFromPose s.window * s.positionCumul

/-- C139, where it fails: a loop closure that moves the frame finished last moves the reported robot, and not the
window. -/
theorem C139_false : ¬ Together := by
  intro H
  obtain ⟨g₁, m₁, g₂, m₂, p₀, p₁, p₂, s, s', inp, r, adm, hu, hc, hd, -⟩ := run_corrected
  have r' := r.update trivial adm hu
  have h2 := H _ _ p₂ r' (by simp) rfl
  have hs := C139_step r trivial adm hu hc
  have hs' : displacement ([(.first, p₀), (.matched g₁ m₁ ⟨1, 0, 0⟩, p₁)] ++ [(.matched g₂ m₂ ⟨2, 0, 0⟩, p₂)]) =
      getTransFromPose p₂ * (getTransFromPose ⟨2, 0, 0⟩)⁻¹ := rfl
  obtain ⟨b, f, fa, -⟩ := r'.full
  have hm : s'.lastMatcherPose = ⟨2, 0, 0⟩ := by rw [fa.matcher, ← lastFix_eq]; rfl
  rw [hd, hs', h2, f.win.pose, hm, trans_mul_inv] at hs
  have h4 : ahead 0 = ahead 4 := by
    rw [ahead_zero]
    refine hs.trans ?_
    show ahead 4 * 1 * 1 = _
    rw [Matrix.mul_one, Matrix.mul_one]
  exact absurd (ahead_inj h4) (by norm_num)

/-- A run as in `C139_kept_partial` from a state with a displacement. -/
example : ∃ log s l s', Reach (fun _ => True) log s ∧ displacement log = ahead 4 ∧ Steady s l s' ∧ l.length = 1 := by
  obtain ⟨g₁, m₁, g₂, m₂, p₀, p₁, p₂, s, s', inp, r, adm, hu, hc, hd, i2, u2⟩ := run_corrected
  have r' := r.update trivial adm hu
  obtain ⟨inp3, g3, m3, p3, s3, b, b', r3, adm3, hu3, -, -, -, -, -, -, -, -, c3⟩ :=
    matched_at r' i2 u2 3 [] (fun _ => ⟨0, 0, 0⟩) (by simp)
  obtain ⟨c, hc3, h1⟩ := C139_correction r' adm3 hu3
  rw [h1 (List.map_eq_nil_iff.1 c3)] at hc3
  refine ⟨_, s', _, s3, r', ?_, .update .start adm3 hu3 (by simp) hc3, rfl⟩
  rw [C139_step r trivial adm hu hc, hd]
  show ahead 4 * 1 * 1 = _
  rw [Matrix.mul_one, Matrix.mul_one]

/-- A run as in `C139_together_partial`. -/
example : ∃ l s r, Steady init l s ∧ lastUsed l = some r ∧ l.length = 2 := by
  obtain ⟨inp0, p0, s0, r0, adm0, hu0, i0, u0, -, -, -, -, l0⟩ := first_at
  have hc0 : Correction init s0 1 := by
    obtain ⟨c, hc, h1⟩ := C139_correction (P := fun _ => True) .init adm0 hu0
    rwa [h1 l0] at hc
  obtain ⟨inp3, g3, m3, p3, s3, b, b', r3, adm3, hu3, -, -, -, -, -, -, -, -, c3⟩ :=
    matched_at r0 i0 u0 1 [] (fun _ => ⟨0, 0, 0⟩) (by simp)
  obtain ⟨c, hc3, h1⟩ := C139_correction r0 adm3 hu3
  rw [h1 (List.map_eq_nil_iff.1 c3)] at hc3
  exact ⟨_, s3, p3, .update (.update .start adm0 hu0 (by simp) hc0) adm3 hu3 (by simp) hc3, rfl, rfl⟩

end Verif.Algo
