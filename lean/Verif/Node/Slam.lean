import Verif.Node.Props

/-
Node and algorithm together.
-/
namespace Verif.Node

open Verif Verif.Geo Matrix

theorem admissible_motion {s : Algo.State} {inp : Algo.Input} (h : Algo.Admissible s inp) {m : Trans}
    (hm : IsRigid m) : Algo.Admissible s { inp with motion := m } :=
  ⟨hm, h.matcher, h.addrs, h.fresh, h.loops, h.order⟩

/-- A run of the node is a run of the algorithm. -/
theorem run_reach {log : List Out} {s : State Algo.State} (h : Run slamUpdate Algo.init Uncorrected log s) :
    ∃ alog, Algo.Reach Algo.OdometryOnly alog s.alg ∧
      alog.map (fun x => (Algo.motionOf x.1, x.2)) = (processed log).map (fun z => (z.2.1, z.2.2)) := by
  induction h with
  | init => exact ⟨[], .init, rfl⟩
  | @message log s m o s' r hP hc ih =>
    obtain ⟨alog, ra, hl⟩ := ih
    obtain ⟨i1, i2, i3, i4, i5, i6⟩ := run_inv r
    obtain ⟨hrig, hodo, adm⟩ := hP
    have hpr : processed (log ++ [o]) = processed log ++ o.processed.toList := by
      unfold processed
      rw [List.filterMap_append]
      cases h : o.processed <;> simp [h]
    have key : ∀ (inc : Trans) (ro : Pose × Algo.State), IsRigid inc → slamUpdate m.env inc s.alg = .ok ro →
        (alog = [] → inc = 1) →
        ∃ e, Algo.Reach Algo.OdometryOnly (alog ++ [(e, ro.1)]) ro.2 ∧ Algo.motionOf e = inc := by
      intro inc ro hinc hu h0
      obtain ⟨⟨e, p⟩, s1, hup⟩ := Algo.C51_update_ok ra (admissible_motion adm hinc)
      have hev := Algo.C51_events ra (admissible_motion adm hinc) hup
      unfold slamUpdate at hu
      have hup' : Algo.update { m.env with motion := inc } s.alg = .ok ((e, p), s1) := hup
      rw [hup'] at hu
      cases hu
      refine ⟨e, .update ra (by exact hodo) (admissible_motion adm hinc) hup, ?_⟩
      cases e with
      | first => exact (h0 hev).symm
      | idle _ => exact hev.2
      | failed _ _ => exact hev.2.1
      | matched _ _ _ => exact hev.2.1
    unfold callback at hc
    cases hp : prepareAllData m with
    | none =>
      rw [hp] at hc
      cases hc
      rw [hpr]
      simp only [Option.toList_none, List.append_nil]
      exact ⟨alog, ra, hl⟩
    | some odom =>
      rw [hp] at hc
      simp only [doAlgorithm] at hc
      cases hr : s.ready with
      | false =>
        rw [hr] at hc
        simp only [Bool.not_false, if_true] at hc
        rcases hu : slamUpdate m.env 1 s.alg with ro | e | u <;> rw [hu] at hc <;> cases hc
        obtain ⟨e, h1, h2⟩ := key 1 ro Algo.rigid_one hu (fun _ => rfl)
        refine ⟨_, h1, ?_⟩
        rw [hpr]
        simp only [Option.toList_some, List.map_append, hl, List.map_cons, List.map_nil, h2]
      | true =>
        rw [hr] at hc
        simp only [Bool.not_true, Bool.false_eq_true, if_false] at hc
        have hne : processed log ≠ [] := by
          intro h
          rw [← i1, hr] at h
          cases h
        rcases hu : slamUpdate m.env ((getTransFromPose s.lastOdom)⁻¹ * getTransFromPose odom) s.alg
          with ro | e | u <;> rw [hu] at hc <;> cases hc
        obtain ⟨e, h1, h2⟩ := key _ ro (by
          rw [trans_inv]; exact rigid_mul (getTransFromPose_rigid _) (getTransFromPose_rigid _)) hu (by
            intro h0
            rw [h0] at hl
            simp at hl
            exact absurd hl.symm (by simpa using hne))
        refine ⟨_, h1, ?_⟩
        rw [hpr]
        simp only [Option.toList_some, List.map_append, hl, List.map_cons, List.map_nil, h2]

/-- Without unprocessed odometry no update is idle if every increment alone reaches the threshold. -/
theorem no_idle {alog : List (Algo.Event × Pose)} {s : Algo.State} (h : Algo.Reach Algo.OdometryOnly alog s)
    (hm : ∀ x ∈ alog.tail, getDisplacement (Algo.motionOf x.1) > 1 / 5 ∨ |getAngle (Algo.motionOf x.1)| > 1 / 10) :
    s.unused = 1 ∧ ∀ x ∈ alog, ∀ m, x.1 ≠ .idle m := by
  induction h with
  | init => exact ⟨rfl, by simp⟩
  | setDistance d _ ih => exact ih hm
  | @update log s inp o s' r hp adm hu ih =>
    obtain ⟨b, f, fa, -⟩ := r.full
    obtain ⟨e, p, s'', b', hu', -, -, -, -, -, -, sc⟩ := Algo.update_step f adm
    rw [hu] at hu'
    cases hu'
    have hm0 : ∀ x ∈ log.tail,
        getDisplacement (Algo.motionOf x.1) > 1 / 5 ∨ |getAngle (Algo.motionOf x.1)| > 1 / 10 := by
      intro x hx
      apply hm
      cases log with
      | nil => cases hx
      | cons a l => exact List.mem_append_left _ hx
    obtain ⟨hun, hid⟩ := ih hm0
    have hst := (r.full.choose_spec).1.start
    have ext : (∀ m, e ≠ .idle m) → ∀ x ∈ log ++ [(e, p)], ∀ m, x.1 ≠ .idle m := by
      intro he x hx
      rcases List.mem_append.1 hx with hx | hx
      · exact hid x hx
      · rw [List.mem_singleton.1 hx]; exact he
    cases sc with
    | first h0 _ _ hu1 => exact ⟨hu1.trans hun, ext (by simp)⟩
    | idle h0 hmv =>
      exfalso
      have hne : log ≠ [] := by
        intro h
        rw [← fa.start, h0] at h
        cases h
      have := hm (.idle inp.motion, p) (by
        cases log with
        | nil => exact absurd rfl hne
        | cons a l => simp)
      apply hmv
      rw [hun, Matrix.one_mul]
      unfold Algo.movedEnough
      rw [fa.minD, fa.minR]
      rcases this with h | h
      · exact .inr (lt_of_lt_of_le h (le_abs_self _))
      · exact .inl h
    | failed _ _ _ _ _ hu1 => exact ⟨hu1, ext (by simp)⟩
    | matched _ _ _ _ _ _ hu1 => exact ⟨hu1, ext (by simp)⟩

/-! ### C85 -/

/-- C85 at full strength: without corrections the published transform is constant, namely the inverse of the
odometry pose at which the map was started. -/
def ConstantTransform : Prop := ∀ log o s x y, Run slamUpdate Algo.init Uncorrected (log ++ [o]) s →
  o.processed = some y → (processed log).head? = some x →
  o.published = some (getTransFromPose x.1)⁻¹

/-- C85, what holds: without corrections the published transform is constant if every single odometry
increment reaches the motion threshold of the algorithm.  Missing: smaller increments. -/
theorem C85_constant_partial {log : List Out} {o : Out} {s : State Algo.State} {x y : Pose × Trans × Pose}
    (h : Run slamUpdate Algo.init Uncorrected (log ++ [o]) s) (hy : o.processed = some y)
    (hx : (processed log).head? = some x)
    (hm : ∀ z ∈ (processed (log ++ [o])).tail, getDisplacement z.2.1 > 1 / 5 ∨ |getAngle z.2.1| > 1 / 10) :
    o.published = some (getTransFromPose x.1)⁻¹ := by
  have hne : processed log ≠ [] := by intro h; rw [h] at hx; cases hx
  obtain ⟨t, ht, hcons⟩ := C54_consistent_partial h hy hne
  obtain ⟨alog, ra, hl⟩ := run_reach h
  have hpr : processed (log ++ [o]) = processed log ++ [y] := by
    unfold processed
    rw [List.filterMap_append]
    simp [hy]
  have htel := C55_telescope h (x := x) (y := y) (by rw [hpr, List.head?_append_of_ne_nil _ hne, hx])
    (by rw [hpr]; simp)
  obtain ⟨-, hid⟩ := no_idle ra (by
    intro z hz
    have h1 : (Algo.motionOf z.1, z.2) ∈ (alog.map fun x => (Algo.motionOf x.1, x.2)).tail := by
      rw [← List.map_tail]; exact List.mem_map_of_mem hz
    rw [hl, ← List.map_tail] at h1
    obtain ⟨w, hw, he⟩ := List.mem_map.1 h1
    have := hm w hw
    simp only [Prod.mk.injEq] at he
    rwa [he.1] at this)
  rcases List.eq_nil_or_concat alog with rfl | ⟨al, ⟨e, p⟩, rfl⟩
  · rw [hpr] at hl
    simp at hl
  · rw [List.concat_eq_append] at ra hl hid
    have h1 := Algo.C52_no_idle_partial ra fun z hz => hid z (List.mem_append_left _ hz)
    have hprod : ((al ++ [(e, p)]).map fun x => Algo.motionOf x.1) =
        (processed (log ++ [o])).map fun z => z.2.1 := by
      have := congrArg (List.map Prod.fst) hl
      rw [List.map_map, List.map_map] at this
      exact this
    have hlast : p = y.2.2 := by
      have := congrArg List.getLast? hl
      rw [hpr] at this
      simp at this
      rw [← this]
    rw [hprod, htel, hlast, ← hcons] at h1
    have : t = (getTransFromPose x.1)⁻¹ := by
      have := congrArg (· * (getTransFromPose y.1)⁻¹) h1
      simpa only [Matrix.mul_assoc, trans_mul_inv, Matrix.mul_one] using this
    rw [ht, this]

/-- From every state a message can be processed in which the odometry reports `x` m straight ahead. -/
theorem Run.extend {log : List Out} {s : State Algo.State}
    (h : Run slamUpdate Algo.init Uncorrected log s) (x : ℝ) :
    ∃ o s' inc q, Run slamUpdate Algo.init Uncorrected (log ++ [o]) s' ∧
      o.processed = some (⟨x, 0, 0⟩, inc, q) ∧ s'.lastOdom = ⟨x, 0, 0⟩ ∧ s'.ready = true ∧
      (s.ready = true → inc = Algo.ahead (x - s.lastOdom.x) ∨ s.lastOdom.y ≠ 0 ∨ s.lastOdom.th ≠ 0) := by
  obtain ⟨alog, ra, -⟩ := run_reach h
  obtain ⟨a, ha⟩ := Algo.exists_fresh s.alg.engine.graph
  set env : Algo.Input :=
    ⟨1, none, a, [], fun _ => ⟨0, 0, 0⟩, List.range (s.alg.engine.graph.nodes.length + 1)⟩ with henv
  have adm : Algo.Admissible s.alg { env with motion := 1 } :=
    ⟨Algo.rigid_one, by simp [henv], by simp [henv], by simpa [henv] using ha, by simp [henv], List.Perm.refl _⟩
  have hconv : convertToTransform (convertFromTransform (Algo.ahead x)) = Algo.ahead x :=
    Algo.viaPcl_rigid (Algo.ahead_rigid x)
  set m : Msg Algo.Input := ⟨true, convertFromTransform (Algo.ahead x), true, 400, env⟩ with hm
  have hP : Uncorrected m s := ⟨by rw [hm, hconv]; exact Algo.ahead_rigid x, ⟨rfl, rfl⟩, adm⟩
  have hodom : getPoseFromTransform (Algo.ahead x) = ⟨x, 0, 0⟩ := by
    have : Complex.arg ⟨1, 0⟩ = 0 := Complex.arg_one
    rw [Algo.ahead_eq]
    simp [getPoseFromTransform, getAngle, atan2, this]
  have hprep : prepareAllData m = some ⟨x, 0, 0⟩ := by
    unfold prepareAllData
    simp only [hm, if_true, lt_irrefl, if_false, hconv, hodom]
  have upd : ∀ inc, IsRigid inc → ∃ q s1, slamUpdate env inc s.alg = .ok (q, s1) := by
    intro inc hinc
    obtain ⟨⟨e, p⟩, s1, hup⟩ := Algo.C51_update_ok ra (admissible_motion adm hinc)
    have hup' : Algo.update { env with motion := inc } s.alg = .ok ((e, p), s1) := hup
    exact ⟨p, s1, by unfold slamUpdate; rw [hup']; rfl⟩
  cases hr : s.ready with
  | false =>
    obtain ⟨q, s1, hu⟩ := upd 1 Algo.rigid_one
    have hc : callback slamUpdate m s = .ok (⟨some (⟨x, 0, 0⟩, 1, q), s.tf⟩,
        { s with ready := true, lastOdom := ⟨x, 0, 0⟩, lastPose := ⟨0, 0, 0⟩, alg := s1 }) := by
      unfold callback
      rw [hprep]
      have hu : slamUpdate m.env 1 s.alg = .ok (q, s1) := hu
      simp only [doAlgorithm, hr, Bool.not_false, if_true, hu, Res.bind_ok]
    exact ⟨_, _, 1, q, .message h hP hc, rfl, rfl, rfl, by simp⟩
  | true =>
    obtain ⟨q, s1, hu⟩ := upd ((getTransFromPose s.lastOdom)⁻¹ * getTransFromPose ⟨x, 0, 0⟩) (by
      rw [trans_inv]; exact rigid_mul (getTransFromPose_rigid _) (getTransFromPose_rigid _))
    have hc : callback slamUpdate m s = .ok
        (⟨some (⟨x, 0, 0⟩, (getTransFromPose s.lastOdom)⁻¹ * getTransFromPose ⟨x, 0, 0⟩, q),
          some (updateTFTrans ⟨x, 0, 0⟩ q)⟩,
        { s with lastOdom := ⟨x, 0, 0⟩, lastPose := q, alg := s1, tf := some (updateTFTrans ⟨x, 0, 0⟩ q) }) := by
      unfold callback
      rw [hprep]
      have hu : slamUpdate m.env _ s.alg = .ok (q, s1) := hu
      simp only [doAlgorithm, hr, Bool.not_true, Bool.false_eq_true, if_false, hu, Res.bind_ok]
    refine ⟨_, _, _, q, .message h hP hc, rfl, rfl, hr, ?_⟩
    intro _
    by_cases h1 : s.lastOdom.y = 0
    · by_cases h2 : s.lastOdom.th = 0
      · left
        have : getTransFromPose s.lastOdom = Algo.ahead s.lastOdom.x := by
          unfold Algo.ahead getTransFromPose
          simp only [h1, h2]
        have hi : (Algo.ahead s.lastOdom.x)⁻¹ = Algo.ahead (-s.lastOdom.x) := by
          apply Matrix.inv_eq_right_inv
          rw [Algo.ahead_mul, add_neg_cancel, Algo.ahead_zero]
        rw [this, hi]
        show Algo.ahead _ * Algo.ahead x = _
        rw [Algo.ahead_mul]
        ring_nf
      · exact .inr (.inr h2)
    · exact .inr (.inl h1)

/-- C85 is false: with the odometry at 0, 0.15 and 0.3 m the estimate stays at 0.15 m behind, and the published
transform jumps. -/
theorem C85_false : ¬ ConstantTransform := by
  intro hall
  obtain ⟨o₀, s₀, i₀, q₀, r₀, p₀, l₀, d₀, -⟩ := Run.extend .init 0
  obtain ⟨o₁, s₁, i₁, q₁, r₁, p₁, l₁, d₁, e₁⟩ := r₀.extend 0.15
  obtain ⟨o₂, s₂, i₂, q₂, r₂, p₂, l₂, d₂, e₂⟩ := r₁.extend 0.3
  have e₁ : i₁ = Algo.ahead 0.15 := by
    have := e₁ d₀
    rw [l₀] at this
    simpa using this
  have e₂ : i₂ = Algo.ahead 0.15 := by
    have := e₂ d₁
    rw [l₁] at this
    simp at this
    rw [this]
    norm_num
  have hp : processed ([] ++ [o₀] ++ [o₁]) = [(⟨0, 0, 0⟩, i₀, q₀), (⟨0.15, 0, 0⟩, i₁, q₁)] := by
    simp [processed, p₀, p₁]
  have hp' : processed ([] ++ [o₀] ++ [o₁] ++ [o₂]) =
      [(⟨0, 0, 0⟩, i₀, q₀), (⟨0.15, 0, 0⟩, i₁, q₁), (⟨0.3, 0, 0⟩, i₂, q₂)] := by
    simp [processed, p₀, p₁, p₂]
  have h1 := hall _ _ _ (⟨0, 0, 0⟩, i₀, q₀) _ r₂ p₂ (by rw [hp]; rfl)
  obtain ⟨t, ht, hcons⟩ := C54_consistent_partial r₂ p₂ (by rw [hp]; simp)
  rw [h1] at ht
  cases ht
  simp only [trans_zero, inv_one, Matrix.one_mul] at hcons
  -- the run of the algorithm
  obtain ⟨alog, ra, hl⟩ := run_reach r₂
  rw [hp'] at hl
  obtain ⟨x₀, x₁, x₂, rfl⟩ : ∃ x₀ x₁ x₂, alog = [x₀, x₁, x₂] := by
    apply List.length_eq_three.1
    simpa using congrArg List.length hl
  obtain ⟨ev₀, w₀⟩ := x₀
  obtain ⟨ev₁, w₁⟩ := x₁
  obtain ⟨ev₂, w₂⟩ := x₂
  simp only [List.map_cons, List.map_nil, List.cons.injEq, Prod.mk.injEq, and_true] at hl
  obtain ⟨⟨-, -⟩, ⟨hm₁, -⟩, hm₂, rfl⟩ := hl
  have hfin := Algo.C52_processed_partial (l := [(ev₀, w₀), (ev₁, w₁)]) ra
  obtain ⟨sb, -, inp, rb, -, -, -⟩ := ra.last [(ev₀, w₀), (ev₁, w₁)] _ rfl
  obtain ⟨sa, sa', inp', raa, hodo, adm, hu⟩ := rb.last [(ev₀, w₀)] _ rfl
  obtain ⟨s0, s0', inp0, r0, hodo0, adm0, hu0⟩ := raa.last [] _ rfl
  have he₀ : ev₀ = .first := by
    have := Algo.C51_events r0 adm0 hu0
    cases ev₀ with
    | first => rfl
    | idle _ => exact absurd rfl this.1
    | failed _ _ => exact absurd rfl this.1
    | matched _ _ _ => exact absurd rfl this.1
  have hun := (no_idle raa (by simp)).1
  have he₁ : ∃ m, ev₁ = .idle m := by
    obtain ⟨b, f, fa, -⟩ := raa.full
    obtain ⟨e, p, s'', b', hu', -, -, -, -, -, -, sc⟩ := Algo.update_step f adm
    rw [hu] at hu'
    cases hu'
    have hmv : ∀ mm, mm = Algo.ahead 0.15 → ¬ Algo.movedEnough sa (sa.unused * mm) := by
      rintro mm rfl
      rw [hun, Matrix.one_mul, Algo.ahead_moved fa.minD fa.minR (by norm_num)]
      norm_num
    rw [e₁] at hm₁
    cases sc with
    | first h0 => exact absurd (fa.start.1 h0) (by simp)
    | idle => exact ⟨_, rfl⟩
    | failed _ h => exact absurd h (hmv _ hm₁)
    | matched _ h => exact absurd h (hmv _ hm₁)
  obtain ⟨m, rfl⟩ := he₁
  subst he₀
  simp only [List.map_cons, List.map_nil, List.prod_cons, List.prod_nil, Algo.processedOf, mul_one, one_mul,
    hm₂, e₂] at hfin
  rw [hfin] at hcons
  have := Algo.ahead_inj (show Algo.ahead 0.3 = Algo.ahead 0.15 from hcons)
  norm_num at this

/-- The conditions of `C54_consistent_partial`, `C55_telescope` and `C85_constant_partial` can be met. -/
example : ∃ log o s x y, Run slamUpdate Algo.init Uncorrected (log ++ [o]) s ∧ o.processed = some y ∧
    (processed log).head? = some x ∧
    ∀ z ∈ (processed (log ++ [o])).tail, getDisplacement z.2.1 > 1 / 5 ∨ |getAngle z.2.1| > 1 / 10 := by
  obtain ⟨o₀, s₀, i₀, q₀, r₀, p₀, l₀, d₀, -⟩ := Run.extend .init 0
  obtain ⟨o₁, s₁, i₁, q₁, r₁, p₁, l₁, d₁, e₁⟩ := r₀.extend 1
  have e₁ : i₁ = Algo.ahead 1 := by
    have := e₁ d₀
    rw [l₀] at this
    simpa using this
  refine ⟨_, o₁, s₁, (⟨0, 0, 0⟩, i₀, q₀), _, r₁, p₁, by simp [processed, p₀], ?_⟩
  simp only [processed, List.nil_append, List.cons_append, List.filterMap_cons, p₀, p₁, List.filterMap_nil,
    List.tail_cons, List.mem_singleton, forall_eq, e₁]
  left
  rw [Algo.displacement_ahead (by norm_num)]
  norm_num

end Verif.Node
