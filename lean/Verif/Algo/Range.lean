import Verif.Algo.Offset
import Verif.Newton.Props

namespace Verif.Algo

open Matrix Geo

/-! # C141: how far from its start a match can find the robot

`NDTSlamAlgortihm::update` (ndt_slam_algorithm.h:213-291) passes the cumulated position times the increment of the call
as the guess to `NormalDistributionsTransform2DEx::align` and takes the pose found as the position of the robot in the
window.  `Algo.update` leaves the answer of the matcher open; here it is what `Newton.ndtTransformation` with the
parameters of the constructor gives. -/

/-- The answer of the matcher is that of the matcher of the front end, started from the guess of the update:
ndt_slam_algorithm.h:232-238 (`align`, `hasConverged`, `getFinalTransformation`) with the step size and the number of
layers of the constructor, 175-183.  What the four layers make of scan and map is arbitrary. -/
def FrontEnd (s : State) (inp : Input) : Prop :=
  ∃ (layers : List Newton.Env) (r r' : Newton.Report), layers.length = 4 ∧
    Newton.ndtTransformation Newton.frontEnd layers r (viaPcl (s.positionCumul * inp.motion)) = some r' ∧
    inp.matcher = if r'.converged then some (convertFromTransform r'.final) else none

/-- Specification: `t` can be reached from `e` by moving it by (dx, dy) and turning it by `a` with
√(dx² + dy² + a²) ≤ d.  In particular each of the three is at most `d`. -/
def Within (d : ℝ) (e t : Trans) : Prop := ∃ a : ℝ, ∃ k : ℤ, getAngle t = getAngle e + a + 2 * Real.pi * k ∧
  Real.sqrt ((t 0 2 - e 0 2) ^ 2 + (t 1 2 - e 1 2) ^ 2 + a ^ 2) ≤ d

/-- Specification: distance of the places of two poses. -/
noncomputable def apart (e t : Trans) : ℝ := Real.sqrt ((t 0 2 - e 0 2) ^ 2 + (t 1 2 - e 1 2) ^ 2)

/-! ### Lemmas -/

theorem Within.apart {d : ℝ} {e t : Trans} (h : Within d e t) : apart e t ≤ d := by
  obtain ⟨a, k, -, h⟩ := h
  exact (Real.sqrt_le_sqrt (by nlinarith [sq_nonneg a])).trans h

theorem angle_of_describes {v : Newton.Vec} {t : Trans} (h : Newton.Describes v t) :
    ∃ k : ℤ, getAngle t = v 2 + 2 * Real.pi * k := by
  obtain ⟨h0, -, h1, -⟩ := h
  have hw : (Complex.mk (Real.cos (v 2)) (Real.sin (v 2))) = Complex.exp (v 2 * Complex.I) := by
    apply Complex.ext
    · rw [Complex.exp_ofReal_mul_I_re]
    · rw [Complex.exp_ofReal_mul_I_im]
  refine ⟨-toIocDiv Real.two_pi_pos (-Real.pi) (v 2), ?_⟩
  show Complex.arg ⟨t 0 0, t 1 0⟩ = _
  rw [h0, h1, hw, Complex.arg_exp_mul_I, toIocMod]
  push_cast
  rw [zsmul_eq_mul]
  ring

/-- Moving by a pure translation. -/
theorem within_window {d : ℝ} {e t : Trans} {w : Pose} (hw : w.th = 0) (he : e 2 2 = 1) (ht : t 2 2 = 1)
    (he0 : e 2 0 = 0) (ht0 : t 2 0 = 0) (h : Within d e t) :
    Within d (getTransFromPose w * e) (getTransFromPose w * t) := by
  have key : ∀ u : Trans, u 2 2 = 1 → u 2 0 = 0 → (getTransFromPose w * u) 0 2 = u 0 2 + w.x ∧
      (getTransFromPose w * u) 1 2 = u 1 2 + w.y ∧ getAngle (getTransFromPose w * u) = getAngle u := by
    intro u h1 h2
    refine ⟨?_, ?_, ?_⟩
    · simp [Matrix.mul_apply, Fin.sum_univ_three, getTransFromPose, hw, h1]
    · simp [Matrix.mul_apply, Fin.sum_univ_three, getTransFromPose, hw, h1]
    · simp [getAngle, Matrix.mul_apply, Fin.sum_univ_three, getTransFromPose, hw, h2]
  obtain ⟨e1, e2, e3⟩ := key e he he0
  obtain ⟨t1, t2, t3⟩ := key t ht ht0
  obtain ⟨a, k, ha, hd⟩ := h
  refine ⟨a, k, by rw [t3, e3, ha], ?_⟩
  rw [e1, e2, t1, t2]
  convert hd using 4 <;> ring

theorem within_dist {d : ℝ} {v w : Newton.Vec} {e t : Trans} (hv : Newton.Describes v e) (hw : Newton.Describes w t)
    (h : Newton.dist w v ≤ d) : Within d e t := by
  obtain ⟨k, hk⟩ := angle_of_describes hv
  obtain ⟨l, hl⟩ := angle_of_describes hw
  refine ⟨w 2 - v 2, l - k, ?_, ?_⟩
  · rw [hk, hl]; push_cast; ring
  · obtain ⟨-, -, -, -, e1, e2, -⟩ := hv
    obtain ⟨-, -, -, -, t1, t2, -⟩ := hw
    rw [e1, e2, t1, t2]
    exact h

/-! ### C141 -/

/-- C141, one match: in every run, whatever scans and maps are, a match of the front end finds the robot within 0.4
(metres and radians together) of the pose found last, advanced by the odometry increment of the call. -/
theorem C141_match {P : Input → Prop} {log : List (Event × Pose)} {s s' : State} (h : Reach P log s) {inp : Input}
    (adm : Admissible s inp) (hf : FrontEnd s inp) {g m : Trans} {q p : Pose}
    (hu : update inp s = .ok ((.matched g m q, p), s')) :
    Within 0.4 (getTransFromPose (lastFix (log.map Prod.fst)).1 * inp.motion) (getTransFromPose q) := by
  have hg := C82_guess_partial h adm hu g (.inr ⟨_, _, rfl⟩)
  obtain ⟨b, f, fa, -⟩ := h.full
  obtain ⟨-, -, m, hm, hq⟩ := C51_events h adm hu
  obtain ⟨layers, r, r', hl, ht, ha⟩ := hf
  have hrg : IsRigid (s.positionCumul * inp.motion) := rigid_mul f.win.rigid adm.motion
  rw [viaPcl_rigid hrg] at ht
  obtain ⟨r'', v, w, h1, h2, h3, h4⟩ := (Newton.C94_front_end Newton.slope 0 layers hl r _ hrg).2.2
  rw [ht] at h1
  cases h1
  rw [ha] at hm
  cases hc : r'.converged with
  | false => rw [hc] at hm; cases hm
  | true =>
    rw [hc, if_pos rfl] at hm
    cases hm
    have hfin : IsRigid r'.final := by
      rw [(Newton.describes_iff _ _).1 h3]; exact getTransFromPose_rigid _
    have hfc : convertToTransform (convertFromTransform r'.final) = r'.final := viaPcl_rigid hfin
    rw [hq, hfc, lastFix_eq, ← fa.matcher, ← f.win.pose, Matrix.mul_assoc]
    obtain ⟨-, -, -, -, -, -, e0, -, e2⟩ := id h2
    obtain ⟨-, -, -, -, -, -, t0, -, t2⟩ := id h3
    exact within_window f.win.th e2 t2 e0 t0 (within_dist h2 h3 h4)

/-- C141, what is reported: in a run without loop closures and failed matches, if the last scan was used then the next
reported pose is within 0.4 of the last one, advanced by odometry.  Missing: increments of scans that were not used
and failed matches (`C141_false`), and corrections by loop closures (C139). -/
theorem C141_reported_partial {l : List (Event × Pose)} {x : Event × Pose} {s s' : State} (h : Reach NoLoops (l ++ [x]) s)
    (hx : x.1 = .first ∨ ∃ g m q, x.1 = .matched g m q) (hl : ∀ y ∈ l, ∀ g m, y.1 ≠ .failed g m) {inp : Input}
    (hn : NoLoops inp) (adm : Admissible s inp) (hf : FrontEnd s inp) {g m : Trans} {q p : Pose}
    (hu : update inp s = .ok ((.matched g m q, p), s')) :
    Within 0.4 (getTransFromPose x.2 * inp.motion) (getTransFromPose p) := by
  have hp : getTransFromPose p = getTransFromPose q := by
    refine C79_reports_match_partial (h.update hn adm hu) ?_
    intro y hy g m
    rcases List.mem_append.1 hy with hy | hy
    · exact hl y hy g m
    · rw [List.mem_singleton.1 hy]
      rcases hx with hx | ⟨_, _, _, hx⟩ <;> rw [hx] <;> intro h <;> cases h
  have hfix : getTransFromPose x.2 = getTransFromPose (lastFix ((l ++ [x]).map Prod.fst)).1 := by
    obtain ⟨e, r⟩ := x
    rcases hx with hx | ⟨g, m, q, hx⟩
    · obtain rfl : e = .first := hx
      obtain ⟨s₀, s₁, inp', r0, -, adm', hu'⟩ := h.last l _ rfl
      obtain rfl : l = [] := C51_events r0 adm' hu'
      rw [(C51_composition h).2 [] _ _ rfl]
      simp [estimate, lastFix, pending, trans_zero]
    · obtain rfl : e = .matched g m q := hx
      rw [C79_reports_match_partial h hl, List.map_append, List.map_cons, List.map_nil, lastFix_snoc]
  rw [hp, hfix]
  exact C141_match h adm hf hu

theorem apart_triangle (a b c : Trans) : apart a b ≤ apart a c + apart c b := by
  have key : ∀ e t : Trans, apart e t = dist (!₂[e 0 2, e 1 2] : EuclideanSpace ℝ (Fin 2)) !₂[t 0 2, t 1 2] := by
    intro e t
    rw [EuclideanSpace.dist_eq]
    simp only [Fin.sum_univ_two, Real.dist_eq, sq_abs]
    unfold apart
    congr 1
    simp
    ring
  rw [key, key, key]
  exact dist_triangle _ _ _

/-- C141, after scans that were not matched: the place of the pose found is, up to 0.4 m, the place without the motion
made meanwhile.  So a match cannot make up for more than 0.4 m of it. -/
theorem C141_lost {P : Input → Prop} {log : List (Event × Pose)} {s s' : State} (h : Reach P log s) {inp : Input}
    (adm : Admissible s inp) (hf : FrontEnd s inp) {g m : Trans} {q p : Pose}
    (hu : update inp s = .ok ((.matched g m q, p), s')) :
    let fix := lastFix (log.map Prod.fst)
    apart (getTransFromPose fix.1 * fix.2 * inp.motion) (getTransFromPose fix.1 * inp.motion) - 0.4 ≤
      apart (getTransFromPose fix.1 * fix.2 * inp.motion) (getTransFromPose q) := by
  intro fix
  have h1 := (C141_match h adm hf hu).apart
  have h2 := apart_triangle (getTransFromPose fix.1 * fix.2 * inp.motion) (getTransFromPose fix.1 * inp.motion)
    (getTransFromPose q)
  have h3 : apart (getTransFromPose q) (getTransFromPose fix.1 * inp.motion) =
      apart (getTransFromPose fix.1 * inp.motion) (getTransFromPose q) := by
    unfold apart
    congr 1
    ring
  have h4 : apart (getTransFromPose fix.1 * inp.motion) (getTransFromPose q) ≤ 0.4 := h1
  linarith

/-- C141 at full strength: a match finds the robot within 0.4 of the last pose found, advanced by all odometry since. -/
def FoundNearOdometry : Prop := ∀ P log s s' inp g m q p, Reach P log s → Admissible s inp → FrontEnd s inp →
  update inp s = .ok ((.matched g m q, p), s') →
  Within 0.4 (getTransFromPose (lastFix (log.map Prod.fst)).1 * (lastFix (log.map Prod.fst)).2 * inp.motion)
    (getTransFromPose q)

/-- A scan and map on which no step can be computed. -/
noncomputable def nothing : Newton.Env := { Newton.slope with solve := fun _ => none }

/-- With a constant gradient on all layers the matcher converges. -/
theorem slope_converges (r : Newton.Report) (guess : Trans) :
    ∃ r', Newton.ndtTransformation Newton.frontEnd (List.replicate 4 Newton.slope) r guess = some r' ∧
      r'.converged = true := by
  have step : ∀ x, ∃ x' len s, Newton.newtonStep Newton.frontEnd Newton.slope x = .next x' len s := by
    intro x
    have hn : Newton.norm (![1, 0, 0] : Newton.Vec) = 1 := by simp [Newton.norm, Newton.dot]
    rw [Newton.newtonStep_eval (by norm_num [Newton.frontEnd]) (d := ![1, 0, 0]) rfl (by rw [hn]; norm_num)]
    exact ⟨_, _, _, rfl⟩
  have loop : ∀ x, ∃ y s, Newton.ndtLoop Newton.frontEnd Newton.slope x 0 = .ok y 2 s := by
    intro x
    rcases Newton.frontEnd_loop Newton.slope x with h | ⟨y, s, h, -⟩
    · obtain ⟨x', len, s, hs⟩ := step x
      obtain ⟨x'', len', s', hs'⟩ := step x'
      have hl : |len'| < Newton.frontEnd.eps := by
        rcases Newton.frontEnd_len hs' with h | h <;> rw [h] <;> norm_num [Newton.frontEnd, abs_of_pos]
      unfold Newton.ndtLoop at h
      rw [hs] at h
      simp only at h
      rw [if_neg (by simp)] at h
      unfold Newton.ndtLoop at h
      rw [hs'] at h
      simp only at h
      rw [if_pos (Or.inr ⟨by norm_num, hl⟩)] at h
      cases h
    · exact ⟨y, s, h⟩
  have all : ∀ n r, ∃ r', Newton.computeLayers (Newton.ndtLoop Newton.frontEnd) (List.replicate n Newton.slope) r = some r' ∧
      r'.converged = true := by
    intro n
    induction n with
    | zero => exact fun r => ⟨_, rfl, rfl⟩
    | succ n ih =>
      intro r
      rw [List.replicate_succ]
      obtain ⟨y, s, h⟩ := loop (Newton.matToVec r.final)
      unfold Newton.computeLayers
      rw [h]
      exact ih _
  exact all 4 _

/-- An update in which the robot moves 1 m according to odometry and is matched or not. -/
theorem front_at {log : List (Event × Pose)} {s : State} (h : Reach (fun _ => True) log s)
    (hi : s.initialized = true) (hu : s.unused = 1) (good : Bool) :
    ∃ inp e p s' g, Reach (fun _ => True) (log ++ [(e, p)]) s' ∧ Admissible s inp ∧ FrontEnd s inp ∧
      update inp s = .ok ((e, p), s') ∧ inp.motion = ahead 1 ∧ s'.unused = 1 ∧ s'.initialized = true ∧
      if good then ∃ q, e = .matched g (ahead 1) q else e = .failed g (ahead 1) := by
  obtain ⟨n, hn⟩ := fresh_above s.engine.graph
  obtain ⟨b, f, fa, -⟩ := h.full
  have hrg : IsRigid (s.positionCumul * ahead 1) := rigid_mul f.win.rigid (ahead_rigid 1)
  obtain ⟨layers, hlen, r', ht, hc⟩ : ∃ layers : List Newton.Env, layers.length = 4 ∧ ∃ r',
      Newton.ndtTransformation Newton.frontEnd layers ⟨false, 1, 1, 1⟩ (s.positionCumul * ahead 1) = some r' ∧
        r'.converged = good := by
    cases good with
    | true =>
      obtain ⟨r', h1, h2⟩ := slope_converges ⟨false, 1, 1, 1⟩ (s.positionCumul * ahead 1)
      exact ⟨_, List.length_replicate .., r', h1, h2⟩
    | false =>
      refine ⟨List.replicate 4 nothing, List.length_replicate .., ⟨false, s.positionCumul * ahead 1, 1, 1⟩, ?_, rfl⟩
      have : ∀ x, Newton.ndtLoop Newton.frontEnd nothing x 0 = .fail := by
        intro x
        unfold Newton.ndtLoop
        rfl
      simp [List.replicate, Newton.ndtTransformation, Newton.computeLayers, this]
  have hfin : IsRigid r'.final := by
    obtain ⟨r'', v, w, h1, h2, h3, h4⟩ := (Newton.C94_front_end Newton.slope 0 layers hlen ⟨false, 1, 1, 1⟩ _ hrg).2.2
    rw [ht] at h1
    cases h1
    rw [(Newton.describes_iff _ _).1 h3]; exact getTransFromPose_rigid _
  set inp : Input := ⟨ahead 1, if r'.converged then some (convertFromTransform r'.final) else none, n + 1, [],
    fun _ => ⟨0, 0, 0⟩, List.range (s.engine.graph.nodes.length + 1)⟩ with hinp
  have hfe : FrontEnd s inp := ⟨layers, _, r', hlen, by rw [viaPcl_rigid hrg]; exact ht, rfl⟩
  have adm : Admissible s inp := by
    refine ⟨ahead_rigid 1, ?_, by simp [hinp], ?_, by simp [hinp], List.Perm.refl _⟩
    · intro r hr
      simp only [hinp] at hr
      split_ifs at hr
      cases hr
      show IsRigid (viaPcl r'.final)
      rw [viaPcl_rigid hfin]; exact hfin
    · simpa [hinp] using hn (n + 1) (by omega)
  obtain ⟨e, p, s', b', hu', hf, hi', -, -, -, hmt, sc⟩ := update_step f adm
  have hmv : movedEnough s (s.unused * inp.motion) := by
    rw [hu, Matrix.one_mul, ahead_moved fa.minD fa.minR (by norm_num)]
    norm_num
  cases sc with
  | first h => rw [hi] at h; cases h
  | idle _ h => exact absurd hmv h
  | failed _ _ hm _ _ hun =>
    cases good with
    | true => simp [hinp, hc] at hm
    | false => exact ⟨inp, _, p, s', _, h.update trivial adm hu', adm, hfe, hu', rfl, hun, hi', rfl⟩
  | matched _ _ hm _ _ _ hun =>
    cases good with
    | true => exact ⟨inp, _, p, s', _, h.update trivial adm hu', adm, hfe, hu', rfl, hun, hi', _, rfl⟩
    | false => simp [hinp, hc] at hm

/-- A run with a failed match over 1 m and then a match over another metre: the robot is left at least 0.6 m behind the
place given by odometry. -/
theorem C141_behind : ∃ log s s' inp g m q p, Reach (fun _ => True) log s ∧ Admissible s inp ∧ FrontEnd s inp ∧
    update inp s = .ok ((.matched g m q, p), s') ∧
    0.6 ≤ apart (getTransFromPose (lastFix (log.map Prod.fst)).1 * (lastFix (log.map Prod.fst)).2 * inp.motion)
      (getTransFromPose q) := by
  obtain ⟨_, p0, s0, r0, -, -, i0, u0, -⟩ := first_at
  obtain ⟨_, e1, p1, s1, g1, r1, -, -, -, -, u1, i1, h1⟩ := front_at r0 i0 u0 false
  obtain rfl : e1 = .failed g1 (ahead 1) := h1
  obtain ⟨inp, e2, p2, s2, g2, -, adm, hf, hu, hm, -, -, q, rfl⟩ := front_at r1 i1 u1 true
  refine ⟨_, _, _, _, _, _, _, _, r1, adm, hf, hu, le_trans ?_ (C141_lost r1 adm hf hu)⟩
  simp only [List.map_cons, List.map_nil, lastFix, List.cons_append, List.nil_append, List.foldl_cons,
    List.foldl_nil, motionOf, one_mul, hm, trans_zero]
  rw [ahead_mul]
  have h4 : apart (ahead (1 + 1)) (ahead 1) = 1 := by
    unfold apart
    rw [ahead_eq, ahead_eq]
    norm_num [Matrix.cons_val]
    right
    show (1 : ℝ) - 2 = -1
    norm_num
  rw [h4]
  norm_num

/-- C141 is false. -/
theorem C141_false : ¬ FoundNearOdometry := by
  intro hall
  obtain ⟨log, s, s', inp, g, m, q, p, r, adm, hf, hu, h⟩ := C141_behind
  have h2 := (hall _ _ _ _ _ _ _ _ _ r adm hf hu).apart
  norm_num at h h2
  linarith

/-- The hypotheses of `C141_match` and `C141_lost` are met after the first scan. -/
example : ∃ log s s' inp g m q p, Reach (fun _ => True) log s ∧ Admissible s inp ∧ FrontEnd s inp ∧
    update inp s = .ok ((.matched g m q, p), s') := by
  obtain ⟨_, p0, s0, r0, -, -, i0, u0, -⟩ := first_at
  obtain ⟨inp, e2, p2, s2, g2, -, adm, hf, hu, hm, -, -, q, rfl⟩ := front_at r0 i0 u0 true
  exact ⟨_, _, _, _, _, _, _, _, r0, adm, hf, hu⟩

end Verif.Algo
