import Verif.Opt.Model
import Verif.Pose.Props
import Mathlib.Analysis.SpecialFunctions.Sqrt
import Mathlib.Analysis.SpecialFunctions.Pow.Real
import Mathlib.Analysis.Calculus.Deriv.Prod
import Mathlib.Analysis.Real.Pi.Bounds

/-
Properties of the robust edges.
-/
namespace Verif.Opt

open Verif Verif.Geo Matrix

/-! ### C65 -/

/-- C65.  After any series of optimiser increments the estimate lies in the unit interval and equals the
internal value; nothing is assumed about the start if there is at least one increment. -/
theorem C65_unit_interval (v : Switch) (us : List ℝ)
    (h : us ≠ [] ∨ 0 ≤ v.estimate ∧ v.estimate ≤ 1 ∧ v.x = v.estimate) :
    0 ≤ (us.foldl Switch.oplus v).estimate ∧ (us.foldl Switch.oplus v).estimate ≤ 1 ∧
      (us.foldl Switch.oplus v).x = (us.foldl Switch.oplus v).estimate := by
  induction us generalizing v with
  | nil => exact h.resolve_left (fun h => h rfl)
  | cons u us ih =>
    rw [List.foldl_cons]
    apply ih
    right
    unfold Switch.oplus
    simp only
    refine ⟨?_, ?_, trivial⟩
    · split_ifs <;> linarith
    · split_ifs <;> linarith

/-- C65, the value: an increment adds up to the borders of the interval. -/
theorem C65_increment (v : Switch) (u : ℝ) : (v.oplus u).estimate = max 0 (min 1 (v.x + u)) := by
  unfold Switch.oplus
  simp only
  split_ifs with h1 h2 h2
  · norm_num at h2
  · rw [min_eq_right (by linarith), max_eq_left h1.le]
  · rw [min_eq_left h2.le, max_eq_right zero_le_one]
  · rw [min_eq_right (not_lt.1 h2), max_eq_right (not_lt.1 h1)]

/-- The conditions of `C65_unit_interval` can be met. -/
example : ∃ v : Switch, ∃ us : List ℝ, us ≠ [] ∨ 0 ≤ v.estimate ∧ v.estimate ≤ 1 ∧ v.x = v.estimate :=
  ⟨Switch.origin.setEstimate 1, [], .inr (by simp [Switch.setEstimate])⟩

/-- What may be done with a switch variable: set its estimate, or add an increment. -/
inductive SwitchOp
  | set (e : ℝ)
  | add (u : ℝ)

/-- The call of an operation. -/
noncomputable def SwitchOp.apply (v : Switch) : SwitchOp → Switch
  | .set e => v.setEstimate e
  | .add u => v.oplus u

/-- C65, from the constructor on: a new switch variable, whose estimate is set to values of the unit interval and
incremented in any order, has an estimate in the unit interval that equals its internal value; it is what the last
operation was to make it: the value set, or the sum up to the borders of the interval. -/
theorem C65_life (ops : List SwitchOp) (h : ∀ e, .set e ∈ ops → 0 ≤ e ∧ e ≤ 1) :
    let v := ops.foldl SwitchOp.apply Switch.origin
    0 ≤ v.estimate ∧ v.estimate ≤ 1 ∧ v.x = v.estimate ∧
      (∀ e, (v.setEstimate e).estimate = e) ∧ ∀ u, (v.oplus u).estimate = max 0 (min 1 (v.estimate + u)) := by
  have key : ∀ (ops : List SwitchOp) (v : Switch), (∀ e, .set e ∈ ops → 0 ≤ e ∧ e ≤ 1) →
      0 ≤ v.estimate ∧ v.estimate ≤ 1 ∧ v.x = v.estimate →
      0 ≤ (ops.foldl SwitchOp.apply v).estimate ∧ (ops.foldl SwitchOp.apply v).estimate ≤ 1 ∧
        (ops.foldl SwitchOp.apply v).x = (ops.foldl SwitchOp.apply v).estimate := by
    intro ops
    induction ops with
    | nil => intro v _ h; exact h
    | cons o ops ih =>
      intro v h hv
      rw [List.foldl_cons]
      refine ih _ (fun e he => h e (List.mem_cons_of_mem _ he)) ?_
      cases o with
      | set e => exact ⟨(h e List.mem_cons_self).1, (h e List.mem_cons_self).2, rfl⟩
      | add u => exact C65_unit_interval v [u] (.inl (by simp))
  intro v
  obtain ⟨h1, h2, h3⟩ := key ops Switch.origin h (by simp [Switch.origin])
  refine ⟨h1, h2, h3, fun _ => rfl, fun u => ?_⟩
  rw [C65_increment]
  show max 0 (min 1 (v.x + u)) = _
  rw [show v.x = v.estimate from h3]

/-- The condition of `C65_life` can be met. -/
example : ∀ e, .set e ∈ [SwitchOp.set 1, .add (-3), .add 0.5] → 0 ≤ e ∧ e ≤ 1 := by
  intro e he
  simp at he
  subst he
  norm_num

/-! ### C87 -/

/-- C87 at full strength: when the optimiser saves the estimate, tries increments and restores it, the switch
variable is as before. -/
def UndoesRejectedSteps : Prop := ∀ (v : Switch) (us : List ℝ), v.x = v.estimate → 0 ≤ v.x → v.x ≤ 1 →
  (us.foldl Switch.oplus v.push).pop = .ok v

/-- C87, what holds: the estimate itself and the stack are restored.  Missing: the internal value, from which
the next increment starts. -/
theorem C87_estimate_partial (v : Switch) (us : List ℝ) :
    ∃ w, (us.foldl Switch.oplus v.push).pop = .ok w ∧ w.estimate = v.estimate ∧ w.backup = v.backup := by
  have : ∀ (us : List ℝ) (w : Switch), (us.foldl Switch.oplus w).backup = w.backup := by
    intro us
    induction us with
    | nil => intro w; rfl
    | cons u us ih => intro w; rw [List.foldl_cons, ih]; rfl
  have h := this us v.push
  unfold Switch.pop
  rw [h]
  exact ⟨_, rfl, rfl, rfl⟩

/-- C87 is false: after a rejected increment of -1 from 1, an increment of 0 makes the estimate 0. -/
theorem C87_false : ¬ UndoesRejectedSteps := by
  intro h
  have := h ⟨1, 1, []⟩ [-1] rfl (by norm_num) (by norm_num)
  simp [Switch.push, Switch.oplus, Switch.pop] at this

/-! ### C88 -/

theorem normTheta_same (a : ℝ) : SameAngle (normTheta a) a := by
  refine ⟨-toIcoDiv Real.two_pi_pos (-Real.pi) a, ?_⟩
  have := toIcoMod_add_toIcoDiv_zsmul Real.two_pi_pos (-Real.pi) a
  rw [zsmul_eq_mul] at this
  unfold normTheta
  push_cast
  linarith

theorem normTheta_mem (a : ℝ) : -Real.pi ≤ normTheta a ∧ normTheta a < Real.pi := by
  have := toIcoMod_mem_Ico Real.two_pi_pos (-Real.pi) a
  refine ⟨this.1, ?_⟩
  have h := this.2
  unfold normTheta
  linarith

theorem normTheta_eq {a : ℝ} (h : Real.cos a ≠ -1) : normTheta a = normalizeAngle a := by
  obtain ⟨h1, h2⟩ := normTheta_mem a
  have h3 : normTheta a ≠ -Real.pi := by
    intro h3
    apply h
    rw [← (normTheta_same a).cos, h3, Real.cos_neg, Real.cos_pi]
  have h4 := lt_of_le_of_ne h1 (Ne.symm h3)
  rw [← normalizeAngle_of_mem h4 h2.le, normalizeAngle_congr (normTheta_same a)]

theorem delta_eq (xi xj z : Pose) : delta xi xj z =
    ⟨(calcError xi xj z).x, (calcError xi xj z).y, normTheta (xj.th - xi.th - z.th)⟩ := by
  rw [calcError_eq]
  unfold delta se2Mul se2Inv
  have hz := normTheta_same (-z.th)
  have hx := normTheta_same (-xi.th)
  have h := Real.sin_sq_add_cos_sq z.th
  simp only [hz.cos, hz.sin, hx.cos, hx.sin, Slam.Pose.mk.injEq, Real.cos_neg, Real.sin_neg,
    Real.cos_add, Real.sin_add]
  refine ⟨by ring, by ring, ?_⟩
  unfold normTheta
  have key : ∀ a b : ℝ, SameAngle a b → toIcoMod Real.two_pi_pos (-Real.pi) a =
      toIcoMod Real.two_pi_pos (-Real.pi) b := by
    rintro a b ⟨k, rfl⟩
    rw [← zsmul_eq_mul, toIcoMod_add_zsmul]
  apply key
  obtain ⟨k1, h1⟩ := hz
  obtain ⟨k2, h2⟩ := hx
  obtain ⟨k3, h3⟩ := normTheta_same (normTheta (-xi.th) + xj.th)
  unfold normTheta at h1 h2 h3
  exact ⟨k1 + k2 + k3, by rw [h3, h1, h2]; push_cast; ring⟩

/-- C88.  The Jacobians of the switchable constraint are the partial derivatives of its error with respect to
the two poses and to the switch variable, wherever the angular error is not half a turn (where the error is
not continuous). -/
theorem C88_jacobians (xi xj z : Pose) (s : ℝ) (hcut : Real.cos (xj.th - xi.th - z.th) ≠ -1) :
    HasJacobians (fun x y => switchError x y z s) (switchJacobians xi xj z s).1
      (switchJacobians xi xj z s).2.1 xi xj ∧
    HasDerivAt (fun t => vec (switchError xi xj z t)) (switchJacobians xi xj z s).2.2 s := by
  constructor
  · obtain ⟨L, hL, hLu⟩ := C47_jacobian xi xj z hcut
    refine ⟨s • L, (hL.const_smul s).congr_of_eventuallyEq ?_, ?_⟩
    · have hc : ContinuousAt (fun v : (Fin 3 → ℝ) × (Fin 3 → ℝ) => Real.cos (v.2 2 - v.1 2 - z.th))
          (vec xi, vec xj) := by fun_prop
      have hev := hc.eventually_ne (show Real.cos ((vec xi, vec xj).2 2 - (vec xi, vec xj).1 2 - z.th) ≠ -1 from hcut)
      filter_upwards [hev] with v hv
      have h1 : (calcError (ofVec v.1) (ofVec v.2) z).th = normTheta (v.2 2 - v.1 2 - z.th) := by
        rw [normTheta_eq hv, calcError_eq]; rfl
      have h2 := delta_eq (ofVec v.1) (ofVec v.2) z
      unfold switchError
      simp only [h2]
      funext r
      fin_cases r
      · simp [Geo.vec, mul_comm]
      · simp [Geo.vec, mul_comm]
      · have h3 : normTheta ((ofVec v.2).th - (ofVec v.1).th - z.th) = (calcError (ofVec v.1) (ofVec v.2) z).th :=
          h1.symm
        simp [Geo.vec, mul_comm, h3]
    · intro u w
      rw [_root_.smul_apply, hLu]
      have h0 : (switchJacobians xi xj z s).1 = s • (calcJacobianBlocks xi xj z).1 := by
        unfold switchJacobians calcJacobianBlocks se2Inv
        simp only [(normTheta_same _).cos, (normTheta_same _).sin]
        congr 1
        apply mat_ext <;> simp [Matrix.mul_apply, Fin.sum_univ_three, Real.cos_add, Real.sin_add] <;> ring
      have h1 : (switchJacobians xi xj z s).2.1 = s • (calcJacobianBlocks xi xj z).2 := by
        unfold switchJacobians calcJacobianBlocks se2Inv
        simp only [(normTheta_same _).cos, (normTheta_same _).sin]
        congr 1
        apply mat_ext <;> simp [Matrix.mul_apply, Fin.sum_univ_three, Real.cos_add, Real.sin_add] <;> ring
      rw [h0, h1, Matrix.smul_mulVec, Matrix.smul_mulVec, smul_add]
  · apply hasDerivAt_pi.2
    intro r
    have h : ∀ c : ℝ, HasDerivAt (fun t : ℝ => c * t) (c * 1) s := fun c => (hasDerivAt_id s).const_mul c
    fin_cases r
    · exact h _
    · exact h _
    · exact h _

/-- C88, meaning of the switch: at 0 the constraint has no effect, at 1 it is the plain constraint. -/
theorem C88_switch (xi xj z : Pose) :
    switchError xi xj z 0 = ⟨0, 0, 0⟩ ∧ switchError xi xj z 1 = delta xi xj z ∧
    (delta xi xj z = ⟨0, 0, 0⟩ ↔ SamePose xj (compose xi z)) := by
  refine ⟨by simp [switchError], by simp [switchError], ?_⟩
  have h := C46_error_zero_iff xi xj z
  rw [← h, delta_eq]
  by_cases hc : Real.cos (xj.th - xi.th - z.th) = -1
  · have h1 : normTheta (xj.th - xi.th - z.th) ≠ 0 := by
      intro h0
      rw [← (normTheta_same _).cos, h0, Real.cos_zero] at hc
      norm_num at hc
    have h2 : (calcError xi xj z).th ≠ 0 := by
      rw [calcError_eq]
      intro h0
      simp only at h0
      rw [← cos_normalizeAngle, h0, Real.cos_zero] at hc
      norm_num at hc
    constructor
    · intro h; exact absurd (congrArg Slam.Pose.th h) h1
    · intro h; exact absurd (congrArg Slam.Pose.th h) h2
  · have h1 : normTheta (xj.th - xi.th - z.th) = (calcError xi xj z).th := by
      rw [normTheta_eq hc, calcError_eq]
    rw [h1]

/-- The condition of `C88_jacobians` can be met by poses with an error. -/
example : ∃ xi xj z : Pose, Real.cos (xj.th - xi.th - z.th) ≠ -1 ∧ (delta xi xj z).th ≠ 0 := by
  refine ⟨⟨0, 0, 0⟩, ⟨1, 1, 1⟩, ⟨0, 0, 0⟩, ?_, ?_⟩
  · have := Real.cos_one_pos
    norm_num
    linarith
  · rw [delta_eq]
    intro h
    have h := (normTheta_same ((1 : ℝ) - 0 - 0))
    have h' := h.sin
    simp only at *
    rw [‹normTheta _ = 0›, Real.sin_zero] at h'
    have := Real.sin_pos_of_pos_of_lt_pi (x := (1 : ℝ) - 0 - 0) (by norm_num) (by linarith [Real.pi_gt_three])
    linarith

/-- The prior pulls the switch towards its measurement; its Jacobian is exact. -/
theorem C88_prior (m x : ℝ) : HasDerivAt (priorError m) priorJacobian x := by
  have := (hasDerivAt_id x).const_sub m
  exact this

/-! ### C66 -/

/-- Likelihood of the current estimates under a component of the mixture: weight times the (unnormalised)
Gaussian density with the inverse information matrix as covariance. -/
noncomputable def likelihood (w : ℝ) (e : Edge) (est : ℕ → Pose) : ℝ :=
  w * (1 / Real.sqrt (e.info⁻¹).det) * Real.exp (-(e.error est ⬝ᵥ (e.info *ᵥ e.error est)) / 2)

/-- A new edge after the optimiser called `computeError` or `linearizeOplus` (`true`) for a series of
estimates. -/
noncomputable def calls (edge : Res Mixture) (later : List (Bool × (ℕ → Pose))) : Res Mixture :=
  later.foldl (fun r c => r.bind fun m => if c.1 then m.linearizeOplus c.2 else m.computeError c.2) edge

/-- An edge built by the constructor from `edges` and `weights` when the estimates were `est`, after further
calls of the optimiser. -/
noncomputable def run (edges : List Edge) (weights : List ℝ) (est : ℕ → Pose) (later : List (Bool × (ℕ → Pose))) :
    Res Mixture :=
  calls (Mixture.empty.initializeComponents edges weights est) later

/-- The estimates of the last call. -/
def lastEst (est : ℕ → Pose) (later : List (Bool × (ℕ → Pose))) : ℕ → Pose :=
  ((later.map (·.2)).getLast?).getD est

/-- What `Mixture.search` found among the first `k` components. -/
def Best (f : ℕ → Option ℝ) (k : ℕ) (r : Option (ℕ × ℝ)) : Prop :=
  (r = none ∧ ∀ c < k, f c = none) ∨
  ∃ b p, r = some (b, p) ∧ b < k ∧ f b = some p ∧ (∀ c < k, ∀ q, f c = some q → p ≤ q) ∧
    ∀ c < b, ∀ q, f c = some q → p < q

theorem Best.better {f : ℕ → Option ℝ} {k : ℕ} {r : Option (ℕ × ℝ)} (h : Best f k r) :
    Best f (k + 1) (better r k (f k)) := by
  unfold Opt.better
  rcases hk : f k with _ | p
  · simp only
    rcases h with ⟨h, h'⟩ | ⟨b, p, h, hb, hp, hm, hs⟩
    · refine .inl ⟨h, fun c hc => ?_⟩
      rcases Nat.lt_succ_iff_lt_or_eq.1 hc with hc | rfl
      exacts [h' c hc, hk]
    · refine .inr ⟨b, p, h, by omega, hp, fun c hc q hq => ?_, hs⟩
      rcases Nat.lt_succ_iff_lt_or_eq.1 hc with hc | rfl
      · exact hm c hc q hq
      · rw [hk] at hq; cases hq
  · rcases h with ⟨rfl, h'⟩ | ⟨b, p', rfl, hb, hp, hm, hs⟩
    · simp only
      refine .inr ⟨k, p, rfl, by omega, hk, fun c hc q hq => ?_, fun c hc q hq => ?_⟩
      · rcases Nat.lt_succ_iff_lt_or_eq.1 hc with hc | rfl
        · rw [h' c hc] at hq; cases hq
        · rw [hk] at hq; cases hq; exact le_rfl
      · rw [h' c hc] at hq; cases hq
    · simp only
      split_ifs with hlt
      · refine .inr ⟨k, p, rfl, by omega, hk, fun c hc q hq => ?_, fun c hc q hq => ?_⟩
        · rcases Nat.lt_succ_iff_lt_or_eq.1 hc with hc | rfl
          · exact hlt.le.trans (hm c hc q hq)
          · rw [hk] at hq; cases hq; exact le_rfl
        · exact hlt.trans_le (hm c hc q hq)
      · refine .inr ⟨b, p', rfl, by omega, hp, fun c hc q hq => ?_, hs⟩
        rcases Nat.lt_succ_iff_lt_or_eq.1 hc with hc | rfl
        · exact hm c hc q hq
        · rw [hk] at hq; cases hq; exact not_lt.1 hlt

theorem search_best {m : Mixture} {est : ℕ → Pose} {f : ℕ → Option ℝ} : ∀ (n i : ℕ) (r : Option (ℕ × ℝ)),
    (∀ c < i + n, m.negLogProb est c = .ok (f c)) → Best f i r →
    ∃ r', m.search est i n r = .ok r' ∧ Best f (i + n) r'
  | 0, i, r, _, h => ⟨r, rfl, h⟩
  | n + 1, i, r, hf, h => by
    obtain ⟨r', h1, h2⟩ := search_best n (i + 1) (better r i (f i)) (fun c hc => hf c (by omega)) h.better
    refine ⟨r', ?_, ?_⟩
    · rw [Mixture.search, hf i (by omega)]
      exact h1
    · rwa [show i + (n + 1) = i + 1 + n by omega]

/-- The state of a mixture edge for the given components. -/
def Holds (edges : List Edge) (weights dets : List ℝ) (m : Mixture) : Prop :=
  m.number = edges.length ∧ m.comps = edges ∧ m.weights = weights ∧ m.dets = dets

/-- The value computed by `getNegLogProb`. -/
noncomputable def nlp (edges : List Edge) (weights dets : List ℝ) (est : ℕ → Pose) (c : ℕ) : Option ℝ :=
  if 0 < weights.getD c 0 ∧ 0 < dets.getD c 0 then
    some (-Real.log (weights.getD c 0) + 0.5 * Real.log (dets.getD c 0) +
      0.5 * (edges.getD c ⟨0, 0, ⟨0, 0, 0⟩, 1⟩).chi2 est)
  else none

theorem computeError_best {edges : List Edge} {weights dets : List ℝ} {m : Mixture} (hm : Holds edges weights dets m)
    (hw : edges.length ≤ weights.length) (hd : edges.length ≤ dets.length) (est : ℕ → Pose) :
    (m.computeError est = .ub .outOfBounds ∧ ∀ c < edges.length, nlp edges weights dets est c = none) ∨
    ∃ i p e, edges[i]? = some e ∧ nlp edges weights dets est i = some p ∧
      m.computeError est = .ok { m with best := some i, belief := e, err := e.error est } ∧
      (∀ c < edges.length, ∀ q, nlp edges weights dets est c = some q → p ≤ q) ∧
      ∀ c < i, ∀ q, nlp edges weights dets est c = some q → p < q := by
  obtain ⟨h1, h2, h3, h4⟩ := hm
  have hf : ∀ c < 0 + m.number, m.negLogProb est c = .ok (nlp edges weights dets est c) := by
    intro c hc
    have hc : c < edges.length := by omega
    unfold Mixture.negLogProb at? nlp
    rw [h2, h3, h4, List.getElem?_eq_getElem hc, List.getElem?_eq_getElem (by omega),
      List.getElem?_eq_getElem (by omega)]
    simp only [Res.bind_ok, List.getD_eq_getElem?_getD, List.getElem?_eq_getElem hc,
      List.getElem?_eq_getElem (show c < weights.length by omega),
      List.getElem?_eq_getElem (show c < dets.length by omega), Option.getD_some]
  obtain ⟨r, hr, hb⟩ := search_best m.number 0 none hf (.inl ⟨rfl, by omega⟩)
  unfold Mixture.computeError
  rw [hr]
  rw [h1, Nat.zero_add] at hb
  rcases hb with ⟨rfl, h⟩ | ⟨i, p, rfl, hi, hp, hmin, hst⟩
  · exact .inl ⟨rfl, h⟩
  · refine .inr ⟨i, p, edges[i], List.getElem?_eq_getElem hi, hp, ?_, hmin, hst⟩
    simp only [Res.bind_ok]
    unfold at?
    rw [h2, List.getElem?_eq_getElem hi]
    rfl

theorem det_inv_pos {e : Edge} (h : 0 < e.info.det) : 0 < (e.info⁻¹).det := by
  rw [Matrix.det_nonsing_inv, Ring.inverse_eq_inv']
  exact inv_pos.2 h

theorem likelihood_nlp {edges : List Edge} {weights : List ℝ} {est : ℕ → Pose} {c : ℕ} {e : Edge} {w : ℝ}
    (he : edges[c]? = some e) (hw : weights[c]? = some w) (h0 : 0 ≤ w) (hd : 0 < e.info.det) :
    (nlp edges weights (edges.map fun e => (e.info⁻¹).det) est c = none ∧ likelihood w e est = 0) ∨
    ∃ p, nlp edges weights (edges.map fun e => (e.info⁻¹).det) est c = some p ∧ 0 < w ∧
      likelihood w e est = Real.exp (-p) := by
  have hd' := det_inv_pos hd
  have h1 : edges.getD c ⟨0, 0, ⟨0, 0, 0⟩, 1⟩ = e := by rw [List.getD_eq_getElem?_getD, he]; rfl
  have h2 : weights.getD c 0 = w := by rw [List.getD_eq_getElem?_getD, hw]; rfl
  have h3 : (edges.map fun e => (e.info⁻¹).det).getD c 0 = (e.info⁻¹).det := by
    rw [List.getD_eq_getElem?_getD, List.getElem?_map, he]; rfl
  unfold nlp
  rw [h1, h2, h3]
  rcases h0.eq_or_lt with rfl | h0
  · left
    simp [likelihood]
  · right
    rw [if_pos ⟨h0, hd'⟩]
    refine ⟨_, rfl, h0, ?_⟩
    unfold likelihood Edge.chi2
    rw [show ∀ a b c : ℝ, -(-a + 0.5 * b + 0.5 * c) = a + (-(b / 2) + -c / 2) by intros; ring, Real.exp_add,
      Real.exp_log h0, Real.exp_add, Real.exp_neg, Real.exp_half (Real.log _), Real.exp_log hd', one_div, mul_assoc]

/-- C66 at full strength: for every edge object, whatever it was used for before, after initialisation with
components of positive definite information and non-negative weights (not all zero) and any later calls of the
optimiser, measurement, information and end points are those of a component with maximal likelihood for the
current estimates. -/
def UsesMostProbable (start : Mixture) : Prop :=
  ∀ (edges : List Edge) (weights : List ℝ) (est : ℕ → Pose), edges.length = weights.length →
    (∀ e ∈ edges, e.info.PosDef) → (∀ w ∈ weights, 0 ≤ w) → (∃ w ∈ weights, 0 < w) →
    ∃ m i e w, start.initializeComponents edges weights est = .ok m ∧ edges[i]? = some e ∧ weights[i]? = some w ∧
      m.best = some i ∧ m.belief = e ∧ m.err = e.error est ∧
      ∀ (j : ℕ) (e' : Edge) (w' : ℝ), edges[j]? = some e' → weights[j]? = some w' → likelihood w' e' est ≤ likelihood w e est

theorem computeError_most_probable {edges : List Edge} {weights : List ℝ} {m : Mixture}
    (hm : Holds edges weights (edges.map fun e => (e.info⁻¹).det) m) (est : ℕ → Pose)
    (hl : edges.length = weights.length) (hdet : ∀ e ∈ edges, 0 < e.info.det) (hw : ∀ w ∈ weights, 0 ≤ w)
    (hpos : ∃ w ∈ weights, 0 < w) :
    ∃ i e w, m.computeError est = .ok { m with best := some i, belief := e, err := e.error est } ∧
      edges[i]? = some e ∧ weights[i]? = some w ∧ 0 < w ∧
      (∀ (j : ℕ) (e' : Edge) (w' : ℝ), edges[j]? = some e' → weights[j]? = some w' →
        likelihood w' e' est ≤ likelihood w e est) ∧
      ∀ (j : ℕ) (e' : Edge) (w' : ℝ), j < i → edges[j]? = some e' → weights[j]? = some w' →
        likelihood w' e' est < likelihood w e est := by
  have lk : ∀ (j : ℕ) (e' : Edge) (w' : ℝ), edges[j]? = some e' → weights[j]? = some w' →
      (nlp edges weights (edges.map fun e => (e.info⁻¹).det) est j = none ∧ likelihood w' e' est = 0) ∨
      ∃ p, nlp edges weights (edges.map fun e => (e.info⁻¹).det) est j = some p ∧ 0 < w' ∧
        likelihood w' e' est = Real.exp (-p) := fun j e' w' he' hw' =>
    likelihood_nlp he' hw' (hw w' (List.mem_of_getElem? hw')) (hdet e' (List.mem_of_getElem? he'))
  rcases computeError_best hm hl.le (by simp) est with ⟨-, h⟩ | ⟨i, p, e, he, hp, hc, hmin, hst⟩
  · exfalso
    obtain ⟨w, hw1, hw2⟩ := hpos
    obtain ⟨j, hj, rfl⟩ := List.getElem_of_mem hw1
    have hj' : j < edges.length := by omega
    have hd' := det_inv_pos (hdet _ (List.getElem_mem hj'))
    have := h j hj'
    unfold nlp at this
    rw [List.getD_eq_getElem?_getD, List.getElem?_eq_getElem hj, List.getD_eq_getElem?_getD, List.getElem?_map,
      List.getElem?_eq_getElem hj'] at this
    simp only [Option.getD_some, Option.map_some] at this
    rw [if_pos ⟨hw2, hd'⟩] at this
    cases this
  · have hi : i < edges.length := (List.getElem?_eq_some_iff.1 he).1
    have hwi := List.getElem?_eq_getElem (show i < weights.length by omega)
    rcases lk i e _ he hwi with ⟨h, -⟩ | ⟨p', hp', hw0, hlik⟩
    · rw [h] at hp; cases hp
    rw [hp] at hp'
    cases hp'
    refine ⟨i, e, weights[i], hc, he, hwi, hw0, ?_, ?_⟩
    · intro j e' w' he' hw'
      rcases lk j e' w' he' hw' with ⟨-, h⟩ | ⟨q, hq, -, h⟩
      · rw [h, hlik]; exact (Real.exp_pos _).le
      · rw [h, hlik, Real.exp_le_exp]
        have := hmin j (List.getElem?_eq_some_iff.1 he').1 q hq
        linarith
    · intro j e' w' hji he' hw'
      rcases lk j e' w' he' hw' with ⟨-, h⟩ | ⟨q, hq, -, h⟩
      · rw [h, hlik]; exact Real.exp_pos _
      · rw [h, hlik, Real.exp_lt_exp]
        have := hst j hji q hq
        linarith

theorem run_holds {edges : List Edge} {weights : List ℝ} {est : ℕ → Pose}
    (hl : edges.length = weights.length) (hdet : ∀ e ∈ edges, 0 < e.info.det) (hw : ∀ w ∈ weights, 0 ≤ w)
    (hpos : ∃ w ∈ weights, 0 < w) (later : List (Bool × (ℕ → Pose))) :
    ∃ m₀ m, Holds edges weights (edges.map fun e => (e.info⁻¹).det) m₀ ∧ run edges weights est later = .ok m ∧
      m₀.computeError (lastEst est later) = .ok m ∧
      Holds edges weights (edges.map fun e => (e.info⁻¹).det) m := by
  induction later using List.reverseRecOn with
  | nil =>
    have h0 : Holds edges weights (edges.map fun e => (e.info⁻¹).det)
        { Mixture.empty with
          comps := edges
          weights := weights
          number := edges.length
          dets := Mixture.empty.dets ++ edges.map fun e => (e.info⁻¹).det } := ⟨rfl, rfl, rfl, rfl⟩
    obtain ⟨i, e, w, h, -⟩ := computeError_most_probable h0 est hl hdet hw hpos
    exact ⟨_, _, h0, h, h, ⟨rfl, rfl, rfl, rfl⟩⟩
  | append_singleton later c ih =>
    obtain ⟨m₀, m, -, h2, -, h4⟩ := ih
    obtain ⟨i, e, w, h, -⟩ := computeError_most_probable h4 c.2 hl hdet hw hpos
    refine ⟨m, { m with best := some i, belief := e, err := e.error c.2 }, h4, ?_, ?_, ?_⟩
    rotate_left
    · rw [show lastEst est (later ++ [c]) = c.2 by simp [lastEst]]
      exact h
    · obtain ⟨a, b, c, d⟩ := h4
      exact ⟨a, b, c, d⟩
    · unfold run calls at h2 ⊢
      rw [List.foldl_append, h2]
      simp only [List.foldl_cons, List.foldl_nil, Res.bind_ok, Mixture.linearizeOplus, ite_self]
      exact h

/-- C66, what holds: for an edge built by its constructor, and after any later calls of the optimiser, the
active component (measurement, information, end points and error) is one with maximal likelihood for the
estimates of the last call, the first one if there are several.  Missing: an edge that is initialised twice. -/
theorem C66_most_probable_partial {edges : List Edge} {weights : List ℝ} (est : ℕ → Pose)
    (later : List (Bool × (ℕ → Pose))) (hl : edges.length = weights.length) (hdet : ∀ e ∈ edges, 0 < e.info.det)
    (hw : ∀ w ∈ weights, 0 ≤ w) (hpos : ∃ w ∈ weights, 0 < w) :
    ∃ m i e w, run edges weights est later = .ok m ∧ edges[i]? = some e ∧ weights[i]? = some w ∧ 0 < w ∧
      m.best = some i ∧ m.belief = e ∧ m.err = e.error (lastEst est later) ∧
      (∀ (j : ℕ) (e' : Edge) (w' : ℝ), edges[j]? = some e' → weights[j]? = some w' →
        likelihood w' e' (lastEst est later) ≤ likelihood w e (lastEst est later)) ∧
      ∀ (j : ℕ) (e' : Edge) (w' : ℝ), j < i → edges[j]? = some e' → weights[j]? = some w' →
        likelihood w' e' (lastEst est later) < likelihood w e (lastEst est later) := by
  obtain ⟨m₀, m, h0, h1, h2, -⟩ := run_holds (est := est) hl hdet hw hpos later
  obtain ⟨i, e, w, h, he, hwi, hw0, hmax, hst⟩ := computeError_most_probable h0 (lastEst est later) hl hdet hw hpos
  rw [h2] at h
  cases h
  exact ⟨_, i, e, w, h1, he, hwi, hw0, rfl, rfl, rfl, hmax, hst⟩

/-- C66, the full statement for a new object, without later calls: it holds. -/
theorem C66_fresh : UsesMostProbable Mixture.empty := by
  intro edges weights est hl hpd hw hpos
  obtain ⟨m, i, e, w, h1, h2, h3, -, h5, h6, h7, h8, -⟩ :=
    C66_most_probable_partial est [] hl (fun e he => (hpd e he).det_pos) hw hpos
  exact ⟨m, i, e, w, h1, h2, h3, h5, h6, h7, h8⟩

/-- C66, the conditions are needed: without a component of positive weight there is an out of bounds access. -/
theorem C66_no_component {edges : List Edge} {weights : List ℝ} (est : ℕ → Pose)
    (hl : edges.length = weights.length) (hw : ∀ w ∈ weights, w ≤ 0) :
    Mixture.empty.initializeComponents edges weights est = .ub .outOfBounds := by
  have h0 : Holds edges weights (edges.map fun e => (e.info⁻¹).det)
      { Mixture.empty with
        comps := edges
        weights := weights
        number := edges.length
        dets := Mixture.empty.dets ++ edges.map fun e => (e.info⁻¹).det } := ⟨rfl, rfl, rfl, rfl⟩
  rcases computeError_best h0 hl.le (by simp) est with ⟨h, -⟩ | ⟨i, p, e, he, hp, -⟩
  · exact h
  · exfalso
    have hi : i < edges.length := (List.getElem?_eq_some_iff.1 he).1
    have hwi := List.getElem?_eq_getElem (show i < weights.length by omega)
    unfold nlp at hp
    rw [List.getD_eq_getElem?_getD, hwi] at hp
    simp only [Option.getD_some] at hp
    rw [if_neg fun h => absurd h.1 (not_lt.2 (hw _ (List.getElem_mem _)))] at hp
    cases hp

/-- C66 at full strength for edge objects that were initialised before, too. -/
def AlwaysMostProbable : Prop := ∀ (start : Mixture),
  (start = Mixture.empty ∨ ∃ edges weights est, edges.length = weights.length ∧ (∀ e ∈ edges, e.info.PosDef) ∧
    (∀ w ∈ weights, 0 < w) ∧ Mixture.empty.initializeComponents edges weights est = .ok start) →
  UsesMostProbable start

theorem info4_posDef : (diagonal ![4, 4, 4] : Matrix (Fin 3) (Fin 3) ℝ).PosDef := by
  rw [Matrix.posDef_diagonal_iff]
  intro i
  fin_cases i <;> norm_num

/-- C66 is false for an edge that is initialised again: the determinants of the first initialisation stay in
use, and the less likely of two components is selected. -/
theorem C66_false : ¬ AlwaysMostProbable := by
  intro h
  have hp1 : (1 : Matrix (Fin 3) (Fin 3) ℝ).PosDef := Matrix.PosDef.one
  have herr : ∀ M, (Edge.mk 0 0 ⟨0, 0, 0⟩ M).error (fun _ => ⟨0, 0, 0⟩) = 0 := by
    intro M
    unfold Edge.error
    have h0 := (C88_switch ⟨0, 0, 0⟩ ⟨0, 0, 0⟩ ⟨0, 0, 0⟩).2.2.2 (by
      refine ⟨?_, ?_, 0, ?_⟩ <;> simp [compose, toWorld])
    simp only [h0]
    funext i
    fin_cases i <;> rfl
  have hd4 : ((diagonal ![4, 4, 4] : Matrix (Fin 3) (Fin 3) ℝ)⁻¹).det = 1 / 64 := by
    rw [Matrix.det_nonsing_inv, Ring.inverse_eq_inv', Matrix.det_diagonal, Fin.prod_univ_three]
    simp only [Matrix.cons_val]
    norm_num
  have hd1 : ((1 : Matrix (Fin 3) (Fin 3) ℝ)⁻¹).det = 1 := by simp
  obtain ⟨-, start, -, h1, -, hs⟩ := run_holds (edges := [⟨0, 0, ⟨0, 0, 0⟩, 1⟩]) (weights := [1])
    (est := fun _ => ⟨0, 0, 0⟩) rfl (by simp) (by simp) ⟨1, by simp⟩ []
  obtain ⟨m, i, e, w, h2, he, hw, hb, -, -, hmax⟩ := h start
    (.inr ⟨[⟨0, 0, ⟨0, 0, 0⟩, 1⟩], [1], fun _ => ⟨0, 0, 0⟩, rfl, by simpa using hp1, by simp, h1⟩)
    [⟨0, 0, ⟨0, 0, 0⟩, diagonal ![4, 4, 4]⟩, ⟨0, 0, ⟨0, 0, 0⟩, 1⟩] [1, 1] (fun _ => ⟨0, 0, 0⟩) rfl
    (by
      intro e he
      simp only [List.mem_cons, List.not_mem_nil, or_false] at he
      rcases he with rfl | rfl
      exacts [info4_posDef, hp1]) (by simp) ⟨1, by simp⟩
  obtain ⟨-, -, -, hd⟩ := hs
  have h3 : Holds [⟨0, 0, ⟨0, 0, 0⟩, diagonal ![4, 4, 4]⟩, ⟨0, 0, ⟨0, 0, 0⟩, 1⟩] [1, 1] [1, 1 / 64, 1]
      { start with
        comps := [⟨0, 0, ⟨0, 0, 0⟩, diagonal ![4, 4, 4]⟩, ⟨0, 0, ⟨0, 0, 0⟩, 1⟩]
        weights := [1, 1]
        number := 2
        dets := start.dets ++ List.map (fun e : Edge => (e.info⁻¹).det)
          [⟨0, 0, ⟨0, 0, 0⟩, diagonal ![4, 4, 4]⟩, ⟨0, 0, ⟨0, 0, 0⟩, 1⟩] } := by
    refine ⟨rfl, rfl, rfl, ?_⟩
    simp only [hd, List.map_cons, List.map_nil, hd4, hd1]
    rfl
  have hlog : Real.log (1 / 64) < 0 := Real.log_neg (by norm_num) (by norm_num)
  rcases computeError_best h3 (by simp) (by simp) (fun _ => ⟨0, 0, 0⟩) with ⟨-, hn⟩ | ⟨j, p, e', -, hp, hc, hmin, -⟩
  · have := hn 0 (by simp)
    simp [nlp] at this
  · have hj : j = i := by
      have : Res.ok m = _ := h2.symm.trans hc
      cases this
      simpa using hb
    subst hj
    have hle := hmin 1 (by simp) (0.5 * Real.log (1 / 64)) (by simp [nlp, Edge.chi2, herr])
    match j, he, hw, hp with
    | 0, he, hw, hp =>
      simp [nlp, Edge.chi2, herr] at hp
      subst hp
      linarith
    | 1, he, hw, hp =>
      simp only [List.getElem?_cons_succ, List.getElem?_cons_zero, Option.some.injEq] at he hw
      subst he hw
      have := hmax 0 _ _ rfl rfl
      unfold likelihood at this
      simp only [herr, hd4, hd1] at this
      rw [show (1 / 64 : ℝ) = (1 / 8) ^ 2 by norm_num, Real.sqrt_sq (by norm_num), Real.sqrt_one] at this
      simp at this
    | j + 2, he, hw, hp => simp at he

/-- The conditions of `C66_most_probable_partial` can be met by two different components. -/
example : ∃ (edges : List Edge) (weights : List ℝ), edges.length = weights.length ∧ (∀ e ∈ edges, 0 < e.info.det) ∧
    (∀ w ∈ weights, 0 ≤ w) ∧ (∃ w ∈ weights, 0 < w) ∧ edges.length = 2 ∧ edges.Nodup :=
  ⟨[⟨0, 1, ⟨1, 0, 0⟩, 1⟩, ⟨0, 2, ⟨2, 0, 0⟩, 1⟩], [0.3, 0.7], rfl, by simp, by norm_num, ⟨0.3, by norm_num, by norm_num⟩,
    rfl, by simp⟩

/-! ### C89 -/

/-- C89.  The edge for a loop closure, at construction and after any later calls of the optimiser: the end
points and the measurement are those of the closure whichever component is active, and the closure keeps its
full information exactly as long as its error does not exceed the error under the null hypothesis by more than
a threshold that depends on the two determinants and the weight 1/10000; otherwise it has almost no
influence. -/
theorem C89_loop_gate (src dst : ℕ) (trans : Pose) (inform : Matrix (Fin 3) (Fin 3) ℝ) (hdet : 0 < inform.det)
    (est : ℕ → Pose) (later : List (Bool × (ℕ → Pose))) :
    ∃ m, calls (loopMixture src dst trans inform est) later = .ok m ∧
      m.belief.v0 = src ∧ m.belief.v1 = dst ∧ m.belief.meas = trans ∧
      ∀ d : Pose, d = delta (lastEst est later src) (lastEst est later dst) trans →
        m.err = ![d.x, d.y, d.th] ∧
        m.belief.info =
          if (![d.x, d.y, d.th] ⬝ᵥ (inform *ᵥ ![d.x, d.y, d.th])) -
              (5e-9 * d.x ^ 2 + 5e-9 * d.y ^ 2 + 1e-9 * d.th ^ 2) ≤
            2 * Real.log 10000 + Real.log inform.det - Real.log 2.5e-26
          then inform else diagonal ![5e-9, 5e-9, 1e-9] := by
  have hdi : (diagonal ![5e-9, 5e-9, 1e-9] : Matrix (Fin 3) (Fin 3) ℝ).det = 2.5e-26 := by
    rw [Matrix.det_diagonal, Fin.prod_univ_three]
    simp only [Matrix.cons_val]
    norm_num
  obtain ⟨m₀, m, h0, h1, h2, -⟩ := run_holds
    (edges := [⟨src, dst, trans, inform⟩, ⟨src, dst, trans, diagonal ![5e-9, 5e-9, 1e-9]⟩])
    (weights := [1, 0.0001]) (est := est) rfl (by
      intro e he
      simp only [List.mem_cons, List.not_mem_nil, or_false] at he
      rcases he with rfl | rfl
      · exact hdet
      · rw [hdi]; norm_num) (by norm_num) ⟨1, by simp⟩ later
  refine ⟨m, h1, ?_⟩
  have hinv : ∀ M : Matrix (Fin 3) (Fin 3) ℝ, Real.log (M⁻¹).det = - Real.log M.det := by
    intro M
    rw [Matrix.det_nonsing_inv, Ring.inverse_eq_inv', Real.log_inv]
  have hdp : 0 < (inform⁻¹).det := det_inv_pos (e := ⟨src, dst, trans, inform⟩) hdet
  have hdp' : 0 < ((diagonal ![5e-9, 5e-9, 1e-9] : Matrix (Fin 3) (Fin 3) ℝ)⁻¹).det :=
    det_inv_pos (e := ⟨src, dst, trans, diagonal ![5e-9, 5e-9, 1e-9]⟩) (by rw [hdi]; norm_num)
  set d := delta (lastEst est later src) (lastEst est later dst) trans with hd
  have n0 : nlp [⟨src, dst, trans, inform⟩, ⟨src, dst, trans, diagonal ![5e-9, 5e-9, 1e-9]⟩] [1, 0.0001]
      (List.map (fun e : Edge => (e.info⁻¹).det)
        [⟨src, dst, trans, inform⟩, ⟨src, dst, trans, diagonal ![5e-9, 5e-9, 1e-9]⟩]) (lastEst est later) 0 =
      some (-(0.5 * Real.log inform.det) + 0.5 * (![d.x, d.y, d.th] ⬝ᵥ (inform *ᵥ ![d.x, d.y, d.th]))) := by
    unfold nlp
    simp only [List.map_cons, List.getD_cons_zero]
    rw [if_pos ⟨by norm_num, hdp⟩, Real.log_one, hinv]
    unfold Edge.chi2 Edge.error
    simp only [← hd]
    congr 1
    ring
  have n1 : nlp [⟨src, dst, trans, inform⟩, ⟨src, dst, trans, diagonal ![5e-9, 5e-9, 1e-9]⟩] [1, 0.0001]
      (List.map (fun e : Edge => (e.info⁻¹).det)
        [⟨src, dst, trans, inform⟩, ⟨src, dst, trans, diagonal ![5e-9, 5e-9, 1e-9]⟩]) (lastEst est later) 1 =
      some (Real.log 10000 - 0.5 * Real.log 2.5e-26 +
        0.5 * (5e-9 * d.x ^ 2 + 5e-9 * d.y ^ 2 + 1e-9 * d.th ^ 2)) := by
    unfold nlp
    simp only [List.map_cons, List.getD_cons_succ, List.getD_cons_zero]
    rw [if_pos ⟨by norm_num, hdp'⟩, show (0.0001 : ℝ) = 10000⁻¹ by norm_num, Real.log_inv, hinv, hdi]
    unfold Edge.chi2 Edge.error
    simp only [← hd]
    congr 1
    simp only [dotProduct, Fin.sum_univ_three, Matrix.mulVec_diagonal, Matrix.cons_val]
    ring
  rcases computeError_best h0 (by simp) (by simp) (lastEst est later) with ⟨-, h⟩ | ⟨i, p, e, he, hp, hc, hmin, hst⟩
  · have := h 0 (by simp)
    rw [n0] at this
    cases this
  · rw [h2] at hc
    cases hc
    match i, he, hp, hst with
    | 0, he, hp, hst =>
      simp only [List.getElem?_cons_zero, Option.some.injEq] at he
      subst he
      refine ⟨rfl, rfl, rfl, ?_⟩
      rintro _ rfl
      refine ⟨rfl, ?_⟩
      rw [if_pos]
      have hle := hmin 1 (by simp) _ n1
      rw [n0, Option.some.injEq] at hp
      rw [← hp] at hle
      linarith
    | 1, he, hp, hst =>
      simp only [List.getElem?_cons_succ, List.getElem?_cons_zero, Option.some.injEq] at he
      subst he
      refine ⟨rfl, rfl, rfl, ?_⟩
      rintro _ rfl
      refine ⟨rfl, ?_⟩
      rw [if_neg]
      have hlt := hst 0 (by omega) _ n0
      rw [n1, Option.some.injEq] at hp
      rw [← hp] at hlt
      rw [not_le]
      linarith
    | j + 2, he, hp, hst => simp at he

/-- The condition of `C89_loop_gate` holds for the information the matcher reports, and both components occur:
with it a closure is kept when it is fulfilled and dropped when it is off by 1 in x. -/
example : 0 < (diagonal ![5000, 5000, 10000] : Matrix (Fin 3) (Fin 3) ℝ).det ∧
    (0 : ℝ) ≤ 2 * Real.log 10000 + Real.log (diagonal ![5000, 5000, 10000] : Matrix (Fin 3) (Fin 3) ℝ).det -
      Real.log 2.5e-26 ∧
    2 * Real.log 10000 + Real.log (diagonal ![5000, 5000, 10000] : Matrix (Fin 3) (Fin 3) ℝ).det -
      Real.log 2.5e-26 < 5000 - 5e-9 := by
  have hd : (diagonal ![5000, 5000, 10000] : Matrix (Fin 3) (Fin 3) ℝ).det = 2.5e11 := by
    rw [Matrix.det_diagonal, Fin.prod_univ_three]
    simp only [Matrix.cons_val]
    norm_num
  have e : 2 * Real.log 10000 + Real.log 2.5e11 - Real.log 2.5e-26 = 45 * Real.log 10 := by
    rw [show (10000 : ℝ) = 10 ^ 4 by norm_num, Real.log_pow, sub_eq_add_neg, ← Real.log_inv, add_assoc,
      ← Real.log_mul (by norm_num) (by norm_num), show (2.5e11 : ℝ) * 2.5e-26⁻¹ = 10 ^ 37 by norm_num, Real.log_pow]
    push_cast
    ring
  have h10 := Real.log_le_sub_one_of_pos (show (0 : ℝ) < 10 by norm_num)
  have h0 := Real.log_nonneg (show (1 : ℝ) ≤ 10 by norm_num)
  rw [hd, e]
  exact ⟨by norm_num, by linarith, by linarith⟩

end Verif.Opt
