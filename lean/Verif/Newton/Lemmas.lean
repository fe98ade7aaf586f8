import Verif.Newton.Search
import Verif.Newton.Spec
import Verif.Pose.Lemmas
import Mathlib.Analysis.InnerProductSpace.PiL2

/- Lemmas about the Newton iteration. -/
namespace Verif.Newton

open Verif Verif.Geo

/-! ### Norm -/

theorem norm_eq (v : Vec) : norm v = ‖(WithLp.toLp 2 v : EuclideanSpace ℝ (Fin 3))‖ := by
  rw [EuclideanSpace.norm_eq, Fin.sum_univ_three]
  unfold norm dot
  congr 1
  simp only [Real.norm_eq_abs, sq_abs]
  ring

theorem dist_eq (a b : Vec) : dist a b = norm (a - b) := by
  unfold dist norm dot
  congr 1
  simp only [Pi.sub_apply]
  ring

theorem dist_triangle (a b c : Vec) : dist a c ≤ dist a b + dist b c := by
  rw [dist_eq, dist_eq, dist_eq, norm_eq, norm_eq, norm_eq]
  have : (WithLp.toLp 2 (a - c) : EuclideanSpace ℝ (Fin 3)) = WithLp.toLp 2 (a - b) + WithLp.toLp 2 (b - c) := by
    rw [← WithLp.toLp_add]; congr 1; abel
  rw [this]
  exact norm_add_le _ _

theorem dist_self (a : Vec) : dist a a = 0 := by
  unfold dist; simp

theorem norm_nonneg (v : Vec) : 0 ≤ norm v := Real.sqrt_nonneg _

theorem norm_smul (v : Vec) (a : ℝ) : norm (fun k => v k * a) = norm v * |a| := by
  unfold norm dot
  rw [← Real.sqrt_sq_eq_abs, ← Real.sqrt_mul]
  · congr 1; ring
  · nlinarith [mul_self_nonneg (v 0), mul_self_nonneg (v 1), mul_self_nonneg (v 2)]

theorem norm_unit {v : Vec} (h : norm v ≠ 0) : norm (fun k => v k / norm v) = 1 := by
  have := norm_smul v (norm v)⁻¹
  simp only [div_eq_mul_inv]
  rw [this, abs_of_nonneg (inv_nonneg.2 (norm_nonneg v)), mul_inv_cancel₀ h]

theorem dist_move (x dir : Vec) (a : ℝ) (h : norm dir = 1) : dist (fun k => x k + dir k * a) x = |a| := by
  rw [dist_eq]
  have : (fun k => x k + dir k * a) - x = fun k => dir k * a := by
    funext k; simp
  rw [this, norm_smul, h, one_mul]

/-! ### One step -/

theorem along_fin (f : Vec → Score) (x dir : Vec) (a : ℝ) :
    along f x dir (.fin a) = (.fin (-(f fun k => x k + dir k * a).value), .fin (-dot (f fun k => x k + dir k * a).gradient dir)) :=
  rfl

theorem searchStep_len {trial : Vec → Score} {x dir : Vec} {a M m p0 g0 : ℝ} (hm : 0 < m) (hg : g0 < 0) :
    (searchStep (along trial x dir) (.fin a) (.fin M) (.fin m) (.fin p0) (.fin g0)).1 = .fin (max (min a M) m) := by
  rcases lt_or_ge m M with h | h
  · rw [searchStep_skipped _ h]
  · rw [searchStep_pinned h hm hg (along_fin _ _ _ _), max_eq_right ((min_le_right _ _).trans h)]

/-- Direction after the check of the slope. -/
noncomputable def ascent (g dir : Vec) : Vec := if dot g dir < 0 then fun k => dir k * -1 else dir

theorem computeStepLength_eq {trial : Vec → Score} {x dir : Vec} {a M m : ℝ} {s : Score} (hm : 0 < m) :
    (computeStepLength trial x dir a M m s).1 = .fin (if dot s.gradient dir = 0 then 0 else max (min a M) m) ∧
      (computeStepLength trial x dir a M m s).2.1 = ascent s.gradient dir ∧
      (computeStepLength trial x dir a M m s).2.2 ≤ 11 := by
  unfold computeStepLength ascent
  simp only
  by_cases h : dot s.gradient dir = 0
  · rw [if_pos (by rw [h, neg_zero])]
    simp only [h, lt_irrefl, if_false, if_true]
    exact ⟨trivial, trivial, by norm_num⟩
  · rw [if_neg (by simpa using h)]
    refine ⟨?_, ?_, searchStep_evals _ _ _ _ _ _⟩
    · rw [if_neg h]
      by_cases h' : -dot s.gradient dir > 0
      · simp only [if_pos h']
        exact searchStep_len hm (by linarith)
      · simp only [if_neg h']
        refine searchStep_len hm ?_
        rcases lt_or_gt_of_ne h with h2 | h2
        · exact absurd (by linarith) h'
        · linarith
    · simp only
      by_cases h' : dot s.gradient dir < 0
      · rw [if_pos h', if_pos (by linarith)]
      · rw [if_neg h', if_neg (by linarith)]

theorem norm_ascent (g dir : Vec) : norm (ascent g dir) = norm dir := by
  unfold ascent
  split_ifs
  · rw [norm_smul]; simp
  · rfl

theorem newtonStep_cases (cfg : Config) (env : Env) (x : Vec) (he : 0 < cfg.eps) :
    newtonStep cfg env x = .fail ∨ ∃ dir len, newtonStep cfg env x =
      .next (fun k => x k + dir k * len) len (env.calcScore x) ∧ norm dir = 1 ∧
      (len = 0 ∨ ∃ a, len = max (min a cfg.stepSize) (cfg.eps / 2)) := by
  unfold newtonStep
  simp only
  cases h : env.solve (env.calcScore x) with
  | none => exact Or.inl rfl
  | some d =>
    simp only
    by_cases hd : norm d = 0
    · rw [if_pos hd]; exact Or.inl rfl
    · rw [if_neg hd]
      right
      obtain ⟨h1, h2, -⟩ := computeStepLength_eq (trial := env.trial) (x := x) (dir := fun k => d k / norm d)
        (a := norm d) (M := cfg.stepSize) (m := cfg.eps / 2) (s := env.calcScore x) (by linarith)
      rcases hc : computeStepLength env.trial x (fun k => d k / norm d) (norm d) cfg.stepSize (cfg.eps / 2)
        (env.calcScore x) with ⟨a, dir, n⟩
      rw [hc] at h1 h2
      simp only at h1 h2
      subst h1 h2
      simp only
      refine ⟨_, _, rfl, ?_, ?_⟩
      · rw [norm_ascent, norm_unit hd]
      · split_ifs
        · exact Or.inl rfl
        · exact Or.inr ⟨_, rfl⟩

theorem newtonStep_next {cfg : Config} {env : Env} {x x' : Vec} {len : ℝ} {s : Score} (he : 0 < cfg.eps)
    (h : newtonStep cfg env x = .next x' len s) :
    dist x' x = len ∧ s = env.calcScore x ∧ (len = 0 ∨ ∃ a, len = max (min a cfg.stepSize) (cfg.eps / 2)) := by
  rcases newtonStep_cases cfg env x he with h' | ⟨dir, l, h', hd, hl⟩
  · rw [h'] at h; cases h
  · rw [h'] at h
    injection h with h1 h2 h3
    subst h1 h2 h3
    refine ⟨?_, rfl, hl⟩
    rw [dist_move _ _ _ hd, abs_of_nonneg]
    rcases hl with h | ⟨a, h⟩
    · rw [h]
    · rw [h]; exact le_trans (by linarith) (le_max_right _ _)

theorem newtonStep_not_broken {cfg : Config} {env : Env} {x : Vec} (he : 0 < cfg.eps) :
    newtonStep cfg env x ≠ .broken := by
  intro h
  rcases newtonStep_cases cfg env x he with h' | ⟨dir, l, h', -⟩ <;> rw [h'] at h <;> cases h

theorem len_le {cfg : Config} {len : ℝ} (he : 0 < cfg.eps)
    (h : len = 0 ∨ ∃ a, len = max (min a cfg.stepSize) (cfg.eps / 2)) : len ≤ max cfg.stepSize (cfg.eps / 2) := by
  rcases h with h | ⟨a, h⟩
  · rw [h]; exact le_trans (by linarith) (le_max_right _ _)
  · rw [h]; exact max_le_max (min_le_right _ _) le_rfl

/-! ### One grid -/

theorem d2dLoop_spec {cfg : Config} (he : 0 < cfg.eps) (env : Env) (n : ℕ) : ∀ (x : Vec) (nr : ℕ),
    cfg.maxIter - nr ≤ n → d2dLoop cfg env x nr = .fail ∨ ∃ y k s, d2dLoop cfg env x nr = .ok y k s ∧ nr < k ∧
      k ≤ max cfg.maxIter (nr + 1) ∧ dist y x ≤ (k - nr : ℝ) * max cfg.stepSize (cfg.eps / 2) ∧
      ∃ z len, newtonStep cfg env z = .next y len s := by
  induction n with
  | zero =>
    intro x nr hn
    unfold d2dLoop
    cases h : newtonStep cfg env x with
    | fail => exact Or.inl rfl
    | broken => exact absurd h (newtonStep_not_broken he)
    | next x' len s =>
      obtain ⟨h1, h2, h3⟩ := newtonStep_next he h
      simp only
      rw [if_pos (Or.inl (by omega))]
      refine Or.inr ⟨_, _, _, rfl, by omega, le_max_right _ _, ?_, x, len, h⟩
      rw [h1]
      have := len_le he h3
      push_cast
      linarith
  | succ n ih =>
    intro x nr hn
    unfold d2dLoop
    cases h : newtonStep cfg env x with
    | fail => exact Or.inl rfl
    | broken => exact absurd h (newtonStep_not_broken he)
    | next x' len s =>
      obtain ⟨h1, h2, h3⟩ := newtonStep_next he h
      have hlen := len_le he h3
      simp only
      split_ifs with hc
      · refine Or.inr ⟨_, _, _, rfl, by omega, le_max_right _ _, ?_, x, len, h⟩
        rw [h1]
        push_cast
        linarith
      · push Not at hc
        rcases ih x' (nr + 1) (by omega) with h' | ⟨y, k, s', h', h4, h5, h6, h7⟩
        · exact Or.inl h'
        · refine Or.inr ⟨y, k, s', h', by omega, ?_, ?_, h7⟩
          · have := hc.1
            rw [max_eq_left (by omega)] at h5
            exact h5.trans (le_max_left _ _)
          · have := dist_triangle y x' x
            push_cast at h6
            linarith

theorem ndtLoop_spec {cfg : Config} (he : 0 < cfg.eps) (env : Env) (n : ℕ) : ∀ (x : Vec) (nr : ℕ),
    cfg.maxIter + 1 - nr ≤ n → ndtLoop cfg env x nr = .fail ∨ ∃ y k s, ndtLoop cfg env x nr = .ok y k s ∧ nr < k ∧
      k ≤ max (cfg.maxIter + 2) (nr + 1) ∧ dist y x ≤ (k - nr : ℝ) * max cfg.stepSize (cfg.eps / 2) ∧
      ∃ z len, newtonStep cfg env z = .next y len s := by
  induction n with
  | zero =>
    intro x nr hn
    unfold ndtLoop
    cases h : newtonStep cfg env x with
    | fail => exact Or.inl rfl
    | broken => exact absurd h (newtonStep_not_broken he)
    | next x' len s =>
      obtain ⟨h1, h2, h3⟩ := newtonStep_next he h
      simp only
      rw [if_pos (Or.inl (by omega))]
      refine Or.inr ⟨_, _, _, rfl, by omega, le_max_right _ _, ?_, x, len, h⟩
      rw [h1]
      have := len_le he h3
      push_cast
      linarith
  | succ n ih =>
    intro x nr hn
    unfold ndtLoop
    cases h : newtonStep cfg env x with
    | fail => exact Or.inl rfl
    | broken => exact absurd h (newtonStep_not_broken he)
    | next x' len s =>
      obtain ⟨h1, h2, h3⟩ := newtonStep_next he h
      have hlen := len_le he h3
      simp only
      split_ifs with hc
      · refine Or.inr ⟨_, _, _, rfl, by omega, le_max_right _ _, ?_, x, len, h⟩
        rw [h1]
        push_cast
        linarith
      · push Not at hc
        rcases ih x' (nr + 1) (by omega) with h' | ⟨y, k, s', h', h4, h5, h6, h7⟩
        · exact Or.inl h'
        · refine Or.inr ⟨y, k, s', h', by omega, ?_, ?_, h7⟩
          · have := hc.1
            rw [max_eq_left (by omega)] at h5
            exact h5.trans (le_max_left _ _)
          · have := dist_triangle y x' x
            push_cast at h6
            linarith

/-! ### Vectors and matrices -/

theorem describes_iff (v : Vec) (t : Trans) : Describes v t ↔ t = vecToMat v := by
  constructor
  · rintro ⟨h1, h2, h3, h4, h5, h6, h7, h8, h9⟩
    unfold vecToMat getTransFromPose
    apply mat_ext <;> simp [*]
  · rintro rfl
    unfold vecToMat getTransFromPose Describes
    simp

theorem vecToMat_matToVec {t : Trans} (h : IsRigid t) : vecToMat (matToVec t) = t := by
  unfold vecToMat matToVec
  simpa using trans_pose h

/-- The vector found back from a matrix differs from the original by full turns. -/
theorem matToVec_vecToMat (v : Vec) : ∃ c : ℝ, matToVec (vecToMat v) = (fun k => v k + ![0, 0, c] k) ∧
    ∀ w : Vec, vecToMat (fun k => w k + ![0, 0, c] k) = vecToMat w := by
  unfold matToVec vecToMat
  rw [pose_trans]
  obtain ⟨n, hn⟩ := normalizeAngle_same (v 2)
  refine ⟨normalizeAngle (v 2) - v 2, ?_, ?_⟩
  · funext k
    fin_cases k <;> simp [normalized]
  · intro w
    apply trans_samePose
    refine ⟨by simp, by simp, n, ?_⟩
    simp
    linarith

theorem dist_shift (a b c : Vec) : dist (fun k => a k + c k) (fun k => b k + c k) = dist a b := by
  unfold dist
  simp only [add_sub_add_right_eq_sub]

/-! ### Coarse to fine -/

theorem computeLayers_spec {loop : Env → Vec → ℕ → Single} {B : ℝ}
    (hl : ∀ env x, loop env x 0 = .fail ∨ ∃ y k s, loop env x 0 = .ok y k s ∧ dist y x ≤ B) (hB : 0 ≤ B)
    (layers : List Env) : ∀ (r : Report) (v : Vec), r.final = vecToMat v → ∃ r' w, computeLayers loop layers r = some r' ∧
      r'.final = vecToMat w ∧ dist w v ≤ layers.length * B := by
  induction layers with
  | nil =>
    intro r v h
    exact ⟨_, v, rfl, h, by rw [dist_self]; simp⟩
  | cons env layers ih =>
    intro r v h
    unfold computeLayers
    rcases hl env (matToVec r.final) with h' | ⟨y, k, s, h', h2⟩
    · rw [h']
      refine ⟨_, v, rfl, h, ?_⟩
      rw [dist_self]; positivity
    · rw [h']
      simp only
      obtain ⟨c, hc, hc'⟩ := matToVec_vecToMat v
      -- undo the full turns
      set y' : Vec := fun k => y k + ![0, 0, -c] k with hy'
      have hy : y = fun k => y' k + ![0, 0, c] k := by
        funext k
        fin_cases k <;> simp [hy']
      have hyv : vecToMat y = vecToMat y' := by rw [hy]; exact hc' _
      obtain ⟨r', w, h3, h4, h5⟩ := ih ⟨false, vecToMat y, s.hessian, s.hessian⁻¹⟩ y' hyv
      refine ⟨r', w, h3, h4, ?_⟩
      have h6 : dist y' v ≤ B := by
        rw [← dist_shift y' v ![0, 0, c], ← hy, ← hc, ← h]
        exact h2
      have := dist_triangle w y' v
      push_cast [List.length_cons]
      linarith

/-- What a converged result consists of. -/
theorem computeLayers_last {loop : Env → Vec → ℕ → Single} (layers : List Env) : ∀ (r r' : Report), layers ≠ [] →
    computeLayers loop layers r = some r' → r'.converged = true → ∃ env ∈ layers, ∃ x y k s, loop env x 0 = .ok y k s ∧
      r'.final = vecToMat y ∧ r'.covariance = s.hessian ∧ r'.information = s.hessian⁻¹ := by
  induction layers with
  | nil => intro r r' h; exact absurd rfl h
  | cons env layers ih =>
    intro r r' _ h hc
    unfold computeLayers at h
    cases hl : loop env (matToVec r.final) 0 with
    | fail =>
      rw [hl] at h
      simp only [Option.some.injEq] at h
      rw [← h] at hc
      exact absurd hc (by simp)
    | broken => rw [hl] at h; cases h
    | ok y k s =>
      rw [hl] at h
      simp only at h
      cases layers with
      | nil =>
        rw [computeLayers, Option.some.injEq] at h
        exact ⟨env, by simp, _, y, k, s, hl, by rw [← h], by rw [← h], by rw [← h]⟩
      | cons e es =>
        obtain ⟨e', he', h'⟩ := ih _ _ (by simp) h hc
        exact ⟨e', by simp [List.mem_cons] at he' ⊢; tauto, h'⟩

end Verif.Newton
