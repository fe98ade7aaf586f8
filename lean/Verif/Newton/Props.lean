import Verif.Newton.Lemmas
import Verif.Newton.Tools
import Mathlib.LinearAlgebra.Matrix.NonsingularInverse
import Mathlib.LinearAlgebra.Matrix.PosDef
import Mathlib.Algebra.Order.Star.Real

/- Properties of the Newton matchers. -/
namespace Verif.Newton

open Verif Verif.Geo

/-! ### C58: limits of the line search -/

/-- The step length is 0 if the gradient is orthogonal to the direction and lies within the limits otherwise; at most
11 evaluations of the score; the direction returned is the given one or its opposite, and the score rises along it. -/
theorem C58_limits (f : Vec → Score) (x dir : Vec) (stepInit stepMax stepMin : ℝ) (h0 : 0 ≤ stepMin)
    (h : stepMin ≤ stepMax) :
    ∃ a, (computeStepLength f x dir stepInit stepMax stepMin (f x)).1 = .fin a ∧
      (dot (f x).gradient dir = 0 → a = 0) ∧ (dot (f x).gradient dir ≠ 0 → stepMin ≤ a ∧ a ≤ stepMax) ∧
      (computeStepLength f x dir stepInit stepMax stepMin (f x)).2.2 ≤ 11 ∧
      ((computeStepLength f x dir stepInit stepMax stepMin (f x)).2.1 = dir ∨
        (computeStepLength f x dir stepInit stepMax stepMin (f x)).2.1 = -dir) ∧
      dot (f x).gradient (computeStepLength f x dir stepInit stepMax stepMin (f x)).2.1 =
        |dot (f x).gradient dir| := by
  have hdir : ∀ g : Vec, (ascent g dir = dir ∨ ascent g dir = -dir) ∧ dot g (ascent g dir) = |dot g dir| := by
    intro g
    unfold ascent
    split_ifs with h'
    · refine ⟨Or.inr (by funext k; simp), ?_⟩
      rw [abs_of_neg h']
      unfold dot; ring
    · exact ⟨Or.inl rfl, (abs_of_nonneg (not_lt.1 h')).symm⟩
  rcases h0.lt_or_eq with hm | hm
  · obtain ⟨h1, h2, h3⟩ := computeStepLength_eq (trial := f) (x := x) (dir := dir) (a := stepInit) (M := stepMax)
      (s := f x) hm
    refine ⟨_, h1, fun h' => if_pos h', fun h' => ?_, h3, ?_, ?_⟩
    · rw [if_neg h']
      exact ⟨le_max_right _ _, max_le (min_le_right _ _) h⟩
    · rw [h2]; exact (hdir _).1
    · rw [h2]; exact (hdir _).2
  · -- lower limit zero
    subst hm
    unfold computeStepLength
    simp only
    by_cases hd : dot (f x).gradient dir = 0
    · rw [if_pos (by rw [hd, neg_zero])]
      refine ⟨0, rfl, fun _ => rfl, fun h' => absurd hd h', by norm_num, Or.inl rfl, by rw [hd, abs_zero]⟩
    · rw [if_neg (by simpa using hd)]
      have hx : ∀ d : Vec, along f x d (.fin 0) = (.fin (-(f x).value), .fin (-dot (f x).gradient d)) := by
        intro d
        rw [along_fin]
        have : (fun k => x k + d k * 0) = x := by funext k; simp
        rw [this]
      have hlen : ∀ (d : Vec) (g0 : ℝ), g0 < 0 → g0 = -dot (f x).gradient d → ∃ a, (searchStep (along f x d)
          (.fin stepInit) (.fin stepMax) (.fin 0) (.fin (-(f x).value)) (.fin g0)).1 = .fin a ∧ 0 ≤ a ∧ a ≤ stepMax := by
        intro d g0 hg hg'
        rcases h.lt_or_eq with hM | hM
        · rw [searchStep_skipped _ hM]
          exact ⟨_, rfl, le_max_right _ _, max_le (min_le_right _ _) h⟩
        · exact ⟨0, searchStep_zero hM.symm rfl hg (by rw [hx, hg']) _, le_rfl, h⟩
      by_cases h' : -dot (f x).gradient dir > 0
      · simp only [if_pos h']
        obtain ⟨a, h1, h2⟩ := hlen (fun k => dir k * -1) (-dot (f x).gradient dir * -1) (by linarith)
          (by unfold dot; ring)
        refine ⟨a, h1, fun h'' => absurd h'' hd, fun _ => h2, searchStep_evals _ _ _ _ _ _,
          Or.inr (by funext k; simp), ?_⟩
        rw [abs_of_neg (by linarith)]
        unfold dot; ring
      · simp only [if_neg h']
        have hpos : 0 < dot (f x).gradient dir := by
          rcases lt_or_gt_of_ne hd with h3 | h3
          · exact absurd (by linarith) h'
          · exact h3
        obtain ⟨a, h1, h2⟩ := hlen dir (-dot (f x).gradient dir) (by linarith) rfl
        exact ⟨a, h1, fun h'' => absurd h'' hd, fun _ => h2, searchStep_evals _ _ _ _ _ _, Or.inl trivial,
          (abs_of_pos hpos).symm⟩

example : (0 : ℝ) ≤ 0.05 ∧ (0.05 : ℝ) ≤ 0.22 ∧ dot (bowl.calcScore ![0.01, 0, 0]).gradient ![1, 0, 0] ≠ 0 := by
  refine ⟨by norm_num, by norm_num, ?_⟩
  simp [bowl, dot]
  norm_num

/-- The same for trial points that are scored with a different function, as in ndt2d.h where the trial points are
scored with the output cloud; the lower limit has to be positive. -/
theorem C58_other_trial (f : Vec → Score) (score : Score) (x dir : Vec) (stepInit stepMax stepMin : ℝ)
    (h0 : 0 < stepMin) (h : stepMin ≤ stepMax) :
    ∃ a, (computeStepLength f x dir stepInit stepMax stepMin score).1 = .fin a ∧
      (dot score.gradient dir = 0 → a = 0) ∧ (dot score.gradient dir ≠ 0 → stepMin ≤ a ∧ a ≤ stepMax) ∧
      (computeStepLength f x dir stepInit stepMax stepMin score).2.2 ≤ 11 := by
  obtain ⟨h1, h2, h3⟩ := computeStepLength_eq (trial := f) (x := x) (dir := dir) (a := stepInit) (M := stepMax)
    (s := score) h0
  refine ⟨_, h1, fun h' => if_pos h', fun h' => ?_, h3⟩
  rw [if_neg h']
  exact ⟨le_max_right _ _, max_le (min_le_right _ _) h⟩

/-! ### C92: the line search does not make a step worse -/

/-- With limits in the right order the score function has no influence on the step: two score functions give the same
step length and one evaluation is made. -/
theorem C92_unsearched (f f' : Vec → Score) (x dir : Vec) (stepInit stepMax stepMin : ℝ) (score : Score)
    (h : stepMin < stepMax) :
    computeStepLength f x dir stepInit stepMax stepMin score =
      computeStepLength f' x dir stepInit stepMax stepMin score ∧
    (dot score.gradient dir ≠ 0 → (computeStepLength f x dir stepInit stepMax stepMin score).2.2 = 1) := by
  unfold computeStepLength
  simp only [searchStep_skipped _ h, true_and]
  intro h'
  rw [if_neg (by simpa using h')]

example : (0.05 : ℝ) < 0.22 := by norm_num

/-- Evaluation of one step. -/
theorem newtonStep_eval {cfg : Config} {env : Env} {x d : Vec} (he : 0 < cfg.eps)
    (hs : env.solve (env.calcScore x) = some d) (hd : norm d ≠ 0) :
    newtonStep cfg env x =
      let g := (env.calcScore x).gradient
      let len := if dot g (fun k => d k / norm d) = 0 then 0 else max (min (norm d) cfg.stepSize) (cfg.eps / 2)
      .next (fun k => x k + ascent g (fun k => d k / norm d) k * len) len (env.calcScore x) := by
  unfold newtonStep
  simp only [hs]
  rw [if_neg hd]
  obtain ⟨h1, h2, -⟩ := computeStepLength_eq (trial := env.trial) (x := x) (dir := fun k => d k / norm d)
    (a := norm d) (M := cfg.stepSize) (m := cfg.eps / 2) (s := env.calcScore x) (by linarith)
  rcases hc : computeStepLength env.trial x (fun k => d k / norm d) (norm d) cfg.stepSize (cfg.eps / 2)
    (env.calcScore x) with ⟨a, dir, n⟩
  rw [hc] at h1 h2
  simp only at h1 h2
  subst h1 h2
  rfl

theorem newtonSolve_solves : SolvesNewton newtonSolve := by
  intro s h
  unfold newtonSolve
  rw [if_pos h]
  refine ⟨_, rfl, ?_⟩
  rw [Matrix.mulVec_mulVec, Matrix.mul_nonsing_inv _ (isUnit_iff_ne_zero.2 h), Matrix.one_mulVec]

theorem bowl_solve (v : Vec) : bowl.solve (bowl.calcScore v) = some (-v) := by
  show newtonSolve ⟨-dot v v / 2, -v, -1⟩ = _
  unfold newtonSolve
  have hdet : (-1 : Matrix (Fin 3) (Fin 3) ℝ).det ≠ 0 := by
    rw [Matrix.det_neg, Matrix.det_one]; norm_num
  rw [if_pos hdet]
  have hinv : (-1 : Matrix (Fin 3) (Fin 3) ℝ)⁻¹ = -1 := by
    apply Matrix.inv_eq_left_inv
    simp
  rw [hinv, neg_neg, Matrix.neg_mulVec, Matrix.one_mulVec]

theorem norm_bowl : norm (-![0.01, 0, 0] : Vec) = 0.01 := by
  have := norm_smul (![1, 0, 0] : Vec) (-0.01)
  have h1 : norm (![1, 0, 0] : Vec) = 1 := by simp [norm, dot]
  have h2 : (-![0.01, 0, 0] : Vec) = fun k => (![1, 0, 0] : Vec) k * -0.01 := by
    funext k; fin_cases k <;> simp
  rw [h2, this, h1]
  norm_num

/-- One centimetre from the optimum any matcher with limits 0.05 and `M` ≥ 0 makes a step of 0.05. -/
theorem bowl_step (cfg : Config) (he : cfg.eps = 0.1) (hM : cfg.stepSize = 0.22 ∨ cfg.stepSize = 0.01) :
    newtonStep cfg bowl ![0.01, 0, 0] = .next ![-0.04, 0, 0] 0.05 ⟨-0.00005, ![-0.01, 0, 0], -1⟩ := by
  have hn : norm (-![0.01, 0, 0] : Vec) ≠ 0 := by rw [norm_bowl]; norm_num
  rw [newtonStep_eval (by rw [he]; norm_num) (bowl_solve _) hn]
  simp only [norm_bowl, he]
  have hdir : (fun k => (-![0.01, 0, 0] : Vec) k / 0.01) = ![-1, 0, 0] := by
    funext k; fin_cases k <;> simp; norm_num
  have hg : (bowl.calcScore ![0.01, 0, 0]).gradient = ![-0.01, 0, 0] := by
    show -(![0.01, 0, 0] : Vec) = _
    funext k; fin_cases k <;> simp
  have hsc : bowl.calcScore ![0.01, 0, 0] = ⟨-0.00005, ![-0.01, 0, 0], -1⟩ := by
    refine Score.ext ?_ hg rfl
    show -dot ![0.01, 0, 0] ![0.01, 0, 0] / 2 = _
    simp [dot]; norm_num
  have hdot : dot (![-0.01, 0, 0] : Vec) ![-1, 0, 0] = 0.01 := by simp [dot]
  have hlen : max (min (0.01 : ℝ) cfg.stepSize) (0.1 / 2) = 0.05 := by
    rcases hM with h | h <;> rw [h] <;> norm_num
  rw [hdir, hg, hsc, hdot, if_neg (by norm_num), hlen]
  congr 1
  unfold ascent
  rw [hdot, if_neg (by norm_num)]
  funext k; fin_cases k <;> simp; norm_num

/-- The property is false: the matcher with its default parameters, started one centimetre from the maximum of a
concave score with exact derivatives and an exact Newton solver, "converges" to a position four centimetres away from
it, with a lower score. -/
theorem C92_false : SolvesNewton bowl.solve ∧ d2dLoop d2dDefault bowl ![0.01, 0, 0] 0 =
      .ok ![-0.04, 0, 0] 1 (bowl.calcScore ![0.01, 0, 0]) ∧
    (bowl.calcScore ![-0.04, 0, 0]).value < (bowl.calcScore ![0.01, 0, 0]).value := by
  refine ⟨newtonSolve_solves, ?_, ?_⟩
  · have hstep := bowl_step d2dDefault rfl (Or.inl rfl)
    have hs := (newtonStep_next (by norm_num [d2dDefault]) hstep).2.1
    unfold d2dLoop
    rw [hstep]
    simp only
    rw [if_pos (Or.inr ⟨by norm_num, by norm_num [d2dDefault, abs_of_pos]⟩), hs]
  · show -dot ![-0.04, 0, 0] ![-0.04, 0, 0] / 2 < -dot ![0.01, 0, 0] ![0.01, 0, 0] / 2
    simp [dot]; norm_num

/-! ### C93: how far the result can be from the guess -/

/-- The result is a rigid transform, never NaN, and its parameters differ from those of the guess by at most the number
of layers times the number of iterations times the longest step. -/
theorem C93_reach (cfg : Config) (he : 0 < cfg.eps) (layers : List Env) (r : Report) (guess : Trans)
    (hg : IsRigid guess) :
    (∃ r' v w, d2dTransformation cfg layers r guess = some r' ∧ Describes v guess ∧ Describes w r'.final ∧
      dist w v ≤ layers.length * (max 1 cfg.maxIter * max cfg.stepSize (cfg.eps / 2))) ∧
    ∃ r' v w, ndtTransformation cfg layers r guess = some r' ∧ Describes v guess ∧ Describes w r'.final ∧
      dist w v ≤ layers.length * ((cfg.maxIter + 2) * max cfg.stepSize (cfg.eps / 2)) := by
  have hB : 0 ≤ max cfg.stepSize (cfg.eps / 2) := le_trans (by linarith) (le_max_right _ _)
  have hv := (vecToMat_matToVec hg).symm
  constructor
  · have hloop : ∀ env x, d2dLoop cfg env x 0 = .fail ∨ ∃ y k s, d2dLoop cfg env x 0 = .ok y k s ∧
        dist y x ≤ max 1 cfg.maxIter * max cfg.stepSize (cfg.eps / 2) := by
      intro env x
      rcases d2dLoop_spec he env cfg.maxIter x 0 (by omega) with h | ⟨y, k, s, h, h1, h2, h3, -⟩
      · exact Or.inl h
      · refine Or.inr ⟨y, k, s, h, h3.trans ?_⟩
        refine mul_le_mul_of_nonneg_right ?_ hB
        push_cast
        rw [sub_zero, max_comm]
        exact_mod_cast h2
    obtain ⟨r', w, h1, h2, h3⟩ := computeLayers_spec hloop (by positivity) layers
      { r with converged := false, final := guess } (matToVec guess) hv
    exact ⟨r', _, w, h1, (describes_iff _ _).2 hv, (describes_iff _ _).2 h2, h3⟩
  · have hloop : ∀ env x, ndtLoop cfg env x 0 = .fail ∨ ∃ y k s, ndtLoop cfg env x 0 = .ok y k s ∧
        dist y x ≤ (cfg.maxIter + 2) * max cfg.stepSize (cfg.eps / 2) := by
      intro env x
      rcases ndtLoop_spec he env (cfg.maxIter + 1) x 0 (by omega) with h | ⟨y, k, s, h, h1, h2, h3, -⟩
      · exact Or.inl h
      · refine Or.inr ⟨y, k, s, h, h3.trans ?_⟩
        refine mul_le_mul_of_nonneg_right ?_ hB
        push_cast
        rw [sub_zero]
        rw [max_eq_left (by omega)] at h2
        exact_mod_cast h2
    obtain ⟨r', w, h1, h2, h3⟩ := computeLayers_spec hloop (by positivity) layers
      { r with converged := false, final := guess } (matToVec guess) hv
    exact ⟨r', _, w, h1, (describes_iff _ _).2 hv, (describes_iff _ _).2 h2, h3⟩

example : 0 < d2dDefault.eps ∧ IsRigid (getTransFromPose ⟨1, 2, 3⟩) :=
  ⟨by norm_num [d2dDefault], getTransFromPose_rigid _⟩

/-! ### C94: the configured maximum step -/

/-- A step is not longer than the configured maximum as long as this is not below half of the transformation epsilon. -/
theorem C94_maximum_partial (cfg : Config) (env : Env) (x x' : Vec) (len : ℝ) (s : Score) (he : 0 < cfg.eps)
    (hc : cfg.eps / 2 ≤ cfg.stepSize) (h : newtonStep cfg env x = .next x' len s) : dist x' x ≤ cfg.stepSize := by
  obtain ⟨h1, -, h2⟩ := newtonStep_next he h
  rw [h1]
  exact (len_le he h2).trans (le_of_eq (max_eq_left hc))

example : newtonStep d2dDefault bowl ![0.01, 0, 0] = .next ![-0.04, 0, 0] 0.05 ⟨-0.00005, ![-0.01, 0, 0], -1⟩ ∧
    d2dDefault.eps / 2 ≤ d2dDefault.stepSize :=
  ⟨bowl_step d2dDefault rfl (Or.inl rfl), by norm_num [d2dDefault]⟩

/-- With the parameters of the SLAM front end it is false: a step of 0.05 with a configured maximum of 0.01. -/
theorem C94_false : ∃ x' len s, newtonStep frontEnd bowl ![0.01, 0, 0] = .next x' len s ∧
    dist x' ![0.01, 0, 0] = 0.05 ∧ frontEnd.stepSize = 0.01 := by
  have h := bowl_step frontEnd rfl (Or.inr rfl)
  exact ⟨_, _, _, h, (newtonStep_next (by norm_num [frontEnd]) h).1, rfl⟩

theorem frontEnd_len {env : Env} {x x' : Vec} {len : ℝ} {s : Score}
    (h : newtonStep frontEnd env x = .next x' len s) : len = 0 ∨ len = 0.05 := by
  rcases (newtonStep_next (by norm_num [frontEnd]) h).2.2 with h | ⟨a, h⟩
  · exact Or.inl h
  · right
    rw [h, max_eq_right ((min_le_right _ _).trans (by norm_num [frontEnd]))]
    norm_num [frontEnd]

theorem frontEnd_loop (env : Env) (x : Vec) : ndtLoop frontEnd env x 0 = .fail ∨
    ∃ y s, ndtLoop frontEnd env x 0 = .ok y 2 s ∧ dist y x ≤ 0.1 := by
  have he : 0 < frontEnd.eps := by norm_num [frontEnd]
  unfold ndtLoop
  cases h : newtonStep frontEnd env x with
  | fail => exact Or.inl rfl
  | broken => exact absurd h (newtonStep_not_broken he)
  | next x' len s =>
    simp only
    rw [if_neg (by simp)]
    unfold ndtLoop
    cases h' : newtonStep frontEnd env x' with
    | fail => exact Or.inl rfl
    | broken => exact absurd h' (newtonStep_not_broken he)
    | next x'' len' s' =>
      have hl : ∀ {a : ℝ}, a = 0 ∨ a = 0.05 → a ≤ 0.05 ∧ |a| < frontEnd.eps := by
        rintro a (rfl | rfl)
        · norm_num [frontEnd]
        · constructor
          · norm_num
          · rw [abs_of_pos (by norm_num)]; norm_num [frontEnd]
      have h1 := hl (frontEnd_len h)
      have h2 := hl (frontEnd_len h')
      simp only
      rw [if_pos (Or.inr ⟨by norm_num, h2.2⟩)]
      refine Or.inr ⟨_, _, rfl, ?_⟩
      have := dist_triangle x'' x' x
      rw [(newtonStep_next he h).1, (newtonStep_next he h').1] at this
      linarith [h1.1, h2.1]

/-- What the parameters of the front end amount to, for all scans and maps: every step is exactly 0.05 long (or 0),
every layer that does not fail ends after exactly two steps, and so a match with four layers moves the guess by at most
0.4 in (x, y, θ). -/
theorem C94_front_end (env : Env) (x : Vec) (layers : List Env) (hl : layers.length = 4) (r : Report) (guess : Trans)
    (hg : IsRigid guess) :
    (∀ x' len s, newtonStep frontEnd env x = .next x' len s → dist x' x = 0 ∨ dist x' x = 0.05) ∧
    (∀ y k s, ndtLoop frontEnd env x 0 = .ok y k s → k = 2) ∧
    ∃ r' v w, ndtTransformation frontEnd layers r guess = some r' ∧ Describes v guess ∧ Describes w r'.final ∧
      dist w v ≤ 0.4 := by
  refine ⟨fun x' len s h => ?_, fun y k s h => ?_, ?_⟩
  · rw [(newtonStep_next (by norm_num [frontEnd]) h).1]
    exact frontEnd_len h
  · rcases frontEnd_loop env x with h' | ⟨y', s', h', -⟩
    · rw [h'] at h; cases h
    · rw [h'] at h
      injection h with h1 h2
      exact h2.symm
  · have hv := (vecToMat_matToVec hg).symm
    obtain ⟨r', w, h1, h2, h3⟩ := computeLayers_spec (loop := ndtLoop frontEnd) (B := 0.1) (fun env x => by
        rcases frontEnd_loop env x with h | ⟨y, s, h, h'⟩
        · exact Or.inl h
        · exact Or.inr ⟨y, 2, s, h, h'⟩) (by norm_num) layers
      { r with converged := false, final := guess } (matToVec guess) hv
    refine ⟨r', _, w, h1, (describes_iff _ _).2 hv, (describes_iff _ _).2 h2, h3.trans ?_⟩
    rw [hl]; norm_num

example : [bowl, bowl, bowl, bowl].length = 4 ∧ IsRigid (getTransFromPose ⟨1, 2, 3⟩) :=
  ⟨rfl, getTransFromPose_rigid _⟩

/-! ### C95: number of iterations -/

/-- The distribution to distribution matcher makes at most the configured number of iterations on each grid (one at
least). -/
theorem C95_d2d_partial (cfg : Config) (he : 0 < cfg.eps) (env : Env) (x y : Vec) (k : ℕ) (s : Score)
    (h : d2dLoop cfg env x 0 = .ok y k s) : 1 ≤ k ∧ k ≤ max 1 cfg.maxIter := by
  rcases d2dLoop_spec he env cfg.maxIter x 0 (by omega) with h' | ⟨y', k', s', h', h1, h2, -⟩
  · rw [h'] at h; cases h
  · rw [h'] at h
    injection h with _ h3
    subst h3
    omega

example : d2dLoop d2dDefault bowl ![0.01, 0, 0] 0 = .ok ![-0.04, 0, 0] 1 (bowl.calcScore ![0.01, 0, 0]) :=
  C92_false.2.1

/-- The point to distribution matcher: up to two iterations more. -/
theorem C95_ndt_partial (cfg : Config) (he : 0 < cfg.eps) (env : Env) (x y : Vec) (k : ℕ) (s : Score)
    (h : ndtLoop cfg env x 0 = .ok y k s) : 1 ≤ k ∧ k ≤ cfg.maxIter + 2 := by
  rcases ndtLoop_spec he env (cfg.maxIter + 1) x 0 (by omega) with h' | ⟨y', k', s', h', h1, h2, -⟩
  · rw [h'] at h; cases h
  · rw [h'] at h
    injection h with _ h3
    subst h3
    omega

theorem slope_step (cfg : Config) (he : 0 < cfg.eps) (h1 : cfg.eps ≤ cfg.stepSize) (h2 : cfg.stepSize ≤ 1) (x : Vec) :
    ∃ x' s, newtonStep cfg slope x = .next x' cfg.stepSize s := by
  have hn : norm (![1, 0, 0] : Vec) = 1 := by simp [norm, dot]
  rw [newtonStep_eval he (d := ![1, 0, 0]) rfl (by rw [hn]; norm_num)]
  simp only [hn]
  have hdir : (fun k => (![1, 0, 0] : Vec) k / 1) = ![1, 0, 0] := by funext k; simp
  have hg : (slope.calcScore x).gradient = ![1, 0, 0] := rfl
  have hdot : dot (![1, 0, 0] : Vec) ![1, 0, 0] = 1 := by simp [dot]
  rw [hdir, hg, hdot, if_neg (by norm_num), min_eq_right h2, max_eq_left (by linarith)]
  exact ⟨_, _, rfl⟩

/-- The bound is reached: the property is false for the point to distribution matcher. -/
theorem C95_false (cfg : Config) (he : 0 < cfg.eps) (h1 : cfg.eps ≤ cfg.stepSize) (h2 : cfg.stepSize ≤ 1) (x : Vec) :
    ∃ y s, ndtLoop cfg slope x 0 = .ok y (cfg.maxIter + 2) s := by
  have main : ∀ (n nr : ℕ) (x : Vec), nr + n = cfg.maxIter + 1 → ∃ y s, ndtLoop cfg slope x nr =
      .ok y (cfg.maxIter + 2) s := by
    intro n
    induction n with
    | zero =>
      intro nr x h
      obtain ⟨x', s, hs⟩ := slope_step cfg he h1 h2 x
      unfold ndtLoop
      rw [hs]
      simp only
      rw [if_pos (Or.inl (by omega))]
      have : nr + 1 = cfg.maxIter + 2 := by omega
      rw [this]
      exact ⟨_, _, rfl⟩
    | succ n ih =>
      intro nr x h
      obtain ⟨x', s, hs⟩ := slope_step cfg he h1 h2 x
      unfold ndtLoop
      rw [hs]
      simp only
      rw [if_neg]
      · exact ih (nr + 1) x' (by omega)
      · rintro (h' | ⟨-, h'⟩)
        · omega
        · rw [abs_of_nonneg (by linarith)] at h'
          linarith
  exact main (cfg.maxIter + 1) 0 x (by omega)

example : ∃ cfg : Config, 0 < cfg.eps ∧ cfg.eps ≤ cfg.stepSize ∧ cfg.stepSize ≤ 1 ∧ cfg.maxIter = 35 :=
  ⟨d2dDefault, by norm_num [d2dDefault], by norm_num [d2dDefault], by norm_num [d2dDefault], rfl⟩

/-! ### C96: a guess that is already optimal -/

theorem optimal_fails (cfg : Config) (env : Env) (hs : SolvesNewton env.solve) (x : Vec)
    (hg : (env.calcScore x).gradient = 0) (hh : (env.calcScore x).hessian.det ≠ 0) :
    newtonStep cfg env x = .fail := by
  obtain ⟨d, h1, h2⟩ := hs _ hh
  rw [hg, neg_zero] at h2
  have hd : d = 0 := Matrix.eq_zero_of_mulVec_eq_zero hh h2
  unfold newtonStep
  simp only [h1]
  rw [if_pos]
  rw [hd]; simp [norm, dot]

/-- At a stationary point of the score with regular Hessian (for instance when scan and map are aligned perfectly) both
matchers report failure, with the guess as transform and identity matrices as covariance and information. -/
theorem C96_false (cfg : Config) (env : Env) (layers : List Env) (r : Report) (guess : Trans)
    (hs : SolvesNewton env.solve) (hg : (env.calcScore (matToVec guess)).gradient = 0)
    (hh : (env.calcScore (matToVec guess)).hessian.det ≠ 0) :
    d2dTransformation cfg (env :: layers) r guess = some ⟨false, guess, 1, 1⟩ ∧
      ndtTransformation cfg (env :: layers) r guess = some ⟨false, guess, 1, 1⟩ := by
  have h := optimal_fails cfg env hs _ hg hh
  constructor
  · unfold d2dTransformation computeLayers d2dLoop
    simp only [h]
  · unfold ndtTransformation computeLayers ndtLoop
    simp only [h]

theorem matToVec_one : matToVec (1 : Trans) = 0 := by
  unfold matToVec getPoseFromTransform getAngle
  funext k
  fin_cases k <;> simp [atan2]
  exact Complex.arg_one

example : SolvesNewton bowl.solve ∧ (bowl.calcScore (matToVec 1)).gradient = 0 ∧
    (bowl.calcScore (matToVec 1)).hessian.det ≠ 0 := by
  refine ⟨newtonSolve_solves, ?_, ?_⟩
  · rw [matToVec_one]; show -(0 : Vec) = 0; simp
  · show (-1 : Matrix (Fin 3) (Fin 3) ℝ).det ≠ 0
    rw [Matrix.det_neg, Matrix.det_one]; norm_num

/-- What holds: a failing match on the first grid leaves the guess as the result. -/
theorem C96_guess_kept_partial (cfg : Config) (env : Env) (layers : List Env) (r r' : Report) (guess : Trans) :
    (d2dLoop cfg env (matToVec guess) 0 = .fail → d2dTransformation cfg (env :: layers) r guess = some r' →
      r'.converged = false ∧ r'.final = guess) ∧
    (ndtLoop cfg env (matToVec guess) 0 = .fail → ndtTransformation cfg (env :: layers) r guess = some r' →
      r'.converged = false ∧ r'.final = guess) := by
  constructor
  · intro h h'
    unfold d2dTransformation computeLayers at h'
    simp only [h, Option.some.injEq] at h'
    rw [← h']
    exact ⟨rfl, rfl⟩
  · intro h h'
    unfold ndtTransformation computeLayers at h'
    simp only [h, Option.some.injEq] at h'
    rw [← h']
    exact ⟨rfl, rfl⟩

/-! ### C97: the reported covariance -/

/-- What is reported for a converged match: as covariance the Hessian of the score at the position before the last step,
as information its inverse. -/
theorem C97_reported_partial (cfg : Config) (he : 0 < cfg.eps) (layers : List Env) (hn : layers ≠ []) (r r' : Report)
    (guess : Trans)
    (h : d2dTransformation cfg layers r guess = some r' ∨ ndtTransformation cfg layers r guess = some r')
    (hc : r'.converged = true) :
    r'.information = r'.covariance⁻¹ ∧ ∃ env ∈ layers, ∃ z w len, newtonStep cfg env z =
      .next w len (env.calcScore z) ∧ Describes w r'.final ∧ r'.covariance = (env.calcScore z).hessian := by
  rcases h with h | h
  · obtain ⟨env, hm, x, y, k, s, h1, h2, h3, h4⟩ := computeLayers_last layers _ _ hn h hc
    refine ⟨by rw [h3, h4], env, hm, ?_⟩
    rcases d2dLoop_spec he env cfg.maxIter x 0 (by omega) with h' | ⟨y', k', s', h', -, -, -, z, len, hz⟩
    · rw [h'] at h1; cases h1
    · rw [h'] at h1
      injection h1 with e1 e2 e3
      subst e1 e3
      have hs := (newtonStep_next he hz).2.1
      exact ⟨z, _, len, by rw [hz, hs], (describes_iff _ _).2 h2, by rw [h3, hs]⟩
  · obtain ⟨env, hm, x, y, k, s, h1, h2, h3, h4⟩ := computeLayers_last layers _ _ hn h hc
    refine ⟨by rw [h3, h4], env, hm, ?_⟩
    rcases ndtLoop_spec he env (cfg.maxIter + 1) x 0 (by omega) with h' | ⟨y', k', s', h', -, -, -, z, len, hz⟩
    · rw [h'] at h1; cases h1
    · rw [h'] at h1
      injection h1 with e1 e2 e3
      subst e1 e3
      have hs := (newtonStep_next he hz).2.1
      exact ⟨z, _, len, by rw [hz, hs], (describes_iff _ _).2 h2, by rw [h3, hs]⟩

theorem matToVec_shift : matToVec (getTransFromPose ⟨0.01, 0, 0⟩) = ![0.01, 0, 0] := by
  unfold matToVec
  rw [pose_trans]
  simp [normalized, normalizeAngle, atan2]
  exact Complex.arg_one

/-- It is not a covariance: for a score with a regular maximum the reported covariance is negative definite. -/
theorem C97_false (r : Report) : ∃ r', d2dTransformation d2dDefault [bowl] r (getTransFromPose ⟨0.01, 0, 0⟩) = some r' ∧
    r'.converged = true ∧ r'.covariance = -1 ∧ ¬ r'.covariance.PosSemidef := by
  refine ⟨⟨true, vecToMat ![-0.04, 0, 0], -1, (-1)⁻¹⟩, ?_, rfl, rfl, ?_⟩
  · unfold d2dTransformation computeLayers
    simp only [matToVec_shift, C92_false.2.1]
    rfl
  · intro h
    have := h.diag_nonneg (i := 0)
    norm_num at this

example : [bowl] ≠ [] ∧ 0 < d2dDefault.eps := ⟨by simp, by norm_num [d2dDefault]⟩

/-! ### C98: layers -/

/-- After any sequence of settings (with at least one layer) there are as many cell sizes and parameters as layers; the
sizes halve from layer to layer down to the size set; the parameters are those of the sizes and the ratio set. -/
theorem C98_layers (ratio : ℝ) (ops : List LayerOp) (hops : ∀ n, LayerOp.numLayers n ∈ ops → 0 < n) :
    ∃ l, (Layers.new ratio).applyAll ops = .ok l ∧
      let s := Settings.after ⟨0.25, 4, ratio⟩ ops
      l.count = s.layers ∧ l.sizes.length = s.layers ∧ l.params.length = s.layers ∧ l.getCellSize = .ok s.base ∧
      ∀ i < s.layers, l.sizes[i]? = some (s.base * 2 ^ (s.layers - 1 - i)) ∧
        l.params[i]? = some (FittingParams.mk' s.ratio (1 / (s.base * 2 ^ (s.layers - 1 - i)))) := by
  have main : ∀ (ops : List LayerOp) (l : Layers) (s : Settings), (∀ n, LayerOp.numLayers n ∈ ops → 0 < n) →
      0 < s.layers → l.Wf s.base s.layers s.ratio → ∃ l', l.applyAll ops = .ok l' ∧ 0 < (s.after ops).layers ∧
        l'.Wf (s.after ops).base (s.after ops).layers (s.after ops).ratio := by
    intro ops
    induction ops with
    | nil => intro l s _ h0 h; exact ⟨l, rfl, h0, h⟩
    | cons op ops ih =>
      intro l s ho h0 h
      have ho' : ∀ n, LayerOp.numLayers n ∈ ops → 0 < n := fun n hn => ho n (List.mem_cons_of_mem _ hn)
      cases op with
      | cellSize b => exact ih _ { s with base := b } ho' h0 (h.cellSize h0 b)
      | numLayers n =>
        obtain ⟨l', h1, h2⟩ := h.numLayers h0 n
        obtain ⟨l'', h3, h4⟩ := ih l' { s with layers := n } ho' (ho n (by simp)) h2
        refine ⟨l'', ?_, h4⟩
        show (l.setNumLayers n).bind _ = _
        rw [h1]
        exact h3
      | outlierRatio r => exact ih _ { s with ratio := r } ho' h0 (h.outlierRatio r)
  obtain ⟨l, h1, h2, h3⟩ := main ops (Layers.new ratio) ⟨0.25, 4, ratio⟩ hops (by norm_num) (Layers.new_wf ratio)
  refine ⟨l, h1, ?_⟩
  simp only
  refine ⟨h3.count, by rw [h3.sizes, sizesOf_length], by rw [h3.params, List.length_map, sizesOf_length], ?_, ?_⟩
  · unfold Layers.getCellSize
    rw [h3.sizes, sizesOf_last _ h2]
  · intro i hi
    rw [h3.sizes, h3.params, List.getElem?_map, sizesOf_get _ hi]
    exact ⟨rfl, rfl⟩

example : ∀ n, LayerOp.numLayers n ∈ [LayerOp.cellSize 0.5, .outlierRatio 0.7, .numLayers 3] → 0 < n := by
  intro n h
  simp at h
  omega

/-- Without layers the size of the cells is lost: asking for it or setting the number of layers again is undefined. -/
theorem C98_no_layers (ratio : ℝ) : ∃ l, (Layers.new ratio).setNumLayers 0 = .ok l ∧ l.getCellSize = .ub .emptyContainer ∧
    ∀ n, l.setNumLayers n = .ub .emptyContainer := by
  obtain ⟨l, h1, h2⟩ := (Layers.new_wf ratio).numLayers (by norm_num) 0
  have hs : l.sizes = [] := by rw [h2.sizes]; rfl
  refine ⟨l, h1, ?_, fun n => ?_⟩
  · unfold Layers.getCellSize; rw [hs]; rfl
  · unfold Layers.setNumLayers Layers.getCellSize
    simp only [hs]
    rfl

/-! ### C99: the fitted score -/

/-- The scaled Gaussian used as score agrees with the negative logarithm of the mixture at the mean and at one standard
deviation; the constants have the signs which make it a bounded score with its maximum at the mean. -/
theorem C99_fit (o r : ℝ) (ho : 0 < o) (ho1 : o < 1) (hr : 0 < r) (x : ℝ) (hx : x = 0 ∨ x = 1) :
    let p := FittingParams.mk' o r
    p.d1 * Real.exp (-p.d2half * x ^ 2) - Real.log (o / r ^ 2) = -Real.log (mixture (10 * (1 - o)) (o / r ^ 2) x) ∧
      p.d1 < 0 ∧ 0 < p.d2 ∧ p.d2 ≤ 1 ∧ p.d2half = p.d2 / 2 := by
  obtain ⟨h1, h2, h3⟩ := fit_eq ho ho1 hr
  obtain ⟨s1, s2, s3⟩ := fit_signs ho ho1 hr
  refine ⟨?_, s1, s2, s3, h3⟩
  have hc2 : 0 < o / r ^ 2 := by positivity
  have hc1 : 0 < 10 * (1 - o) := by linarith
  have he := Real.exp_pos (-0.5 : ℝ)
  set k := 10 * (1 - o) / (o / r ^ 2) with hk
  have hkp : 0 < k := by positivity
  have hm : ∀ t : ℝ, 0 < t → Real.log (10 * (1 - o) * t + o / r ^ 2) = Real.log (1 + k * t) + Real.log (o / r ^ 2) := by
    intro t ht
    rw [← Real.log_mul (by positivity) hc2.ne']
    congr 1
    rw [hk]
    field_simp
    ring
  unfold mixture
  rcases hx with rfl | rfl
  · have hm1 := hm 1 one_pos
    norm_num at hm1 ⊢
    rw [hm1, h1]
    ring
  · have hl1 : 0 < Real.log (1 + k) := Real.log_pos (by linarith)
    have hl2 : 0 < Real.log (1 + k * Real.exp (-0.5)) := Real.log_pos (by nlinarith)
    have h4 : Real.exp (-(FittingParams.mk' o r).d2half * 1 ^ 2) =
        Real.log (1 + k * Real.exp (-0.5)) / Real.log (1 + k) := by
      rw [h3, h2]
      rw [show -(-2 * Real.log (Real.log (1 + k * Real.exp (-0.5)) / Real.log (1 + k)) / 2) * 1 ^ 2 =
        Real.log (Real.log (1 + k * Real.exp (-0.5)) / Real.log (1 + k)) by ring]
      rw [Real.exp_log (by positivity)]
    rw [h4, h1, show (-1 ^ 2 / 2 : ℝ) = -0.5 by norm_num, hm _ he]
    field_simp
    ring

example : (0 : ℝ) < 0.55 ∧ (0.55 : ℝ) < 1 ∧ (0 : ℝ) < 1 / 0.25 := by norm_num

/-! ### C100: weight of the outliers -/

/-- The parameters of a layer with cells of size `s` (resolution `1 / s`) are those of a mixture whose constant term has
total weight `o` over the area of a cell if and only if the cells have size one. -/
theorem C100_unit_cells_partial (o s : ℝ) (ho : 0 < o) (ho1 : o < 1) (hs : 0 < s) :
    (FittingParams.mk' o (1 / s)).d1 = -Real.log (mixture (10 * (1 - o)) (o / s ^ 2) 0) + Real.log (o / s ^ 2) ↔ s = 1 := by
  have h1 := (fit_eq ho ho1 (one_div_pos.2 hs)).1
  have hc1 : 0 < 10 * (1 - o) := by linarith
  have hc2 : 0 < o / s ^ 2 := by positivity
  have h2 : -Real.log (mixture (10 * (1 - o)) (o / s ^ 2) 0) + Real.log (o / s ^ 2) =
      -Real.log (1 + 10 * (1 - o) / (o / s ^ 2)) := by
    have : mixture (10 * (1 - o)) (o / s ^ 2) 0 = (1 + 10 * (1 - o) / (o / s ^ 2)) * (o / s ^ 2) := by
      unfold mixture
      norm_num
      field_simp
      ring
    rw [this, Real.log_mul (by positivity) hc2.ne']
    ring
  rw [h1, h2]
  constructor
  · intro h
    have h3 := Real.log_injOn_pos (Set.mem_Ioi.2 (by positivity)) (Set.mem_Ioi.2 (by positivity)) (neg_injective h)
    have h4 : 10 * (1 - o) / (o / (1 / s) ^ 2) = 10 * (1 - o) / (o / s ^ 2) := by linarith
    field_simp at h4
    have h5 : s ^ 4 = 1 := by nlinarith
    nlinarith [sq_nonneg (s ^ 2 - 1), sq_nonneg (s - 1), sq_nonneg (s + 1)]
  · rintro rfl
    norm_num

example : (0 : ℝ) < 0.55 ∧ (0.55 : ℝ) < 1 ∧ (0 : ℝ) < 0.25 := by norm_num

/-- In particular not for the finest layer of a matcher as constructed. -/
theorem C100_false : (FittingParams.mk' 0.55 (1 / 0.25)).d1 ≠
    -Real.log (mixture (10 * (1 - 0.55)) (0.55 / 0.25 ^ 2) 0) + Real.log (0.55 / 0.25 ^ 2) := by
  intro h
  have := (C100_unit_cells_partial 0.55 0.25 (by norm_num) (by norm_num) (by norm_num)).1 h
  norm_num at this

/-! ### C61: parallel accumulation -/

/-- For every number of threads and every schedule which runs each of the `n` iterations once, on any of the threads and
in any order, the result is the sum over all cells. -/
theorem C61_schedule (threads n : ℕ) (local_ : ℕ → Score) (schedule : List (ℕ × ℕ))
    (hthreads : ∀ it ∈ schedule, it.1 < threads) (honce : (schedule.map Prod.snd).Perm (List.range n)) :
    ∃ s, parallelScore threads local_ schedule = .ok s ∧ s.value = ∑ i ∈ Finset.range n, (local_ i).value ∧
      s.gradient = ∑ i ∈ Finset.range n, (local_ i).gradient ∧ s.hessian = ∑ i ∈ Finset.range n, (local_ i).hessian := by
  unfold parallelScore
  obtain ⟨l', h1, h2⟩ := parallel_run local_ schedule (List.replicate threads .zero ++ List.replicate threads .zero)
    (fun it hit => by have := hthreads it hit; simp; omega)
  refine ⟨l'.foldl Score.add .zero, by simp only; rw [h1]; rfl, ?_⟩
  have h3 : (schedule.map fun it => local_ it.2).foldl Score.add .zero = ((List.range n).map local_).foldl Score.add .zero := by
    apply foldl_perm
    have := honce.map local_
    rwa [List.map_map] at this
  rw [h2, List.foldl_append, foldl_zeros, foldl_zeros, Score.zero_add, h3, foldl_range]
  exact ⟨rfl, rfl, rfl⟩

example : (∀ it ∈ [(1, 2), (0, 0), (1, 1)], it.1 < 2) ∧ ([(1, 2), (0, 0), (1, 1)].map Prod.snd).Perm (List.range 3) := by
  constructor
  · simp
  · decide

end Verif.Newton
