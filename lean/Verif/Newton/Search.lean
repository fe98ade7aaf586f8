import Verif.Newton.Model
import Mathlib.Tactic.Linarith
import Mathlib.Tactic.Positivity
import Mathlib.Tactic.FieldSimp
import Mathlib.Tactic.NormNum

/- Lemmas about the line search. -/
namespace Verif.Newton

open Verif Verif.Geo

theorem Fp.fin_min (a b : ℝ) : Fp.min (.fin a) (.fin b) = .fin (Min.min a b) := by
  unfold Fp.min
  by_cases h : b < a
  · rw [if_pos ((Fp.fin_lt _ _).2 h), min_eq_right h.le]
  · rw [if_neg (fun h' => h ((Fp.fin_lt _ _).1 h')), min_eq_left (not_lt.1 h)]

theorem Fp.fin_max (a b : ℝ) : Fp.max (.fin a) (.fin b) = .fin (Max.max a b) := by
  unfold Fp.max
  by_cases h : a < b
  · rw [if_pos ((Fp.fin_lt _ _).2 h), max_eq_right h.le]
  · rw [if_neg (fun h' => h ((Fp.fin_lt _ _).1 h')), max_eq_left (not_lt.1 h)]

theorem clampStep_fin (M m a : ℝ) : clampStep (.fin M) (.fin m) (.fin a) = .fin (max (min a M) m) := by
  unfold clampStep
  rw [Fp.fin_min, Fp.fin_max]

theorem clampStep_pinned {M m : ℝ} (h : M ≤ m) (a : ℝ) : clampStep (.fin M) (.fin m) (.fin a) = .fin m := by
  rw [clampStep_fin, max_eq_right ((min_le_right _ _).trans h)]

/-! ### The number of evaluations -/

theorem run_evals (phi : Phi) (M m p0 g0 : Fp) (n : ℕ) (s : Search) :
    (Search.run phi M m p0 g0 n s).evals ≤ s.evals + n := by
  induction n generalizing s with
  | zero => exact le_refl _
  | succ n ih =>
    unfold Search.run
    split_ifs with h
    · refine (ih _).trans ?_
      show s.evals + 1 + n ≤ _
      omega
    · omega

theorem searchStep_evals (phi : Phi) (a M m p0 g0 : Fp) : (searchStep phi a M m p0 g0).2 ≤ 11 := by
  unfold searchStep
  exact (run_evals _ _ _ _ _ _ _).trans (by norm_num)

theorem run_inv (P : Search → Prop) (phi : Phi) (M m p0 g0 : Fp)
    (hs : ∀ s, P s → s.more g0 → P (s.iterate phi M m p0 g0)) (n : ℕ) (s : Search) (h : P s) :
    P (Search.run phi M m p0 g0 n s) := by
  induction n generalizing s with
  | zero => exact h
  | succ n ih =>
    unfold Search.run
    split_ifs with h'
    · exact ih _ (hs s h h')
    · exact h

theorem run_stop (phi : Phi) (M m p0 g0 : Fp) (n : ℕ) (s : Search) (h : ¬ s.more g0) :
    Search.run phi M m p0 g0 n s = s := by
  cases n with
  | zero => rfl
  | succ n => unfold Search.run; rw [if_neg h]

theorem run_more (phi : Phi) (M m p0 g0 : Fp) (n : ℕ) (s : Search) (h : s.more g0) :
    Search.run phi M m p0 g0 (n + 1) s = Search.run phi M m p0 g0 n (s.iterate phi M m p0 g0) := by
  rw [Search.run, if_pos h]

/-! ### Limits in the right order: no search -/

theorem searchStep_skipped (phi : Phi) {M m : ℝ} (h : m < M) (a : ℝ) (p0 g0 : Fp) :
    searchStep phi (.fin a) (.fin M) (.fin m) p0 g0 = (.fin (max (min a M) m), 1) := by
  unfold searchStep
  simp only
  rw [run_stop]
  · simp only [clampStep_fin]
  · rintro ⟨h', -⟩
    have : Fp.lt (.fin 0) (Fp.fin M - Fp.fin m) := by
      rw [Fp.fin_sub]
      exact (Fp.fin_lt _ _).2 (sub_pos.2 h)
    simp only [decide_eq_false_iff_not] at h'
    exact h' this

/-! ### Interpolation -/

/-- The cubic step is a number. -/
theorem cubic_fin {s f g gt : ℝ} (hs : 0 < s) (hg : g < 0) (h : 0 < f ∨ 0 ≤ gt) :
    ∃ c, cubic (.fin 0) (.fin 0) (.fin g) (.fin s) (.fin f) (.fin gt) = .fin c := by
  unfold cubic
  simp only [Fp.fin_sub, Fp.fin_mul, sub_zero]
  rw [Fp.fin_div hs.ne']
  simp only [Fp.fin_sub, Fp.fin_mul]
  have key : 0 ≤ (3 * f / s - gt - g) * (3 * f / s - gt - g) - gt * g ∧
      0 < gt - g + 2 * Real.sqrt ((3 * f / s - gt - g) * (3 * f / s - gt - g) - gt * g) := by
    by_cases hgt : 0 ≤ gt
    · constructor
      · nlinarith [mul_self_nonneg (3 * f / s - gt - g), mul_nonneg hgt (neg_nonneg.2 hg.le)]
      · have := Real.sqrt_nonneg ((3 * f / s - gt - g) * (3 * f / s - gt - g) - gt * g)
        linarith
    · have hf : 0 < f := h.resolve_right hgt
      have hz : 0 < 3 * f / s := by positivity
      set z := 3 * f / s - gt - g with hzd
      have h1 : -gt - g < z := by linarith
      have h2 : (-gt - g) * (-gt - g) < z * z := by
        have : 0 < -gt - g := by linarith [not_le.1 hgt]
        exact mul_self_lt_mul_self this.le h1
      have hgg : 0 < gt * g := mul_pos_of_neg_of_neg (not_le.1 hgt) hg
      refine ⟨by nlinarith, ?_⟩
      have h3 : (g - gt) / 2 < Real.sqrt (z * z - gt * g) := by
        by_cases h4 : (g - gt) / 2 < 0
        · exact h4.trans_le (Real.sqrt_nonneg _)
        · apply Real.lt_sqrt_of_sq_lt
          nlinarith
      linarith
  rw [Fp.fin_sqrt key.1]
  simp only [Fp.fin_sub, Fp.fin_mul, Fp.fin_add]
  rw [Fp.fin_div key.2.ne', Fp.fin_add]
  exact ⟨_, rfl⟩

theorem trial_one {i : Interval} {s f g gt : ℝ} (h1 : i.al = .fin 0) (h2 : i.fl = .fin 0) (h3 : i.gl = .fin g)
    (hs : 0 < s) (hg : g < 0) (hf : 0 < f) : ∃ c, trialValue i (.fin s) (.fin f) (.fin gt) = .fin c := by
  unfold trialValue
  rw [h1, h2, h3, if_pos ((Fp.fin_lt _ _).2 hf)]
  obtain ⟨c, hc⟩ := cubic_fin (gt := gt) hs hg (Or.inl hf)
  have hq : ∃ q, Fp.fin 0 - .fin 0.5 * (.fin 0 - .fin s) * .fin g / (.fin g - (.fin 0 - .fin f) / (.fin 0 - .fin s)) =
      Fp.fin q := by
    simp only [Fp.fin_sub, Fp.fin_mul]
    rw [Fp.fin_div (by linarith), Fp.fin_sub, Fp.fin_div, Fp.fin_sub]
    · exact ⟨_, rfl⟩
    · have : (0 - f) / (0 - s) = f / s := by rw [zero_sub, zero_sub, neg_div_neg_eq]
      rw [this]
      have : 0 < f / s := by positivity
      linarith
  obtain ⟨q, hq⟩ := hq
  simp only [hc, hq]
  split_ifs
  · exact ⟨_, rfl⟩
  · rw [Fp.fin_add, Fp.fin_mul]; exact ⟨_, rfl⟩

theorem trial_two {i : Interval} {s f g gt : ℝ} (h1 : i.al = .fin 0) (h2 : i.fl = .fin 0) (h3 : i.gl = .fin g)
    (hs : 0 < s) (hg : g < 0) (hf : f ≤ 0) (hgt : 0 < gt) :
    ∃ c, trialValue i (.fin s) (.fin f) (.fin gt) = .fin c := by
  unfold trialValue secant
  rw [h1, h2, h3, if_neg (fun h => absurd ((Fp.fin_lt _ _).1 h) (not_lt.2 hf)), if_pos]
  · obtain ⟨c, hc⟩ := cubic_fin (f := f) (gt := gt) hs hg (Or.inr hgt.le)
    have hq : ∃ q, Fp.fin 0 - (.fin 0 - .fin s) / (.fin g - .fin gt) * .fin g = Fp.fin q := by
      simp only [Fp.fin_sub]
      rw [Fp.fin_div (by linarith), Fp.fin_mul, Fp.fin_sub]
      exact ⟨_, rfl⟩
    obtain ⟨q, hq⟩ := hq
    simp only [hc, hq]
    split_ifs
    · exact ⟨_, rfl⟩
    · exact ⟨_, rfl⟩
  · rw [Fp.fin_mul]
    exact (Fp.fin_lt _ _).2 (mul_neg_of_pos_of_neg hgt hg)

theorem trial_three {i : Interval} {s f g : ℝ} (h1 : i.al = .fin s) (h2 : i.fl = .fin f) (h3 : i.gl = .fin g)
    (h4 : i.au = .fin 0) :
    trialValue i (.fin s) (.fin f) (.fin g) = .fin (s + 0.66 * (0 - s)) := by
  unfold trialValue
  rw [h1, h2, h3, h4, if_neg (fun h => absurd ((Fp.fin_lt _ _).1 h) (lt_irrefl _)), Fp.fin_mul,
    if_neg (fun h => absurd ((Fp.fin_lt _ _).1 h) (not_lt.2 (mul_self_nonneg g))), Fp.fin_abs,
    if_pos ((Fp.fin_le _ _).2 le_rfl)]
  have hc : cubic (.fin s) (.fin f) (.fin g) (.fin s) (.fin f) (.fin g) = .nan := by
    unfold cubic
    simp only [Fp.fin_sub, Fp.fin_mul, sub_self, mul_zero, Fp.div_zero_zero, Fp.nan_sub, Fp.nan_mul]
    simp only [Fp.sqrt, Fp.nan_sub, Fp.mul_nan, Fp.add_nan, Fp.div_nan]
  have hs : secant i (.fin s) (.fin g) = .nan := by
    unfold secant
    rw [h1, h3]
    simp only [Fp.fin_sub, sub_self, Fp.div_zero_zero, Fp.nan_mul, Fp.sub_nan]
  simp only [hc, hs, Fp.nan_sub]
  rw [if_neg (fun h => absurd ((Fp.fin_lt _ _).1 h) (lt_irrefl _)), Fp.fin_sub, Fp.fin_mul, Fp.fin_add, ite_self]
  unfold Fp.max
  rw [if_neg (Fp.lt_nan _)]

/-! ### Limits in the wrong order: every trial is the lower limit -/

theorem mu_fin : mu = .fin 1e-4 := rfl
theorem nu_fin : nu = .fin 0.9 := rfl

/-- While the sufficient decrease condition fails. -/
structure RiseInv (s f g gt : ℝ) (p d : ℝ) (S : Search) : Prop where
  al : S.i.al = .fin 0
  fl : S.i.fl = .fin 0
  gl : S.i.gl = .fin g
  at_ : S.at_ = .fin s
  psi : S.psi = .fin f
  dpsi : S.dpsi = .fin gt
  opened : S.opened = true

theorem RiseInv.step {phi : Phi} {M m p0 g0 p d : ℝ} (hM : M ≤ m) (hm : 0 < m) (hg0 : g0 < 0)
    (hphi : phi (.fin m) = (.fin p, .fin d)) (hpsi : 0 < p - p0 - 1e-4 * g0 * m) {S : Search}
    (h : RiseInv m (p - p0 - 1e-4 * g0 * m) (g0 - 1e-4 * g0) (d - 1e-4 * g0) p d S) :
    RiseInv m (p - p0 - 1e-4 * g0 * m) (g0 - 1e-4 * g0) (d - 1e-4 * g0) p d
      (S.iterate phi (.fin M) (.fin m) (.fin p0) (.fin g0)) := by
  obtain ⟨h1, h2, h3, h4, h5, h6, h7⟩ := h
  obtain ⟨c, hc⟩ := trial_one (gt := d - 1e-4 * g0) h1 h2 h3 hm (by linarith) hpsi
  unfold Search.iterate
  simp only [h4, h5, h6, h7, hc, if_true, clampStep_pinned hM, hphi]
  have hps : Newton.psi (.fin m) (.fin p) (.fin p0) (.fin g0) mu = .fin (p - p0 - 1e-4 * g0 * m) := by
    unfold Newton.psi; simp only [mu_fin, Fp.fin_sub, Fp.fin_mul]
  have hd : dPsi (.fin d) (.fin g0) mu = .fin (d - 1e-4 * g0) := by
    unfold dPsi; simp only [mu_fin, Fp.fin_sub, Fp.fin_mul]
  simp only [hps, hd, Fp.fin_le, not_le.2 hpsi, false_and, and_false, if_false]
  rw [if_pos trivial]
  have hu : updateInterval S.i (.fin m) (.fin (p - p0 - 1e-4 * g0 * m)) (.fin (d - 1e-4 * g0)) =
      (false, { S.i with au := .fin m, fu := .fin (p - p0 - 1e-4 * g0 * m), gu := .fin (d - 1e-4 * g0) }) := by
    unfold updateInterval
    have : Fp.lt S.i.fl (.fin (p - p0 - 1e-4 * g0 * m)) := by rw [h2]; exact (Fp.fin_lt _ _).2 hpsi
    rw [if_pos this]
  rw [hu]
  exact ⟨h1, h2, h3, rfl, rfl, rfl, rfl⟩

theorem searchStep_pinned {phi : Phi} {M m p0 g0 p d : ℝ} (hM : M ≤ m) (hm : 0 < m) (hg0 : g0 < 0)
    (hphi : phi (.fin m) = (.fin p, .fin d)) (a : ℝ) :
    (searchStep phi (.fin a) (.fin M) (.fin m) (.fin p0) (.fin g0)).1 = .fin m := by
  unfold searchStep
  simp only [clampStep_pinned hM, hphi]
  have hps : Newton.psi (.fin m) (.fin p) (.fin p0) (.fin g0) mu = .fin (p - p0 - 1e-4 * g0 * m) := by
    unfold Newton.psi; simp only [mu_fin, Fp.fin_sub, Fp.fin_mul]
  have hd : dPsi (.fin d) (.fin g0) mu = .fin (d - 1e-4 * g0) := by
    unfold dPsi; simp only [mu_fin, Fp.fin_sub, Fp.fin_mul]
  have hp0 : Newton.psi (.fin 0) (.fin p0) (.fin p0) (.fin g0) mu = .fin 0 := by
    unfold Newton.psi; simp only [mu_fin, Fp.fin_sub, Fp.fin_mul]; norm_num
  have hd0 : dPsi (.fin g0) (.fin g0) mu = .fin (g0 - 1e-4 * g0) := by
    unfold dPsi; simp only [mu_fin, Fp.fin_sub, Fp.fin_mul]
  simp only [hps, hd, hp0, hd0]
  by_cases hpsi : 0 < p - p0 - 1e-4 * g0 * m
  · refine RiseInv.at_ (f := p - p0 - 1e-4 * g0 * m) (g := g0 - 1e-4 * g0) (gt := d - 1e-4 * g0) (p := p) (d := d)
      (run_inv _ _ _ _ _ _ ?_ _ _ ?_)
    · intro s hs _
      exact hs.step hM hm hg0 hphi hpsi
    · exact ⟨rfl, rfl, rfl, rfl, rfl, rfl, rfl⟩
  · have hpsi := not_lt.1 hpsi
    by_cases hcur : d ≤ -0.9 * g0
    · rw [run_stop]
      rintro ⟨-, h⟩
      apply h
      refine ⟨(Fp.fin_le _ _).2 hpsi, ?_⟩
      show Fp.le (.fin d) (-nu * .fin g0)
      rw [nu_fin, Fp.fin_neg, Fp.fin_mul]
      exact (Fp.fin_le _ _).2 hcur
    · have hcur := not_le.1 hcur
      have hdpos : 0 < d := by nlinarith
      have hmore : ∀ S : Search, S.converged = false → S.dphi = .fin d → S.more (.fin g0) := by
        intro S h1 h2
        refine ⟨h1, fun h => ?_⟩
        have h3 := h.2
        rw [h2, nu_fin, Fp.fin_neg, Fp.fin_mul] at h3
        exact absurd ((Fp.fin_le _ _).1 h3) (not_le.2 hcur)
      rw [run_more]
      swap
      · refine hmore _ ?_ rfl
        simp only [decide_eq_false_iff_not, Fp.fin_sub, Fp.fin_lt, not_lt]
        linarith
      -- the first iteration closes the interval
      obtain ⟨c, hc⟩ := trial_two (i := ⟨.fin 0, .fin 0, .fin (g0 - 1e-4 * g0), .fin 0, .fin 0, .fin (g0 - 1e-4 * g0)⟩)
        (f := p - p0 - 1e-4 * g0 * m) (gt := d - 1e-4 * g0) rfl rfl rfl hm (by linarith) hpsi (by linarith)
      unfold Search.iterate
      simp only [hc, if_true, clampStep_pinned hM, hphi, hps, hd]
      have hc1 : Fp.le (.fin (p - p0 - 1e-4 * g0 * m)) (.fin 0) := (Fp.fin_le _ _).2 hpsi
      have hc2 : Fp.le (.fin 0) (.fin (d - 1e-4 * g0)) := (Fp.fin_le _ _).2 (by linarith)
      simp only [hc1, hc2, and_self, if_true, Bool.false_eq_true, if_false]
      have hu : updateInterval
          ⟨.fin 0, .fin 0 + .fin p0 - mu * .fin g0 * .fin 0, .fin (g0 - 1e-4 * g0) + mu * .fin g0, .fin 0,
            .fin 0 + .fin p0 - mu * .fin g0 * .fin 0, .fin (g0 - 1e-4 * g0) + mu * .fin g0⟩ (.fin m) (.fin p) (.fin d) =
          (false, ⟨.fin m, .fin p, .fin d, .fin 0, .fin 0 + .fin p0 - mu * .fin g0 * .fin 0,
            .fin (g0 - 1e-4 * g0) + mu * .fin g0⟩) := by
        unfold updateInterval
        simp only [mu_fin, Fp.fin_mul, Fp.fin_add, Fp.fin_sub]
        rw [if_neg, if_neg, if_pos]
        · refine (Fp.fin_lt _ _).2 ?_
          nlinarith
        · intro h
          have := (Fp.fin_lt _ _).1 h
          nlinarith
        · intro h
          have := (Fp.fin_lt _ _).1 h
          nlinarith [mul_neg_of_neg_of_pos hg0 hm]
      rw [hu]
      rw [run_more]
      swap
      · exact hmore _ rfl rfl
      unfold Search.iterate
      simp only [Bool.false_eq_true, if_false, false_and]
      rw [trial_three rfl rfl rfl rfl, clampStep_pinned hM]
      simp only [hphi]
      have hu2 : ∀ a b c : Fp, updateInterval ⟨.fin m, .fin p, .fin d, a, b, c⟩ (.fin m) (.fin p) (.fin d) =
          (true, ⟨.fin m, .fin p, .fin d, a, b, c⟩) := by
        intro a b c
        unfold updateInterval
        simp only [Fp.fin_sub, Fp.fin_mul, Fp.fin_lt, sub_self, mul_zero, lt_irrefl, if_false]
      rw [hu2, run_stop]
      rintro ⟨h, -⟩
      exact absurd h (by simp)

theorem searchStep_zero {phi : Phi} {M m p0 g0 : ℝ} (h : M = m) (hm : m = 0) (hg0 : g0 < 0)
    (hphi : phi (.fin 0) = (.fin p0, .fin g0)) (a : ℝ) :
    (searchStep phi (.fin a) (.fin M) (.fin m) (.fin p0) (.fin g0)).1 = .fin 0 := by
  subst hm h
  unfold searchStep
  simp only [clampStep_pinned (le_refl _), hphi]
  rw [run_stop]
  rintro ⟨-, h⟩
  apply h
  constructor
  · show Fp.le (Newton.psi (.fin 0) (.fin p0) (.fin p0) (.fin g0) mu) _
    unfold Newton.psi
    simp only [mu_fin, Fp.fin_sub, Fp.fin_mul, Fp.fin_le]
    norm_num
  · show Fp.le (.fin g0) (-nu * .fin g0)
    rw [nu_fin, Fp.fin_neg, Fp.fin_mul, Fp.fin_le]
    linarith

end Verif.Newton
