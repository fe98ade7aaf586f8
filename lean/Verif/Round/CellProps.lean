import Verif.Round.CellErr
import Verif.Round.Move

/- C148: mean and covariance of a cell with the rounding of `double`. -/
namespace Verif.Round

open Verif Verif.NDT Matrix

/-! ### The first batch of points -/

/-- What `computeGaussian` computes exactly (C22): `(n - 1) / n² (I + S)`, `S` the scatter of the points. -/
noncomputable def scatterCov (l : List Vec) : Mat :=
  ((l.length - 1 : ℝ) / l.length ^ 2) •
    (1 + (l.map fun p => vecMulVec (p - sampleMean l) (p - sampleMean l)).sum)

/-- C148: `n` points with coordinates of at most `R` metres.  The computed mean is off the mean of the points by
at most `6 n R` roundings, and each entry of the computed covariance is off its exact value by at most
`75 n R²` roundings: the subtraction of the single pass loses digits with the square of the distance to the
origin, not with the size of the cell.  Partial: the bounds hold for ranges in which nothing overflows. -/
theorem C148_batch_partial {F : Fmt ℝ} {v R : ℝ} (h0 : 0 ≤ v) (hd : ∀ x, |F.d x - x| ≤ v * |x|) {l : List Vec}
    (hne : l ≠ []) (hn : v * l.length ≤ 1 / 1000) (hR : 1 ≤ R) (hl : ∀ p ∈ l, ∀ i, |p i| ≤ R) :
    (∀ i, |mean2 F l i - sampleMean l i| ≤ 6 * v * l.length * R) ∧
    ∀ i j, |cov2 F l i j - scatterCov l i j| ≤ 75 * v * l.length * R ^ 2 := by
  refine ⟨fun i => ?_, fun i j => ?_⟩
  · rw [sampleMean_apply]
    exact (mean2_err h0 hd hne hn hR hl i).trans (le_of_eq (by ring))
  · have h := cov2_err h0 hd hne hn hR hl i j
    rw [← batchCov_apply l hne, batchCov_eq l hne] at h
    exact h.trans (le_of_eq (by ring))

theorem scatterCov_symm (l : List Vec) : (scatterCov l).transpose = scatterCov l := by
  unfold scatterCov
  rw [Matrix.transpose_smul, Matrix.transpose_add, Matrix.transpose_one]
  congr 2
  have := (posSemidef_sum_outer l (sampleMean l)).1
  rwa [Matrix.IsHermitian, Matrix.conjTranspose_eq_transpose_of_trivial] at this

theorem scatterCov_lower (l : List Vec) (hne : l ≠ []) (x : Vec) :
    ((l.length - 1 : ℝ) / l.length ^ 2) * (x ⬝ᵥ x) ≤ x ⬝ᵥ (scatterCov l).mulVec x := by
  have h := (posSemidef_sum_outer l (sampleMean l)).dotProduct_mulVec_nonneg x
  rw [star_trivial] at h
  unfold scatterCov
  rw [Matrix.smul_mulVec, dotProduct_smul, smul_eq_mul, Matrix.add_mulVec, Matrix.one_mulVec, dotProduct_add]
  have n1 := len_pos hne
  exact mul_le_mul_of_nonneg_left (by linarith) (div_nonneg (by linarith) (by positivity))

/-- C148: the matrix that the eigenvalue solver sees is positive definite as long as `225 n³ R²` roundings are
less than `n - 1`; for all other ranges see `C148_false`. -/
theorem C148_posdef_partial {F : Fmt ℝ} {v R : ℝ} (h0 : 0 ≤ v) (hd : ∀ x, |F.d x - x| ≤ v * |x|) {l : List Vec}
    (hne : l ≠ []) (hn : v * l.length ≤ 1 / 1000) (hR : 1 ≤ R) (hl : ∀ p ∈ l, ∀ i, |p i| ≤ R)
    (hs : 225 * v * l.length ^ 3 * R ^ 2 < l.length - 1) : (lower (cov2 F l)).PosDef := by
  refine posDef_close (lower_symm _)
    (lower_close (scatterCov_symm l) (C148_batch_partial h0 hd hne hn hR hl).2) (scatterCov_lower l hne) ?_
  have n1 := len_pos hne
  rw [lt_div_iff₀ (by positivity)]
  linarith

/-- `double` and scans of up to 1000 points in a cell within 100 metres. -/
theorem C148_ieee_partial {l : List Vec} (h2 : 2 ≤ l.length) (h1000 : l.length ≤ 1000)
    (hl : ∀ p ∈ l, ∀ i, |p i| ≤ 100) :
    (∀ i, |mean2 ieee l i - sampleMean l i| ≤ 1 / 10 ^ 10) ∧
    (∀ i j, |cov2 ieee l i j - scatterCov l i j| ≤ 1 / 10 ^ 7) ∧ (lower (cov2 ieee l)).PosDef := by
  have hne : l ≠ [] := by rintro rfl; simp at h2
  have a2 : (2 : ℝ) ≤ l.length := by exact_mod_cast h2
  have a3 : (l.length : ℝ) ≤ 1000 := by exact_mod_cast h1000
  have v0 : (0 : ℝ) ≤ 2⁻¹ ^ 53 := by positivity
  have hn : (2⁻¹ : ℝ) ^ 53 * l.length ≤ 1 / 1000 :=
    (mul_le_mul_of_nonneg_left a3 v0).trans (by norm_num)
  obtain ⟨b1, b2⟩ := C148_batch_partial (F := ieee) v0 (binary_err 53) hne hn (by norm_num : (1 : ℝ) ≤ 100) hl
  have c1 : (2⁻¹ : ℝ) ^ 53 * l.length ≤ 2⁻¹ ^ 53 * 1000 := mul_le_mul_of_nonneg_left a3 v0
  refine ⟨fun i => (b1 i).trans ?_, fun i j => (b2 i j).trans ?_,
    C148_posdef_partial (F := ieee) v0 (binary_err 53) hne hn (by norm_num : (1 : ℝ) ≤ 100) hl ?_⟩
  · have : (6 : ℝ) * 2⁻¹ ^ 53 * 1000 * 100 ≤ 1 / 10 ^ 10 := by norm_num
    linarith
  · have : (75 : ℝ) * 2⁻¹ ^ 53 * 1000 * 100 ^ 2 ≤ 1 / 10 ^ 7 := by norm_num
    linarith
  · have k : (l.length : ℝ) ^ 3 ≤ 1000 ^ 3 := pow_le_pow_left₀ (by linarith) a3 3
    have k' := mul_le_mul_of_nonneg_left k v0
    have : (225 : ℝ) * 2⁻¹ ^ 53 * 1000 ^ 3 * 100 ^ 2 < 1 := by norm_num
    linarith

/-! ### Far from the origin -/

theorem binary_exact (b : ℕ) (m k : ℤ) (hm : |m| < 2 ^ b) :
    binary b ((m : ℝ) * 2 ^ k) = m * 2 ^ k := by
  unfold binary
  by_cases hx : (m : ℝ) * 2 ^ k = 0
  · rw [if_pos hx, hx]
  · rw [if_neg hx]
    simp only
    have h2 : (0 : ℝ) < 2 ^ k := by positivity
    have hlt : |(m : ℝ) * 2 ^ k| < ((2 : ℕ) : ℝ) ^ ((b : ℤ) + k) := by
      rw [abs_mul, abs_of_pos h2, Nat.cast_ofNat, zpow_add₀ (by norm_num), zpow_natCast]
      refine mul_lt_mul_of_pos_right ?_ h2
      exact_mod_cast hm
    have hlog : Int.log 2 |(m : ℝ) * 2 ^ k| < b + k :=
      (Int.lt_zpow_iff_log_lt (by norm_num) (abs_pos.2 hx)).1 hlt
    obtain ⟨d, hd⟩ : ∃ d : ℕ, k = Int.log 2 |(m : ℝ) * 2 ^ k| + 1 - b + d :=
      ⟨(k - (Int.log 2 |(m : ℝ) * 2 ^ k| + 1 - b)).toNat, by omega⟩
    set e := Int.log 2 |(m : ℝ) * 2 ^ k| + 1 - b
    have he : (0 : ℝ) < 2 ^ e := by positivity
    have hq : (m : ℝ) * 2 ^ k / 2 ^ e = ((m * 2 ^ d : ℤ) : ℝ) := by
      rw [hd, zpow_add₀ (by norm_num), zpow_natCast]
      push_cast
      field_simp
    rw [hq, round_intCast, ← hq, div_mul_cancel₀ _ he.ne']

/-- Six points at the same place, `2^30` metres away. -/
def farPoints : List Vec := List.replicate 6 ![2 ^ 30, 0, 0]

/-- Negation of definiteness at any range: the identity that `computeGaussian` adds to the sum is rounded away. The
covariance is exactly `5/36 I`; the computed one has a zero on the diagonal. -/
theorem C148_false : scatterCov farPoints = (5 / 36 : ℝ) • 1 ∧ cov2 ieee farPoints 0 0 = 0 ∧
    ¬ (lower (cov2 ieee farPoints)).PosDef := by
  have ex : ∀ (m k : ℤ), |m| < 2 ^ 53 → (ieee : Fmt ℝ).d ((m : ℝ) * 2 ^ k) = m * 2 ^ k :=
    fun m k h => binary_exact 53 m k h
  have key : cov2 ieee farPoints 0 0 = 0 := by
    have s1 : (ieee : Fmt ℝ).d (2 ^ 30 * 2 ^ 30) = 2 ^ 60 := by
      have := ex 1 60 (by norm_num); norm_num at this ⊢; exact this
    have s2 : (ieee : Fmt ℝ).d (1 + 2 ^ 60) = 2 ^ 60 := by
      show binary 53 (1 + 2 ^ 60) = (2 : ℝ) ^ 60
      have hlog : Int.log 2 |(1 + 2 ^ 60 : ℝ)| = 60 := by
        rw [abs_of_pos (by positivity)]
        have : (1 + 2 ^ 60 : ℝ) = ((1 + 2 ^ 60 : ℕ) : ℝ) := by push_cast; ring
        rw [this, Int.log_natCast]
        norm_num [Nat.log_eq_iff]
        decide +kernel
      unfold binary
      rw [if_neg (by positivity), hlog]
      simp only
      have hr : round ((1 + 2 ^ 60 : ℝ) / 2 ^ ((60 : ℤ) + 1 - (53 : ℕ))) = 2 ^ 52 := by
        rw [round_eq, Int.floor_eq_iff]
        norm_num
      rw [hr]
      norm_num
    have t : ∀ m : ℤ, |m| < 2 ^ 53 → (ieee : Fmt ℝ).d (m * 2 ^ 60) = m * 2 ^ 60 := fun m h => by
      have := ex m 60 h; exact_mod_cast this
    have t' : ∀ m : ℤ, |m| < 2 ^ 53 → (ieee : Fmt ℝ).d (m * 2 ^ 30) = m * 2 ^ 30 := fun m h => by
      have := ex m 30 h; exact_mod_cast this
    have c : covAdd ieee farPoints 0 0 = 6 * 2 ^ 60 := by
      unfold covAdd sumD farPoints
      have t2 := t 2 (by norm_num)
      have t3 := t 3 (by norm_num)
      have t4 := t 4 (by norm_num)
      have t5 := t 5 (by norm_num)
      have t6 := t 6 (by norm_num)
      simp only [List.replicate, List.map_cons, List.map_nil, List.foldl_cons, List.foldl_nil, cons_val_zero,
        s1, Matrix.one_apply_eq, s2]
      norm_num at t2 t3 t4 t5 t6 ⊢
      rw [t2]; norm_num; rw [t3]; norm_num; rw [t4]; norm_num; rw [t5]; norm_num; rw [t6]
    have m : meanAdd ieee farPoints 0 = 6 * 2 ^ 30 := by
      unfold meanAdd sumD farPoints
      have t1 := t' 1 (by norm_num)
      have t2 := t' 2 (by norm_num)
      have t3 := t' 3 (by norm_num)
      have t4 := t' 4 (by norm_num)
      have t5 := t' 5 (by norm_num)
      have t6 := t' 6 (by norm_num)
      simp only [List.replicate, List.map_cons, List.map_nil, List.foldl_cons, List.foldl_nil, cons_val_zero]
      norm_num at t1 t2 t3 t4 t5 t6 ⊢
      rw [t1]; norm_num; rw [t2]; norm_num; rw [t3]; norm_num; rw [t4]; norm_num; rw [t5]; norm_num; rw [t6]
    have hlen : ((farPoints.length : ℕ) : ℝ) = 6 := by simp [farPoints]
    have m2 : mean2 ieee farPoints 0 = 2 ^ 30 := by
      unfold mean2
      rw [m, hlen]
      have t1 := t' 1 (by norm_num)
      norm_num at t1 ⊢
      exact t1
    have z : (ieee : Fmt ℝ).d 0 = 0 := by have := ex 0 0 (by norm_num); simpa using this
    have ct : covTemp ieee farPoints 0 0 = 0 := by
      unfold covTemp
      rw [c, m, m2, hlen, s1]
      have t6 := t 6 (by norm_num)
      have t12 := t 12 (by norm_num)
      have tm6 := t (-6) (by norm_num)
      have tm1 := t (-1) (by norm_num)
      norm_num at t6 t12 tm6 tm1 ⊢
      rw [t6]; norm_num; rw [t12]; norm_num; rw [tm6]; norm_num; rw [tm1]; norm_num
      exact z
    unfold cov2
    rw [Matrix.of_apply, ct, zero_mul, z]
  refine ⟨?_, key, fun h => ?_⟩
  · have hm : sampleMean farPoints = ![2 ^ 30, 0, 0] := by
      ext i
      rw [sampleMean_apply]
      simp only [first, farPoints, List.replicate, List.map_cons, List.map_nil, List.sum_cons, List.sum_nil,
        List.length_cons, List.length_nil]
      push_cast
      ring
    unfold scatterCov
    rw [hm]
    have : (farPoints.map fun p => vecMulVec (p - ![2 ^ 30, 0, 0]) (p - ![2 ^ 30, 0, 0])).sum = (0 : Mat) := by
      simp only [farPoints, List.replicate, List.map_cons, List.map_nil, List.sum_cons, List.sum_nil, sub_self,
        zero_vecMulVec, add_zero]
    rw [this, add_zero]
    congr 1
    simp [farPoints]
    norm_num
  · have := h.diag_pos (i := 0)
    simp only [lower, Matrix.of_apply, max_self, min_self, key] at this
    exact lt_irrefl _ this

/-! ### Two Gaussians -/

/-- Mean of the union of two sets of `n₁` and `n₂` points. -/
noncomputable def unionMean (n₁ n₂ : ℕ) (m₁ m₂ : Vec) : Vec := fun i => (n₁ * m₁ i + n₂ * m₂ i) / (n₁ + n₂)

/-- Unbiased covariance of the union. -/
noncomputable def unionCov (n₁ n₂ : ℕ) (m₁ m₂ : Vec) (c₁ c₂ : Mat) : Mat := Matrix.of fun i j =>
  ((n₁ - 1) * c₁ i j + (n₂ - 1) * c₂ i j + n₁ * n₂ / (n₁ + n₂) * ((m₁ i - m₂ i) * (m₁ j - m₂ j))) /
    (n₁ + n₂ - 1)

/-- C148: two cells with means within `R` metres and covariances up to `K` are combined with `+=`.  The computed
mean is off the mean of the union by at most `5 R` roundings, the covariance by at most `80 (K + R²)` — the
numbers of points do not enter. -/
theorem C148_pooled_partial {F : Fmt ℝ} {v R K : ℝ} (h0 : 0 ≤ v) (hv : v ≤ 1 / 1000)
    (hd : ∀ x, |F.d x - x| ≤ v * |x|) {n₁ n₂ : ℕ} (hn₁ : 1 ≤ n₁) (hn₂ : 1 ≤ n₂) {m₁ m₂ : Vec} {c₁ c₂ : Mat}
    (h1 : ∀ i, |m₁ i| ≤ R) (h2 : ∀ i, |m₂ i| ≤ R) (k1 : ∀ i j, |c₁ i j| ≤ K) (k2 : ∀ i j, |c₂ i j| ≤ K) :
    (∀ i, |pooledMean F n₁ n₂ m₁ m₂ i - unionMean n₁ n₂ m₁ m₂ i| ≤ 5 * v * R) ∧
    ∀ i j, |pooledCov F n₁ n₂ m₁ m₂ c₁ c₂ i j - unionCov n₁ n₂ m₁ m₂ c₁ c₂ i j| ≤ 80 * v * (K + R ^ 2) :=
  ⟨fun i => pooledMean_err h0 hv hd hn₁ hn₂ (h1 i) (h2 i), fun i j =>
    pooledCov_err h0 hv hd hn₁ hn₂ ((abs_nonneg _).trans (k1 0 0)) h1 h2 k1 k2 i j⟩

theorem unionCov_lower {n₁ n₂ : ℕ} (hn₁ : 2 ≤ n₁) (hn₂ : 2 ≤ n₂) {m₁ m₂ : Vec} {c₁ c₂ : Mat} {lam : ℝ}
    (h1 : ∀ x : Vec, lam * (x ⬝ᵥ x) ≤ x ⬝ᵥ c₁.mulVec x) (h2 : ∀ x : Vec, lam * (x ⬝ᵥ x) ≤ x ⬝ᵥ c₂.mulVec x)
    (h0 : 0 ≤ lam) (x : Vec) :
    lam / 2 * (x ⬝ᵥ x) ≤ x ⬝ᵥ (unionCov n₁ n₂ m₁ m₂ c₁ c₂).mulVec x := by
  have a1 : (2 : ℝ) ≤ n₁ := by exact_mod_cast hn₁
  have a2 : (2 : ℝ) ≤ n₂ := by exact_mod_cast hn₂
  have e : x ⬝ᵥ (unionCov n₁ n₂ m₁ m₂ c₁ c₂).mulVec x =
      ((n₁ - 1) * (x ⬝ᵥ c₁.mulVec x) + (n₂ - 1) * (x ⬝ᵥ c₂.mulVec x) +
        n₁ * n₂ / (n₁ + n₂) * (x ⬝ᵥ (m₁ - m₂)) ^ 2) / (n₁ + n₂ - 1) := by
    simp only [unionCov, dotProduct, mulVec, Fin.sum_univ_three, Matrix.of_apply, Pi.sub_apply]
    ring
  have q0 : 0 ≤ (x ⬝ᵥ x) := by
    simp only [dotProduct]; exact Finset.sum_nonneg fun i _ => mul_self_nonneg _
  rw [e, le_div_iff₀ (by linarith)]
  have g1 := mul_le_mul_of_nonneg_left (h1 x) (by linarith : (0 : ℝ) ≤ n₁ - 1)
  have g2 := mul_le_mul_of_nonneg_left (h2 x) (by linarith : (0 : ℝ) ≤ n₂ - 1)
  have g3 : 0 ≤ (n₁ * n₂ / (n₁ + n₂) : ℝ) * (x ⬝ᵥ (m₁ - m₂)) ^ 2 := by positivity
  have g4 := mul_nonneg h0 q0
  nlinarith

/-- C148: two covariances that are bounded below by `lam` give a matrix that is positive definite for the
eigenvalue solver, if `480 (K + R²)` roundings are less than `lam`. -/
theorem C148_pooled_posdef_partial {F : Fmt ℝ} {v R K lam : ℝ} (h0 : 0 ≤ v) (hv : v ≤ 1 / 1000)
    (hd : ∀ x, |F.d x - x| ≤ v * |x|) {n₁ n₂ : ℕ} (hn₁ : 2 ≤ n₁) (hn₂ : 2 ≤ n₂) {m₁ m₂ : Vec} {c₁ c₂ : Mat}
    (h1 : ∀ i, |m₁ i| ≤ R) (h2 : ∀ i, |m₂ i| ≤ R) (k1 : ∀ i j, |c₁ i j| ≤ K) (k2 : ∀ i j, |c₂ i j| ≤ K)
    (s1 : c₁.transpose = c₁) (s2 : c₂.transpose = c₂)
    (p1 : ∀ x : Vec, lam * (x ⬝ᵥ x) ≤ x ⬝ᵥ c₁.mulVec x) (p2 : ∀ x : Vec, lam * (x ⬝ᵥ x) ≤ x ⬝ᵥ c₂.mulVec x)
    (hs : 480 * v * (K + R ^ 2) < lam) : (lower (pooledCov F n₁ n₂ m₁ m₂ c₁ c₂)).PosDef := by
  have hK := (abs_nonneg _).trans (k1 0 0)
  have lam0 : 0 ≤ lam := by
    have : 0 ≤ 480 * v * (K + R ^ 2) := by positivity
    linarith
  refine posDef_close (lower_symm _) (lower_close ?_
    (C148_pooled_partial h0 hv hd (by omega) (by omega) h1 h2 k1 k2).2) (unionCov_lower hn₁ hn₂ p1 p2 lam0)
    (by linarith)
  ext i j
  have t1 : c₁ j i = c₁ i j := congrFun (congrFun s1 i) j
  have t2 : c₂ j i = c₂ i j := congrFun (congrFun s2 i) j
  simp only [unionCov, Matrix.transpose_apply, Matrix.of_apply, t1, t2]
  ring

/-! ### Many merges -/

/-- Means that are combined without rounding, with the limit on the number of points. -/
noncomputable def unionMeans (s : ℕ × Vec) (l : List (ℕ × Vec)) : ℕ × Vec :=
  l.foldl (fun s c => (min 1000000000 (s.1 + c.1), unionMean s.1 c.1 s.2 c.2)) s

theorem cap_eq (n : ℕ) : cap n = min 1000000000 n := by
  unfold cap maxPoints
  split_ifs <;> omega

/-- C148: errors do not build up: after `k` merges the mean of a cell is off the exact mean by at most `10 k R`
roundings. -/
theorem C148_drift_partial {F : Fmt ℝ} {v R : ℝ} (h0 : 0 ≤ v) (hd : ∀ x, |F.d x - x| ≤ v * |x|)
    {n : ℕ} (hn : 1 ≤ n) {m : Vec} (hm : ∀ i, |m i| ≤ R) (l : List (ℕ × Vec)) (hk : 10 * v * l.length ≤ 1 / 100)
    (hl : ∀ c ∈ l, 1 ≤ c.1 ∧ ∀ i, |c.2 i| ≤ R) :
    (pooledMeans F (n, m) l).1 = (unionMeans (n, m) l).1 ∧
    ∀ i, |(pooledMeans F (n, m) l).2 i - (unionMeans (n, m) l).2 i| ≤ 10 * v * l.length * R := by
  have R0 : 0 ≤ R := (abs_nonneg _).trans (hm 0)
  suffices h : (pooledMeans F (n, m) l).1 = (unionMeans (n, m) l).1 ∧ 1 ≤ (unionMeans (n, m) l).1 ∧
      (∀ i, |(unionMeans (n, m) l).2 i| ≤ R) ∧
      ∀ i, |(pooledMeans F (n, m) l).2 i - (unionMeans (n, m) l).2 i| ≤ 10 * v * l.length * R from
    ⟨h.1, h.2.2.2⟩
  induction l using List.reverseRecOn with
  | nil => exact ⟨rfl, hn, hm, fun i => by simp [pooledMeans, unionMeans]⟩
  | append_singleton l c ih =>
    have hlen : ((l ++ [c]).length : ℝ) = l.length + 1 := by simp
    rw [hlen] at hk ⊢
    obtain ⟨i1, i2, i3, i4⟩ := ih (by linarith) (fun x hx => hl x (by simp [hx]))
    obtain ⟨c1, c2⟩ := hl c (by simp)
    have e1 : pooledMeans F (n, m) (l ++ [c]) = (cap (c.1 + (pooledMeans F (n, m) l).1),
        pooledMean F (pooledMeans F (n, m) l).1 c.1 (pooledMeans F (n, m) l).2 c.2) := by
      unfold pooledMeans
      rw [List.foldl_append]
      rfl
    have e2 : unionMeans (n, m) (l ++ [c]) = (min 1000000000 ((unionMeans (n, m) l).1 + c.1),
        unionMean (unionMeans (n, m) l).1 c.1 (unionMeans (n, m) l).2 c.2) := by
      unfold unionMeans
      rw [List.foldl_append]
      rfl
    rw [e1, e2, i1, cap_eq]
    simp only
    generalize (unionMeans (n, m) l).1 = a at *
    generalize (unionMeans (n, m) l).2 = u at *
    generalize (pooledMeans F (n, m) l).2 = w at *
    have a1 : (1 : ℝ) ≤ a := by exact_mod_cast i2
    have a2 : (1 : ℝ) ≤ c.1 := by exact_mod_cast c1
    have N0 : (0 : ℝ) < a + c.1 := by linarith
    refine ⟨by rw [add_comm], by omega, fun i => ?_, fun i => ?_⟩
    · unfold unionMean
      rw [abs_div, abs_of_pos N0, div_le_iff₀ N0]
      have := abs_add_le (a * u i) (c.1 * c.2 i)
      rw [abs_mul, abs_mul, Nat.abs_cast, Nat.abs_cast] at this
      have := mul_le_mul_of_nonneg_left (i3 i) (by linarith : (0 : ℝ) ≤ a)
      have := mul_le_mul_of_nonneg_left (c2 i) (by linarith : (0 : ℝ) ≤ c.1)
      linarith
    · have hw : |w i| ≤ 2 * R := by
        have := abs_add_le (w i - u i) (u i)
        rw [sub_add_cancel] at this
        have := i4 i
        have := i3 i
        nlinarith
      have s1 := pooledMean_err (F := F) (n₁ := a) (n₂ := c.1) (m₁ := w) (m₂ := c.2) h0
        (by nlinarith [h0, hk, Nat.cast_nonneg (α := ℝ) l.length]) hd i2 c1 hw ((c2 i).trans (by linarith))
      have s2 : (a * w i + c.1 * c.2 i) / (a + c.1 : ℝ) - unionMean a c.1 u c.2 i =
          a / (a + c.1) * (w i - u i) := by
        unfold unionMean
        field_simp
        ring
      have s3 : |a / (a + c.1 : ℝ) * (w i - u i)| ≤ 10 * v * l.length * R := by
        rw [abs_mul, abs_of_nonneg (by positivity)]
        have : (a / (a + c.1) : ℝ) ≤ 1 := (div_le_one N0).2 (by linarith)
        exact (mul_le_mul_of_nonneg_right this (abs_nonneg _)).trans (by rw [one_mul]; exact i4 i)
      have s4 := abs_add_le (pooledMean F a c.1 w c.2 i - (a * w i + c.1 * c.2 i) / (a + c.1 : ℝ))
        ((a * w i + c.1 * c.2 i) / (a + c.1 : ℝ) - unionMean a c.1 u c.2 i)
      rw [sub_add_sub_cancel, s2] at s4
      linarith

/-! ### Without rounding -/

/-- Exact arithmetic. -/
def exactFmt : Fmt ℝ := ⟨id, id⟩

theorem exact_err (x : ℝ) : |exactFmt.d x - x| ≤ 0 * |x| := by simp [exactFmt]

/-- The model of the first batch is the one of `Verif.Cell` when nothing is rounded. -/
theorem cov2_exact (l : List Vec) (hne : l ≠ []) :
    mean2 exactFmt l = batchMean l ∧ cov2 exactFmt l = batchCov l := by
  obtain ⟨R, hR, hl⟩ : ∃ R : ℝ, 1 ≤ R ∧ ∀ p ∈ l, ∀ i, |p i| ≤ R := by
    clear hne
    induction l with
    | nil => exact ⟨1, le_rfl, by simp⟩
    | cons a l ih =>
      obtain ⟨R, h1, h2⟩ := ih
      refine ⟨R + ∑ i, |a i|, ?_, ?_⟩
      · have : 0 ≤ ∑ i, |a i| := Finset.sum_nonneg fun i _ => abs_nonneg _
        linarith
      · intro p hp i
        rcases List.mem_cons.1 hp with rfl | hp
        · have := Finset.single_le_sum (f := fun i => |p i|) (fun i _ => abs_nonneg _) (Finset.mem_univ i)
          linarith
        · have : 0 ≤ ∑ i, |a i| := Finset.sum_nonneg fun i _ => abs_nonneg _
          linarith [h2 p hp i]
  obtain ⟨a, b⟩ := C148_batch_partial (F := exactFmt) le_rfl exact_err hne (by simp) hR hl
  refine ⟨?_, ?_⟩
  · ext i
    have := a i
    simp only [mul_zero, zero_mul] at this
    exact sub_eq_zero.1 (abs_nonpos_iff.1 this)
  · rw [batchCov_eq l hne]
    ext i j
    have := b i j
    simp only [mul_zero, zero_mul] at this
    exact sub_eq_zero.1 (abs_nonpos_iff.1 this)

/-- The model of `+=` is the one of `Verif.Cell` when nothing is rounded. -/
theorem pooled_exact (eig : Eig) (c d : Cell) (h1 : 1 ≤ c.points) (h2 : 3 ≤ d.points) (g1 : c.gaussian = true)
    (g2 : d.gaussian = true) :
    let m := pooledMean exactFmt c.points d.points c.mean d.mean
    let s := pooledCov exactFmt c.points d.points c.mean d.mean c.cov d.cov
    (NDT.merge eig c d).mean = m ∧ (NDT.merge eig c d).points = cap (d.points + c.points) ∧
    ((NDT.merge eig c d).cov = s ∨ (NDT.merge eig c d).cov = (rescale eig { c with cov := s }).cov) := by
  intro m s
  have e1 : (pred64 c.points : ℝ) = c.points - 1 := by
    unfold pred64; rw [if_neg (by omega), Nat.cast_sub h1]; simp
  have e2 : (pred64 d.points : ℝ) = d.points - 1 := by
    unfold pred64; rw [if_neg (by omega), Nat.cast_sub (by omega)]; simp
  have e3 : (pred64 (d.points + c.points) : ℝ) = d.points + c.points - 1 := by
    unfold pred64; rw [if_neg (by omega), Nat.cast_sub (by omega)]; simp
  have hm : (1 / ((d.points + c.points : ℕ) : ℝ)) • ((d.points : ℝ) • d.mean + (c.points : ℝ) • c.mean) = m := by
    ext i
    simp only [m, pooledMean, exactFmt, id, Pi.smul_apply, Pi.add_apply, smul_eq_mul]
    ring
  have hs : (1 / (pred64 (d.points + c.points) : ℝ)) • ((pred64 c.points : ℝ) • c.cov +
      (pred64 d.points : ℝ) • d.cov + ((c.points : ℝ) / (d.points * (d.points + c.points) : ℕ)) •
        vecMulVec (((d.points : ℝ) / c.points) • (c.points : ℝ) • c.mean - (d.points : ℝ) • d.mean)
          (((d.points : ℝ) / c.points) • (c.points : ℝ) • c.mean - (d.points : ℝ) • d.mean)) = s := by
    rw [e1, e2, e3]
    ext i j
    simp only [s, pooledCov, gap, exactFmt, id, Matrix.of_apply, Matrix.smul_apply, Matrix.add_apply,
      vecMulVec_apply, Pi.sub_apply, Pi.smul_apply, smul_eq_mul]
    ring
  unfold NDT.merge
  rw [if_neg (by omega), if_neg (by rw [g2]; simp), if_pos g1]
  simp only [hm, hs]
  split_ifs with ho
  · exact ⟨rfl, rfl, .inl rfl⟩
  · exact ⟨rfl, rfl, .inr rfl⟩

/-! ### Instances -/

/-- Six points of a wall seen at 10 metres. -/
example : (lower (cov2 ieee (List.replicate 3 ![10, 0, 0] ++ List.replicate 3 ![10, 1 / 4, 0]))).PosDef :=
  (C148_ieee_partial (by simp) (by simp) (by
    intro p hp i
    simp only [List.mem_append, List.mem_replicate] at hp
    rcases hp with ⟨-, rfl⟩ | ⟨-, rfl⟩ <;> fin_cases i <;> simp <;> norm_num [abs_le])).2.2

/-- Two cells of a map, combined in `double`. -/
example : (lower (pooledCov ieee 6 8 ![10, 0, 0] ![10, 1 / 4, 0] ((1 / 10 : ℝ) • 1) ((1 / 5 : ℝ) • 1))).PosDef := by
  refine C148_pooled_posdef_partial (v := 2⁻¹ ^ 53) (R := 10) (K := 1 / 5) (lam := 1 / 10) (by positivity)
    (by norm_num) (binary_err 53) (by norm_num) (by norm_num) ?_ ?_ ?_ ?_ (by simp) (by simp) ?_ ?_ (by norm_num)
  · intro i; fin_cases i <;> simp
  · intro i; fin_cases i <;> simp <;> norm_num [abs_le]
  · intro i j; fin_cases i <;> fin_cases j <;> simp <;> norm_num [abs_le]
  · intro i j; fin_cases i <;> fin_cases j <;> simp <;> norm_num [abs_le]
  · intro x; rw [Matrix.smul_mulVec, Matrix.one_mulVec, dotProduct_smul, smul_eq_mul]
  · intro x
    rw [Matrix.smul_mulVec, Matrix.one_mulVec, dotProduct_smul, smul_eq_mul]
    have : 0 ≤ x ⬝ᵥ x := by simp only [dotProduct]; exact Finset.sum_nonneg fun i _ => mul_self_nonneg _
    linarith

/-- A thousand scans of a cell at 100 metres: the mean is exact to a nanometre. -/
example : ∀ i, |(pooledMeans ieee (6, ![100, 0, 0]) (List.replicate 1000 (6, ![99, 0, 0]))).2 i -
    (unionMeans (6, ![100, 0, 0]) (List.replicate 1000 (6, ![99, 0, 0]))).2 i| ≤ 1 / 10 ^ 9 := by
  intro i
  have h := (C148_drift_partial (F := ieee) (v := 2⁻¹ ^ 53) (R := 100) (n := 6) (m := ![100, 0, 0])
    (by positivity) (binary_err 53) (by norm_num) (by intro i; fin_cases i <;> simp)
    (List.replicate 1000 (6, ![99, 0, 0])) (by rw [List.length_replicate]; norm_num)
    (by
      intro c hc
      rw [List.mem_replicate] at hc
      rw [hc.2]
      refine ⟨by norm_num, ?_⟩
      intro i; fin_cases i <;> simp <;> norm_num [abs_le])).2 i
  refine h.trans ?_
  rw [List.length_replicate]
  norm_num

end Verif.Round
