import Verif.Round.CellLemmas

/- Rounding of mean and covariance: errors of the batch and of the pooled Gaussian (C148). -/
namespace Verif.Round

set_option linter.unusedSectionVars false

open Verif Verif.NDT Matrix

/-! ### The first batch -/

section
variable {F : Fmt ℝ} {v R : ℝ} {l : List Vec} (h0 : 0 ≤ v) (hd : ∀ x, |F.d x - x| ≤ v * |x|) (hne : l ≠ [])
  (hn : v * l.length ≤ 1 / 1000) (hR : 1 ≤ R) (hl : ∀ p ∈ l, ∀ i, |p i| ≤ R)

theorem len_pos (hne : l ≠ []) : (1 : ℝ) ≤ l.length := by
  exact_mod_cast List.length_pos_iff.2 hne

theorem v_le (h0 : 0 ≤ v) (hne : l ≠ []) : v ≤ v * l.length := by
  have := len_pos hne
  nlinarith

include h0 hd hne hn hR hl

theorem meanAdd_err (i : Fin 3) :
    |meanAdd F l i - first l i| ≤ 4 * (v * l.length) * (l.length * R) := by
  have h := sumD_err (F := F) h0 hd (a := 0) (B := R) (by simp; linarith) (l.map fun p => (p i, p i))
    (by
      intro x hx
      obtain ⟨p, hp, rfl⟩ := List.mem_map.1 hx
      exact ⟨by simp; positivity, hl p hp i⟩) (by simp; linarith)
  simp only [List.map_map, List.length_map, zero_add] at h
  unfold meanAdd first
  refine (le_of_eq ?_).trans (h.trans (le_of_eq (by ring)))
  rfl

theorem first_le (i : Fin 3) : |first l i| ≤ 1 * (l.length * R) := by
  have := sum_bound (l := l.map fun p => p i) (B := R) (by
    intro y hy
    obtain ⟨p, hp, rfl⟩ := List.mem_map.1 hy
    exact hl p hp i)
  rw [one_mul]
  simpa [first] using this

theorem covAdd_err (i j : Fin 3) :
    |covAdd F l i j - ((1 : Mat) i j + moment l i j)| ≤ 4 * (v * l.length) * (l.length * R ^ 2) := by
  have hpp : ∀ p ∈ l, |p i * p j| ≤ R ^ 2 := by
    intro p hp
    rw [abs_mul, sq]
    exact mul_le_mul (hl p hp i) (hl p hp j) (abs_nonneg _) (by linarith)
  have h := sumD_err (F := F) h0 hd (a := (1 : Mat) i j) (B := R ^ 2)
    (by
      rw [Matrix.one_apply]
      split_ifs
      · rw [abs_one]; nlinarith
      · rw [abs_zero]; positivity) (l.map fun p => (F.d (p i * p j), p i * p j))
    (by
      intro x hx
      obtain ⟨p, hp, rfl⟩ := List.mem_map.1 hx
      exact ⟨(hd _).trans (mul_le_mul_of_nonneg_left (hpp p hp) h0), hpp p hp⟩) (by simp; linarith)
  simp only [List.map_map, List.length_map] at h
  unfold covAdd moment
  refine (le_of_eq ?_).trans (h.trans (le_of_eq (by ring)))
  rfl

theorem covAdd_le (i j : Fin 3) : |(1 : Mat) i j + moment l i j| ≤ 2 * (l.length * R ^ 2) := by
  have h1 : |moment l i j| ≤ l.length * R ^ 2 := by
    have := sum_bound (l := l.map fun p => p i * p j) (B := R ^ 2) (by
      intro y hy
      obtain ⟨p, hp, rfl⟩ := List.mem_map.1 hy
      rw [abs_mul, sq]
      exact mul_le_mul (hl p hp i) (hl p hp j) (abs_nonneg _) (by linarith))
    simpa [moment] using this
  have h2 : |(1 : Mat) i j| ≤ l.length * R ^ 2 := by
    have := len_pos hne
    have : 1 ≤ R ^ 2 := by nlinarith
    rw [Matrix.one_apply]
    split_ifs
    · rw [abs_one]; nlinarith
    · rw [abs_zero]; positivity
  linarith [abs_add_le ((1 : Mat) i j) (moment l i j)]

theorem mean2_err (i : Fin 3) : |mean2 F l i - first l i / l.length| ≤ 6 * (v * l.length) * R := by
  have n1 := len_pos hne
  have h := div_err h0 (v_le h0 hne) hd (n := (l.length : ℝ)) (by linarith)
    (meanAdd_err h0 hd hne hn hR hl i) (first_le h0 hd hne hn hR hl i) (by positivity)
    (c := 6) (by linarith)
  rwa [mul_div_cancel_left₀ R (by linarith)] at h

theorem mean_le (i : Fin 3) : |first l i / l.length| ≤ R := by
  have n1 := len_pos hne
  have := first_le h0 hd hne hn hR hl i
  have npos : (0 : ℝ) < l.length := by linarith
  rw [abs_div, abs_of_pos npos, div_le_iff₀ npos]
  linarith

/-- The covariance of the first batch before the factor `(n - 1) / n`. -/
theorem covTemp_err (i j : Fin 3) :
    |covTemp F l i j - (((1 : Mat) i j + moment l i j - 2 * (first l i * (first l j / l.length))) / l.length +
      first l i / l.length * (first l j / l.length))| ≤ 62 * (v * l.length) * R ^ 2 ∧
    |((1 : Mat) i j + moment l i j - 2 * (first l i * (first l j / l.length))) / l.length +
      first l i / l.length * (first l j / l.length)| ≤ 5 * R ^ 2 := by
  have n1 := len_pos hne
  have hv := v_le h0 hne
  have npos : (0 : ℝ) < l.length := by linarith
  have ε0 : 0 ≤ v * l.length := by positivity
  have S0 : (0 : ℝ) ≤ l.length * R ^ 2 := by positivity
  have m1 := meanAdd_err h0 hd hne hn hR hl i
  have m2 := fun k => mean2_err h0 hd hne hn hR hl k
  have f1 := first_le h0 hd hne hn hR hl i
  have f2 := fun k => mean_le h0 hd hne hn hR hl k
  have c1 := covAdd_err h0 hd hne hn hR hl i j
  have c2 := covAdd_le h0 hd hne hn hR hl i j
  rw [one_mul] at f1
  generalize v * (l.length : ℝ) = ε at *
  generalize ((1 : Mat) i j + moment l i j) = A at *
  have g1 := mul_err h0 hv hd (by norm_num) m1 (m2 j) f1 (f2 j) (c := 12) (by nlinarith)
  have b1 : |first l i * (first l j / l.length)| ≤ l.length * R * R := by
    rw [abs_mul]; exact mul_le_mul f1 (f2 j) (abs_nonneg _) (by positivity)
  have g2 := mul_err h0 hv hd (a := 2) (a' := 2) (p := 0) (A := 2) (by norm_num) (by simp) g1 (by simp) b1
    (c := 14) (by nlinarith)
  have g2' : |F.d (2 * F.d (meanAdd F l i * mean2 F l j)) - 2 * (first l i * (first l j / l.length))|
      ≤ 28 * ε * (l.length * R ^ 2) := g2.trans (le_of_eq (by ring))
  have b2 : |A - 2 * (first l i * (first l j / l.length))| ≤ 4 * (l.length * R ^ 2) := by
    have := abs_sub A (2 * (first l i * (first l j / l.length)))
    rw [abs_mul 2, abs_two] at this
    nlinarith
  have g3 := sub_err h0 hv hd c1 g2' b2 S0 (c := 37) (by linarith)
  have g4 := div_err h0 hv hd npos g3 b2 S0 (c := 42) (by linarith)
  rw [mul_div_cancel_left₀ (R ^ 2) (by linarith)] at g4
  have g5 := mul_err h0 hv hd (by norm_num) (m2 i) (m2 j) (f2 i) (f2 j) (c := 14) (by nlinarith)
  rw [← sq] at g5
  have b3 : |(A - 2 * (first l i * (first l j / l.length))) / l.length +
      first l i / l.length * (first l j / l.length)| ≤ 5 * R ^ 2 := by
    have t1 : |(A - 2 * (first l i * (first l j / l.length))) / l.length| ≤ 4 * R ^ 2 := by
      rw [abs_div, abs_of_pos npos, div_le_iff₀ npos]
      linarith
    have t2 : |first l i / l.length * (first l j / l.length)| ≤ R ^ 2 := by
      rw [abs_mul, sq]; exact mul_le_mul (f2 i) (f2 j) (abs_nonneg _) (by linarith)
    exact (abs_add_le _ _).trans (by linarith)
  exact ⟨add_err h0 hv hd g4 g5 b3 (by positivity) (by linarith), b3⟩

theorem cov2_err (i j : Fin 3) : |cov2 F l i j - ((l.length - 1 : ℝ) / l.length ^ 2) *
    ((1 : Mat) i j + (moment l i j - first l i * first l j / l.length))| ≤ 75 * (v * l.length) * R ^ 2 := by
  have n1 := len_pos hne
  have hv := v_le h0 hne
  have npos : (0 : ℝ) < l.length := by linarith
  obtain ⟨e, b⟩ := covTemp_err h0 hd hne hn hR hl i j
  have w1 : |((l.length : ℝ) - 1) / l.length| ≤ 1 := by
    rw [abs_of_nonneg (div_nonneg (by linarith) npos.le), div_le_one npos]; linarith
  have w2 : |F.d (((l.length : ℝ) - 1) / l.length) - ((l.length : ℝ) - 1) / l.length| ≤
      1 * (v * l.length) * 1 := by
    refine (hd _).trans ?_
    rw [one_mul, mul_one]
    exact (mul_le_mul_of_nonneg_left w1 h0).trans (by linarith)
  have ε0 : 0 ≤ v * l.length := by positivity
  have e' : |covTemp F l i j - (((1 : Mat) i j + moment l i j - 2 * (first l i * (first l j / l.length))) /
      l.length + first l i / l.length * (first l j / l.length))| ≤
      (62 / 5) * (v * l.length) * (5 * R ^ 2) := e.trans (le_of_eq (by ring))
  have g := mul_err h0 hv hd (by norm_num) e' w2 b w1 (c := 15) (by nlinarith)
  simp only [cov2, Matrix.of_apply]
  refine (le_of_eq ?_).trans (g.trans (le_of_eq (by ring)))
  congr 2
  field_simp
  ring

end

/-! ### Two Gaussians -/

section
variable {F : Fmt ℝ} {v R K : ℝ} {n₁ n₂ : ℕ} {m₁ m₂ : Vec} {c₁ c₂ : Mat} (h0 : 0 ≤ v) (hv : v ≤ 1 / 1000)
  (hd : ∀ x, |F.d x - x| ≤ v * |x|) (hn₁ : 1 ≤ n₁) (hn₂ : 1 ≤ n₂)

include h0 hv hd hn₁ hn₂

theorem pooledMean_err {i : Fin 3} (h1 : |m₁ i| ≤ R) (h2 : |m₂ i| ≤ R) :
    |pooledMean F n₁ n₂ m₁ m₂ i - (n₁ * m₁ i + n₂ * m₂ i) / (n₁ + n₂ : ℝ)| ≤ 5 * v * R := by
  have a1 : (1 : ℝ) ≤ n₁ := by exact_mod_cast hn₁
  have a2 : (1 : ℝ) ≤ n₂ := by exact_mod_cast hn₂
  have R0 : 0 ≤ R := (abs_nonneg _).trans h1
  have k1 : |m₁ i * n₁| ≤ R * n₁ := by
    rw [abs_mul, Nat.abs_cast]; exact mul_le_mul_of_nonneg_right h1 (by linarith)
  have k2 : |m₂ i * n₂| ≤ R * n₂ := by
    rw [abs_mul, Nat.abs_cast]; exact mul_le_mul_of_nonneg_right h2 (by linarith)
  have e1 := (hd (m₁ i * n₁)).trans (mul_le_mul_of_nonneg_left k1 h0)
  have e2 := (hd (m₂ i * n₂)).trans (mul_le_mul_of_nonneg_left k2 h0)
  have k3 : |m₂ i * n₂ + m₁ i * n₁| ≤ 1 * ((n₁ + n₂) * R) := by
    linarith [abs_add_le (m₂ i * n₂) (m₁ i * n₁)]
  have e3 : |F.d (m₂ i * n₂) + F.d (m₁ i * n₁) - (m₂ i * n₂ + m₁ i * n₁)| ≤ v * ((n₁ + n₂) * R) := by
    rw [add_sub_add_comm]
    linarith [abs_add_le (F.d (m₂ i * n₂) - m₂ i * n₂) (F.d (m₁ i * n₁) - m₁ i * n₁)]
  have S0 : 0 ≤ (n₁ + n₂ : ℝ) * R := by positivity
  have e4 := round_err h0 le_rfl hd e3 k3
  have e5 : |F.d (F.d (m₂ i * n₂) + F.d (m₁ i * n₁)) - (m₂ i * n₂ + m₁ i * n₁)| ≤
      3 * v * ((n₁ + n₂) * R) := by
    refine e4.trans ?_
    have : v * (v * ((n₁ + n₂) * R)) ≤ 1 * (v * ((n₁ + n₂) * R)) :=
      mul_le_mul_of_nonneg_right (by linarith) (by positivity)
    linarith
  have e6 := div_err h0 le_rfl hd (n := (n₁ + n₂ : ℝ)) (by linarith) e5 k3 S0 (c := 5) (by linarith)
  rw [mul_div_cancel_left₀ R (by linarith)] at e6
  unfold pooledMean
  rw [Nat.cast_add, add_comm (n₂ : ℝ)]
  rwa [show (n₁ : ℝ) * m₁ i + n₂ * m₂ i = m₂ i * n₂ + m₁ i * n₁ by ring]

theorem gap_err {i : Fin 3} (h1 : |m₁ i| ≤ R) (h2 : |m₂ i| ≤ R) :
    |gap F n₁ n₂ m₁ m₂ i - n₂ * (m₁ i - m₂ i)| ≤ 4 * v * (2 * n₂ * R) ∧
      |n₂ * (m₁ i - m₂ i)| ≤ 2 * n₂ * R := by
  have a1 : (1 : ℝ) ≤ n₁ := by exact_mod_cast hn₁
  have a2 : (1 : ℝ) ≤ n₂ := by exact_mod_cast hn₂
  have R0 : 0 ≤ R := (abs_nonneg _).trans h1
  have k1 : |m₁ i * n₁| ≤ R * n₁ := by
    rw [abs_mul, Nat.abs_cast]; exact mul_le_mul_of_nonneg_right h1 (by linarith)
  have k2 : |m₂ i * n₂| ≤ n₂ * R := by
    rw [abs_mul, Nat.abs_cast, mul_comm]; exact mul_le_mul_of_nonneg_left h2 (by linarith)
  have e1 : |F.d (m₁ i * n₁) - m₁ i * n₁| ≤ 1 * v * (R * n₁) := by
    rw [one_mul]; exact (hd (m₁ i * n₁)).trans (mul_le_mul_of_nonneg_left k1 h0)
  have e2 : |F.d (m₂ i * n₂) - m₂ i * n₂| ≤ 1 * v * (n₂ * R) := by
    rw [one_mul]; exact (hd (m₂ i * n₂)).trans (mul_le_mul_of_nonneg_left k2 h0)
  have w0 : |(n₂ / n₁ : ℝ)| ≤ n₂ / n₁ := le_of_eq (abs_of_nonneg (by positivity))
  have e3 : |F.d (n₂ / n₁ : ℝ) - n₂ / n₁| ≤ 1 * v * (n₂ / n₁) := by
    rw [one_mul]; exact (hd _).trans (mul_le_mul_of_nonneg_left w0 h0)
  have e4 := mul_err h0 le_rfl hd (by norm_num) e3 e1 w0 k1 (c := 4) (by nlinarith)
  have n1 : (n₁ : ℝ) ≠ 0 := by linarith
  rw [show (n₂ / n₁ : ℝ) * (R * n₁) = n₂ * R by field_simp,
    show (n₂ / n₁ : ℝ) * (m₁ i * n₁) = n₂ * m₁ i by field_simp] at e4
  have k3 : |n₂ * m₁ i - m₂ i * n₂| ≤ 2 * (n₂ * R) := by
    have : |n₂ * m₁ i| ≤ n₂ * R := by
      rw [abs_mul, Nat.abs_cast]; exact mul_le_mul_of_nonneg_left h1 (by linarith)
    linarith [abs_sub (n₂ * m₁ i) (m₂ i * n₂)]
  have e5 := sub_err h0 le_rfl hd e4 e2 k3 (by positivity) (c := 8) (by linarith)
  have h : (n₂ : ℝ) * (m₁ i - m₂ i) = n₂ * m₁ i - m₂ i * n₂ := by ring
  rw [h]
  exact ⟨e5.trans (le_of_eq (by ring)), k3.trans (le_of_eq (by ring))⟩

theorem weight_err :
    |F.d (n₁ / F.d (n₂ * (n₂ + n₁) : ℕ)) - n₁ / (n₂ * (n₁ + n₂) : ℝ)| ≤
      3 * v * (n₁ / (n₂ * (n₁ + n₂) : ℝ)) := by
  have a1 : (1 : ℝ) ≤ n₁ := by exact_mod_cast hn₁
  have a2 : (1 : ℝ) ≤ n₂ := by exact_mod_cast hn₂
  have hD : ((n₂ * (n₂ + n₁) : ℕ) : ℝ) = n₂ * (n₁ + n₂) := by push_cast; ring
  have D0 : (0 : ℝ) < n₂ * (n₁ + n₂) := by positivity
  rw [hD]
  generalize (n₂ * (n₁ + n₂) : ℝ) = D at *
  have b := hd D
  rw [abs_of_pos D0] at b
  obtain ⟨b1, b2⟩ := abs_le.1 b
  have D1 : 0 < F.d D := by nlinarith
  have w0 : 0 ≤ (n₁ / D : ℝ) := by positivity
  have e1 : |(n₁ : ℝ) / F.d D - n₁ / D| ≤ 1001 / 999 * v * (n₁ / D) := by
    have : (n₁ : ℝ) / F.d D - n₁ / D = (n₁ / D) * ((D - F.d D) / F.d D) := by
      field_simp
    rw [this, abs_mul, abs_of_nonneg w0, mul_comm]
    refine mul_le_mul_of_nonneg_right ?_ w0
    rw [abs_div, abs_of_pos D1, div_le_iff₀ D1, abs_sub_comm]
    have : 999 / 1000 * D ≤ F.d D := by nlinarith
    nlinarith
  have e2 := round_err h0 le_rfl hd e1 (le_of_eq (abs_of_nonneg w0))
  have : v * (1001 / 999 * v * (n₁ / D)) ≤ 1 / 1000 * (1001 / 999 * v * (n₁ / D)) :=
    mul_le_mul_of_nonneg_right hv (by positivity)
  have : 0 ≤ v * (n₁ / D) := by positivity
  linarith

/-- The part of the means in the pooled covariance. -/
theorem between_err (h1 : ∀ i, |m₁ i| ≤ R) (h2 : ∀ i, |m₂ i| ≤ R) (i j : Fin 3) :
    |F.d (F.d (F.d (n₁ / F.d (n₂ * (n₂ + n₁) : ℕ)) * gap F n₁ n₂ m₁ m₂ i) * gap F n₁ n₂ m₁ m₂ j) -
      n₁ * n₂ / (n₁ + n₂) * ((m₁ i - m₂ i) * (m₁ j - m₂ j))| ≤ 60 * v * ((n₁ + n₂ - 1) * R ^ 2) ∧
    |n₁ * n₂ / (n₁ + n₂) * ((m₁ i - m₂ i) * (m₁ j - m₂ j))| ≤ 4 * ((n₁ + n₂ - 1) * R ^ 2) := by
  have a1 : (1 : ℝ) ≤ n₁ := by exact_mod_cast hn₁
  have a2 : (1 : ℝ) ≤ n₂ := by exact_mod_cast hn₂
  have hR : 0 ≤ R := (abs_nonneg _).trans (h1 0)
  have hw := weight_err (n₁ := n₁) (n₂ := n₂) h0 hv hd hn₁ hn₂
  obtain ⟨gi, bi⟩ := gap_err (n₁ := n₁) (n₂ := n₂) (m₁ := m₁) (m₂ := m₂) h0 hv hd hn₁ hn₂ (h1 i) (h2 i)
  obtain ⟨gj, bj⟩ := gap_err (n₁ := n₁) (n₂ := n₂) (m₁ := m₁) (m₂ := m₂) h0 hv hd hn₁ hn₂ (h1 j) (h2 j)
  have w0 : 0 ≤ (n₁ / (n₂ * (n₁ + n₂)) : ℝ) := by positivity
  have wa := le_of_eq (abs_of_nonneg w0)
  have p1 := mul_err h0 le_rfl hd (by norm_num) hw gi wa bi (c := 9) (by nlinarith only [h0, hv])
  have pb1 : |n₁ / (n₂ * (n₁ + n₂)) * (n₂ * (m₁ i - m₂ i))| ≤ n₁ / (n₂ * (n₁ + n₂)) * (2 * n₂ * R) := by
    rw [abs_mul, abs_of_nonneg w0]; exact mul_le_mul_of_nonneg_left bi w0
  have p2 := mul_err h0 le_rfl hd (by norm_num) p1 gj pb1 bj (c := 15) (by nlinarith only [h0, hv])
  have N0 : (n₁ + n₂ : ℝ) ≠ 0 := by linarith only [a1, a2]
  have n20 : (n₂ : ℝ) ≠ 0 := by linarith only [a2]
  have hq : (n₁ * n₂ / (n₁ + n₂) : ℝ) ≤ n₁ + n₂ - 1 := by
    rw [div_le_iff₀ (by linarith only [a1, a2])]
    nlinarith only [a1, a2]
  have q0 : 0 ≤ (n₁ * n₂ / (n₁ + n₂) : ℝ) := by positivity
  rw [show (n₁ / (n₂ * (n₁ + n₂)) * (n₂ * (m₁ i - m₂ i)) * (n₂ * (m₁ j - m₂ j)) : ℝ) =
      n₁ * n₂ / (n₁ + n₂) * ((m₁ i - m₂ i) * (m₁ j - m₂ j)) by field_simp,
    show (n₁ / (n₂ * (n₁ + n₂)) * (2 * n₂ * R) * (2 * n₂ * R) : ℝ) = 4 * (n₁ * n₂ / (n₁ + n₂) * R ^ 2) by
      field_simp; ring] at p2
  have pq : (n₁ * n₂ / (n₁ + n₂) : ℝ) * R ^ 2 ≤ (n₁ + n₂ - 1) * R ^ 2 :=
    mul_le_mul_of_nonneg_right hq (by positivity)
  refine ⟨p2.trans ?_, ?_⟩
  · have u1 := mul_le_mul_of_nonneg_left pq h0
    linarith only [u1]
  · have d : ∀ k, |m₁ k - m₂ k| ≤ 2 * R := fun k => by linarith only [abs_sub (m₁ k) (m₂ k), h1 k, h2 k]
    rw [abs_mul, abs_mul, abs_of_nonneg q0]
    have := mul_le_mul (d i) (d j) (abs_nonneg _) (by linarith only [hR])
    have := mul_le_mul_of_nonneg_left this q0
    linarith only [this, pq]

/-- The part of the covariances in the pooled covariance. -/
theorem within_err (hK : 0 ≤ K) (i j : Fin 3) (k1 : |c₁ i j| ≤ K) (k2 : |c₂ i j| ≤ K) :
    |F.d (F.d (c₁ i j * (n₁ - 1)) + F.d (c₂ i j * (n₂ - 1))) - (c₁ i j * (n₁ - 1) + c₂ i j * (n₂ - 1))| ≤
      3 * v * ((n₁ + n₂ - 1) * K) ∧
    |c₁ i j * (n₁ - 1) + c₂ i j * (n₂ - 1)| ≤ (n₁ + n₂ - 1) * K := by
  have a1 : (1 : ℝ) ≤ n₁ := by exact_mod_cast hn₁
  have a2 : (1 : ℝ) ≤ n₂ := by exact_mod_cast hn₂
  have s1 : |c₁ i j * (n₁ - 1)| ≤ K * (n₁ - 1) := by
    rw [abs_mul, abs_of_nonneg (by linarith : (0 : ℝ) ≤ n₁ - 1)]
    exact mul_le_mul_of_nonneg_right k1 (by linarith)
  have s2 : |c₂ i j * (n₂ - 1)| ≤ K * (n₂ - 1) := by
    rw [abs_mul, abs_of_nonneg (by linarith : (0 : ℝ) ≤ n₂ - 1)]
    exact mul_le_mul_of_nonneg_right k2 (by linarith)
  have t1 := (hd (c₁ i j * (n₁ - 1))).trans (mul_le_mul_of_nonneg_left s1 h0)
  have t2 := (hd (c₂ i j * (n₂ - 1))).trans (mul_le_mul_of_nonneg_left s2 h0)
  have vK := mul_nonneg h0 hK
  have t3 : |F.d (c₁ i j * (n₁ - 1)) + F.d (c₂ i j * (n₂ - 1)) - (c₁ i j * (n₁ - 1) + c₂ i j * (n₂ - 1))| ≤
      v * ((n₁ + n₂ - 1) * K) := by
    rw [add_sub_add_comm]
    have := abs_add_le (F.d (c₁ i j * (n₁ - 1)) - c₁ i j * (n₁ - 1))
      (F.d (c₂ i j * (n₂ - 1)) - c₂ i j * (n₂ - 1))
    linarith only [this, vK, t1, t2]
  have s3 : |c₁ i j * (n₁ - 1) + c₂ i j * (n₂ - 1)| ≤ (n₁ + n₂ - 1) * K := by
    linarith only [abs_add_le (c₁ i j * (n₁ - 1)) (c₂ i j * (n₂ - 1)), s1, s2, hK]
  have t4 := round_err h0 le_rfl hd t3 s3
  have S0 : (0 : ℝ) ≤ n₁ + n₂ - 1 := by linarith only [a1, a2]
  have SK : (0 : ℝ) ≤ (n₁ + n₂ - 1) * K := mul_nonneg S0 hK
  refine ⟨t4.trans ?_, s3⟩
  have u1 : v * (v * ((n₁ + n₂ - 1) * K)) ≤ 1 * (v * ((n₁ + n₂ - 1) * K)) :=
    mul_le_mul_of_nonneg_right (by linarith only [hv]) (mul_nonneg h0 SK)
  linarith only [u1]

theorem pooledCov_err (hK : 0 ≤ K) (h1 : ∀ i, |m₁ i| ≤ R) (h2 : ∀ i, |m₂ i| ≤ R)
    (k1 : ∀ i j, |c₁ i j| ≤ K) (k2 : ∀ i j, |c₂ i j| ≤ K) (i j : Fin 3) :
    |pooledCov F n₁ n₂ m₁ m₂ c₁ c₂ i j - ((n₁ - 1) * c₁ i j + (n₂ - 1) * c₂ i j +
      n₁ * n₂ / (n₁ + n₂) * ((m₁ i - m₂ i) * (m₁ j - m₂ j))) / (n₁ + n₂ - 1)| ≤ 80 * v * (K + R ^ 2) := by
  have a1 : (1 : ℝ) ≤ n₁ := by exact_mod_cast hn₁
  have a2 : (1 : ℝ) ≤ n₂ := by exact_mod_cast hn₂
  obtain ⟨p, pb⟩ := between_err h0 hv hd hn₁ hn₂ h1 h2 i j
  obtain ⟨t, tb⟩ := within_err h0 hv hd hn₁ hn₂ hK i j (k1 i j) (k2 i j)
  simp only [pooledCov, Matrix.of_apply]
  rw [show (n₂ + n₁ - 1 : ℝ) = n₁ + n₂ - 1 by ring]
  have h3 : (n₁ - 1) * c₁ i j + (n₂ - 1) * c₂ i j = c₁ i j * (n₁ - 1) + c₂ i j * (n₂ - 1) := by ring
  rw [h3]
  have M0 : (0 : ℝ) < n₁ + n₂ - 1 := by linarith only [a1, a2]
  generalize F.d (F.d (F.d (n₁ / F.d (n₂ * (n₂ + n₁) : ℕ)) * gap F n₁ n₂ m₁ m₂ i) * gap F n₁ n₂ m₁ m₂ j) =
    x at *
  generalize n₁ * n₂ / (n₁ + n₂) * ((m₁ i - m₂ i) * (m₁ j - m₂ j)) = x' at *
  generalize F.d (F.d (c₁ i j * (n₁ - 1)) + F.d (c₂ i j * (n₂ - 1))) = y at *
  generalize c₁ i j * (n₁ - 1) + c₂ i j * (n₂ - 1) = y' at *
  generalize (n₁ + n₂ - 1 : ℝ) = M at *
  have SK : (0 : ℝ) ≤ M * K := mul_nonneg M0.le hK
  have SR : (0 : ℝ) ≤ M * R ^ 2 := mul_nonneg M0.le (sq_nonneg _)
  have t5 : |y - y'| ≤ 3 * v * (M * (K + R ^ 2)) := by
    have := mul_nonneg h0 SR
    linarith only [t, this]
  have p3 : |x - x'| ≤ 60 * v * (M * (K + R ^ 2)) := by
    have := mul_nonneg h0 SK
    linarith only [p, this]
  have b4 : |y' + x'| ≤ 4 * (M * (K + R ^ 2)) := by
    linarith only [abs_add_le y' x', pb, tb, SK, SR]
  have q1 := add_err h0 le_rfl hd t5 p3 b4 (by linarith only [SK, SR]) (c := 68) (by linarith only [hv])
  have i0 : 0 ≤ 1 / M := by positivity
  have q2 : |F.d (1 / M) - 1 / M| ≤ 1 * v * (1 / M) := by
    have := hd (1 / M)
    rw [abs_of_nonneg i0] at this
    linarith only [this]
  have q1' := q1.trans (le_of_eq (by ring : _ = 17 * v * (4 * (M * (K + R ^ 2)))))
  have q3 := mul_err h0 le_rfl hd (by norm_num) q2 q1' (le_of_eq (abs_of_nonneg i0)) b4 (c := 20)
    (by nlinarith only [h0, hv])
  rw [show 1 / M * (4 * (M * (K + R ^ 2))) = 4 * (K + R ^ 2) by field_simp] at q3
  rw [show (y' + x') / M = 1 / M * (y' + x') by ring]
  exact q3.trans (le_of_eq (by ring))

end

end Verif.Round
