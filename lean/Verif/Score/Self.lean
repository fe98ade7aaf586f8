import Verif.Score.Props
import Verif.Newton.Props

/-
C140: whether the right alignment is a stationary point of the score.
-/
namespace Verif.Score

open Verif Verif.Geo Verif.Newton Matrix

/-! ### Specification -/

/-- A Gaussian of the plane: mean and covariance. -/
abbrev Gauss := Vec × Mat

/-- A Gaussian moved by the parameters `v`. -/
noncomputable def moveGauss (v : Vec) (g : Gauss) : Gauss :=
  (rotZ (v 2) *ᵥ g.1 + ![v 0, v 1, 0], rotZ (v 2) * g.2 * (rotZ (v 2))ᵀ)

/-- The pairs of Gaussians the matcher compares at `v`: every moved source cell with every target cell found for it. -/
noncomputable def comparedPairs (knn : ℝ × ℝ → List Cell) (source : List Cell) (v : Vec) : List (Gauss × Gauss) :=
  source.flatMap fun c =>
    let g := moveGauss v (c.mean, c.cov)
    (knn (g.1 0, g.1 1)).map fun t => (g, (t.mean, t.cov))

/-- The comparison is mutual: a Gaussian is compared with another as often as the other with it.  This says that the
two maps coincide as far as they are compared, and that being one of the nearest is mutual. -/
def Mutual (pairs : List (Gauss × Gauss)) : Prop := pairs.Perm (pairs.map Prod.swap)

/-- `found` are `k` nearest of `cells` at a position: they are among the cells, without repetition, as many as asked
for, and no other cell is nearer. -/
def Nearest (k : ℕ) (cells : List Cell) (pos : ℝ × ℝ) (found : List Cell) : Prop :=
  found.Subperm cells ∧ found.length = min k cells.length ∧
    ∀ c ∈ found, ∀ d ∈ cells, d ∉ found →
      (c.mean 0 - pos.1) ^ 2 + (c.mean 1 - pos.2) ^ 2 ≤ (d.mean 0 - pos.1) ^ 2 + (d.mean 1 - pos.2) ^ 2

/-! ### Lemmas -/

theorem foldl_gradient {α : Type} (f : α → Score) (l : List α) :
    ∀ z : Score, (l.foldl (fun r a => r.add (f a)) z).gradient = z.gradient + (l.map fun a => (f a).gradient).sum := by
  induction l with
  | nil => intro z; simp
  | cons a l ih =>
    intro z
    rw [List.foldl_cons, ih, List.map_cons, List.sum_cons]
    show z.gradient + (f a).gradient + _ = _
    rw [add_assoc]

/-- Gradient of the score of a pair of Gaussians. -/
noncomputable def pairGradient (p : FittingParams) (b : Bool) (q : Gauss × Gauss) : Vec :=
  (cellScore q.1.1 q.1.2 ⟨q.2.1, q.2.2, 0⟩ (computeDerivatives q.1.1 q.1.2 b) p b).gradient

theorem d2d_gradient (knn : ℝ × ℝ → List Cell) (source : List Cell) (v : Vec) (p : FittingParams) (b : Bool) :
    (d2dScore knn source v p b).gradient = ((comparedPairs knn source v).map (pairGradient p b)).sum := by
  unfold d2dScore
  rw [foldl_gradient]
  show (0 : Vec) + _ = _
  rw [zero_add, comparedPairs, List.map_flatMap]
  induction source with
  | nil => rfl
  | cons c l ih =>
    rw [List.map_cons, List.sum_cons, ih, List.flatMap_cons, List.sum_append]
    congr 1
    unfold sourceCellScore
    simp only
    rw [foldl_gradient]
    show (0 : Vec) + _ = _
    rw [zero_add, List.map_map]
    rfl

theorem pair_swap (p : FittingParams) (b : Bool) (q : Gauss × Gauss) (h1 : q.1.2ᵀ = q.1.2) (h2 : q.2.2ᵀ = q.2.2) :
    pairGradient p b q.swap = -pairGradient p b q := by
  obtain ⟨⟨m, c⟩, ⟨m', c'⟩⟩ := q
  simp only [pairGradient, Prod.swap, cellScore] at *
  rw [add_comm c c']
  by_cases hd : |(c' + c).det| ≤ 1e-12
  · rw [if_pos hd, if_pos hd]
    show (0 : Vec) = -0
    simp
  · rw [if_neg hd, if_neg hd]
    have hne : (c' + c).det ≠ 0 := fun e => hd (by rw [e, abs_zero]; norm_num)
    have hsym : (c' + c)ᵀ = c' + c := by rw [Matrix.transpose_add, h1, h2]
    have hB := inv_sym hsym
    have hunit : IsUnit (c' + c).det := isUnit_iff_ne_zero.2 hne
    have hBC : (c' + c)⁻¹ * (c' + c) = 1 := Matrix.nonsing_inv_mul _ hunit
    have hCB : (c' + c) * (c' + c)⁻¹ = 1 := Matrix.mul_nonsing_inv _ hunit
    generalize hB' : (c' + c)⁻¹ = B at *
    have hz : ∀ (x : Vec) {k : Mat}, kᵀ = k → (computeDerivatives x k b).zest 2 = gen * k + k * genᵀ := fun x k hk => by
      have := zest_eq x hk b 2
      simpa [covD, movedCov_zero] using this
    have e : m' - m = -(m - m') := by simp
    simp only [e, Matrix.neg_vecMul, Matrix.mulVec_neg, neg_dotProduct, dotProduct_neg, neg_neg]
    generalize hk : -p.d2half * (-p.d1 * Real.exp (-p.d2half * ((m - m') ⬝ᵥ (B *ᵥ (m - m'))))) = k
    rw [← smul_neg]
    congr 1
    funext i
    simp only [Pi.sub_apply, Pi.smul_apply, Pi.neg_apply, smul_eq_mul]
    by_cases hi : i = 2
    · subst hi
      simp only [if_true]
      rw [hz m' h2, hz m h1]
      have hj : ∀ (x : Vec) (k : Mat) (y : Vec), (y ᵥ* (computeDerivatives x k b).jest) 2 = y ⬝ᵥ (gen *ᵥ x) := by
        intro x k y
        simp [computeDerivatives, Matrix.vecMul, dotProduct, Fin.sum_univ_three, gen, Matrix.mulVec]
      rw [hj, hj]
      set d := m - m' with hdd
      have hv : d ᵥ* B = B *ᵥ d := vecMul_sym hB d
      -- the moments add up
      have key : d ᵥ* B ᵥ* (gen * c' + c' * genᵀ) ᵥ* B ⬝ᵥ d + d ᵥ* B ᵥ* (gen * c + c * genᵀ) ᵥ* B ⬝ᵥ d =
          2 * (d ᵥ* B ⬝ᵥ gen *ᵥ d) := by
        rw [← add_dotProduct, ← Matrix.add_vecMul, ← Matrix.vecMul_add]
        have e1 : gen * c' + c' * genᵀ + (gen * c + c * genᵀ) = gen * (c' + c) + (c' + c) * genᵀ := by
          rw [Matrix.mul_add, Matrix.add_mul]; abel
        rw [e1]
        have e2 : d ᵥ* B ᵥ* (gen * (c' + c) + (c' + c) * genᵀ) ᵥ* B = d ᵥ* (B * gen + genᵀ * B) := by
          simp only [Matrix.vecMul_vecMul]
          congr 1
          rw [Matrix.mul_add, Matrix.add_mul]
          congr 1
          · rw [← Matrix.mul_assoc, Matrix.mul_assoc, hCB, Matrix.mul_one]
          · rw [← Matrix.mul_assoc B, hBC, Matrix.one_mul]
        rw [e2, Matrix.vecMul_add, add_dotProduct, two_mul]
        congr 1
        · rw [← Matrix.vecMul_vecMul, ← Matrix.dotProduct_mulVec]
        · rw [← Matrix.vecMul_vecMul, Matrix.vecMul_transpose, ← Matrix.dotProduct_mulVec, dotProduct_comm, hv]
      have hs : d ᵥ* B ⬝ᵥ gen *ᵥ d = d ᵥ* B ⬝ᵥ gen *ᵥ m - d ᵥ* B ⬝ᵥ gen *ᵥ m' := by
        rw [← dotProduct_sub, ← Matrix.mulVec_sub]
      linarith
    · simp only [if_neg hi, sub_zero]
      have hj : ∀ (x : Vec) (k : Mat) (y : Vec), (y ᵥ* (computeDerivatives x k b).jest) i =
          (y ᵥ* (computeDerivatives 0 0 b).jest) i := by
        intro x k y
        fin_cases i
        · simp [computeDerivatives, Matrix.vecMul, dotProduct, Fin.sum_univ_three]
        · simp [computeDerivatives, Matrix.vecMul, dotProduct, Fin.sum_univ_three]
        · exact absurd rfl hi
      rw [hj, hj m]
      simp

/-! ### C140 -/

/-- C140 (what holds).  The gradient of the distribution-to-distribution score is zero at every transform that lays the
source on the target such that being compared is mutual.

Missing: the nearest two cells of the code are not mutual in general (`C140_false`). -/
theorem C140_mutual_partial (knn : ℝ × ℝ → List Cell) (source : List Cell) (v : Vec) (p : FittingParams) (b : Bool)
    (hsym : ∀ q ∈ comparedPairs knn source v, q.1.2ᵀ = q.1.2 ∧ q.2.2ᵀ = q.2.2)
    (hm : Mutual (comparedPairs knn source v)) : (d2dScore knn source v p b).gradient = 0 := by
  rw [d2d_gradient]
  have h1 := (hm.map (pairGradient p b)).sum_eq
  rw [List.map_map] at h1
  have h2 : (comparedPairs knn source v).map (pairGradient p b ∘ Prod.swap) =
      (comparedPairs knn source v).map fun q => -pairGradient p b q :=
    List.map_congr_left fun q hq => pair_swap p b q (hsym q hq).1 (hsym q hq).2
  rw [h2] at h1
  have h3 : ∀ l : List (Gauss × Gauss), (l.map fun q => -pairGradient p b q).sum = -(l.map (pairGradient p b)).sum := by
    intro l
    induction l with
    | nil => simp
    | cons a l ih => rw [List.map_cons, List.sum_cons, ih, List.map_cons, List.sum_cons, neg_add]
  rw [h3] at h1
  exact self_eq_neg.1 h1

/-- C140 (one neighbour).  If every moved source cell is compared only with the target cell it lies on, as it would be
with one nearest cell instead of two, the right alignment is stationary. -/
theorem C140_one (knn : ℝ × ℝ → List Cell) (source : List Cell) (v : Vec) (p : FittingParams) (b : Bool)
    (hs : ∀ c ∈ source, c.covᵀ = c.cov)
    (hk : ∀ c ∈ source, ∃ i, knn ((moveGauss v (c.mean, c.cov)).1 0, (moveGauss v (c.mean, c.cov)).1 1) =
      [⟨(moveGauss v (c.mean, c.cov)).1, (moveGauss v (c.mean, c.cov)).2, i⟩]) :
    (d2dScore knn source v p b).gradient = 0 := by
  have hp : ∀ q ∈ comparedPairs knn source v, q.1 = q.2 ∧ q.1.2ᵀ = q.1.2 := by
    intro q hq
    simp only [comparedPairs, List.mem_flatMap] at hq
    obtain ⟨c, hc, hq⟩ := hq
    obtain ⟨i, hi⟩ := hk c hc
    rw [hi, List.map_singleton, List.mem_singleton] at hq
    subst hq
    refine ⟨rfl, ?_⟩
    show (rotZ (v 2) * c.cov * (rotZ (v 2))ᵀ)ᵀ = _
    rw [Matrix.transpose_mul, Matrix.transpose_mul, Matrix.transpose_transpose, hs c hc, ← Matrix.mul_assoc]
    rfl
  refine C140_mutual_partial knn source v p b (fun q hq => ⟨(hp q hq).2, (hp q hq).1 ▸ (hp q hq).2⟩) ?_
  have : (comparedPairs knn source v).map Prod.swap = comparedPairs knn source v := by
    conv_rhs => rw [← List.map_id (comparedPairs knn source v)]
    refine List.map_congr_left fun q hq => ?_
    obtain ⟨a, c⟩ := q
    have := (hp _ hq).1
    simp only at this
    rw [this]
    rfl
  unfold Mutual
  rw [this]

/-! ### Counterexamples -/

/-- Three cells in a row. -/
noncomputable def rowCells : List Cell := [halfCell ![0, 0, 0], halfCell ![1, 0, 0], halfCell ![3, 0, 0]]

/-- Two nearest cells of the row. -/
noncomputable def rowNearest (pos : ℝ × ℝ) : List Cell :=
  if pos.1 ≤ 1 / 2 then [halfCell ![0, 0, 0], halfCell ![1, 0, 0]]
  else if pos.1 ≤ 3 / 2 then [halfCell ![1, 0, 0], halfCell ![0, 0, 0]]
  else if pos.1 ≤ 2 then [halfCell ![1, 0, 0], halfCell ![3, 0, 0]]
  else [halfCell ![3, 0, 0], halfCell ![1, 0, 0]]

theorem row_nearest (pos : ℝ × ℝ) : Nearest 2 rowCells pos (rowNearest pos) := by
  unfold rowNearest
  split_ifs with h1 h2 h3
  · refine ⟨(List.Sublist.subperm (by simp [rowCells])), rfl, ?_⟩
    intro c hc d hd hn
    simp only [rowCells, List.mem_cons, List.not_mem_nil, or_false, not_or] at hc hd hn
    have : d = halfCell ![3, 0, 0] := by tauto
    subst this
    rcases hc with rfl | rfl <;> simp [halfCell] <;> nlinarith
  · refine ⟨(List.Perm.swap _ _ _).subperm.trans (List.Sublist.subperm (by simp [rowCells])), rfl, ?_⟩
    intro c hc d hd hn
    simp only [rowCells, List.mem_cons, List.not_mem_nil, or_false, not_or] at hc hd hn
    have : d = halfCell ![3, 0, 0] := by tauto
    subst this
    rcases hc with rfl | rfl <;> simp [halfCell] <;> nlinarith
  · refine ⟨(List.Sublist.subperm (by simp [rowCells])), rfl, ?_⟩
    intro c hc d hd hn
    simp only [rowCells, List.mem_cons, List.not_mem_nil, or_false, not_or] at hc hd hn
    have : d = halfCell ![0, 0, 0] := by tauto
    subst this
    rcases hc with rfl | rfl <;> simp [halfCell] <;> nlinarith
  · refine ⟨(List.Perm.swap _ _ _).subperm.trans (List.Sublist.subperm (by simp [rowCells])), rfl, ?_⟩
    intro c hc d hd hn
    simp only [rowCells, List.mem_cons, List.not_mem_nil, or_false, not_or] at hc hd hn
    have : d = halfCell ![0, 0, 0] := by tauto
    subst this
    rcases hc with rfl | rfl <;> simp [halfCell] <;> nlinarith

theorem half_half : (0.5 : ℝ) • (1 : Mat) + (0.5 : ℝ) • (1 : Mat) = 1 := by
  rw [← add_smul]; norm_num

/-- Gradient by x and y of a pair of round cells of the same size. -/
theorem half_gradient (p : FittingParams) (b : Bool) (m m' : Vec) (i : Fin 3) (hi : i ≠ 2) :
    pairGradient p b ((m, (0.5 : ℝ) • 1), (m', (0.5 : ℝ) • 1)) i =
      -p.d2half * (-p.d1 * Real.exp (-p.d2half * ((m - m') ⬝ᵥ (m - m')))) * (2 * (m i - m' i)) := by
  unfold pairGradient cellScore
  simp only [half_half]
  rw [if_neg (by norm_num)]
  simp only [Pi.smul_apply, Pi.sub_apply, if_neg hi, inv_one, Matrix.one_mulVec, Matrix.vecMul_one]
  have : ((m - m') ᵥ* (computeDerivatives m ((0.5 : ℝ) • (1 : Mat)) b).jest) i = m i - m' i := by
    fin_cases i
    · simp [computeDerivatives, Matrix.vecMul, dotProduct, Fin.sum_univ_three]
    · simp [computeDerivatives, Matrix.vecMul, dotProduct, Fin.sum_univ_three]
    · exact absurd rfl hi
  rw [this]
  simp

theorem move_zero (g : Gauss) : moveGauss 0 g = g := by
  unfold moveGauss
  simp only [Pi.zero_apply]
  rw [rotZ_zero, Matrix.one_mulVec, Matrix.transpose_one, Matrix.mul_one, Matrix.one_mul]
  ext i
  · fin_cases i <;> simp
  · rfl

theorem row_pairs : comparedPairs rowNearest rowCells 0 =
    [((![0, 0, 0], (0.5 : ℝ) • 1), (![0, 0, 0], (0.5 : ℝ) • 1)), ((![0, 0, 0], (0.5 : ℝ) • 1), (![1, 0, 0], (0.5 : ℝ) • 1)),
     ((![1, 0, 0], (0.5 : ℝ) • 1), (![1, 0, 0], (0.5 : ℝ) • 1)), ((![1, 0, 0], (0.5 : ℝ) • 1), (![0, 0, 0], (0.5 : ℝ) • 1)),
     ((![3, 0, 0], (0.5 : ℝ) • 1), (![3, 0, 0], (0.5 : ℝ) • 1)), ((![3, 0, 0], (0.5 : ℝ) • 1), (![1, 0, 0], (0.5 : ℝ) • 1))] := by
  have h1 : ¬ ((1 : ℝ) ≤ 2⁻¹) := by norm_num
  have h2 : (1 : ℝ) ≤ 3 / 2 := by norm_num
  have h3 : ¬ ((3 : ℝ) ≤ 2⁻¹) := by norm_num
  have h4 : ¬ ((3 : ℝ) ≤ 3 / 2) := by norm_num
  have h5 : ¬ ((3 : ℝ) ≤ 2) := by norm_num
  simp only [comparedPairs, rowCells, List.flatMap_cons, List.flatMap_nil, move_zero, halfCell, rowNearest]
  simp [h1, h2, h3, h4, h5]

/-- C140 is false of the code for the distribution-to-distribution matcher: for every choice of parameters the gradient
for a map matched with itself at the identity is not zero, with two nearest cells as in the code. -/
theorem C140_false {o r : ℝ} (ho : 0 < o) (ho1 : o < 1) (hr : 0 < r) (b : Bool) :
    ∃ (cells : List Cell) (knn : ℝ × ℝ → List Cell), (∀ c ∈ cells, c.cov.PosDef) ∧
      (∀ pos, Nearest 2 cells pos (knn pos)) ∧ (d2dScore knn cells 0 (.mk' o r) b).gradient ≠ 0 := by
  obtain ⟨s1, s2, s3⟩ := fit_signs ho ho1 hr
  refine ⟨rowCells, rowNearest, ?_, row_nearest, fun h => ?_⟩
  · intro c hc
    have : c.cov = (0.5 : ℝ) • (1 : Mat) := by
      simp only [rowCells, List.mem_cons, List.not_mem_nil, or_false] at hc
      rcases hc with rfl | rfl | rfl <;> rfl
    rw [this]
    exact Matrix.PosDef.one.smul (by norm_num)
  · have e := congrFun h 0
    rw [d2d_gradient, row_pairs] at e
    simp only [List.map_cons, List.map_nil, List.sum_cons, List.sum_nil, Pi.add_apply, Pi.zero_apply,
      half_gradient _ _ _ _ (0 : Fin 3) (by decide)] at e
    have hd : (FittingParams.mk' o r).d2half = (FittingParams.mk' o r).d2 / 2 := rfl
    rw [hd] at e
    simp [dotProduct, Fin.sum_univ_three] at e
    norm_num at e
    rcases e with e | e
    · exact s2.ne' e
    · exact s1.ne e

/-- Four points. -/
def fourPoints : List (ℝ × ℝ) := [(-1, 1), (-1, -1), (-1, 0), (3, 0)]

/-- The cell of the four points: their mean, their sample covariance (with 1 for the height) and its inverse. -/
noncomputable def fourCell : Cell := ⟨0, Matrix.diagonal ![4, 2 / 3, 1], Matrix.diagonal ![1 / 4, 3 / 2, 1]⟩

/-- Mean and covariance are those of the four points. -/
example : (fourPoints.map Prod.fst).sum / 4 = fourCell.mean 0 ∧ (fourPoints.map Prod.snd).sum / 4 = fourCell.mean 1 ∧
    (fourPoints.map fun q => q.1 * q.1).sum / 3 = fourCell.cov 0 0 ∧
    (fourPoints.map fun q => q.1 * q.2).sum / 3 = fourCell.cov 0 1 ∧
    (fourPoints.map fun q => q.2 * q.2).sum / 3 = fourCell.cov 1 1 ∧ fourCell.cov * fourCell.icov = 1 := by
  refine ⟨?_, ?_, ?_, ?_, ?_, ?_⟩
  · simp [fourPoints, fourCell]; norm_num
  · simp [fourPoints, fourCell]
  · simp [fourPoints, fourCell]; norm_num
  · simp [fourPoints, fourCell]
  · simp [fourPoints, fourCell]; norm_num
  · simp only [fourCell, Matrix.diagonal_mul_diagonal]
    rw [← Matrix.diagonal_one]
    congr 1
    funext i
    fin_cases i <;> simp

theorem fourCell_psd : fourCell.icov.PosSemidef := by
  refine Matrix.PosSemidef.diagonal fun i => ?_
  fin_cases i <;> simp
  norm_num

/-- C140 is false of the code for the point-to-distribution matcher: for every choice of parameters the gradient for
four points matched at the identity with the cell made of them is not zero. -/
theorem C140_points_false {o r : ℝ} (ho : 0 < o) (ho1 : o < 1) (hr : 0 < r) :
    (ndtScore (fun _ => [fourCell]) fourPoints 0 (.mk' o r)).gradient ≠ 0 := by
  obtain ⟨s1, s2, s3⟩ := fit_signs ho ho1 hr
  intro h
  have e := congrFun h 0
  have hd : (FittingParams.mk' o r).d2half = (FittingParams.mk' o r).d2 / 2 := rfl
  simp only [ndtScore, fourPoints, List.foldl_cons, List.foldl_nil, pointScore_eq s2 s3 hd _ _ fourCell_psd, Score.add,
    Score.zero, Pi.add_apply, Pi.zero_apply] at e
  simp [partGrad, cellQuad, quad, dx, dy, fourCell] at e
  norm_num at e
  rw [hd] at e
  generalize hk : (FittingParams.mk' o r).d2 = k at *
  have m1 : Real.exp (-(k / 2 * (9 / 4))) < Real.exp (-(k / 2 * (7 / 4))) := Real.exp_lt_exp.2 (by linarith)
  have m2 : Real.exp (-(k / 2 * (9 / 4))) < Real.exp (-(k / 2 * (1 / 4))) := Real.exp_lt_exp.2 (by linarith)
  have hne : (FittingParams.mk' o r).d1 * k ≠ 0 := mul_ne_zero s1.ne s2.ne'
  have e' : (FittingParams.mk' o r).d1 * k * (3 * Real.exp (-(k / 2 * (9 / 4))) - 2 * Real.exp (-(k / 2 * (7 / 4))) -
      Real.exp (-(k / 2 * (1 / 4)))) = 0 := by linear_combination 4 * e
  rcases mul_eq_zero.1 e' with h1 | h1
  · exact hne h1
  · linarith

/-! ### Consequence -/

/-- C140 (what is reported).  Where the right alignment is a stationary point and the Hessian is regular, the matcher
started there reports failure (see C96). -/
theorem C140_reported (cfg : Config) (knn : ℝ × ℝ → List Cell) (source : List Cell) (p : FittingParams)
    (trial : Vec → Score) (solve : Score → Option Vec) (layers : List Env) (r : Report) (guess : Trans)
    (hsym : ∀ q ∈ comparedPairs knn source (matToVec guess), q.1.2ᵀ = q.1.2 ∧ q.2.2ᵀ = q.2.2)
    (hm : Mutual (comparedPairs knn source (matToVec guess))) (hs : SolvesNewton solve)
    (hh : (d2dScore knn source (matToVec guess) p true).hessian.det ≠ 0) :
    d2dTransformation cfg (⟨fun x => d2dScore knn source x p true, trial, solve⟩ :: layers) r guess =
      some ⟨false, guess, 1, 1⟩ :=
  (C96_false cfg ⟨fun x => d2dScore knn source x p true, trial, solve⟩ layers r guess hs
    (C140_mutual_partial knn source _ p true hsym hm) hh).1

/-- Two cells, each compared with itself. -/
noncomputable def twoNearest (pos : ℝ × ℝ) : List Cell := if pos.1 ≤ 0 then [halfCell ![-1, 0, 0]] else [halfCell ![1, 0, 0]]

theorem two_pairs : comparedPairs twoNearest [halfCell ![-1, 0, 0], halfCell ![1, 0, 0]] 0 =
    [((![-1, 0, 0], (0.5 : ℝ) • 1), (![-1, 0, 0], (0.5 : ℝ) • 1)), ((![1, 0, 0], (0.5 : ℝ) • 1), (![1, 0, 0], (0.5 : ℝ) • 1))] := by
  simp only [comparedPairs, List.flatMap_cons, List.flatMap_nil, move_zero, halfCell, twoNearest]
  have h : ¬ ((1 : ℝ) ≤ 0) := by norm_num
  simp [h]

example : Mutual (comparedPairs twoNearest [halfCell ![-1, 0, 0], halfCell ![1, 0, 0]] (matToVec 1)) := by
  rw [matToVec_one, two_pairs]
  exact List.Perm.refl _

/-- A mutual comparison with different cells. -/
example (a c : Gauss) : Mutual [(a, c), (c, a), (a, a)] := List.Perm.swap _ _ _

/-- Hessian of a round cell compared with itself. -/
theorem self_hessian (m : Vec) (p : FittingParams) (k : Mat) :
    (cellScore m ((0.5 : ℝ) • 1) ⟨m, (0.5 : ℝ) • 1, k⟩ (computeDerivatives m ((0.5 : ℝ) • 1) true) p true).hessian =
      (p.d2half * p.d1 * 2) • ((computeDerivatives m ((0.5 : ℝ) • 1) true).jestᵀ *
        (computeDerivatives m ((0.5 : ℝ) • 1) true).jest) := by
  unfold cellScore
  simp only [half_half, sub_self]
  rw [if_neg (by norm_num)]
  simp only [Matrix.zero_vecMul, zero_dotProduct, Matrix.mulVec_zero, inv_one, Matrix.mul_one]
  ext i j
  simp [Matrix.vecMulVec_apply]
  ring

example {o r : ℝ} (ho : 0 < o) (ho1 : o < 1) (hr : 0 < r) :
    (d2dScore twoNearest [halfCell ![-1, 0, 0], halfCell ![1, 0, 0]] (matToVec 1) (.mk' o r) true).hessian.det ≠ 0 := by
  obtain ⟨s1, s2, s3⟩ := fit_signs ho ho1 hr
  have hd : (FittingParams.mk' o r).d2half = (FittingParams.mk' o r).d2 / 2 := rfl
  rw [matToVec_one]
  have : (d2dScore twoNearest [halfCell ![-1, 0, 0], halfCell ![1, 0, 0]] 0 (.mk' o r) true).hessian =
      Matrix.diagonal fun _ => 2 * ((FittingParams.mk' o r).d2 * (FittingParams.mk' o r).d1) := by
    have t1 : ∀ y, twoNearest ((![-1, 0, 0] : Vec) 0, y) = [halfCell ![-1, 0, 0]] := fun y =>
      if_pos (show (-1 : ℝ) ≤ 0 by norm_num)
    have t2 : ∀ y, twoNearest ((![1, 0, 0] : Vec) 0, y) = [halfCell ![1, 0, 0]] := fun y =>
      if_neg (show ¬ ((1 : ℝ) ≤ 0) by norm_num)
    have hm : ∀ m : Vec, rotZ ((0 : Vec) 2) *ᵥ m + ![(0 : Vec) 0, (0 : Vec) 1, 0] = m := fun m => by
      have := congrArg Prod.fst (move_zero (m, 1))
      exact this
    have hc : ∀ c : Mat, rotZ ((0 : Vec) 2) * c * (rotZ ((0 : Vec) 2))ᵀ = c := fun c => by
      have := congrArg Prod.snd (move_zero (0, c))
      exact this
    have e1 : ∀ m : Vec, (halfCell m).mean = m := fun _ => rfl
    have e2 : ∀ m : Vec, (halfCell m).cov = (0.5 : ℝ) • 1 := fun _ => rfl
    simp only [d2dScore, sourceCellScore, List.foldl_cons, List.foldl_nil, e1, e2, hm, hc, t1, t2]
    simp only [halfCell, Score.add, Score.zero, self_hessian]
    ext i j
    fin_cases i <;> fin_cases j <;> simp [computeDerivatives, Matrix.mul_apply, Fin.sum_univ_three, hd] <;> ring
  rw [this, Matrix.det_diagonal]
  simp [s1.ne, s2.ne']

end Verif.Score
