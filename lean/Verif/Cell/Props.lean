import Verif.Cell.Lemmas

/-
Properties C20-C25 and C67: NDT cells.
-/
namespace Verif.NDT

open Verif Matrix

/-! ### A concrete cell used in witnesses and examples -/

/-- The six points ±1 on the axes. -/
def sixPoints : List Vec :=
  [![1, 0, 0], ![-1, 0, 0], ![0, 1, 0], ![0, -1, 0], ![0, 0, 1], ![0, 0, -1]]

/-- A new cell with these points added. -/
noncomputable def exCell : Cell := sixPoints.foldl addPoint init

theorem exCell_reach (eig : Eig) (P) : Reach eig P exCell :=
  (((((Reach.init.addPoint _).addPoint _).addPoint _).addPoint _).addPoint _).addPoint _

theorem exCell_eq : exCell = { init with pending := sixPoints } := rfl

theorem sixPoints_mean : sampleMean sixPoints = 0 := by
  funext i
  rw [sampleMean_apply]
  fin_cases i <;> simp [first, sixPoints]

theorem sixPoints_sum : sixPoints.sum = 0 := by
  funext i
  rw [sum_apply]
  fin_cases i <;> simp [sixPoints]

theorem sixPoints_moment (i j : Fin 3) : moment sixPoints i j = if i = j then 2 else 0 := by
  fin_cases i <;> fin_cases j <;> norm_num [moment, sixPoints]

theorem logLike_big : (1 : ℝ) < 6 * logLike := by unfold logLike; norm_num

theorem clamp_six : clamp (0 + ((6 : ℕ) : ℝ) * logLike) = 1 := by
  unfold clamp
  have := logLike_big
  simp only
  have h : (0 : ℝ) + ((6 : ℕ) : ℝ) * logLike > 1 := by push_cast; linarith
  rw [if_pos h]
  norm_num

theorem exCompute (eig : Eig) : computeGaussian eig exCell =
    { rescale eig { init with
        mean := batchMean sixPoints
        cov := batchCov sixPoints
        occ := some 1
        points := 6
        pending := sixPoints } with pending := [] } := by
  have hlen : sixPoints.length = 6 := rfl
  have ho : addOcc exCell.occ (some ((exCell.pending.length : ℝ) * logLike)) = some 1 := by
    show some (clamp (0 + ((6 : ℕ) : ℝ) * logLike)) = _
    rw [clamp_six]
  unfold computeGaussian
  simp only
  rw [ho, if_neg (by rintro ⟨x, hx, hx0⟩; cases hx; linarith),
    if_neg (by rw [exCell_eq]; decide), if_pos (show exCell.gaussian = false from rfl)]
  rfl

/-! ### C20 -/

/-- **C20**, partial: for every history in which all rays have positive length the occupancy is a
number in [-1,1], the conversion to `int8_t` is defined and the published occupancy is in [-100,100].
Missing: a ray whose start equals its end, where the claim is false. -/
theorem C20_occupancy_bounds_partial {eig : Eig} (he : EigOk eig) {c : Cell}
    (h : Reach eig properRay c) :
    (∃ x, c.occ = some x ∧ -1 ≤ x ∧ x ≤ 1) ∧
    ∃ v, getOccupancy c = .ok v ∧ -100 ≤ v ∧ v ≤ 100 := by
  obtain ⟨x, hx, h0, h1⟩ := h.occ he
  refine ⟨⟨x, hx, h0, h1⟩, ?_⟩
  unfold getOccupancy
  rw [hx]
  simp only
  by_cases h2 : x ≥ 1
  · rw [if_pos h2]; exact ⟨100, rfl, by norm_num, le_rfl⟩
  · have h3 : -100 ≤ ⌊x * 100⌋ := by rw [Int.le_floor]; push_cast; linarith
    have h4 : ⌊x * 100⌋ ≤ 100 := by
      rw [← Int.floor_intCast (R := ℝ) 100]
      exact Int.floor_le_floor (by push_cast; linarith)
    rw [if_neg h2, if_neg (by linarith), if_pos ⟨by omega, by omega⟩]
    exact ⟨_, rfl, h3, h4⟩

/-- A solver as assumed exists and a history can contain rays. -/
example : ∃ eig, EigOk eig ∧ ∃ c, Reach eig properRay c ∧ c.occ = some (-0.2) := by
  obtain ⟨eig, he⟩ := exists_eig
  refine ⟨eig, he, _, .ray (c := init) 0 ![1, 0, 0] 1 .init ?_ rfl, ?_⟩
  · intro h
    have := congrFun h 0
    norm_num at this
  · simp only [init, addOcc, clamp, noGaussianUpdate]
    norm_num

/-- A Gaussian cell with mean zero and a ray of length zero at distance one. -/
theorem exZeroRay (eig : Eig) (n : ℕ) :
    (computeGaussian eig exCell).gaussian = true ∧ (computeGaussian eig exCell).occ = some 1 ∧
    0.01 ≤ (∑ i, |(computeGaussian eig exCell).mean i - (![1, 0, 0] : Vec) i|) ∧
    rayUpdate (computeGaussian eig exCell) ![1, 0, 0] ![1, 0, 0] n
      = .ok { computeGaussian eig exCell with occ := none } := by
  have hm : (computeGaussian eig exCell).mean = 0 := by
    rw [exCompute]
    show batchMean sixPoints = 0
    exact sixPoints_mean
  have hg : (computeGaussian eig exCell).gaussian = true := by rw [exCompute]; rfl
  have ho : (computeGaussian eig exCell).occ = some 1 := by rw [exCompute]; rfl
  have hend : ¬ (∑ i, |(computeGaussian eig exCell).mean i - (![1, 0, 0] : Vec) i|) < 0.01 := by
    rw [hm, Fin.sum_univ_three]
    have : 0 ≤ |(0 : Vec) 2 - (![1, 0, 0] : Vec) 2| := abs_nonneg _
    have h0 : |(0 : Vec) 0 - (![1, 0, 0] : Vec) 0| = 1 := by norm_num
    have h1 : 0 ≤ |(0 : Vec) 1 - (![1, 0, 0] : Vec) 1| := abs_nonneg _
    rw [h0]
    linarith
  refine ⟨hg, ho, not_lt.mp hend, ?_⟩
  have hnone : ∀ o : Option ℝ, addOcc o none = none := fun o => by cases o <;> rfl
  unfold rayUpdate
  rw [if_neg (by rw [hg]; simp), if_neg hend]
  unfold lineLik
  rw [if_pos rfl, Res.map_ok]
  have hle : ¬ occLe (addOcc (computeGaussian eig exCell).occ none) := by
    rw [hnone]; rintro ⟨x, hx, -⟩; cases hx
  simp only [Option.bind_none]
  rw [if_neg hle, hnone]

/-- **C20** fails: a ray of length zero turns the occupancy of a Gaussian cell into NaN (and the
conversion in `getOccupancy` is then undefined), whatever the number of points of the ray. -/
theorem C20_false (eig : Eig) (n : ℕ) : ∃ c c' s, Reach eig anyRay c ∧
    (∃ x, c.occ = some x ∧ -1 ≤ x ∧ x ≤ 1) ∧ rayUpdate c s s n = .ok c' ∧
    c'.occ = none ∧ (getOccupancy c').IsUB := by
  obtain ⟨-, ho, -, hu⟩ := exZeroRay eig n
  exact ⟨computeGaussian eig exCell, { computeGaussian eig exCell with occ := none }, ![1, 0, 0],
    .computeGaussian (exCell_reach eig _), ⟨1, ho, by norm_num, le_rfl⟩, hu, rfl, .badCast, rfl⟩

/-! ### C21 -/

/-- **C21.** If two cells hold mean, sample covariance and number of the points `A` and `B`, the merged
cell holds those of all points together; the count is limited to 10^9.  The covariance is exact when it
needs no regularisation (no direction with less than 1% of the variance of another one).  If the
resulting occupancy is negative the cell is no longer Gaussian. -/
theorem C21_merge_pooled {eig : Eig} (he : EigOk eig) (c d : Cell) (A B : List Vec)
    (hA : 2 ≤ A.length) (hB : 3 ≤ B.length)
    (c0 : c.gaussian = true) (c1 : c.points = A.length) (c2 : c.mean = sampleMean A)
    (c3 : c.cov = sampleCov A)
    (d0 : d.gaussian = true) (d1 : d.points = B.length) (d2 : d.mean = sampleMean B)
    (d3 : d.cov = sampleCov B) :
    (merge eig c d).mean = sampleMean (A ++ B) ∧
    (merge eig c d).points = min (A.length + B.length) 1000000000 ∧
    (Conditioned (sampleCov (A ++ B)) → (merge eig c d).cov = sampleCov (A ++ B)) ∧
    (∀ x, (merge eig c d).occ = some x → ((merge eig c d).gaussian = true ↔ 0 ≤ x)) := by
  have nA : (A.length : ℝ) ≠ 0 := by positivity
  have nB : (B.length : ℝ) ≠ 0 := by positivity
  have nA1 : (A.length : ℝ) - 1 ≠ 0 := by
    have : (2 : ℝ) ≤ A.length := by exact_mod_cast hA
    linarith
  have nB1 : (B.length : ℝ) - 1 ≠ 0 := by
    have : (3 : ℝ) ≤ B.length := by exact_mod_cast hB
    linarith
  have nAB : ((B.length : ℝ) + A.length) ≠ 0 := by positivity
  have nAB1 : ((B.length : ℝ) + A.length) - 1 ≠ 0 := by
    have h1 : (3 : ℝ) ≤ B.length := by exact_mod_cast hB
    have h2 : (2 : ℝ) ≤ A.length := by exact_mod_cast hA
    linarith
  have hAne : A ≠ [] := by intro h; simp [h] at hA
  have hBne : B ≠ [] := by intro h; simp [h] at hB
  have hmean : (1 / ((B.length + A.length : ℕ) : ℝ)) •
      ((B.length : ℝ) • sampleMean B + (A.length : ℝ) • sampleMean A) = sampleMean (A ++ B) := by
    funext i
    simp only [Pi.smul_apply, Pi.add_apply, smul_eq_mul, sampleMean_apply, first_append,
      List.length_append, Nat.cast_add]
    have : ((A.length : ℝ) + B.length) ≠ 0 := by positivity
    field_simp
    ring
  have hcov : (1 / (pred64 (B.length + A.length) : ℝ)) •
      ((pred64 A.length : ℝ) • sampleCov A + (pred64 B.length : ℝ) • sampleCov B +
        ((A.length : ℝ) / ((B.length * (B.length + A.length) : ℕ) : ℝ)) •
        vecMulVec
          (((B.length : ℝ) / A.length) • (A.length : ℝ) • sampleMean A -
            (B.length : ℝ) • sampleMean B)
          (((B.length : ℝ) / A.length) • (A.length : ℝ) • sampleMean A -
            (B.length : ℝ) • sampleMean B)) = sampleCov (A ++ B) := by
    rw [pred64_cast (by omega), pred64_cast (by omega), pred64_cast (by omega)]
    ext i j
    simp only [Matrix.smul_apply, Matrix.add_apply, vecMulVec_apply, Pi.sub_apply, Pi.smul_apply,
      smul_eq_mul, sampleMean_apply, sampleCov_apply A hAne, sampleCov_apply B hBne,
      sampleCov_apply (A ++ B) (by simp [hAne]), first_append, moment_append, List.length_append,
      Nat.cast_add, Nat.cast_mul]
    have h1 : ((A.length : ℝ) + B.length) ≠ 0 := by positivity
    have h2 : ((A.length : ℝ) + B.length) - 1 ≠ 0 := by rw [add_comm]; exact nAB1
    field_simp
    ring
  have hsym : (sampleCov (A ++ B)).transpose = sampleCov (A ++ B) := by
    ext i j
    rw [transpose_apply, sampleCov_apply _ (by simp [hAne]), sampleCov_apply _ (by simp [hAne])]
    have : moment (A ++ B) j i = moment (A ++ B) i j := by
      unfold moment; congr 1; exact List.map_congr_left fun p _ => mul_comm _ _
    rw [this, mul_comm (first (A ++ B) j)]
  have hcap : cap (B.length + A.length) = min (A.length + B.length) 1000000000 := by
    unfold cap maxPoints; split_ifs <;> omega
  unfold merge
  rw [if_neg (by omega), if_neg (by simp [d0]), if_pos c0]
  simp only [c1, c2, c3, d1, d2, d3]
  rw [hmean, hcov, hcap]
  split_ifs with hocc
  · refine ⟨rfl, rfl, fun _ => rfl, fun x hx => ?_⟩
    simp only at hx
    obtain ⟨y, hy, hy0⟩ := hocc
    rw [d1, hx] at hy; cases hy
    simp only [false_iff]; linarith
  · refine ⟨rfl, rfl, fun hc => rescale_id he hsym hc, fun x hx => ?_⟩
    refine ⟨fun _ => ?_, fun _ => rfl⟩
    by_contra hneg
    exact hocc ⟨x, by rw [d1]; exact hx, by linarith⟩

theorem sixPoints_cov : sampleCov sixPoints = (2 / 5 : ℝ) • 1 := by
  ext i j
  rw [sampleCov_apply _ (by simp [sixPoints])]
  have h : ∀ i, first sixPoints i = 0 := by
    intro i; fin_cases i <;> simp [first, sixPoints]
  rw [h, h, sixPoints_moment, Matrix.smul_apply, Matrix.one_apply]
  have : (sixPoints.length : ℝ) = 6 := by norm_num [sixPoints]
  rw [this]
  split_ifs <;> norm_num

/-- Cells as required, and a union that needs no regularisation. -/
example : ∃ (c : Cell) (A : List Vec), 3 ≤ A.length ∧ c.gaussian = true ∧ c.points = A.length ∧
    c.mean = sampleMean A ∧ c.cov = sampleCov A ∧ Conditioned (sampleCov (A ++ A)) := by
  refine ⟨⟨sampleMean sixPoints, sampleCov sixPoints, 1, some 1, 6, true, 0, []⟩, sixPoints, by decide,
    rfl, rfl, rfl, rfl, ?_⟩
  have : sampleCov (sixPoints ++ sixPoints) = (4 / 11 : ℝ) • 1 := by
    ext i j
    rw [sampleCov_apply _ (by simp [sixPoints])]
    have h : ∀ i, first sixPoints i = 0 := by
      intro i; fin_cases i <;> simp [first, sixPoints]
    rw [first_append, first_append, h, h, moment_append, sixPoints_moment, Matrix.smul_apply,
      Matrix.one_apply]
    have : ((sixPoints ++ sixPoints).length : ℝ) = 12 := by norm_num [sixPoints]
    rw [this]
    split_ifs <;> norm_num
  rw [this]
  intro x y h
  simp only [smul_mulVec, one_mulVec, dotProduct_smul, smul_eq_mul]
  have : 0 ≤ x ⬝ᵥ x := by
    simp only [dotProduct]; exact Finset.sum_nonneg fun i _ => mul_self_nonneg _
  rw [← h]; linarith

/-! ### C22 -/

theorem compute_first {eig : Eig} {c : Cell}
    (h1 : ¬ occLe (addOcc c.occ (some ((c.pending.length : ℝ) * logLike))))
    (h2 : 6 ≤ c.pending.length) (h3 : c.gaussian = false) : computeGaussian eig c =
      clearPending (rescale eig
        { c with
          occ := addOcc c.occ (some ((c.pending.length : ℝ) * logLike))
          mean := batchMean c.pending
          cov := batchCov c.pending
          points := c.pending.length }) := by
  unfold computeGaussian
  simp only
  rw [if_neg h1, if_neg (by omega), if_pos h3]

theorem compute_update {eig : Eig} {c : Cell}
    (h1 : ¬ occLe (addOcc c.occ (some ((c.pending.length : ℝ) * logLike))))
    (h2 : 6 ≤ c.pending.length) (h3 : c.gaussian = true) : computeGaussian eig c =
      clearPending (updateGaussian eig
        { c with occ := addOcc c.occ (some ((c.pending.length : ℝ) * logLike)) }) := by
  unfold computeGaussian
  simp only
  rw [if_neg h1, if_neg (by omega), if_neg (by simp [h3])]

/-- **C22**, partial: after adding at least six points to a new cell `computeGaussian` stores their
arithmetic mean and their number, and the cell is Gaussian.  The covariance before regularisation is
`(n-1)/n² (I + S)` with `S` the scatter matrix of the points.  Missing: the sample covariance
`S/(n-1)`, which the code does not compute. -/
theorem C22_mean_partial {eig : Eig} (he : EigOk eig) (l : List Vec) (h : 6 ≤ l.length) :
    let c := computeGaussian eig (l.foldl addPoint init)
    let S := (l.map fun p => vecMulVec (p - sampleMean l) (p - sampleMean l)).sum
    let V := (((l.length : ℝ) - 1) / (l.length : ℝ) ^ 2) • (1 + S)
    c.mean = sampleMean l ∧ c.points = l.length ∧ c.gaussian = true ∧
      (Conditioned V → c.cov = V) := by
  have hfold : ∀ (l : List Vec) (c : Cell), l.foldl addPoint c =
      { c with pending := c.pending ++ l } := by
    intro l
    induction l with
    | nil => intro c; simp
    | cons a l ih => intro c; rw [List.foldl_cons, ih]; simp [addPoint]
  have hne : l ≠ [] := by intro hc; simp [hc] at h
  rw [hfold]
  have hocc : ¬ occLe (addOcc (some 0) (some ((l.length : ℝ) * logLike))) := by
    rintro ⟨x, hx, hx0⟩
    simp only [addOcc, Option.some.injEq] at hx
    have h6 : (6 : ℝ) ≤ l.length := by exact_mod_cast h
    have hb := logLike_big
    have h1 : 1 < 0 + (l.length : ℝ) * logLike := by
      have : 0 < logLike := by unfold logLike; norm_num
      nlinarith
    unfold clamp at hx
    simp only at hx
    rw [if_pos h1, if_neg (by norm_num)] at hx
    linarith
  have hp : init.pending ++ l = l := rfl
  rw [compute_first (c := { init with pending := init.pending ++ l }) hocc h rfl]
  refine ⟨rfl, rfl, rfl, fun hc => ?_⟩
  rw [← batchCov_eq l hne] at hc ⊢
  refine rescale_id he (c := { init with
    mean := batchMean l
    cov := batchCov l
    occ := addOcc init.occ (some (↑l.length * logLike))
    points := l.length
    pending := l }) ?_ hc
  have := (batchCov_posDef l (by omega)).isHermitian
  rwa [Matrix.IsHermitian, Matrix.conjTranspose_eq_transpose_of_trivial] at this

/-- Six points whose regularisation-free condition is met. -/
example : 6 ≤ sixPoints.length ∧ Conditioned ((5 / 12 : ℝ) • (1 : Mat)) := by
  refine ⟨by decide, fun x y h => ?_⟩
  simp only [smul_mulVec, one_mulVec, dotProduct_smul, smul_eq_mul]
  have : 0 ≤ x ⬝ᵥ x := by
    simp only [dotProduct]; exact Finset.sum_nonneg fun i _ => mul_self_nonneg _
  rw [← h]; linarith

/-- **C22** fails: for the six points ±1 on the axes the sample covariance is 2/5 I, the cell stores
5/12 I. -/
theorem C22_false {eig : Eig} (he : EigOk eig) : 6 ≤ sixPoints.length ∧
    sampleCov sixPoints = (2 / 5 : ℝ) • 1 ∧
    (computeGaussian eig (sixPoints.foldl addPoint init)).cov = (5 / 12 : ℝ) • 1 := by
  refine ⟨by decide, sixPoints_cov, ?_⟩
  have hV : ((((sixPoints.length : ℝ) - 1) / (sixPoints.length : ℝ) ^ 2) •
      (1 + (sixPoints.map fun p =>
        vecMulVec (p - sampleMean sixPoints) (p - sampleMean sixPoints)).sum) : Mat) =
      (5 / 12 : ℝ) • 1 := by
    ext i j
    have h6 : (sixPoints.length : ℝ) = 6 := by norm_num [sixPoints]
    rw [Matrix.smul_apply, Matrix.add_apply, scatter_entry, sixPoints_mean, sixPoints_moment, h6,
      Matrix.smul_apply, Matrix.one_apply]
    split_ifs <;> norm_num
  have := (C22_mean_partial he sixPoints (by decide)).2.2.2
  rw [hV] at this
  apply this
  intro x y h
  simp only [smul_mulVec, one_mulVec, dotProduct_smul, smul_eq_mul]
  have : 0 ≤ x ⬝ᵥ x := by
    simp only [dotProduct]; exact Finset.sum_nonneg fun i _ => mul_self_nonneg _
  rw [← h]; linarith

/-! ### C23 -/

/-- **C23**, partial: for every reachable cell and every ray of positive length that does not end at
the mean of a Gaussian cell (within 0.01), the update is defined, does not raise the occupancy, and a
cell whose occupancy is then not positive is not Gaussian if it was hit as a Gaussian cell or was none
before.  Missing: rays of length zero, after which the occupancy is NaN (`C20_false`). -/
theorem C23_free_space_partial {eig : Eig} (he : EigOk eig) {c : Cell} (h : Reach eig properRay c)
    (s e : Vec) (n : ℕ) (hse : s ≠ e)
    (hend : c.gaussian = true → 0.01 ≤ ∑ i, |c.mean i - e i|) :
    ∃ c' x x', rayUpdate c s e n = .ok c' ∧ c.occ = some x ∧ c'.occ = some x' ∧ x' ≤ x ∧
      (x' ≤ 0 → c'.gaussian = false) := by
  obtain ⟨x, hx, h0, h1⟩ := h.occ he
  obtain ⟨c', y, h2, hy, h3, h4, h5⟩ := ray_effect (h.ginv he) hse n hend
  rw [hx] at h3
  refine ⟨c', x, clamp (x + y), h2, hx, h3, clamp_le (by linarith) h0, fun hle => ?_⟩
  rcases hg : c.gaussian with _ | _
  · exact h5 hg
  · exact h4 hg ⟨_, h3, hle⟩

/-- **C23** fails for rays of length zero: the occupancy is then no number, so it is not at most the old one, and the cell
stays Gaussian. -/
theorem C23_false (eig : Eig) (n : ℕ) : ∃ c c' s, Reach eig anyRay c ∧ c.gaussian = true ∧
    0.01 ≤ (∑ i, |c.mean i - (s : Vec) i|) ∧ rayUpdate c s s n = .ok c' ∧ c'.gaussian = true ∧
    ¬ ∃ x x', c.occ = some x ∧ c'.occ = some x' ∧ x' ≤ x := by
  obtain ⟨hg, ho, hd, hu⟩ := exZeroRay eig n
  refine ⟨computeGaussian eig exCell, { computeGaussian eig exCell with occ := none }, ![1, 0, 0],
    .computeGaussian (exCell_reach eig _), hg, hd, hu, hg, ?_⟩
  rintro ⟨x, x', -, h, -⟩
  cases h

/-- A Gaussian cell and a ray as required. -/
example : ∃ eig, EigOk eig ∧ ∃ c, Reach eig properRay c ∧ c.gaussian = true ∧
    ∃ s e : Vec, s ≠ e ∧ 0.01 ≤ ∑ i, |c.mean i - e i| := by
  obtain ⟨eig, he⟩ := exists_eig
  refine ⟨eig, he, _, .computeGaussian (exCell_reach eig _), by rw [exCompute]; rfl, 0, ![1, 0, 0], ?_, ?_⟩
  · intro h
    have := congrFun h 0
    norm_num at this
  · have hm : (computeGaussian eig exCell).mean = 0 := by
      rw [exCompute]
      show batchMean sixPoints = 0
      exact sixPoints_mean
    rw [hm, Fin.sum_univ_three]
    have : 0 ≤ |(0 : Vec) 2 - (![1, 0, 0] : Vec) 2| := abs_nonneg _
    have h0 : |(0 : Vec) 0 - (![1, 0, 0] : Vec) 0| = 1 := by norm_num
    have h1 : 0 ≤ |(0 : Vec) 1 - (![1, 0, 0] : Vec) 1| := abs_nonneg _
    rw [h0]
    linarith

/-! ### C24 -/

/-- Interleavings of `addPoint` and `computeGaussian` on a new cell, with the client's book: `total`
points added, `pend` of them since the last `computeGaussian` that had at least six to work with, and
whether there was one.  `computeGaussian` is only called with at least six such points or before the
first such call. -/
inductive Adding (eig : Eig) : Cell → ℕ → ℕ → Bool → Prop
  | init : Adding eig init 0 0 false
  | add {c t p m} (x : Vec) : Adding eig c t p m → Adding eig (addPoint c x) (t + 1) (p + 1) m
  | batch {c t p m} : Adding eig c t p m → 6 ≤ p → Adding eig (computeGaussian eig c) t 0 true
  | early {c t p} : Adding eig c t p false → p < 6 → Adding eig (computeGaussian eig c) t p false

theorem addOcc_nonneg {x : ℝ} (hx : 0 ≤ x) (n : ℕ) :
    ∃ y, addOcc (some x) (some (n * logLike)) = some y ∧ 0 ≤ y ∧ (0 < x ∨ 0 < n → 0 < y) := by
  have hl : 0 < logLike := by unfold logLike; norm_num
  have hn : (0 : ℝ) ≤ n * logLike := mul_nonneg (Nat.cast_nonneg n) hl.le
  refine ⟨_, rfl, ?_, fun h => ?_⟩
  · unfold clamp; simp only; split_ifs <;> linarith
  · have : 0 < x + n * logLike := by
      rcases h with h | h
      · linarith
      · have : (0 : ℝ) < n := by exact_mod_cast h
        have := mul_pos this hl
        linarith
    unfold clamp; simp only; split_ifs <;> linarith

/-- Representation of the book. -/
def AInv (c : Cell) (t p : ℕ) (m : Bool) : Prop :=
  c.pending.length = p ∧ c.gaussian = m ∧ p ≤ t ∧
  (m = false → p = t) ∧
  (m = true → c.points = t - p ∨ (maxPoints < t - p ∧ c.points = maxPoints)) ∧
  ∃ x, c.occ = some x ∧ 0 ≤ x ∧ (m = true → 0 < x)

theorem compute_points {eig : Eig} {c : Cell} {t p : ℕ} {m : Bool} (h : AInv c t p m) :
    (6 ≤ p → AInv (computeGaussian eig c) t 0 true) ∧
    (p < 6 → m = false → AInv (computeGaussian eig c) t p false ∧
      (computeGaussian eig c).points = t) := by
  obtain ⟨h1, h2, h3, h4, h5, x, hx, hx0, hx1⟩ := h
  obtain ⟨y, hy, hy0, hy1⟩ := addOcc_nonneg hx0 c.pending.length
  constructor
  · intro hp
    have hyp : 0 < y := hy1 (.inr (by omega))
    have hocc : ¬ occLe (addOcc c.occ (some ((c.pending.length : ℝ) * logLike))) := by
      rw [hx, hy]; rintro ⟨z, hz, hz0⟩; cases hz; linarith
    cases m with
    | false =>
      rw [compute_first hocc (by omega) h2, hx, hy]
      refine ⟨rfl, rfl, by omega, by simp, fun _ => .inl ?_, y, rfl, hy0, fun _ => hyp⟩
      show c.pending.length = t - 0
      have := h4 rfl
      omega
    | true =>
      rw [compute_update hocc (by omega) h2, hx, hy]
      obtain ⟨u1, u2, u3⟩ := updateGaussian_other eig { c with occ := some y }
      refine ⟨rfl, u2, by omega, by simp, fun _ => ?_, y, u1, hy0, fun _ => hyp⟩
      show (updateGaussian eig { c with occ := some y }).points = _ ∨ _ ∧
        (updateGaussian eig { c with occ := some y }).points = _
      rw [u3]
      simp only [cap]
      split_ifs with hcap <;> rcases h5 rfl with h | ⟨h, h'⟩ <;> omega
  · intro hp hm
    subst hm
    have ht := h4 rfl
    have hboth : computeGaussian eig c =
        { c with occ := some y, gaussian := false, points := c.pending.length } := by
      unfold computeGaussian
      simp only [hx, hy]
      split_ifs
      · rfl
      · rfl
      · omega
    rw [hboth]
    exact ⟨⟨h1, rfl, h3, h4, by simp, y, rfl, hy0, by simp⟩, by simp only; omega⟩

theorem Adding.inv {eig : Eig} {c : Cell} {t p : ℕ} {m : Bool} (h : Adding eig c t p m) :
    AInv c t p m := by
  induction h with
  | init => exact ⟨rfl, rfl, le_rfl, fun _ => rfl, by simp, 0, rfl, le_rfl, by simp⟩
  | add x _ ih =>
    obtain ⟨h1, h2, h3, h4, h5, h6⟩ := ih
    refine ⟨by simp [addPoint, h1], h2, by omega, fun h => by rw [h4 h], fun h => ?_, h6⟩
    rcases h5 h with h | ⟨h, h'⟩
    · left; show _ = _; simp only [addPoint]; omega
    · right; exact ⟨by omega, h'⟩
  | batch _ hp ih => exact (compute_points ih).1 hp
  | early _ hp ih => exact ((compute_points ih).2 hp rfl).1

/-- **C24**, partial: after any such interleaving, `computeGaussian` leaves a point count equal to the
number of points added, or 10^9 when more have been added.  Missing: a call with fewer than six new
points on a cell that already is Gaussian, for which the claim is false. -/
theorem C24_counted_once_partial {eig : Eig} {c : Cell} {t p : ℕ} {m : Bool}
    (h : Adding eig c t p m) (hp : 6 ≤ p ∨ m = false) :
    (computeGaussian eig c).points = t ∨
      (1000000000 < t ∧ (computeGaussian eig c).points = 1000000000) := by
  by_cases h6 : 6 ≤ p
  · obtain ⟨-, -, -, -, h5, -⟩ := (compute_points (eig := eig) h.inv).1 h6
    exact h5 rfl
  · exact .inl ((compute_points h.inv).2 (by omega) (hp.resolve_left h6)).2

/-- Six points, a `computeGaussian`, and six more points. -/
example (eig : Eig) : ∃ c, Adding eig c 12 6 true := by
  have h : Adding eig exCell 6 6 false :=
    (((((Adding.init.add _).add _).add _).add _).add _).add _
  exact ⟨_, ((((((h.batch le_rfl).add 0).add 0).add 0).add 0).add 0).add 0⟩

/-- **C24** fails: with fewer than six new points the count is replaced by their number, whatever it
was, and a Gaussian is dropped; with none at all the count becomes 0. -/
theorem C24_false (eig : Eig) (c : Cell) (hp : c.pending.length < 6) :
    (computeGaussian eig c).points = c.pending.length ∧
    (computeGaussian eig c).gaussian = false := by
  unfold computeGaussian
  simp only
  split_ifs
  · exact ⟨rfl, rfl⟩
  · exact ⟨rfl, rfl⟩

/-- Six points added and computed, one more added and computed: the count is 1 instead of 7. -/
theorem C24_false_witness (eig : Eig) :
    (computeGaussian eig (addPoint (computeGaussian eig (sixPoints.foldl addPoint init)) 0)).points
      = 1 ∧ (computeGaussian eig (sixPoints.foldl addPoint init)).points = 6 := by
  have h := exCompute eig
  unfold exCell at h
  rw [h]
  exact ⟨(C24_false eig _ (by simp [addPoint])).1, rfl⟩

/-! ### C25 -/

/-- **C25**, partial: merging a cell that has no Gaussian or at most two points changes nothing; the
point count after a merge is at most 10^9 if the cell was Gaussian or the other cell's count is at most
10^9.  Missing: other cells with a larger count, for which it is false. -/
theorem C25_merge_bounded_partial (eig : Eig) (c d : Cell) :
    ((d.gaussian = false ∨ d.points ≤ 2) → merge eig c d = c) ∧
    (c.points ≤ 1000000000 → (c.gaussian = true ∨ d.points ≤ 1000000000) →
      (merge eig c d).points ≤ 1000000000) := by
  constructor
  · rintro (h | h)
    · unfold merge
      split_ifs <;> rfl
    · unfold merge
      rw [if_pos h]
  · intro h1 h2
    have hcap : ∀ n, cap n ≤ 1000000000 := by
      intro n; unfold cap maxPoints; split_ifs <;> omega
    unfold merge
    simp only
    split_ifs with g1 g2 g3 g4
    · exact h1
    · exact h1
    · exact hcap _
    · exact hcap _
    · exact h2.resolve_left g3

example : ∃ c d : Cell, c.points ≤ 1000000000 ∧ d.gaussian = true ∧ 2 < d.points ∧
    d.points ≤ 1000000000 :=
  ⟨init, ⟨0, 1, 1, some 1, 6, true, 0, []⟩, by simp [init], rfl, by decide, by decide⟩

/-- **C25** fails for larger counts: a new cell that gets more than 10^9 points in one batch is not
limited, and a cell without a Gaussian takes that count over in a merge. -/
theorem C25_false {eig : Eig} (he : EigOk eig) : ∃ c d : Cell, Reach eig anyRay c ∧
    Reach eig anyRay d ∧ 1000000000 < (merge eig c d).points := by
  set l : List Vec := List.replicate 1000000001 0 with hl
  have hlen : l.length = 1000000001 := by rw [hl, List.length_replicate]
  have hr : ∀ (l : List Vec) c, Reach eig anyRay c → Reach eig anyRay (l.foldl addPoint c) := by
    intro l
    induction l with
    | nil => intro c h; exact h
    | cons a l ih => intro c h; exact ih _ (h.addPoint a)
  obtain ⟨-, h2, h3, -⟩ := C22_mean_partial he l (by omega)
  refine ⟨init, computeGaussian eig (l.foldl addPoint init), .init, .computeGaussian (hr l _ .init), ?_⟩
  unfold merge
  rw [if_neg (by omega), if_neg (by simp [h3]), if_neg (by simp [init])]
  simp only
  omega

/-! ### C67 -/

/-- **C67.** A reachable cell that reports a Gaussian has a positive definite covariance, the stored
inverse is the inverse, and it rests on at least three points. -/
theorem C67_gaussian_usable {eig : Eig} (he : EigOk eig) {c : Cell} (h : Reach eig anyRay c)
    (hg : c.gaussian = true) :
    c.cov.PosDef ∧ c.cov * c.icov = 1 ∧ c.icov * c.cov = 1 ∧ 3 ≤ c.points := by
  obtain ⟨h1, h2, h3, -⟩ := h.ginv he hg
  have hu : IsUnit c.cov.det := (Matrix.isUnit_iff_isUnit_det _).1 h1.isUnit
  exact ⟨h1, by rw [h2]; exact Matrix.mul_nonsing_inv _ hu,
    by rw [h2]; exact Matrix.nonsing_inv_mul _ hu, h3⟩

example : ∃ eig, EigOk eig ∧ ∃ c, Reach eig anyRay c ∧ c.gaussian = true := by
  obtain ⟨eig, he⟩ := exists_eig
  exact ⟨eig, he, _, .computeGaussian (exCell_reach eig _), by rw [exCompute]; rfl⟩

/-! ### C68 -/

/-- **C68.** The regularisation bounds the condition number of every positive definite covariance by
100, and leaves covariances alone that satisfy the bound already. -/
theorem C68_regularisation {eig : Eig} (he : EigOk eig) (c : Cell) (h : c.cov.PosDef) :
    Conditioned (rescale eig c).cov ∧ (Conditioned c.cov → (rescale eig c).cov = c.cov) := by
  refine ⟨rescale_conditioned he h, fun hc => rescale_id he ?_ hc⟩
  have := h.isHermitian
  rwa [Matrix.IsHermitian, Matrix.conjTranspose_eq_transpose_of_trivial] at this

example : ∃ eig, EigOk eig ∧ ∃ c : Cell, c.cov.PosDef := by
  obtain ⟨eig, he⟩ := exists_eig
  exact ⟨eig, he, init, Matrix.PosDef.one⟩

/-! ### C69 -/

/-- Interleavings of `addPoint` and `computeGaussian` on a new cell with the client's book: the points
that have entered the Gaussian (`used`) and those added since (`new`).  `computeGaussian` is called with
at least six new points. -/
inductive Filling (eig : Eig) : Cell → List Vec → List Vec → Prop
  | init : Filling eig init [] []
  | add {c used new} (x : Vec) : Filling eig c used new → Filling eig (addPoint c x) used (new ++ [x])
  | compute {c used new} : Filling eig c used new → 6 ≤ new.length →
      Filling eig (computeGaussian eig c) (used ++ new) []

/-- Pooled mean and covariance of `updateGaussian` below the limit of points. -/
theorem update_exact {eig : Eig} (c : Cell) (h : c.points + c.pending.length ≤ maxPoints) :
    (updateGaussian eig c).mean = (1 / ((c.points + c.pending.length : ℕ) : ℝ)) •
      ((c.points : ℝ) • c.mean + (c.pending.length : ℝ) • batchMean c.pending) := by
  unfold updateGaussian
  simp only
  rw [if_neg (by omega)]
  rfl

theorem Filling.inv {eig : Eig} {c : Cell} {used new : List Vec} (h : Filling eig c used new)
    (hlim : used.length ≤ 1000000000) :
    c.pending = new ∧ (∃ x, c.occ = some x ∧ 0 ≤ x) ∧ (c.gaussian = true ↔ used ≠ []) ∧
    (used ≠ [] → c.points = used.length ∧ c.mean = sampleMean used) := by
  induction h with
  | init => exact ⟨rfl, ⟨0, rfl, le_rfl⟩, by simp [NDT.init], by simp⟩
  | add x _ ih =>
    obtain ⟨h1, h2, h3, h4⟩ := ih hlim
    exact ⟨by simp [addPoint, h1], h2, h3, h4⟩
  | @compute c used new h h6 ih =>
    rw [List.length_append] at hlim
    obtain ⟨h1, ⟨x, hx, hx0⟩, h3, h4⟩ := ih (by omega)
    have hlen : c.pending.length = new.length := by rw [h1]
    obtain ⟨y, hy, hy0, hy1⟩ := addOcc_nonneg hx0 c.pending.length
    have hyp : 0 < y := hy1 (.inr (by omega))
    have hocc : ¬ occLe (addOcc c.occ (some ((c.pending.length : ℝ) * logLike))) := by
      rw [hx, hy]; rintro ⟨z, hz, hz0⟩; cases hz; linarith
    have hnew : new ≠ [] := by intro hc; simp [hc] at h6
    by_cases hu : used = []
    · have hg : c.gaussian = false := by
        cases hc : c.gaussian
        · rfl
        · exact absurd hu (h3.1 hc)
      rw [compute_first hocc (by omega) hg, hx, hy, hu]
      refine ⟨rfl, ⟨y, rfl, hy0⟩, by simp [clearPending, rescale, hnew], fun _ => ⟨?_, ?_⟩⟩
      · show c.pending.length = _
        simp [h1]
      · show batchMean c.pending = _
        rw [h1]; rfl
    · have hg : c.gaussian = true := h3.2 hu
      obtain ⟨h5, h7⟩ := h4 hu
      rw [compute_update hocc (by omega) hg, hx, hy]
      obtain ⟨u1, u2, u3⟩ := updateGaussian_other eig { c with occ := some y }
      refine ⟨rfl, ⟨y, u1, hy0⟩, by simp [clearPending, u2, hnew], fun _ => ⟨?_, ?_⟩⟩
      · show (updateGaussian eig { c with occ := some y }).points = _
        rw [u3, List.length_append]
        show cap (c.points + c.pending.length) = _
        rw [h5, hlen]
        unfold cap maxPoints
        rw [if_neg (by omega)]
      · show (updateGaussian eig { c with occ := some y }).mean = _
        rw [update_exact _ (by show c.points + c.pending.length ≤ maxPoints; unfold maxPoints; omega)]
        have n1 : (used.length : ℝ) ≠ 0 := by
          have := List.length_pos_iff.2 hu
          positivity
        have n2 : (new.length : ℝ) ≠ 0 := by positivity
        have n3 : (used.length : ℝ) + new.length ≠ 0 := by positivity
        funext i
        show 1 / ((c.points + c.pending.length : ℕ) : ℝ) * ((c.points : ℝ) * c.mean i +
          (c.pending.length : ℝ) * sampleMean c.pending i) = _
        rw [h7, h5, h1, sampleMean_apply, sampleMean_apply, sampleMean_apply, first_append,
          List.length_append, Nat.cast_add]
        field_simp

/-- **C69.** However the points are split into batches of at least six, the cell's mean is the
arithmetic mean and its count the number of all points that have entered it, up to 10^9 points. -/
theorem C69_batches {eig : Eig} {c : Cell} {used new : List Vec} (h : Filling eig c used new)
    (hu : used ≠ []) (hlim : used.length ≤ 1000000000) :
    c.gaussian = true ∧ c.points = used.length ∧ c.mean = sampleMean used := by
  obtain ⟨-, -, h3, h4⟩ := h.inv hlim
  exact ⟨h3.2 hu, h4 hu⟩

/-- Two batches. -/
example (eig : Eig) : ∃ c used new, Filling eig c used new ∧ used.length = 12 := by
  have h : Filling eig exCell [] sixPoints :=
    (((((Filling.init.add _).add _).add _).add _).add _).add _
  exact ⟨_, _, _, ((((((h.compute (by decide)).add 0).add 0).add 0).add 0).add 0).add 0 |>.compute
    (by decide), rfl⟩

/-! ### C70 -/

/-- **C70.** Moving a reachable Gaussian cell by a rigid transform moves its mean and rotates its
covariance, exactly, and changes neither count nor occupancy nor the pending points; a cell without
Gaussian is left alone.  Moving back restores mean and covariance. -/
theorem C70_transform {eig : Eig} (he : EigOk eig) {c : Cell} (h : Reach eig anyRay c) (r : Mat)
    (t : Vec) (hr : r * r.transpose = 1) :
    (c.gaussian = false → transform eig c r r t = c) ∧
    (c.gaussian = true →
      (transform eig c r r t).gaussian = true ∧
      (transform eig c r r t).mean = r.mulVec c.mean + t ∧
      (transform eig c r r t).cov = r * c.cov * r.transpose ∧
      (transform eig c r r t).points = c.points ∧ (transform eig c r r t).occ = c.occ ∧
      (transform eig c r r t).pending = c.pending ∧
      (transform eig (transform eig c r r t) r.transpose r.transpose
        (-(r.transpose.mulVec t))).mean = c.mean ∧
      (transform eig (transform eig c r r t) r.transpose r.transpose
        (-(r.transpose.mulVec t))).cov = c.cov) := by
  have hr' : r.transpose * r = 1 := mul_eq_one_comm.1 hr
  have key : ∀ {c : Cell} (r : Mat) (t : Vec), Reach eig anyRay c → r * r.transpose = 1 →
      c.gaussian = true → (transform eig c r r t).cov = r * c.cov * r.transpose := by
    intro c r t h hr hg
    obtain ⟨h1, -, -, h4⟩ := h.ginv he hg
    have hr' : r.transpose * r = 1 := mul_eq_one_comm.1 hr
    unfold transform
    rw [if_pos hg]
    refine rescale_id (c := { c with mean := _, cov := _ }) he ?_ ?_
    · have := h1.isHermitian
      rw [Matrix.IsHermitian, Matrix.conjTranspose_eq_transpose_of_trivial] at this
      simp only [transpose_mul, transpose_transpose, this, Matrix.mul_assoc]
    · intro x y hxy
      have hq : ∀ x : Vec, x ⬝ᵥ (r * c.cov * r.transpose).mulVec x =
          r.transpose.mulVec x ⬝ᵥ c.cov.mulVec (r.transpose.mulVec x) := by
        intro x
        rw [← mulVec_mulVec, ← mulVec_mulVec, dotProduct_mulVec, ← mulVec_transpose]
      have hn : ∀ x : Vec, r.transpose.mulVec x ⬝ᵥ r.transpose.mulVec x = x ⬝ᵥ x := by
        intro x
        rw [mulVec_transpose, ← dotProduct_mulVec, ← mulVec_transpose, mulVec_mulVec, hr, one_mulVec]
      rw [hq, hq]
      exact h4 _ _ (by rw [hn, hn, hxy])
  refine ⟨fun hg => by unfold transform; rw [if_neg (by simp [hg])], fun hg => ?_⟩
  have hcov := key r t h hr hg
  have keyM : ∀ (c : Cell) (r : Mat) (t : Vec), c.gaussian = true →
      (transform eig c r r t).mean = r.mulVec c.mean + t := by
    intro c r t hg
    unfold transform; rw [if_pos hg]; rfl
  have hmean := keyM c r t hg
  have hg' : (transform eig c r r t).gaussian = true := by unfold transform; rw [if_pos hg]; rfl
  have hrt : r.transpose * r.transpose.transpose = 1 := by rw [transpose_transpose]; exact hr'
  refine ⟨hg', hmean, hcov, ?_, ?_, ?_, ?_, ?_⟩
  · unfold transform; rw [if_pos hg]; rfl
  · unfold transform; rw [if_pos hg]; rfl
  · unfold transform; rw [if_pos hg]; rfl
  · rw [keyM _ _ _ hg', hmean, mulVec_add, mulVec_mulVec, hr', one_mulVec]
    abel
  · rw [key r.transpose _ (.transform r r t h hr) hrt hg', hcov, transpose_transpose,
      ← Matrix.mul_assoc, ← Matrix.mul_assoc, hr', Matrix.one_mul, Matrix.mul_assoc, hr',
      Matrix.mul_one]

/-- A reachable Gaussian cell and a rotation by a quarter turn. -/
example : ∃ eig, EigOk eig ∧ ∃ c, Reach eig anyRay c ∧ c.gaussian = true ∧
    ∃ r : Mat, r * r.transpose = 1 ∧ r ≠ 1 := by
  obtain ⟨eig, he⟩ := exists_eig
  refine ⟨eig, he, _, .computeGaussian (exCell_reach eig _), by rw [exCompute]; rfl,
    !![0, -1, 0; 1, 0, 0; 0, 0, 1], ?_, ?_⟩
  · ext i j
    fin_cases i <;> fin_cases j <;>
      simp [Matrix.mul_apply, Fin.sum_univ_three, Matrix.transpose_apply]
  · intro h
    have := congrFun (congrFun h 0) 0
    norm_num at this

end Verif.NDT
