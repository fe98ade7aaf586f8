import Verif.Cell.Spec
import Mathlib.Analysis.Matrix.Spectrum
import Mathlib.Analysis.Matrix.PosDef
import Mathlib.Algebra.Order.Star.Real
import Mathlib.Data.Fin.Tuple.Sort
import Mathlib.Tactic.FieldSimp
import Mathlib.Tactic.Ring
import Mathlib.Tactic.Linarith
import Mathlib.Tactic.Positivity
import Mathlib.Tactic.NormNum

namespace Verif.NDT

open Verif Matrix

/-! ### Sums over points -/

theorem sum_apply (l : List Vec) (i : Fin 3) : l.sum i = (l.map fun p => p i).sum := by
  induction l with
  | nil => rfl
  | cons a l ih => simp [ih]

theorem sum_mat_apply (l : List Mat) (i j : Fin 3) : l.sum i j = (l.map fun p => p i j).sum := by
  induction l with
  | nil => rfl
  | cons a l ih => simp [ih]

/-- Second moments of a list of points. -/
def moment (l : List Vec) (i j : Fin 3) : ℝ := (l.map fun p => p i * p j).sum

def first (l : List Vec) (i : Fin 3) : ℝ := (l.map fun p => p i).sum

theorem scatter_entry (l : List Vec) (c : Vec) (i j : Fin 3) :
    (l.map fun p => vecMulVec (p - c) (p - c)).sum i j =
      moment l i j - first l i * c j - c i * first l j + l.length * c i * c j := by
  unfold moment first
  induction l with
  | nil => simp
  | cons a l ih =>
    rw [List.map_cons, List.sum_cons, Matrix.add_apply, ih]
    simp only [List.map_cons, List.sum_cons, vecMulVec_apply, Pi.sub_apply,
      List.length_cons, Nat.cast_succ]
    ring

theorem moment_append (a b : List Vec) (i j : Fin 3) :
    moment (a ++ b) i j = moment a i j + moment b i j := by simp [moment]

theorem first_append (a b : List Vec) (i : Fin 3) : first (a ++ b) i = first a i + first b i := by
  simp [first]

theorem sampleMean_apply (l : List Vec) (i : Fin 3) : sampleMean l i = first l i / l.length := by
  unfold sampleMean first
  simp only [Pi.smul_apply, sum_apply, smul_eq_mul]
  ring

theorem sampleCov_apply (l : List Vec) (h : l ≠ []) (i j : Fin 3) : sampleCov l i j =
    (moment l i j - first l i * first l j / l.length) / (l.length - 1) := by
  have hn : (l.length : ℝ) ≠ 0 := by
    have := List.length_pos_iff.2 h
    positivity
  unfold sampleCov
  simp only [Matrix.smul_apply, smul_eq_mul]
  rw [scatter_entry, sampleMean_apply, sampleMean_apply]
  field_simp
  ring

theorem batchCov_apply (l : List Vec) (h : l ≠ []) (i j : Fin 3) : batchCov l i j =
    ((l.length - 1 : ℝ) / l.length ^ 2) *
      ((1 : Mat) i j + (moment l i j - first l i * first l j / l.length)) := by
  have hpos := List.length_pos_iff.2 h
  have hn : (l.length : ℝ) ≠ 0 := by positivity
  have hp : (pred64 l.length : ℝ) = (l.length : ℝ) - 1 := by
    unfold pred64
    rw [if_neg (by omega), Nat.cast_sub hpos]; simp
  unfold batchCov batchMean
  simp only [Matrix.smul_apply, Matrix.add_apply, Matrix.sub_apply, vecMulVec_apply, smul_eq_mul, hp,
    sum_mat_apply, List.map_map, Pi.smul_apply, sum_apply, Function.comp_def]
  unfold moment first
  field_simp
  ring

theorem pred64_cast {n : ℕ} (h : 0 < n) : (pred64 n : ℝ) = (n : ℝ) - 1 := by
  unfold pred64
  rw [if_neg (by omega), Nat.cast_sub h]; simp

theorem pred64_pos {n : ℕ} (h : 2 ≤ n) : (0 : ℝ) < pred64 n := by
  rw [pred64_cast (by omega)]
  have : (2 : ℝ) ≤ n := by exact_mod_cast h
  linarith

/-! ### Positive definiteness -/

theorem posSemidef_outer (v : Vec) : (vecMulVec v v).PosSemidef := by
  have := Matrix.posSemidef_vecMulVec_self_star v
  simpa using this

theorem posSemidef_sum_outer (l : List Vec) (c : Vec) :
    (l.map fun p => vecMulVec (p - c) (p - c)).sum.PosSemidef := by
  induction l with
  | nil => exact Matrix.PosSemidef.zero
  | cons a l ih =>
    rw [List.map_cons, List.sum_cons]
    exact (posSemidef_outer _).add ih

theorem batchCov_eq (l : List Vec) (h : l ≠ []) : batchCov l =
    ((l.length - 1 : ℝ) / l.length ^ 2) •
      (1 + (l.map fun p => vecMulVec (p - sampleMean l) (p - sampleMean l)).sum) := by
  have hn : (l.length : ℝ) ≠ 0 := by
    have := List.length_pos_iff.2 h
    positivity
  ext i j
  rw [batchCov_apply l h, Matrix.smul_apply, Matrix.add_apply, scatter_entry, sampleMean_apply,
    sampleMean_apply, smul_eq_mul]
  congr 2
  field_simp
  ring

theorem batchCov_posDef (l : List Vec) (h : 2 ≤ l.length) : (batchCov l).PosDef := by
  have hl : l ≠ [] := by intro hc; simp [hc] at h
  rw [batchCov_eq l hl]
  have h2 : (2 : ℝ) ≤ l.length := by exact_mod_cast h
  refine Matrix.PosDef.smul ?_ (by apply div_pos <;> nlinarith)
  exact Matrix.PosDef.one.add_posSemidef (posSemidef_sum_outer _ _)

/-- After regularisation a symmetric matrix whose largest eigenvalue is positive is positive
definite. -/
theorem rescale_posDef {eig : Eig} (he : EigOk eig) {c : Cell} (h : c.cov.PosDef) :
    (rescale eig c).cov.PosDef ∧ (rescale eig c).icov = (rescale eig c).cov⁻¹ := by
  refine ⟨?_, rfl⟩
  have hsym : c.cov.transpose = c.cov := by
    have := h.isHermitian
    rwa [Matrix.IsHermitian, Matrix.conjTranspose_eq_transpose_of_trivial] at this
  obtain ⟨h1, h2, h3, h4⟩ := he c.cov hsym
  unfold rescale
  simp only
  set v := (eig c.cov).1
  set d := (eig c.cov).2
  have h1' : v.transpose * v = 1 := mul_eq_one_comm.1 h1
  have hd : (diagonal d).PosDef := by
    have h5 : diagonal d = v.transpose * c.cov * v := by
      rw [h2, ← Matrix.mul_assoc, ← Matrix.mul_assoc, h1', Matrix.one_mul, Matrix.mul_assoc, h1',
        Matrix.mul_one]
    rw [h5, ← Matrix.conjTranspose_eq_transpose_of_trivial]
    exact h.conjTranspose_mul_mul_same
      (mulVec_injective_of_isUnit ((Matrix.isUnit_iff_isUnit_det v).2
        (Matrix.isUnit_det_of_left_inverse h1')))
  rw [Matrix.posDef_diagonal_iff] at hd
  have hd2 := hd 2
  have hc : (diagonal (clampEvals d)).PosDef := by
    rw [Matrix.posDef_diagonal_iff]
    intro i
    fin_cases i
    · simp only [clampEvals]
      show 0 < if d 0 < 0.01 * d 2 then 0.01 * d 2 else d 0
      split_ifs
      · linarith
      · exact hd 0
    · show 0 < if d 1 < 0.01 * d 2 then 0.01 * d 2 else d 1
      split_ifs
      · linarith
      · exact hd 1
    · exact hd2
  rw [← Matrix.conjTranspose_eq_transpose_of_trivial]
  exact hc.mul_mul_conjTranspose_same
    (vecMul_injective_of_isUnit ((Matrix.isUnit_iff_isUnit_det v).2
        (Matrix.isUnit_det_of_left_inverse h1')))

/-- The assumption on the eigenvalue solver can be met. -/
theorem exists_eig : ∃ eig : Eig, EigOk eig := by
  have h : ∀ A : Mat, ∃ r : Mat × Vec, A.transpose = A →
      r.1 * r.1.transpose = 1 ∧ A = r.1 * diagonal r.2 * r.1.transpose ∧
      r.2 0 ≤ r.2 1 ∧ r.2 1 ≤ r.2 2 := by
    intro A
    by_cases hA : A.transpose = A
    swap
    · exact ⟨(1, 0), fun h => absurd h hA⟩
    have hh : A.IsHermitian := by
      rw [Matrix.IsHermitian, conjTranspose_eq_transpose_of_trivial]; exact hA
    set U : Mat := (hh.eigenvectorUnitary : Mat) with hU
    set d : Vec := hh.eigenvalues with hd
    have h1 : U * U.transpose = 1 := by
      have := Matrix.mem_unitaryGroup_iff.1 hh.eigenvectorUnitary.2
      rwa [star_eq_conjTranspose, conjTranspose_eq_transpose_of_trivial] at this
    have h2 : A = U * diagonal d * U.transpose := by
      have := hh.spectral_theorem
      rw [Unitary.conjStarAlgAut_apply, star_eq_conjTranspose,
        conjTranspose_eq_transpose_of_trivial] at this
      exact this
    set σ := Tuple.sort d
    refine ⟨(U.submatrix id σ, d ∘ σ), fun _ => ⟨?_, ?_, ?_, ?_⟩⟩
    · simp only [transpose_submatrix]
      rw [Matrix.submatrix_mul_equiv U U.transpose id σ id, h1]; rfl
    · simp only [transpose_submatrix]
      rw [← Matrix.submatrix_diagonal_equiv d σ, Matrix.submatrix_mul_equiv, Matrix.submatrix_mul_equiv,
        ← h2]; rfl
    · exact Tuple.monotone_sort d (by decide)
    · exact Tuple.monotone_sort d (by decide)
  choose f hf using h
  exact ⟨f, fun A hA => hf A hA⟩

/-- The quadratic form in the eigenbasis. -/
theorem quad_eig (v : Mat) (d x : Vec) : x ⬝ᵥ (v * diagonal d * v.transpose).mulVec x =
    ∑ i, d i * (v.transpose.mulVec x) i ^ 2 := by
  rw [← mulVec_mulVec, ← mulVec_mulVec, dotProduct_mulVec, ← mulVec_transpose]
  simp only [dotProduct, mulVec_diagonal]
  exact Finset.sum_congr rfl fun i _ => by ring

theorem norm_eig {v : Mat} (h : v * v.transpose = 1) (x : Vec) :
    ∑ i, (v.transpose.mulVec x) i ^ 2 = x ⬝ᵥ x := by
  have h1 := quad_eig v (fun _ => 1) x
  rw [diagonal_one, Matrix.mul_one, h, one_mulVec] at h1
  rw [h1]; simp

theorem clampEvals_apply {d : Vec} (h0 : 0 < d 2) (h1 : d 0 ≤ d 1) (h2 : d 1 ≤ d 2) (i : Fin 3) :
    0.01 * d 2 ≤ clampEvals d i ∧ clampEvals d i ≤ d 2 := by
  fin_cases i
  · show _ ≤ (if d 0 < 0.01 * d 2 then 0.01 * d 2 else d 0) ∧
      (if d 0 < 0.01 * d 2 then 0.01 * d 2 else d 0) ≤ _
    split_ifs <;> constructor <;> linarith
  · show _ ≤ (if d 1 < 0.01 * d 2 then 0.01 * d 2 else d 1) ∧
      (if d 1 < 0.01 * d 2 then 0.01 * d 2 else d 1) ≤ _
    split_ifs <;> constructor <;> linarith
  · exact ⟨by show _ ≤ d 2; linarith, le_rfl⟩

/-- After the regularisation no direction has less than one percent of the variance of another. -/
theorem rescale_conditioned {eig : Eig} (he : EigOk eig) {c : Cell} (h : c.cov.PosDef) :
    Conditioned (rescale eig c).cov := by
  have hsym : c.cov.transpose = c.cov := by
    have := h.isHermitian
    rwa [Matrix.IsHermitian, Matrix.conjTranspose_eq_transpose_of_trivial] at this
  obtain ⟨h1, h2, h3, h4⟩ := he c.cov hsym
  set v := (eig c.cov).1
  set d := (eig c.cov).2
  have hd2 : 0 < d 2 := by
    have h1' : v.transpose * v = 1 := mul_eq_one_comm.1 h1
    have hd : (diagonal d).PosDef := by
      have h5 : diagonal d = v.transpose * c.cov * v := by
        rw [h2, ← Matrix.mul_assoc, ← Matrix.mul_assoc, h1', Matrix.one_mul, Matrix.mul_assoc, h1',
          Matrix.mul_one]
      rw [h5, ← Matrix.conjTranspose_eq_transpose_of_trivial]
      exact h.conjTranspose_mul_mul_same
        (mulVec_injective_of_isUnit ((Matrix.isUnit_iff_isUnit_det v).2
          (Matrix.isUnit_det_of_left_inverse h1')))
    rw [Matrix.posDef_diagonal_iff] at hd
    exact hd 2
  have hc := clampEvals_apply hd2 h3 h4
  intro x y hxy
  show 0.01 * (y ⬝ᵥ (v * diagonal (clampEvals d) * v.transpose).mulVec y) ≤
    x ⬝ᵥ (v * diagonal (clampEvals d) * v.transpose).mulVec x
  rw [quad_eig, quad_eig]
  have e1 : ∑ i, clampEvals d i * (v.transpose.mulVec y) i ^ 2 ≤ d 2 * (y ⬝ᵥ y) := by
    rw [← norm_eig h1 y, Finset.mul_sum]
    exact Finset.sum_le_sum fun i _ => mul_le_mul_of_nonneg_right (hc i).2 (sq_nonneg _)
  have e2 : 0.01 * d 2 * (x ⬝ᵥ x) ≤ ∑ i, clampEvals d i * (v.transpose.mulVec x) i ^ 2 := by
    rw [← norm_eig h1 x, Finset.mul_sum]
    exact Finset.sum_le_sum fun i _ => mul_le_mul_of_nonneg_right (hc i).1 (sq_nonneg _)
  rw [hxy] at e2
  linarith

/-- The regularisation does nothing where it is not needed. -/
theorem rescale_id {eig : Eig} (he : EigOk eig) {c : Cell} (hsym : c.cov.transpose = c.cov)
    (hc : Conditioned c.cov) : (rescale eig c).cov = c.cov := by
  obtain ⟨h1, h2, h3, h4⟩ := he c.cov hsym
  unfold rescale
  simp only
  set v := (eig c.cov).1 with hv
  set d := (eig c.cov).2 with hd
  have h1' : v.transpose * v = 1 := mul_eq_one_comm.1 h1
  have key : ∀ i, (v.mulVec (Pi.single i 1)) ⬝ᵥ c.cov.mulVec (v.mulVec (Pi.single i 1)) = d i := by
    intro i
    rw [h2, quad_eig, mulVec_mulVec, h1', one_mulVec]
    simp [Pi.single_apply]
  have nrm : ∀ i, (v.mulVec (Pi.single i 1)) ⬝ᵥ (v.mulVec (Pi.single i 1)) = 1 := by
    intro i
    rw [← norm_eig h1, mulVec_mulVec, h1', one_mulVec]
    simp [Pi.single_apply]
  have hle : 0.01 * d 2 ≤ d 0 := by
    have := hc (v.mulVec (Pi.single 0 1)) (v.mulVec (Pi.single 2 1)) (by rw [nrm, nrm])
    rwa [key, key] at this
  have : clampEvals d = d := by
    unfold clampEvals
    simp only
    rw [if_neg (not_lt.2 hle), if_neg (not_lt.2 (hle.trans h3))]
    funext i; fin_cases i <;> rfl
  rw [this, ← h2]

/-! ### Invariants -/

/-- A Gaussian cell has a positive definite covariance, its inverse and at least three points. -/
def GInv (c : Cell) : Prop :=
  c.gaussian = true → c.cov.PosDef ∧ c.icov = c.cov⁻¹ ∧ 3 ≤ c.points ∧ Conditioned c.cov

theorem ginv_rescale {eig : Eig} (he : EigOk eig) {c : Cell} (h : c.cov.PosDef) (hp : 3 ≤ c.points) :
    GInv (rescale eig c) := by
  intro _
  obtain ⟨h1, h2⟩ := rescale_posDef he h
  exact ⟨h1, h2, hp, rescale_conditioned he h⟩

theorem ginv_of_not {c : Cell} (h : c.gaussian = false) : GInv c := by
  intro hc; rw [h] at hc; cases hc

theorem pooled_posDef {A B : Mat} {a b w : ℝ} (hA : A.PosDef) (hB : B.PosDef) (ha : 0 < a)
    (hb : 0 < b) (hw : 0 ≤ w) (v : Vec) : (a • A + b • B + w • vecMulVec v v).PosDef :=
  ((hA.smul ha).add (hB.smul hb)).add_posSemidef ((posSemidef_outer v).smul hw)

theorem ginv_merge {eig : Eig} (he : EigOk eig) {c d : Cell} (hc : GInv c) (hd : GInv d) :
    GInv (merge eig c d) := by
  unfold merge
  split_ifs with h1 h2 h3
  · exact hc
  · exact hc
  · obtain ⟨c1, c2, c3, -⟩ := hc h3
    obtain ⟨d1, d2, d3, -⟩ := hd (by simpa using h2)
    simp only
    split_ifs with h4
    · exact ginv_of_not rfl
    · refine ginv_rescale he ?_ ?_
      · refine Matrix.PosDef.smul ?_ ?_
        · exact pooled_posDef c1 d1 (pred64_pos (by omega)) (pred64_pos (by omega)) (by positivity) _
        · exact one_div_pos.2 (pred64_pos (by omega))
      · simp only [cap]
        split_ifs
        · decide
        · omega
  · intro _
    exact hd (by simpa using h2)

theorem ginv_update {eig : Eig} (he : EigOk eig) {c : Cell} (hc : GInv c) (hg : c.gaussian = true)
    (hn : 6 ≤ c.pending.length) : GInv (updateGaussian eig c) := by
  obtain ⟨c1, c2, c3, -⟩ := hc hg
  have hcomb := pooled_posDef c1 (batchCov_posDef c.pending (by omega))
    (pred64_pos (n := c.points) (by omega)) (pred64_pos (n := c.pending.length) (by omega))
    (w := (c.points : ℝ) / (c.pending.length * (c.points + c.pending.length))) (by positivity)
    (((c.pending.length : ℝ) / c.points) • (c.points : ℝ) • c.mean -
      (c.pending.length : ℝ) • batchMean c.pending)
  unfold updateGaussian
  simp only
  split_ifs with h4
  · refine ginv_rescale he ?_ (show 3 ≤ maxPoints by decide)
    refine Matrix.PosDef.smul (Matrix.PosDef.smul hcomb ?_) (one_div_pos.2 (pred64_pos (by decide)))
    exact div_pos (pred64_pos (by decide)) (pred64_pos (by omega))
  · refine ginv_rescale he ?_ (by simp only; omega)
    exact Matrix.PosDef.smul hcomb (one_div_pos.2 (pred64_pos (by omega)))

theorem ginv_compute {eig : Eig} (he : EigOk eig) {c : Cell} (hc : GInv c) :
    GInv (computeGaussian eig c) := by
  unfold computeGaussian
  simp only
  split_ifs with h1 h2 h3
  · exact ginv_of_not rfl
  · exact ginv_of_not rfl
  · exact ginv_rescale he (batchCov_posDef _ (by omega)) (by simp only; omega)
  · exact ginv_update he (c := { c with occ := addOcc c.occ (some (c.pending.length * logLike)) }) hc
      (by simpa using h3) (by simpa using h2)

theorem updateGaussian_other (eig : Eig) (c : Cell) : (updateGaussian eig c).occ = c.occ ∧
    (updateGaussian eig c).gaussian = true ∧
    (updateGaussian eig c).points = cap (c.points + c.pending.length) := by
  unfold updateGaussian cap
  simp only
  split_ifs
  · exact ⟨rfl, rfl, rfl⟩
  · exact ⟨rfl, rfl, rfl⟩

theorem ginv_ray {c c' : Cell} {s e : Vec} {n : ℕ} (hc : GInv c) (h : rayUpdate c s e n = .ok c') :
    GInv c' := by
  unfold rayUpdate at h
  split_ifs at h with h1 h2
  · cases h; exact ginv_of_not h1
  · cases h; exact hc
  · obtain ⟨r, -, rfl⟩ := Res.map_eq_ok.1 h
    intro hg
    simp only at hg
    split_ifs at hg
    exact hc hg

theorem ginv_transform {eig : Eig} (he : EigOk eig) {c : Cell} {a r : Mat} {t : Vec} (hc : GInv c)
    (hr : r * r.transpose = 1) : GInv (transform eig c a r t) := by
  unfold transform
  split_ifs with h
  · obtain ⟨c1, -, c3, -⟩ := hc h
    refine ginv_rescale he ?_ c3
    simp only
    rw [← Matrix.conjTranspose_eq_transpose_of_trivial]
    exact c1.mul_mul_conjTranspose_same
      (vecMul_injective_of_isUnit ((Matrix.isUnit_iff_isUnit_det r).2
        (Matrix.isUnit_det_of_right_inverse hr)))
  · exact hc

theorem Reach.ginv {eig : Eig} (he : EigOk eig) {P} {c : Cell} (h : Reach eig P c) : GInv c := by
  induction h with
  | init => exact ginv_of_not rfl
  | addPoint p _ ih => exact ih
  | computeGaussian _ ih => exact ginv_compute he ih
  | merge _ _ ih1 ih2 => exact ginv_merge he ih1 ih2
  | ray s e n _ _ h ih => exact ginv_ray ih h
  | transform a r t _ hr ih => exact ginv_transform he ih hr

/-! ### Occupancy -/

def OccOk (o : Option ℝ) : Prop := ∃ x, o = some x ∧ -1 ≤ x ∧ x ≤ 1

theorem clamp_mem (x : ℝ) : -1 ≤ clamp x ∧ clamp x ≤ 1 := by
  unfold clamp
  simp only
  split_ifs <;> constructor <;> linarith

theorem occOk_add {o : Option ℝ} (h : OccOk o) (x : ℝ) : OccOk (addOcc o (some x)) := by
  obtain ⟨y, rfl, -⟩ := h
  exact ⟨_, rfl, clamp_mem _⟩

theorem clamp_le {x y : ℝ} (h : x ≤ y) (hy : -1 ≤ y) : clamp x ≤ y := by
  unfold clamp
  simp only
  split_ifs <;> linarith

theorem norm2_pos {v : Vec} (h : v ≠ 0) : 0 < norm2 v := by
  unfold norm2
  apply Real.sqrt_pos.2
  have h1 : 0 ≤ v ⬝ᵥ v := by
    simp only [dotProduct]
    exact Finset.sum_nonneg fun i _ => mul_self_nonneg _
  refine lt_of_le_of_ne h1 fun h0 => h ?_
  exact dotProduct_self_eq_zero.1 h0.symm

/-- On a positive definite cell a proper ray has a likelihood in (0,1]. -/
theorem lineLik_ok {c : Cell} (h : c.cov.PosDef) (hi : c.icov = c.cov⁻¹) {s e : Vec} (hne : s ≠ e) :
    ∃ lik pt, lineLik c s e = .ok (some (lik, pt)) ∧ 0 < lik ∧ lik ≤ 1 := by
  have hpd : c.icov.PosDef := by rw [hi]; exact h.inv
  have hes : e - s ≠ 0 := fun h0 => hne (sub_eq_zero.1 h0).symm
  have hn := norm2_pos hes
  have hl : (1 / norm2 (e - s)) • (e - s) ≠ 0 := by
    intro h0
    rcases smul_eq_zero.1 h0 with h0 | h0
    · exact absurd h0 (one_div_ne_zero hn.ne')
    · exact hes h0
  have hs : c.icov.mulVec ((1 / norm2 (e - s)) • (e - s)) ⬝ᵥ ((1 / norm2 (e - s)) • (e - s)) ≠ 0 := by
    have := hpd.dotProduct_mulVec_pos hl
    rw [dotProduct_comm]
    simp only [star_trivial] at this
    exact this.ne'
  unfold lineLik
  rw [if_neg hne]
  simp only
  rw [if_neg hs]
  refine ⟨_, _, rfl, Real.exp_pos _, ?_⟩
  rw [Real.exp_le_one_iff]
  have : ∀ x, 0 ≤ x ⬝ᵥ (c.icov.mulVec x) := fun x => by
    have := hpd.posSemidef.dotProduct_mulVec_nonneg x
    simpa only [star_trivial] using this
  linarith [this ((-(c.icov.mulVec ((1 / norm2 (e - s)) • (e - s)) ⬝ᵥ (e - c.mean)) /
    (c.icov.mulVec ((1 / norm2 (e - s)) • (e - s)) ⬝ᵥ ((1 / norm2 (e - s)) • (e - s)))) •
    ((1 / norm2 (e - s)) • (e - s)) + e - c.mean)]

/-- The log-odds update of lines 158-179 is a number and not positive. -/
theorem logodds {lik thr : ℝ} (h0 : 0 < lik) (h1 : lik ≤ 1) (t0 : 0 ≤ thr) (t1 : thr ≤ 1) :
    ∃ x, logC ((1 - (0.1 * (lik * (1 - thr)) + 0.5)) / (0.1 * (lik * (1 - thr)) + 0.5)) = some x ∧
      x ≤ 0 := by
  have ha : 0 ≤ lik * (1 - thr) := mul_nonneg h0.le (by linarith)
  have hb : lik * (1 - thr) ≤ 1 := by nlinarith
  set y := lik * (1 - thr)
  have hp : 0 < (1 - (0.1 * y + 0.5)) / (0.1 * y + 0.5) := by apply div_pos <;> linarith
  refine ⟨_, by unfold logC; rw [if_pos hp], ?_⟩
  apply Real.log_nonpos hp.le
  rw [div_le_one (by linarith)]
  linarith

/-- Effect of a proper ray on a cell satisfying the invariants. -/
theorem ray_effect {c : Cell} (hg : GInv c) {s e : Vec} (hne : s ≠ e) (n : ℕ)
    (hend : c.gaussian = true → 0.01 ≤ ∑ i, |c.mean i - e i|) :
    ∃ c' x, rayUpdate c s e n = .ok c' ∧ x ≤ 0 ∧ c'.occ = addOcc c.occ (some x) ∧
      (c.gaussian = true → occLe c'.occ → c'.gaussian = false) ∧
      (c.gaussian = false → c'.gaussian = false) := by
  unfold rayUpdate
  split_ifs with h1 h2
  · refine ⟨_, _, rfl, ?_, rfl, ?_, fun h => h⟩
    · unfold noGaussianUpdate
      have : (0 : ℝ) ≤ n := Nat.cast_nonneg n
      linarith
    · intro h; rw [h1] at h; cases h
  · have h1' : c.gaussian = true := by simpa using h1
    exact absurd h2 (not_lt.2 (hend h1'))
  · have h1' : c.gaussian = true := by simpa using h1
    obtain ⟨g1, g2, -⟩ := hg h1'
    obtain ⟨lik, pt, hl, l0, l1⟩ := lineLik_ok g1 g2 hne
    have hthr0 := (Real.exp_pos (-0.5 * (norm2 (pt - e) * norm2 (pt - e)) /
      (sensorNoise * sensorNoise))).le
    have hthr1 : Real.exp (-0.5 * (norm2 (pt - e) * norm2 (pt - e)) /
        (sensorNoise * sensorNoise)) ≤ 1 := by
      rw [Real.exp_le_one_iff]
      apply div_nonpos_of_nonpos_of_nonneg
      · have := mul_self_nonneg (norm2 (pt - e)); linarith
      · exact mul_self_nonneg _
    obtain ⟨x, hx, hx0⟩ := logodds l0 l1 hthr0 hthr1
    rw [hl, Res.map_ok]
    refine ⟨_, n * x, rfl, ?_, ?_, ?_, ?_⟩
    · exact mul_nonpos_of_nonneg_of_nonpos (Nat.cast_nonneg n) hx0
    · simp only [Option.bind_some, hx, Option.map_some]
    · intro _ h
      simp only at h ⊢
      rw [if_pos h]
    · intro h; rw [h] at h1'; cases h1'

theorem Reach.occ {eig : Eig} (he : EigOk eig) {c : Cell} (h : Reach eig properRay c) :
    OccOk c.occ := by
  induction h with
  | init => exact ⟨0, rfl, by norm_num, by norm_num⟩
  | addPoint p _ ih => exact ih
  | computeGaussian _ ih =>
    unfold NDT.computeGaussian
    simp only
    split_ifs
    · exact occOk_add ih _
    · exact occOk_add ih _
    · exact occOk_add ih _
    · simp only [clearPending, (updateGaussian_other _ _).1]
      exact occOk_add ih _
  | merge _ _ ih1 ih2 =>
    unfold NDT.merge
    simp only
    split_ifs
    · exact ih1
    · exact ih1
    · exact occOk_add ih1 _
    · exact occOk_add ih1 _
    · exact ih2
  | @ray c c' s e n hr hp h ih =>
    by_cases hend : c.gaussian = true → 0.01 ≤ ∑ i, |c.mean i - e i|
    · obtain ⟨c'', x, h1, -, h2, -⟩ := ray_effect (hr.ginv he) hp n hend
      rw [h1] at h; cases h
      rw [h2]; exact occOk_add ih _
    · push Not at hend
      unfold rayUpdate at h
      rw [if_neg (by rw [hend.1]; simp), if_pos hend.2] at h
      cases h
      exact occOk_add ih _
  | transform a r t _ hr ih =>
    unfold NDT.transform
    split_ifs
    · exact ih
    · exact ih

end Verif.NDT
