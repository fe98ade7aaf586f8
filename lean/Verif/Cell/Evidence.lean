import Verif.Cell.Props
import Mathlib.Analysis.SpecialFunctions.Log.Deriv

/-
C121: how much a measurement counts for the occupancy of a cell.
-/
namespace Verif.NDT

open Verif Matrix

/-! ### Specification vocabulary -/

/-- The value limited to [-1,1]. -/
noncomputable def limited (x : ℝ) : ℝ := max (-1) (min 1 x)

/-- Squared Mahalanobis distance of a point from the Gaussian of the cell. -/
noncomputable def mahal (c : Cell) (x : Vec) : ℝ := (x - c.mean) ⬝ᵥ c.cov⁻¹.mulVec (x - c.mean)

/-- The point lies on the line through the two ends of the ray. -/
def OnLine (s e x : Vec) : Prop := ∃ t : ℝ, x = e + t • (e - s)

/-- Squared Euclidean distance. -/
def dist2 (x y : Vec) : ℝ := (x - y) ⬝ᵥ (x - y)

/-- The log-odds of a probability. -/
noncomputable def logOdds (p : ℝ) : ℝ := Real.log (p / (1 - p))

/-! ### Lemmas -/

theorem clamp_limited (x : ℝ) : clamp x = limited x := by
  unfold clamp limited
  simp only
  rcases le_total x 1 with h | h
  · rw [if_neg (not_lt.2 h), min_eq_right h]
    rcases lt_or_ge x (-1) with h2 | h2
    · rw [if_pos h2, max_eq_left h2.le]
    · rw [if_neg (not_lt.2 h2), max_eq_right h2]
  · rcases h.lt_or_eq with h | h
    · rw [if_pos h, min_eq_left h.le, if_neg (by norm_num), max_eq_right (by norm_num)]
    · subst h; norm_num

theorem clamp_one {x : ℝ} (h : 1 ≤ x) : clamp x = 1 := by
  rw [clamp_limited, limited, min_eq_left h]; norm_num

theorem log_three_halves : |0.405465108 - Real.log (3 / 2)| ≤ 1e-9 := by
  have h := Real.abs_log_sub_add_sum_range_le (x := 1 / 3) (by rw [abs_of_pos] <;> norm_num) 20
  have e : Real.log (1 - 1 / 3) = -Real.log (3 / 2) := by
    rw [← Real.log_inv]; norm_num
  rw [e, abs_of_pos (by norm_num : (0 : ℝ) < 1 / 3)] at h
  norm_num [Finset.sum_range_succ] at h
  rw [abs_le] at h ⊢
  norm_num at h ⊢
  constructor <;> linarith [h.1, h.2]

theorem quad_expand {M : Mat} (hM : M.transpose = M) (b l : Vec) (t : ℝ) :
    (b + t • l) ⬝ᵥ M.mulVec (b + t • l) =
      b ⬝ᵥ M.mulVec b + 2 * t * (M.mulVec l ⬝ᵥ b) + t * t * (M.mulVec l ⬝ᵥ l) := by
  have e1 : l ⬝ᵥ M.mulVec b = M.mulVec l ⬝ᵥ b := by
    rw [dotProduct_mulVec, ← mulVec_transpose, hM]
  rw [mulVec_add, mulVec_smul, add_dotProduct, dotProduct_add, dotProduct_add, smul_dotProduct,
    smul_dotProduct, dotProduct_smul, dotProduct_smul, e1, dotProduct_comm b (M.mulVec l),
    dotProduct_comm l (M.mulVec l)]
  simp only [smul_eq_mul]
  ring

/-- The point used by `calcMaxLikelihoodOnLine` is the point of the line with the highest likelihood. -/
theorem lineLik_max {c : Cell} (h : c.cov.PosDef) (hi : c.icov = c.cov⁻¹) {s e : Vec} (hne : s ≠ e) :
    ∃ pt, lineLik c s e = .ok (some (Real.exp (-mahal c pt / 2), pt)) ∧ OnLine s e pt ∧
      ∀ y, OnLine s e y → mahal c pt ≤ mahal c y := by
  have hpd : c.icov.PosDef := by rw [hi]; exact h.inv
  have hsym : c.icov.transpose = c.icov := by
    have := hpd.isHermitian
    rwa [IsHermitian, conjTranspose_eq_transpose_of_trivial] at this
  have hes : e - s ≠ 0 := fun h0 => hne (sub_eq_zero.1 h0).symm
  have hn := norm2_pos hes
  set l : Vec := (1 / norm2 (e - s)) • (e - s) with hldef
  have hl : l ≠ 0 := by
    intro h0
    rcases smul_eq_zero.1 h0 with h0 | h0
    · exact absurd h0 (one_div_ne_zero hn.ne')
    · exact hes h0
  have hs : 0 < c.icov.mulVec l ⬝ᵥ l := by
    have := hpd.dotProduct_mulVec_pos hl
    rw [dotProduct_comm]
    simpa only [star_trivial] using this
  have hel : e - s = norm2 (e - s) • l := by
    rw [hldef, smul_smul, mul_one_div_cancel hn.ne', one_smul]
  unfold lineLik
  rw [if_neg hne]
  simp only
  rw [if_neg hs.ne']
  refine ⟨_, by rw [mahal, ← hi], ?_, ?_⟩
  · refine ⟨-(c.icov.mulVec l ⬝ᵥ (e - c.mean)) / (c.icov.mulVec l ⬝ᵥ l) / norm2 (e - s), ?_⟩
    rw [← hldef, add_comm]
    congr 1
    rw [hldef, smul_smul, mul_one_div]
  · rintro y ⟨u, rfl⟩
    rw [← hldef]
    set σ := c.icov.mulVec l ⬝ᵥ l
    set α := c.icov.mulVec l ⬝ᵥ (e - c.mean) with hα
    have e1 : ∀ t : ℝ, e + t • l - c.mean = (e - c.mean) + t • l := fun t => by abel
    unfold mahal
    rw [add_comm (_ • l) e, e1,
      show u • (e - s) = (u * norm2 (e - s)) • l by rw [← smul_smul, ← hel], e1, ← hi,
      quad_expand hsym, quad_expand hsym, ← hα]
    have : 0 ≤ σ * (u * norm2 (e - s) + α / σ) ^ 2 := by positivity
    have e2 : σ * (u * norm2 (e - s) + α / σ) ^ 2 =
        2 * (u * norm2 (e - s)) * α + (u * norm2 (e - s)) * (u * norm2 (e - s)) * σ -
          (2 * (-α / σ) * α + (-α / σ) * (-α / σ) * σ) := by
      field_simp
      ring
    linarith

theorem norm2_sq (v : Vec) : norm2 v * norm2 v = v ⬝ᵥ v := by
  unfold norm2
  apply Real.mul_self_sqrt
  simp only [dotProduct]
  exact Finset.sum_nonneg fun i _ => mul_self_nonneg _

/-- Gaussian cells have a positive occupancy. -/
theorem Reach.positive {eig : Eig} (he : EigOk eig) {c : Cell} (h : Reach eig properRay c)
    (hg : c.gaussian = true) : ∃ x, c.occ = some x ∧ 0 < x := by
  have key : ∀ o : Option ℝ, OccOk o → ¬ occLe o → ∃ x, o = some x ∧ 0 < x := by
    rintro o ⟨x, rfl, -⟩ hn
    refine ⟨x, rfl, ?_⟩
    by_contra hx
    exact hn ⟨x, rfl, not_lt.1 hx⟩
  induction h with
  | init => simp [NDT.init] at hg
  | addPoint p _ ih => exact ih hg
  | @computeGaussian c hr ih =>
    revert hg
    unfold NDT.computeGaussian
    simp only
    have ho := occOk_add (hr.occ he) ((c.pending.length : ℝ) * logLike)
    split_ifs with h1 h2 h3
    · simp
    · simp
    · intro _; exact key _ ho h1
    · intro _
      simp only [clearPending, (updateGaussian_other _ _).1]
      exact key _ ho h1
  | @merge c d hc hd ih1 ih2 =>
    revert hg
    unfold NDT.merge
    simp only
    split_ifs with h1 h2 h3 h4
    · exact ih1
    · exact ih1
    · simp
    · intro _
      obtain ⟨x, hx, hx0⟩ := ih1 h3
      refine ⟨_, by simp only [rescale, hx]; rfl, ?_⟩
      rw [clamp_limited]
      unfold limited logLike
      have : (0 : ℝ) ≤ d.points := Nat.cast_nonneg _
      refine lt_max_of_lt_right (lt_min one_pos ?_)
      positivity
    · intro _; exact ih2 (by simpa using h2)
  | @ray c c' s e n hr hp h ih =>
    have ho := (Reach.ray s e n hr hp h).occ he
    unfold rayUpdate at h
    split_ifs at h with h1 h2
    · cases h; rw [h1] at hg; cases hg
    · cases h
      obtain ⟨x, hx, hx0⟩ := ih hg
      refine ⟨_, by simp only [hx]; rfl, ?_⟩
      rw [clamp_one (by linarith)]; exact one_pos
    · cases hl : lineLik c s e with
      | ok r =>
        rw [hl, Res.map_ok] at h
        cases h
        simp only at hg ho ⊢
        split_ifs at hg with h3
        exact key _ ho h3
      | _ => rw [hl] at h; cases h
  | transform a r t _ hr ih =>
    revert hg
    unfold NDT.transform
    split_ifs with h1
    · intro _; exact ih h1
    · exact ih

/-! ### C121 -/

/-- **C121**, points: every point that `computeGaussian` takes into account adds the same amount to the
occupancy, the log-odds of 0.6 rounded to nine decimals. -/
theorem C121_points : ∃ w : ℝ, |w - logOdds 0.6| ≤ 1e-9 ∧ ∀ (eig : Eig) (c : Cell) (o : ℝ), c.occ = some o →
    (computeGaussian eig c).occ = some (limited (o + c.pending.length * w)) := by
  refine ⟨logLike, ?_, fun eig c o ho => ?_⟩
  · have : logOdds 0.6 = Real.log (3 / 2) := by unfold logOdds; norm_num
    rw [this]
    exact log_three_halves
  · have : addOcc c.occ (some ((c.pending.length : ℝ) * logLike)) =
        some (limited (o + c.pending.length * logLike)) := by
      rw [ho, ← clamp_limited]; rfl
    unfold computeGaussian
    simp only
    split_ifs
    · exact this
    · exact this
    · exact this
    · simp only [clearPending, (updateGaussian_other _ _).1]
      exact this

/-- **C121**, rays through a cell without Gaussian: the occupancy falls by 0.2 for every point, nothing else
changes. -/
theorem C121_ray_empty (c : Cell) (s e : Vec) (n : ℕ) {o : ℝ} (ho : c.occ = some o)
    (hg : c.gaussian = false) :
    rayUpdate c s e n = .ok { c with occ := some (limited (o - 0.2 * n)) } := by
  unfold rayUpdate
  rw [if_pos hg, ho, ← clamp_limited]
  simp only [addOcc, noGaussianUpdate]
  congr 5
  ring

open Classical in
/-- **C121**, rays through a Gaussian: with `p` the highest value of the Gaussian (scaled to maximum 1) along the
line of the ray, taken at distance `d` from the measured end, the occupancy falls by the log-odds of
`0.5 + 0.1 p (1 - exp (-d²/(2·0.01²)))` for every point.  The Gaussian is kept exactly as long as the occupancy is
positive, and nothing else changes. -/
theorem C121_ray_gaussian {eig : Eig} (he : EigOk eig) {c : Cell} (h : Reach eig properRay c) (s e : Vec)
    (n : ℕ) {o : ℝ} (ho : c.occ = some o) (hg : c.gaussian = true) (hse : s ≠ e)
    (hend : 0.01 ≤ ∑ i, |c.mean i - e i|) :
    ∃ x, OnLine s e x ∧ (∀ y, OnLine s e y → mahal c x ≤ mahal c y) ∧
      let o' := limited (o - n * logOdds (0.5 + 0.1 *
        (Real.exp (-mahal c x / 2) * (1 - Real.exp (-dist2 x e / (2 * 0.01 ^ 2))))))
      rayUpdate c s e n = .ok { c with occ := some o', gaussian := decide (0 < o') } := by
  obtain ⟨g1, g2, -⟩ := h.ginv he hg
  obtain ⟨x, hl, hx, hmin⟩ := lineLik_max g1 g2 hse
  refine ⟨x, hx, hmin, ?_⟩
  have hm : 0 ≤ mahal c x := by
    have := g1.inv.posSemidef.dotProduct_mulVec_nonneg (x - c.mean)
    simpa only [star_trivial, mahal] using this
  have hd : 0 ≤ dist2 x e := by rw [dist2, ← norm2_sq]; exact mul_self_nonneg _
  unfold rayUpdate
  rw [if_neg (by rw [hg]; simp), if_neg (not_lt.2 hend), hl, Res.map_ok]
  have ethr : Real.exp (-0.5 * (norm2 (x - e) * norm2 (x - e)) / (sensorNoise * sensorNoise)) =
      Real.exp (-dist2 x e / (2 * 0.01 ^ 2)) := by
    rw [norm2_sq, ← dist2]
    congr 1
    unfold sensorNoise
    ring
  set p := Real.exp (-mahal c x / 2) with hp
  set q := Real.exp (-dist2 x e / (2 * 0.01 ^ 2)) with hq
  have p0 : 0 < p := Real.exp_pos _
  have p1 : p ≤ 1 := by rw [hp, Real.exp_le_one_iff]; linarith
  have q0 : 0 < q := Real.exp_pos _
  have q1 : q ≤ 1 := by
    rw [hq, Real.exp_le_one_iff]
    apply div_nonpos_of_nonpos_of_nonneg (by linarith) (by positivity)
  have ha : 0 ≤ p * (1 - q) := mul_nonneg p0.le (by linarith)
  have hb : p * (1 - q) ≤ 1 := by nlinarith
  have elog : logC ((1 - (0.1 * (p * (1 - q)) + 0.5)) / (0.1 * (p * (1 - q)) + 0.5)) =
      some (-logOdds (0.5 + 0.1 * (p * (1 - q)))) := by
    have hpos : 0 < (1 - (0.1 * (p * (1 - q)) + 0.5)) / (0.1 * (p * (1 - q)) + 0.5) := by
      apply div_pos <;> linarith
    unfold logC
    rw [if_pos hpos, logOdds, ← Real.log_inv, inv_div]
    congr 2
    ring
  have gen : ∀ (X : Option ℝ) (o' : ℝ), X = some o' →
      (Res.ok { c with occ := X, gaussian := if occLe X then false else c.gaussian } : Res Cell) =
        .ok { c with occ := some o', gaussian := decide (0 < o') } := by
    rintro _ o' rfl
    congr 2
    rw [hg]
    by_cases hpos : 0 < o'
    · rw [if_neg (by rintro ⟨z, hz, hz0⟩; cases hz; linarith)]
      simp [hpos]
    · rw [if_pos ⟨o', rfl, not_lt.1 hpos⟩]
      simp [hpos]
  refine gen _ _ ?_
  simp only [Option.bind_some, ethr, elog, Option.map_some, ho, addOcc]
  rw [clamp_limited]
  congr 2
  ring

/-- **C121**, a ray takes away at most what a point adds: at most the log-odds of 0.6 for every point. -/
theorem C121_ray_bound {eig : Eig} (he : EigOk eig) {c c' : Cell} (h : Reach eig properRay c) (s e : Vec)
    (n : ℕ) {o : ℝ} (ho : c.occ = some o) (hse : s ≠ e) (hr : rayUpdate c s e n = .ok c') :
    ∃ o', c'.occ = some o' ∧ limited (o - n * logOdds 0.6) ≤ o' := by
  have mono : ∀ {a b : ℝ}, a ≤ b → limited a ≤ limited b := fun hab => by
    unfold limited; exact max_le_max le_rfl (min_le_min le_rfl hab)
  have hn : (0 : ℝ) ≤ n := Nat.cast_nonneg n
  have hL : (0.2 : ℝ) ≤ logOdds 0.6 := by
    have h1 : logOdds 0.6 = Real.log (3 / 2) := by unfold logOdds; norm_num
    have h2 := abs_le.1 log_three_halves
    rw [h1]
    norm_num at h2 ⊢
    linarith [h2.1, h2.2]
  cases hg : c.gaussian with
  | false =>
    rw [C121_ray_empty c s e n ho hg] at hr
    cases hr
    exact ⟨_, rfl, mono (by nlinarith)⟩
  | true =>
    by_cases hend : 0.01 ≤ ∑ i, |c.mean i - e i|
    · obtain ⟨x, -, -, hx⟩ := C121_ray_gaussian he h s e n ho hg hse hend
      rw [hx] at hr
      cases hr
      refine ⟨_, rfl, mono ?_⟩
      obtain ⟨g1, -⟩ := h.ginv he hg
      have hm : 0 ≤ mahal c x := by
        have := g1.inv.posSemidef.dotProduct_mulVec_nonneg (x - c.mean)
        simpa only [star_trivial, mahal] using this
      have p0 := Real.exp_pos (-mahal c x / 2)
      have p1 : Real.exp (-mahal c x / 2) ≤ 1 := by rw [Real.exp_le_one_iff]; linarith
      have q0 := Real.exp_pos (-dist2 x e / (2 * 0.01 ^ 2))
      have q1 : Real.exp (-dist2 x e / (2 * 0.01 ^ 2)) ≤ 1 := by
        rw [Real.exp_le_one_iff]
        have hd : 0 ≤ dist2 x e := by rw [dist2, ← norm2_sq]; exact mul_self_nonneg _
        apply div_nonpos_of_nonpos_of_nonneg (by linarith) (by positivity)
      set p := Real.exp (-mahal c x / 2)
      set q := Real.exp (-dist2 x e / (2 * 0.01 ^ 2))
      have ha : 0 ≤ p * (1 - q) := mul_nonneg p0.le (by linarith)
      have hb : p * (1 - q) ≤ 1 := by nlinarith
      have : logOdds (0.5 + 0.1 * (p * (1 - q))) ≤ logOdds 0.6 := by
        unfold logOdds
        apply Real.log_le_log
        · apply div_pos <;> linarith
        · rw [div_le_div_iff₀ (by linarith) (by norm_num)]
          nlinarith
      nlinarith
    · unfold rayUpdate at hr
      rw [if_neg (by rw [hg]; simp), if_pos (not_le.1 hend), ho] at hr
      cases hr
      refine ⟨_, rfl, ?_⟩
      rw [clamp_limited]
      exact mono (by nlinarith)

/-- **C121**, confirmation: a Gaussian has a positive occupancy, and a ray that ends at its mean (within 0.01) or
another Gaussian merged into it makes the cell fully occupied; the ray changes nothing else. -/
theorem C121_confirmed {eig : Eig} (he : EigOk eig) {c : Cell} (h : Reach eig properRay c)
    (hg : c.gaussian = true) :
    (∃ o, c.occ = some o ∧ 0 < o) ∧
    (∀ (s e : Vec) (n : ℕ), (∑ i, |c.mean i - e i|) < 0.01 → rayUpdate c s e n = .ok { c with occ := some 1 }) ∧
    (∀ d, Reach eig properRay d → d.gaussian = true →
      (merge eig c d).occ = some 1 ∧ (merge eig c d).gaussian = true) := by
  obtain ⟨o, ho, hpos⟩ := h.positive he hg
  refine ⟨⟨o, ho, hpos⟩, fun s e n hend => ?_, fun d hd hdg => ?_⟩
  · unfold rayUpdate
    rw [if_neg (by rw [hg]; simp), if_pos hend, ho]
    simp only [addOcc]
    rw [clamp_one (by linarith)]
  · obtain ⟨-, -, hp, -⟩ := hd.ginv he hdg
    have hp' : (3 : ℝ) ≤ d.points := by exact_mod_cast hp
    have e1 : addOcc c.occ (some ((d.points : ℝ) * logLike)) = some 1 := by
      rw [ho]
      simp only [addOcc]
      rw [clamp_one]
      unfold logLike
      nlinarith
    have e2 : ¬ occLt (some 1) := by rintro ⟨z, hz, hz0⟩; cases hz; linarith
    unfold merge
    simp only
    rw [if_neg (by omega), if_neg (by rw [hdg]; simp), if_pos hg, e1, if_neg e2]
    exact ⟨rfl, rfl⟩

/-- A cell without and a cell with a Gaussian, a ray through the latter that does not end at its mean, one that does,
and another Gaussian. -/
example : ∃ eig, EigOk eig ∧ ∃ c d : Cell, Reach eig properRay c ∧ c.occ = some 1 ∧ c.gaussian = true ∧
    Reach eig properRay d ∧ d.gaussian = false ∧ d.occ = some 0 ∧
    (∃ s e : Vec, s ≠ e ∧ 0.01 ≤ ∑ i, |c.mean i - e i|) ∧
    (∃ s e : Vec, s ≠ e ∧ (∑ i, |c.mean i - e i|) < 0.01) := by
  obtain ⟨eig, he⟩ := exists_eig
  refine ⟨eig, he, _, init, .computeGaussian (exCell_reach eig _), by rw [exCompute]; rfl,
    by rw [exCompute]; rfl, .init, rfl, rfl, ⟨0, ![1, 0, 0], ?_, ?_⟩, ⟨![1, 0, 0], 0, ?_, ?_⟩⟩
  · intro h
    have := congrFun h 0
    norm_num at this
  · have hm : (computeGaussian eig exCell).mean = 0 := by
      rw [exCompute]
      exact sixPoints_mean
    rw [hm, Fin.sum_univ_three]
    have : 0 ≤ |(0 : Vec) 2 - (![1, 0, 0] : Vec) 2| := abs_nonneg _
    have h0 : |(0 : Vec) 0 - (![1, 0, 0] : Vec) 0| = 1 := by norm_num
    have h1 : 0 ≤ |(0 : Vec) 1 - (![1, 0, 0] : Vec) 1| := abs_nonneg _
    rw [h0]
    linarith
  · intro h
    have := congrFun h 0
    norm_num at this
  · have hm : (computeGaussian eig exCell).mean = 0 := by
      rw [exCompute]
      exact sixPoints_mean
    rw [hm, Fin.sum_univ_three]
    norm_num

/-! ### C69 beyond the limit of points -/

/-- **C69**, one further batch, also beyond 10^9 points: the new mean is the mean of the old mean, weighted with the
count, and the new points; the count is limited to 10^9. -/
theorem C69_limit {eig : Eig} {c : Cell} {o : ℝ} (hg : c.gaussian = true) (ho : c.occ = some o) (hpos : 0 ≤ o)
    (hn : 6 ≤ c.pending.length) :
    let c' := computeGaussian eig c
    c'.mean = (1 / ((c.points : ℝ) + c.pending.length)) • ((c.points : ℝ) • c.mean + c.pending.sum) ∧
      c'.points = min 1000000000 (c.points + c.pending.length) ∧ c'.pending = [] := by
  obtain ⟨y, hy, hy0, hy1⟩ := addOcc_nonneg hpos c.pending.length
  have hyp : 0 < y := hy1 (.inr (by omega))
  have hocc : ¬ occLe (addOcc c.occ (some ((c.pending.length : ℝ) * logLike))) := by
    rw [ho, hy]; rintro ⟨z, hz, hz0⟩; cases hz; linarith
  have hlen : (c.pending.length : ℝ) ≠ 0 := by positivity
  have hsum : (c.pending.length : ℝ) • batchMean c.pending = c.pending.sum := by
    rw [batchMean, smul_smul, mul_one_div_cancel hlen, one_smul]
  have hpts : ((c.points + c.pending.length : ℕ) : ℝ) ≠ 0 := by
    have : 0 < c.points + c.pending.length := by omega
    positivity
  simp only
  rw [compute_update hocc (by omega) hg]
  obtain ⟨-, -, u3⟩ := updateGaussian_other eig
    { c with occ := addOcc c.occ (some ((c.pending.length : ℝ) * logLike)) }
  refine ⟨?_, ?_, rfl⟩
  · show (updateGaussian eig _).mean = _
    rw [← hsum, ← Nat.cast_add]
    unfold updateGaussian
    simp only
    split_ifs
    · show (1 / (maxPoints : ℝ)) • (((maxPoints : ℝ) / ((c.points + c.pending.length : ℕ) : ℝ)) • _) = _
      have hmax : (maxPoints : ℝ) ≠ 0 := by unfold maxPoints; norm_num
      rw [smul_smul]
      congr 1
      field_simp
    · rfl
  · show (updateGaussian eig _).points = _
    rw [u3]
    show cap (c.points + c.pending.length) = _
    unfold cap maxPoints
    split_ifs <;> omega

/-- A cell with the greatest count and a batch of points. -/
example : ∃ c : Cell, c.gaussian = true ∧ c.occ = some 1 ∧ c.points = 1000000000 ∧ 6 ≤ c.pending.length :=
  ⟨{ init with gaussian := true, occ := some 1, points := 1000000000, pending := sixPoints }, rfl, rfl, rfl,
    by decide⟩

/-- **C20**, published value: of a cell with any history (all rays of positive length) it is the occupancy in percent, rounded down.  It is 100 exactly
if the occupancy is 1 and negative exactly if the occupancy is. -/
theorem C20_published_partial {eig : Eig} (he : EigOk eig) {c : Cell} (h : Reach eig properRay c) :
    ∃ o v, c.occ = some o ∧ getOccupancy c = .ok v ∧ v = ⌊100 * o⌋ ∧ (v = 100 ↔ o = 1) ∧ (v < 0 ↔ o < 0) := by
  obtain ⟨o, ho, h1, h2⟩ := h.occ he
  have e100 : o * 100 = 100 * o := mul_comm _ _
  have hv : getOccupancy c = .ok ⌊100 * o⌋ := by
    unfold getOccupancy
    rw [ho]
    simp only
    by_cases g : o ≥ 1
    · have : o = 1 := le_antisymm h2 g
      subst this
      rw [if_pos g]
      norm_num
    · rw [if_neg g, if_neg (not_lt.2 h1), e100, if_pos]
      constructor
      · rw [Int.le_floor]
        push_cast
        linarith
      · rw [← Int.lt_add_one_iff, Int.floor_lt]
        push_cast
        linarith
  refine ⟨o, _, ho, hv, rfl, ?_, ?_⟩
  · rw [Int.floor_eq_iff]
    push_cast
    constructor
    · rintro ⟨a, -⟩
      linarith
    · rintro rfl
      norm_num
  · rw [Int.floor_lt]
    push_cast
    constructor <;> intro h <;> linarith

end Verif.NDT
