import Verif.Newton.Spec
import Mathlib.Algebra.BigOperators.Group.Finset.Basic
import Mathlib.Algebra.BigOperators.Pi
import Mathlib.Analysis.Convex.SpecificFunctions.Basic
import Mathlib.Analysis.Complex.ExponentialBounds
import Mathlib.Tactic.Linarith
import Mathlib.Tactic.FieldSimp
import Mathlib.Tactic.Positivity

/- Lemmas about the layers, the fitting parameters and the parallel sum. -/
namespace Verif.Newton

open Verif

/-! ### Layers -/

/-- Cell sizes from coarse to fine. -/
noncomputable def sizesOf (base : ℝ) (n : ℕ) : List ℝ := (List.range n).reverse.map fun i => base * 2 ^ i

theorem sizesOf_length (base : ℝ) (n : ℕ) : (sizesOf base n).length = n := by simp [sizesOf]

theorem sizesOf_last (base : ℝ) {n : ℕ} (h : 0 < n) : (sizesOf base n).getLast? = some base := by
  obtain ⟨m, rfl⟩ : ∃ m, n = m + 1 := ⟨n - 1, by omega⟩
  simp [sizesOf]
  exact ⟨0, by simp [List.range_succ_eq_map], by simp⟩

theorem sizesOf_get (base : ℝ) {n i : ℕ} (h : i < n) : (sizesOf base n)[i]? = some (base * 2 ^ (n - 1 - i)) := by
  have : i < (List.range n).reverse.length := by simpa using h
  rw [sizesOf, List.getElem?_map, List.getElem?_eq_getElem this]
  simp

/-- The members agree with base size, number of layers and ratio. -/
structure Layers.Wf (l : Layers) (base : ℝ) (n : ℕ) (o : ℝ) : Prop where
  count : l.count = n
  sizes : l.sizes = sizesOf base n
  outlier : l.outlier = o
  params : l.params = (sizesOf base n).map fun s => FittingParams.mk' o (1 / s)

theorem Layers.Wf.cellSize {l : Layers} {b o : ℝ} {n : ℕ} (h : l.Wf b n o) (hn : 0 < n) (s : ℝ) :
    (l.setCellSize s).Wf s n o := by
  obtain ⟨h1, h2, h3, h4⟩ := h
  unfold Layers.setCellSize Layers.initCellSizes
  by_cases hc : l.sizes.length > 0 ∧ l.sizes.getLast? = some s ∧ l.sizes.length = l.count
  · rw [if_pos hc]
    simp only [Bool.false_eq_true, if_false]
    have : b = s := by
      have := hc.2.1
      rw [h2, sizesOf_last b hn] at this
      simpa using this
    subst this
    exact ⟨h1, h2, h3, h4⟩
  · rw [if_neg hc]
    simp only [if_true]
    refine ⟨h1, ?_, h3, ?_⟩
    · simp only [Layers.initParams, h1]; rfl
    · simp only [Layers.initParams, h1, h3]; rfl

theorem Layers.Wf.numLayers {l : Layers} {b o : ℝ} {n : ℕ} (h : l.Wf b n o) (hn : 0 < n) (k : ℕ) :
    ∃ l', l.setNumLayers k = .ok l' ∧ l'.Wf b k o := by
  obtain ⟨h1, h2, h3, h4⟩ := h
  unfold Layers.setNumLayers Layers.getCellSize
  simp only [h2, sizesOf_last b hn]
  refine ⟨_, rfl, ?_⟩
  unfold Layers.initCellSizes
  by_cases hc : (sizesOf b n).length > 0 ∧ (sizesOf b n).getLast? = some b ∧ (sizesOf b n).length = k
  · simp only at hc ⊢
    rw [if_pos hc]
    have hk : n = k := by rw [sizesOf_length] at hc; exact hc.2.2
    subst hk
    exact ⟨rfl, rfl, h3, by simp only [Layers.initParams, h3]⟩
  · simp only at hc ⊢
    rw [if_neg hc]
    exact ⟨rfl, rfl, h3, by simp only [Layers.initParams, h3]; rfl⟩

theorem Layers.Wf.outlierRatio {l : Layers} {b o : ℝ} {n : ℕ} (h : l.Wf b n o) (r : ℝ) :
    (l.setOutlierRatio r).Wf b n r := by
  obtain ⟨h1, h2, h3, h4⟩ := h
  exact ⟨h1, h2, rfl, by simp only [Layers.setOutlierRatio, Layers.initParams, h2]⟩

theorem Layers.new_wf (o : ℝ) : (Layers.new o).Wf 0.25 4 o := by
  unfold Layers.new Layers.initCellSizes
  rw [if_neg (by simp)]
  exact ⟨rfl, rfl, rfl, rfl⟩

/-! ### Fitting parameters -/

/-- Ratio of the two weights. -/
theorem fit_eq {o r : ℝ} (ho : 0 < o) (ho1 : o < 1) (hr : 0 < r) :
    (FittingParams.mk' o r).d1 = -Real.log (1 + 10 * (1 - o) / (o / r ^ 2)) ∧
      (FittingParams.mk' o r).d2 = -2 * Real.log (Real.log (1 + 10 * (1 - o) / (o / r ^ 2) * Real.exp (-0.5)) /
        Real.log (1 + 10 * (1 - o) / (o / r ^ 2))) ∧ (FittingParams.mk' o r).d2half = (FittingParams.mk' o r).d2 / 2 := by
  have hc2 : 0 < o / r ^ 2 := by positivity
  have hc1 : 0 < 10 * (1 - o) := by linarith
  have he := Real.exp_pos (-0.5 : ℝ)
  have h1 : Real.log (10 * (1 - o) + o / r ^ 2) - Real.log (o / r ^ 2) =
      Real.log (1 + 10 * (1 - o) / (o / r ^ 2)) := by
    rw [← Real.log_div (by positivity) hc2.ne']
    congr 1
    rw [add_div, div_self hc2.ne', add_comm]
  have h2 : Real.log (10 * (1 - o) * Real.exp (-0.5) + o / r ^ 2) - Real.log (o / r ^ 2) =
      Real.log (1 + 10 * (1 - o) / (o / r ^ 2) * Real.exp (-0.5)) := by
    rw [← Real.log_div (by positivity) hc2.ne']
    congr 1
    rw [add_div, div_self hc2.ne', add_comm]
    ring
  refine ⟨?_, ?_, rfl⟩
  · show -Real.log (10 * (1 - o) + o / r ^ 2) - -Real.log (o / r ^ 2) = _
    rw [← h1]; ring
  · show -2 * Real.log ((-Real.log (10 * (1 - o) * Real.exp (-0.5) + o / r ^ 2) - -Real.log (o / r ^ 2)) /
      (-Real.log (10 * (1 - o) + o / r ^ 2) - -Real.log (o / r ^ 2))) = _
    rw [← h1, ← h2, ← neg_div_neg_eq]
    congr 3 <;> ring

theorem fit_signs {o r : ℝ} (ho : 0 < o) (ho1 : o < 1) (hr : 0 < r) :
    (FittingParams.mk' o r).d1 < 0 ∧ 0 < (FittingParams.mk' o r).d2 ∧ (FittingParams.mk' o r).d2 ≤ 1 := by
  obtain ⟨h1, h2, -⟩ := fit_eq ho ho1 hr
  set k := 10 * (1 - o) / (o / r ^ 2) with hk
  have hkp : 0 < k := by
    have : 0 < 10 * (1 - o) := by linarith
    positivity
  set e := Real.exp (-0.5 : ℝ) with he
  have hep : 0 < e := Real.exp_pos _
  have he1 : e < 1 := by rw [he, Real.exp_lt_one_iff]; norm_num
  have hl1 : 0 < Real.log (1 + k) := Real.log_pos (by linarith)
  have hl2 : 0 < Real.log (1 + k * e) := Real.log_pos (by nlinarith)
  have hlt : Real.log (1 + k * e) < Real.log (1 + k) := Real.log_lt_log (by positivity) (by nlinarith)
  have hconc : e * Real.log (1 + k) ≤ Real.log (1 + k * e) := by
    have := strictConcaveOn_log_Ioi.concaveOn.2 (x := 1 + k) (y := 1) (by simp; linarith) (by simp) hep.le
      (sub_nonneg.2 he1.le) (by ring)
    simp only [smul_eq_mul, Real.log_one, mul_zero, add_zero] at this
    refine this.trans (le_of_eq ?_)
    congr 1
    ring
  refine ⟨by rw [h1]; linarith, ?_, ?_⟩
  · rw [h2]
    have : Real.log (Real.log (1 + k * e) / Real.log (1 + k)) < 0 :=
      Real.log_neg (by positivity) (by rw [div_lt_one hl1]; exact hlt)
    linarith
  · rw [h2]
    have h3 : e ≤ Real.log (1 + k * e) / Real.log (1 + k) := by rw [le_div_iff₀ hl1]; exact hconc
    have h4 := Real.log_le_log hep h3
    have h5 : Real.log e = -0.5 := by rw [he, Real.log_exp]
    linarith

/-! ### Parallel sum -/

theorem Score.add_assoc (a b c : Score) : (a.add b).add c = a.add (b.add c) := by
  unfold Score.add; ext <;> simp <;> ring
theorem Score.add_comm (a b : Score) : a.add b = b.add a := by
  unfold Score.add; ext <;> simp <;> ring
theorem Score.add_zero (a : Score) : a.add .zero = a := by
  unfold Score.add Score.zero; ext <;> simp
theorem Score.zero_add (a : Score) : Score.zero.add a = a := by
  rw [Score.add_comm, Score.add_zero]

theorem foldl_add (l : List Score) (a : Score) : l.foldl Score.add a = a.add (l.foldl Score.add .zero) := by
  induction l generalizing a with
  | nil => rw [List.foldl_nil, List.foldl_nil, Score.add_zero]
  | cons b l ih => rw [List.foldl_cons, List.foldl_cons, ih, ih (Score.zero.add b), Score.zero_add, Score.add_assoc]

theorem foldl_zeros (n : ℕ) : (List.replicate n Score.zero).foldl Score.add .zero = .zero := by
  induction n with
  | zero => rfl
  | succ n ih => rw [List.replicate_succ, List.foldl_cons, Score.add_zero, ih]

theorem foldl_set (l : List Score) (v c : Score) : ∀ (i : ℕ), l[i]? = some v →
    (l.set i (v.add c)).foldl Score.add .zero = (l.foldl Score.add .zero).add c := by
  induction l with
  | nil => intro i h; simp at h
  | cons b l ih =>
    intro i h
    cases i with
    | zero =>
      simp only [List.getElem?_cons_zero, Option.some.injEq] at h
      subst h
      rw [List.set_cons_zero, List.foldl_cons, List.foldl_cons, foldl_add l, foldl_add l (Score.zero.add b),
        Score.zero_add, Score.zero_add, Score.add_assoc, Score.add_comm c, ← Score.add_assoc]
    | succ i =>
      simp only [List.getElem?_cons_succ] at h
      rw [List.set_cons_succ, List.foldl_cons, List.foldl_cons, foldl_add _ (Score.zero.add b), ih i h,
        foldl_add l (Score.zero.add b)]
      simp only [Score.add_assoc]

theorem parallel_run (local_ : ℕ → Score) (schedule : List (ℕ × ℕ)) : ∀ (l : List Score),
    (∀ it ∈ schedule, it.1 < l.length) → ∃ l', schedule.foldl (fun r it => r.bind (addAt local_ it)) (Res.ok l) = .ok l' ∧
    l'.foldl Score.add .zero = (l.foldl Score.add .zero).add ((schedule.map fun it => local_ it.2).foldl Score.add .zero) := by
  induction schedule with
  | nil => intro l _; exact ⟨l, rfl, by rw [List.map_nil, List.foldl_nil, Score.add_zero]⟩
  | cons it schedule ih =>
    intro l h
    have hi : it.1 < l.length := h it (by simp)
    obtain ⟨l', h1, h2⟩ := ih (l.set it.1 (l[it.1].add (local_ it.2)))
      (fun j hj => by rw [List.length_set]; exact h j (by simp [hj]))
    refine ⟨l', ?_, ?_⟩
    · rw [List.foldl_cons]
      have : (Res.ok l).bind (addAt local_ it) = .ok (l.set it.1 (l[it.1].add (local_ it.2))) := by
        show addAt local_ it l = _
        unfold addAt
        rw [List.getElem?_eq_getElem hi]
      rw [this]
      exact h1
    · rw [h2, foldl_set l _ _ _ (List.getElem?_eq_getElem hi), List.map_cons, List.foldl_cons,
        foldl_add _ (Score.zero.add _), Score.zero_add, Score.add_assoc]

theorem foldl_perm {l l' : List Score} (h : l.Perm l') : l.foldl Score.add .zero = l'.foldl Score.add .zero := by
  induction h with
  | nil => rfl
  | cons a _ ih => rw [List.foldl_cons, List.foldl_cons, foldl_add, ih, ← foldl_add]
  | swap a b l =>
    simp only [List.foldl_cons]
    rw [Score.add_assoc, Score.add_assoc, Score.add_comm b a]
  | trans _ _ ih1 ih2 => exact ih1.trans ih2

theorem foldl_range (f : ℕ → Score) (n : ℕ) : ((List.range n).map f).foldl Score.add .zero =
    ⟨∑ i ∈ Finset.range n, (f i).value, ∑ i ∈ Finset.range n, (f i).gradient, ∑ i ∈ Finset.range n, (f i).hessian⟩ := by
  induction n with
  | zero => rfl
  | succ n ih =>
    rw [List.range_succ, List.map_append, List.foldl_append, ih, Finset.sum_range_succ, Finset.sum_range_succ,
      Finset.sum_range_succ]
    rfl

end Verif.Newton
