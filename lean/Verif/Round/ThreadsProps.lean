import Verif.Round.Threads

/- C160: the sum over the cells by several threads with rounding. -/
namespace Verif.Round

open Verif

set_option linter.unusedSectionVars false

variable {K : Type v} [Field K] [LinearOrder K] [IsStrictOrderedRing K] [FloorRing K]

/-- **C160** for threads which do the same cells in the same order: when the results are added is of no importance. -/
theorem C160_assignment_partial (F : Fmt K) (threads : ℕ) (x : ℕ → K) (s₁ s₂ : List (ℕ × ℕ))
    (h1 : ∀ it ∈ s₁, it.1 < threads) (h2 : ∀ it ∈ s₂, it.1 < threads)
    (hsame : ∀ j < threads, cellsOf s₁ j = cellsOf s₂ j) :
    ∃ r, parallelF F threads x s₁ = .ok r ∧ parallelF F threads x s₂ = .ok r := by
  have hlen : (List.replicate threads (0 : K) ++ List.replicate threads 0).length = threads + threads := by simp
  obtain ⟨l₁, a1, b1, c1⟩ := threadSums_eq (F := F) (x := x) s₁ (List.replicate threads 0 ++ List.replicate threads 0)
    fun it hit => by have := h1 it hit; omega
  obtain ⟨l₂, a2, b2, c2⟩ := threadSums_eq (F := F) (x := x) s₂ (List.replicate threads 0 ++ List.replicate threads 0)
    fun it hit => by have := h2 it hit; omega
  have e : l₁ = l₂ := by
    refine List.ext_getElem (b1.trans b2.symm) fun j hj1 hj2 => ?_
    rw [c1 j hj1 (by rwa [b1] at hj1), c2 j hj2 (by rwa [b2] at hj2)]
    by_cases hj : j < threads
    · rw [hsame j hj]
    · have z : ∀ s : List (ℕ × ℕ), (∀ it ∈ s, it.1 < threads) → cellsOf s j = [] := by
        intro s hs
        unfold cellsOf
        rw [List.filter_eq_nil_iff.2 (fun it hit => by have := hs it hit; simp; omega)]
        rfl
      rw [z s₁ h1, z s₂ h2]
  refine ⟨l₁.foldl (fun a s => F.d (a + s)) 0, ?_, ?_⟩
  · unfold parallelF; rw [a1]; rfl
  · unfold parallelF; rw [a2, ← e]; rfl

example : (∀ it ∈ [(0, 0), (1, 2), (0, 1)], it.1 < 2) ∧ (∀ it ∈ [(1, 2), (0, 0), (0, 1)], it.1 < 2) ∧
    (∀ j < 2, cellsOf [(0, 0), (1, 2), (0, 1)] j = cellsOf [(1, 2), (0, 0), (0, 1)] j) ∧
    [(0, 0), (1, 2), (0, 1)] ≠ [(1, 2), (0, 0), (0, 1)] := by decide

/-- **C160**, what rounding can do: whichever thread does whichever cell and in whichever order, the result is the sum
over the cells up to one rounding error for each cell and for each entry of the table of threads. -/
theorem C160_error_partial {F : Fmt K} {u : K} (hu : 0 ≤ u) (hF : ∀ x, |F.d x - x| ≤ u * |x|) (threads n : ℕ)
    (x : ℕ → K) (schedule : List (ℕ × ℕ)) (h : Complete threads n schedule) :
    ∃ r, parallelF F threads x schedule = .ok r ∧
      |r - ∑ i ∈ Finset.range n, x i| ≤ ((1 + u) ^ (n + 2 * threads) - 1) * ∑ i ∈ Finset.range n, |x i| := by
  have hlen : (List.replicate threads (0 : K) ++ List.replicate threads 0).length = threads + threads := by simp
  have hT : ∀ it ∈ schedule, it.1 < threads + threads := fun it hit => by have := h.threads it hit; omega
  obtain ⟨l, a, b, c⟩ := threadSums_eq (F := F) (x := x) schedule
    (List.replicate threads 0 ++ List.replicate threads 0) (by rw [hlen]; exact hT)
  have hb : l.length = threads + threads := b.trans hlen
  have hn : schedule.length = n := by
    have := h.cells.length_eq; simpa using this
  refine ⟨_, by unfold parallelF; rw [a]; rfl, ?_⟩
  -- each thread
  have hj : ∀ j (hj : j < l.length), |l[j] - ((cellsOf schedule j).map x).sum| ≤
        ((1 + u) ^ n - 1) * ((cellsOf schedule j).map fun i => |x i|).sum ∧
      |l[j]| ≤ (1 + u) ^ n * ((cellsOf schedule j).map fun i => |x i|).sum := by
    intro j hj
    have hz : (List.replicate threads (0 : K) ++ List.replicate threads 0)[j]'(by rw [← b]; exact hj) = 0 := by
      rw [List.getElem_append]; split <;> simp
    have q := c j hj (by rw [← b]; exact hj)
    rw [hz] at q
    obtain ⟨f1, f2⟩ := fold_err hu hF ((cellsOf schedule j).map x) 0
    rw [← q, zero_add, abs_zero, zero_add, List.map_map] at f1
    rw [← q, abs_zero, zero_add, List.map_map] at f2
    have hle : ((cellsOf schedule j).map x).length ≤ n := by
      rw [List.length_map, cellsOf, List.length_map, ← hn]
      exact List.length_filter_le _ _
    have hp : (1 + u) ^ ((cellsOf schedule j).map x).length ≤ (1 + u) ^ n := pow_le_pow_right₀ (by linarith) hle
    have hs : 0 ≤ ((cellsOf schedule j).map (abs ∘ x)).sum := by
      refine List.sum_nonneg fun y hy => ?_
      obtain ⟨z, -, rfl⟩ := List.mem_map.1 hy
      exact abs_nonneg _
    exact ⟨f1.trans (mul_le_mul_of_nonneg_right (by linarith) hs), f2.trans (mul_le_mul_of_nonneg_right hp hs)⟩
  -- sums over the table
  have tot : ∀ f : ℕ → K, ∑ j ∈ Finset.range (threads + threads), ((cellsOf schedule j).map f).sum =
      ∑ i ∈ Finset.range n, f i := by
    intro f
    rw [sum_cellsOf f _ schedule hT]
    have := (h.cells.map f).sum_eq
    rw [List.map_map] at this
    rw [← list_sum_range, ← this]
    rfl
  obtain ⟨g1, -⟩ := fold_err hu hF l 0
  rw [zero_add, abs_zero, zero_add, hb] at g1
  have hS : |l.sum - ∑ i ∈ Finset.range n, x i| ≤ ((1 + u) ^ n - 1) * ∑ i ∈ Finset.range n, |x i| := by
    have e1 := list_sum_getD id l
    rw [List.map_id] at e1
    rw [e1, hb, ← tot x, ← tot fun i => |x i|, ← Finset.sum_sub_distrib, Finset.mul_sum]
    refine (Finset.abs_sum_le_sum_abs _ _).trans (Finset.sum_le_sum fun j hm => ?_)
    have hjl : j < l.length := by rw [hb]; exact Finset.mem_range.1 hm
    rw [getD_getElem hjl]
    exact (hj j hjl).1
  have hA : (l.map abs).sum ≤ (1 + u) ^ n * ∑ i ∈ Finset.range n, |x i| := by
    rw [list_sum_getD abs l, hb, ← tot fun i => |x i|, Finset.mul_sum]
    refine Finset.sum_le_sum fun j hm => ?_
    have hjl : j < l.length := by rw [hb]; exact Finset.mem_range.1 hm
    rw [getD_getElem hjl]
    exact (hj j hjl).2
  have hpow : (1 : K) ≤ (1 + u) ^ (threads + threads) := one_le_pow₀ (by linarith)
  have tri := abs_add_le (l.foldl (fun a s => F.d (a + s)) 0 - l.sum) (l.sum - ∑ i ∈ Finset.range n, x i)
  rw [sub_add_sub_cancel] at tri
  have hm := mul_le_mul_of_nonneg_left hA (sub_nonneg.2 hpow)
  have e2 : (1 + u) ^ (n + 2 * threads) = (1 + u) ^ n * (1 + u) ^ (threads + threads) := by
    rw [← pow_add]; congr 1; omega
  rw [e2]
  nlinarith

/-- Two runs over the same cells differ by twice that. -/
theorem C160_runs_partial {F : Fmt K} {u : K} (hu : 0 ≤ u) (hF : ∀ x, |F.d x - x| ≤ u * |x|) (threads n : ℕ)
    (x : ℕ → K) (s₁ s₂ : List (ℕ × ℕ)) (h1 : Complete threads n s₁) (h2 : Complete threads n s₂) :
    ∃ r₁ r₂, parallelF F threads x s₁ = .ok r₁ ∧ parallelF F threads x s₂ = .ok r₂ ∧
      |r₁ - r₂| ≤ 2 * ((1 + u) ^ (n + 2 * threads) - 1) * ∑ i ∈ Finset.range n, |x i| := by
  obtain ⟨r₁, a1, b1⟩ := C160_error_partial hu hF threads n x s₁ h1
  obtain ⟨r₂, a2, b2⟩ := C160_error_partial hu hF threads n x s₂ h2
  refine ⟨r₁, r₂, a1, a2, ?_⟩
  rw [abs_le] at b1 b2 ⊢
  constructor <;> linarith [b1.1, b1.2, b2.1, b2.2]

/-- `double`, five cells, two threads. -/
example : (0 : ℚ) ≤ 2⁻¹ ^ 53 ∧ (∀ x : ℚ, |(evenFmt : Fmt ℚ).d x - x| ≤ 2⁻¹ ^ 53 * |x|) ∧
    Complete 2 5 [(0, 0), (1, 3), (0, 1), (1, 4), (0, 2)] ∧ Complete 2 5 [(1, 4), (0, 3), (1, 1), (1, 0), (0, 2)] :=
  ⟨by positivity, (binaryEven_nearest 53).err, ⟨by decide, by decide⟩, ⟨by decide, by decide⟩⟩

/-- **C160** is false: three cells with the scores 1, 2⁻⁵³ and 2⁻⁵³ and two threads.  Done by one thread the result is 1;
when the other thread does the second and the third cell it is larger. -/
theorem C160_false : ∃ (x : ℕ → ℚ) (s₁ s₂ : List (ℕ × ℕ)), Complete 2 3 s₁ ∧ Complete 2 3 s₂ ∧
    parallelF evenFmt 2 x s₁ = .ok 1 ∧ parallelF evenFmt 2 x s₂ = .ok (1 + 2⁻¹ ^ 52) := by
  refine ⟨fun i => if i = 0 then 1 else 2⁻¹ ^ 53, [(0, 0), (0, 1), (0, 2)], [(0, 0), (1, 1), (1, 2)], ⟨by decide, by decide⟩,
    ⟨by decide, by decide⟩, ?_, ?_⟩
  · decide +kernel
  · decide +kernel

end Verif.Round
