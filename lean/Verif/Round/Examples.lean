import Mathlib.Tactic.IntervalCases
import Verif.Round.Move
import Verif.Round.Ray

/- The hypotheses of the theorems on rounding are met by the formats of the code. -/
namespace Verif.Round

open Verif Verif.Voxel Verif.NDTGrid

variable {K : Type v} [Field K] [LinearOrder K] [IsStrictOrderedRing K]

/-- A coordinate close enough to the centre of a square is off the lines. -/
theorem off_of_centre {η cs x : K} (hcs : 0 < cs) (q : ℤ) (h : |x - q * cs| + η < cs / 2) : Off η cs x := by
  intro k
  have h1 := neg_abs_le (x - q * cs)
  have h2 := le_abs_self (x - q * cs)
  rcases lt_or_ge k q with hk | hk
  · have : (k : K) + 1 ≤ q := by exact_mod_cast hk
    have : ((k : K) + 1) * cs ≤ q * cs := mul_le_mul_of_nonneg_right this hcs.le
    refine lt_of_lt_of_le ?_ (le_abs_self _)
    linarith
  · have : (q : K) ≤ k := by exact_mod_cast hk
    have : (q : K) * cs ≤ k * cs := mul_le_mul_of_nonneg_right this hcs.le
    refine lt_of_lt_of_le ?_ (neg_le_abs _)
    linarith

/-- C144: `float` and `double`, a map of 8 m with squares of 0.5 m, a cell outside the present extent. -/
example : Accurate (ieee : Fmt ℚ) (2⁻¹ ^ 24) ∧
    InRange 8 (Voxel.setCellSize (Voxel.init toyI.toCellOps) (1 / 2 : ℚ)) ∧
    Safe (32 * (2⁻¹ ^ 24 * 8)) 8 (1 / 2 : ℚ) (11 / 10, -3 / 5) := by
  refine ⟨ieee_accurate, ?_, ?_, ?_, ?_, ?_⟩
  · constructor <;> simp only [Voxel.init, Voxel.setCellSize] <;> norm_num
  · exact off_of_centre (by norm_num) 2 (by norm_num [abs_of_nonneg])
  · exact off_of_centre (by norm_num) (-1) (by norm_num [abs_of_nonpos])
  · norm_num [abs_of_nonneg]
  · norm_num [abs_of_nonpos]

/-- C144, rays: a ray of 2.4 squares in a grid of seven by seven squares of 1 m. -/
theorem ray_safe : SafeRay (32 * (2⁻¹ ^ 24 * 8)) 8 (⟨1, 3, 3, 3, 3, 0, List.replicate 49 none⟩ : Grid ℚ Toy)
    (1 / 8, 1 / 4) (1 / 8 + 12 / 5, 1 / 4) := by
  have he : extent 1 ((1 / 8, 1 / 4) : ℚ × ℚ) (1 / 8 + 12 / 5, 1 / 4) = 12 / 5 := by
    unfold extent; norm_num [abs_of_nonneg]
  refine ⟨⟨?_, ?_, ?_, ?_⟩, ?_, ?_, ?_⟩
  · exact off_of_centre (by norm_num) 0 (by norm_num [abs_of_nonneg])
  · exact off_of_centre (by norm_num) 0 (by norm_num [abs_of_nonneg])
  · norm_num [abs_of_nonneg]
  · norm_num [abs_of_nonneg]
  · norm_num [abs_of_nonneg]
  · intro N hN j hj _
    rw [show (⟨1, 3, 3, 3, 3, 0, List.replicate 49 none⟩ : Grid ℚ Toy).cellSize = 1 from rfl] at hN ⊢
    rw [he] at hN
    have : N = 3 := by
      have h : rayBound (12 / 5 : ℚ) = .ok 3 := by decide +kernel
      rw [h] at hN
      exact (Res.ok.inj hN).symm
    subst this
    unfold sample
    rw [he]
    interval_cases j
    · exact ⟨off_of_centre (by norm_num) 0 (by norm_num [abs_of_nonneg]),
        off_of_centre (by norm_num) 0 (by norm_num [abs_of_nonneg]), by norm_num [abs_of_nonneg],
        by norm_num [abs_of_nonneg]⟩
    · exact ⟨off_of_centre (by norm_num) 1 (by norm_num [abs_of_nonpos]),
        off_of_centre (by norm_num) 0 (by norm_num [abs_of_nonneg]), by norm_num [abs_of_nonneg],
        by norm_num [abs_of_nonneg]⟩
    · exact ⟨off_of_centre (by norm_num) 1 (by norm_num [abs_of_nonneg]),
        off_of_centre (by norm_num) 0 (by norm_num [abs_of_nonneg]), by norm_num [abs_of_nonneg],
        by norm_num [abs_of_nonneg]⟩
    · exact ⟨off_of_centre (by norm_num) 2 (by norm_num [abs_of_nonpos]),
        off_of_centre (by norm_num) 0 (by norm_num [abs_of_nonneg]), by norm_num [abs_of_nonneg],
        by norm_num [abs_of_nonneg]⟩
  · intro m
    rw [show (⟨1, 3, 3, 3, 3, 0, List.replicate 49 none⟩ : Grid ℚ Toy).cellSize = 1 from rfl, he]
    rcases le_or_gt m 2 with h | h
    · have : (m : ℚ) ≤ 2 := by exact_mod_cast h
      refine lt_of_lt_of_le ?_ (le_abs_self _)
      norm_num; linarith
    · have : (3 : ℚ) ≤ m := by exact_mod_cast h
      refine lt_of_lt_of_le ?_ (neg_le_abs _)
      norm_num; linarith

example : 8 * (2⁻¹ ^ 53 * 8) ≤ 2⁻¹ ^ 24 * (1 : ℚ) ∧
    SafeRay (32 * (2⁻¹ ^ 24 * 8)) 8 (⟨1, 3, 3, 3, 3, 0, List.replicate 49 none⟩ : Grid ℚ Toy) (1 / 8, 1 / 4)
      (1 / 8 + 12 / 5, 1 / 4) := ⟨by norm_num, ray_safe⟩

/-- C145: two merges with `float` and `double`. -/
example : (1 / 2 : ℚ) ≤ 8 ∧ 64 * (2⁻¹ ^ 24 * 8) < (1 / 2 : ℚ) ∧
    ∀ x ∈ [([toy (11 / 10) (-3 / 5) 3], true), ([toy 1 0 4], false)],
      MeansSafe toyI (32 * (2⁻¹ ^ 24 * 8)) 8 (1 / 2 : ℚ) x.1 := by
  refine ⟨by norm_num, by norm_num, ?_⟩
  intro x hx c hc
  simp only [List.mem_cons, List.not_mem_nil, or_false] at hx
  rcases hx with rfl | rfl <;> simp only [List.mem_cons, List.not_mem_nil, or_false] at hc <;> subst hc <;>
    simp only [toyI, toy, head, Matrix.cons_val_zero, Matrix.cons_val_one]
  · exact ⟨off_of_centre (by norm_num) 2 (by norm_num [abs_of_nonneg]),
      off_of_centre (by norm_num) (-1) (by norm_num [abs_of_nonpos]), by norm_num [abs_of_nonneg],
      by norm_num [abs_of_nonpos]⟩
  · exact ⟨off_of_centre (by norm_num) 2 (by norm_num),
      off_of_centre (by norm_num) 0 (by norm_num), by norm_num, by norm_num⟩

/-- C146: two moves of a map with one Gaussian, in `float` and `double`; origin and means stay within 4 m. -/
example : ∃ n : NGrid ℚ Toy,
    NDTGrid.mergeCells toyI (NDTGrid.init toyI 0 0 0 (1 / 4)) [toy (9 / 8 - 1 / 16) 0 3] true = .ok n ∧
    WF n.grid ∧ SmallRun ieee toyI 4 n [(1 / 2, 0), (-3 / 4, 0)] := by
  obtain ⟨n, hn⟩ : ∃ n, NDTGrid.mergeCells toyI (NDTGrid.init toyI 0 0 0 (1 / 4))
      [toy (9 / 8 - 1 / 16) 0 3] true = .ok n := Res.map_eq_ok.1 (show Res.map (fun _ => ()) _ = .ok () by decide +kernel) |>.imp fun _ h => h.1
  have key : ∀ ts : List (ℚ × ℚ), ts ∈ [[], [(1 / 2, 0)], [(1 / 2, 0), (-3 / 4, 0)]] → ∀ n', moveAll ieee toyI n ts = .ok n' →
      (WF n'.grid ∧ |n'.th| ≤ 1 / 10000000 ∧ |n'.ox| ≤ 4 ∧ |n'.oy| ≤ 4) ∧
      ∀ c, some c ∈ n'.grid.cells → |toyI.mean c 0| ≤ 4 ∧ |toyI.mean c 1| ≤ 4 := by
    intro ts hts n' h
    have all : ∀ ts ∈ ([[], [(1 / 2, 0)], [(1 / 2, 0), (-3 / 4, 0)]] : List (List (ℚ × ℚ))),
        ((NDTGrid.mergeCells toyI (NDTGrid.init toyI 0 0 0 (1 / 4)) [toy (9 / 8 - 1 / 16) 0 3] true).bind
          fun n => (moveAll ieee toyI n ts).map fun n' =>
          (decide (n'.grid.cells.length = n'.grid.width * n'.grid.height) && decide (|n'.th| ≤ 1 / 10000000) &&
            decide (|n'.ox| ≤ 4) && decide (|n'.oy| ≤ 4),
          n'.grid.cells.all fun c => c.all fun c => decide (|c.x| ≤ 4) && decide (|c.y| ≤ 4)))
          = .ok (true, true) := by decide +kernel
    have := all ts hts
    rw [hn, Res.bind_ok, h, Res.map_ok] at this
    simp only [Res.ok.injEq, Prod.mk.injEq, Bool.and_eq_true, decide_eq_true_eq, List.all_eq_true] at this
    obtain ⟨⟨⟨⟨a, b⟩, c⟩, d⟩, e⟩ := this
    refine ⟨⟨a, b, c, d⟩, fun x hx => ?_⟩
    have := e _ hx
    simpa [toyI] using this
  refine ⟨n, hn, (key [] (by simp) n rfl).1.1, fun pre hpre n' hn' => ?_⟩
  have hmem : pre ∈ [[], [((1 / 2 : ℚ), (0 : ℚ))], [(1 / 2, 0), (-3 / 4, 0)]] := by
    have := (List.mem_inits pre [((1 / 2 : ℚ), (0 : ℚ)), (-3 / 4, 0)]).2 hpre
    simpa using this
  obtain ⟨⟨-, a, b, c⟩, d⟩ := key pre hmem n' hn'
  refine ⟨a, b, c, fun q x hx _ => d x ?_⟩
  unfold content at hx
  split_ifs at hx
  unfold slot at hx
  rw [Option.join_eq_some_iff] at hx
  exact List.mem_of_getElem? hx

end Verif.Round
