import Verif.Round.Traced
import Verif.Round.Examples
import Verif.NDTGrid.RayProps

/- Property C145 for maps built with ray tracing. -/
namespace Verif.Round

open Verif Verif.Voxel Verif.NDTGrid

set_option linter.unusedSectionVars false

variable {K : Type v} [Field K] [LinearOrder K] [IsStrictOrderedRing K] [FloorRing K] {γ : Type u}

/-- **C145**, maps built with ray tracing, away from the border lines: after any history of merges, traced or
not, in which the means and the samples of the rays keep the distance `32·u·R` from the borders, the map is the
map of exact arithmetic, its means cloud rounded to `float`; a history that fails in exact arithmetic fails in
the same way; and if the means in the map keep the distance, the nearest neighbour lookup through the rounded
cloud finds the same cells as through the exact one. -/
theorem C145_traced_partial {F : Fmt K} {u v R cs : K} (hF : Double F u v) (hcs : 0 < cs) (hR : cs ≤ R)
    (hη : 64 * (u * R) < cs) (hvu : 8 * (v * R) ≤ u * cs) (I : CellI K γ) (ox oy th : K)
    (hist : List (Merge K γ)) (hk : AllKeep I (32 * (u * R)) R (NDTGrid.init I ox oy th cs) hist) :
    runMerges (Merge.rounded F I) (NDTGrid.init I ox oy th cs) hist =
      (runMerges (Merge.exact I) (NDTGrid.init I ox oy th cs) hist).map (singleMeans F) ∧
    ∀ n, runMerges (Merge.exact I) (NDTGrid.init I ox oy th cs) hist = .ok n →
      (∀ m ∈ n.means, Safe (32 * (u * R)) R cs (head m)) →
      ∀ ids, kNearest F (singleMeans F n) ids = NDTGrid.kNearest n ids := by
  obtain ⟨h1, h2⟩ := runMerges_eq hF hcs hR hη hvu I hist (init_fine hcs hR I ox oy th) hk
  exact ⟨h1, fun n hn hm => kNearest_eq hF.toAccurate hcs (h2 n hn) hm⟩

/-- Negation of C145 for maps built with ray tracing, `float` and `double`: all positions are multiples of a
quarter of a square.  A sample of the ray from (0, 1/4) to (3, 11/4) lies on a border line; in exact arithmetic it
belongs to the square of the Gaussian at (2, 1), which it removes; the sample of the code lies just beside the
line, and the Gaussian stays. -/
theorem C145_traced_false :
    (runMerges (Merge.exact rayI) (NDTGrid.init rayI 0 0 0 1) [⟨none, [toy 3 3 3, toy 2 1 3], true⟩,
      ⟨some (0, 1 / 4), [toy 3 (11 / 4) 3], false⟩]).map (fun n => n.means.map head) = .ok [(3, 23 / 8)] ∧
    (runMerges (Merge.rounded ieee rayI) (NDTGrid.init rayI 0 0 0 1) [⟨none, [toy 3 3 3, toy 2 1 3], true⟩,
      ⟨some (0, 1 / 4), [toy 3 (11 / 4) 3], false⟩]).map (fun n => n.means.map head) =
        .ok [(3, 23 / 8), (2, 1)] := by
  constructor <;> decide +kernel

/-- A map of seven by seven squares is built, then a Gaussian is merged with its ray, all in `float` and
`double`. -/
example : Double (ieee : Fmt ℚ) (2⁻¹ ^ 24) (2⁻¹ ^ 53) ∧ 64 * (2⁻¹ ^ 24 * 8) < (1 : ℚ) ∧
    8 * (2⁻¹ ^ 53 * 8) ≤ 2⁻¹ ^ 24 * (1 : ℚ) ∧
    AllKeep rayI (32 * (2⁻¹ ^ 24 * 8)) 8 (NDTGrid.init rayI 0 0 0 1)
      [⟨none, [toy 3 3 3, toy (-3) (-3) 3], true⟩, ⟨some (1 / 8, 1 / 4), [toy (1 / 8 + 12 / 5) (1 / 4) 3], false⟩] := by
  refine ⟨ieee_double, by norm_num, by norm_num, fun pre m post h n hn => ?_⟩
  match pre, h with
  | [], h =>
    obtain ⟨rfl, rfl⟩ := List.cons.inj h
    simp only [runMerges] at hn
    injection hn with hn
    subst hn
    refine ⟨fun c hc => ?_, fun s hs => by cases hs⟩
    simp only [List.mem_cons, List.not_mem_nil, or_false] at hc
    rcases hc with rfl | rfl <;>
      simp only [rayI, toyI, toy, head, Matrix.cons_val_zero, Matrix.cons_val_one, NDTGrid.init, Voxel.init,
        Voxel.setCellSize]
    · exact ⟨off_of_centre (by norm_num) 3 (by norm_num), off_of_centre (by norm_num) 3 (by norm_num),
        by norm_num [abs_of_nonneg], by norm_num [abs_of_nonneg]⟩
    · exact ⟨off_of_centre (by norm_num) (-3) (by norm_num), off_of_centre (by norm_num) (-3) (by norm_num),
        by norm_num [abs_of_nonneg], by norm_num [abs_of_nonneg]⟩
  | [m1], h =>
    obtain ⟨h1, h⟩ := List.cons.inj h
    obtain ⟨rfl, rfl⟩ := List.cons.inj h
    have hbox : (runMerges (Merge.exact rayI) (NDTGrid.init rayI 0 0 0 1)
        [⟨none, [toy 3 3 3, toy (-3) (-3) 3], true⟩]).map (fun n => (n.grid.cellSize, n.grid.left, n.grid.right,
          n.grid.up, n.grid.down)) = .ok (1, 3, 3, 3, 3) := by decide +kernel
    rw [h1, hn, Res.map_ok] at hbox
    injection hbox with hbox
    simp only [Prod.mk.injEq] at hbox
    obtain ⟨e1, e2, e3, e4, e5⟩ := hbox
    refine ⟨fun c hc => ?_, fun s hs c hc _ => ?_⟩
    · simp only [List.mem_cons, List.not_mem_nil, or_false] at hc
      subst hc
      rw [e1]
      simp only [rayI, toyI, toy, head, Matrix.cons_val_zero, Matrix.cons_val_one]
      exact ⟨off_of_centre (by norm_num) 3 (by norm_num [abs_of_nonpos]),
        off_of_centre (by norm_num) 0 (by norm_num [abs_of_nonneg]), by norm_num [abs_of_nonneg],
        by norm_num [abs_of_nonneg]⟩
    · simp only [List.mem_cons, List.not_mem_nil, or_false] at hc
      subst hc
      obtain rfl := Option.some.inj hs
      exact ray_safe.box ⟨e2, e3, e4, e5, e1⟩
  | _ :: _ :: pre, h =>
    have := congrArg List.length h
    simp at this

end Verif.Round
