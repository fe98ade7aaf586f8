import Verif.NDTGrid.Nan
import Verif.NDTGrid.Props

/-
C163: points of a scan that are not numbers.
-/
namespace Verif.NDTGrid

open Verif Verif.Voxel

set_option linter.unusedSectionVars false

variable {K : Type v} [Field K] [LinearOrder K] [IsStrictOrderedRing K] [FloorRing K] {γ : Type u}

/-- C163 for the grid of a scan, without infinite coordinates and for numbers off the border lines: the
build succeeds and stores, square by square and in the same order of listing, what the cloud without the
points that are not numbers gives. -/
theorem C163_cells_partial (I : CellI K γ) (ox oy th : K) {cs : K} (hcs : 0 < cs)
    {ps : List (FPoint K)} (hi : ∀ p ∈ ps, NoInf p) (hp : ∀ p ∈ numbers ps, OffLines cs (head p)) :
    ∃ n m, createGridF I ox oy th cs ps = .ok n ∧ createGrid I ox oy th cs (numbers ps) = .ok m ∧
      (∀ q, content n.grid q = content m.grid q) ∧ getValidCells n.grid = getValidCells m.grid := by
  obtain ⟨n, h1, w1, c1, e1⟩ := createGridF_spec I ox oy th hcs hi hp
  obtain ⟨m, h2, w2, c2, e2⟩ := createGrid_spec I ox oy th hcs (numbers ps) hp
  have e : ∀ q, content n.grid q = content m.grid q := fun q => by rw [e1, e2]
  exact ⟨n, m, h1, h2, e, getValidCells_eq w2 w1 e⟩

/-- C163 for a map initialised from a scan, under the same conditions: the outcome is the one of the cloud
without the points that are not numbers. -/
theorem C163_map_partial (I : CellI K γ) (n : NGrid K γ) (hcs : 0 < n.grid.cellSize)
    {ps : List (FPoint K)} (hi : ∀ p ∈ ps, NoInf p)
    (hp : ∀ p ∈ numbers ps, OffLines n.grid.cellSize (head p)) (traced : Bool) :
    initScanF I n ps traced = initScan I n (numbers ps) traced := by
  obtain ⟨a, b, h1, h2, -, h3⟩ := C163_cells_partial I n.ox n.oy n.th hcs hi hp
  unfold initScanF initScan
  rw [h1, h2, Res.bind_ok, Res.bind_ok, h3]

/-- Against C163: one infinite planar coordinate anywhere in the cloud makes the build undefined, also in
a point that is skipped because another coordinate is NaN. -/
theorem C163_false_infinite (I : CellI K γ) (ox oy th cs : K) {ps : List (FPoint K)} {p : FPoint K}
    (hm : p ∈ ps) (hp : ¬ NoInf p) : createGridF I ox oy th cs ps = .ub .badCast := by
  unfold createGridF
  simp only
  rw [enlargeF_unbounded _ (minMaxF_unbounded hm hp)]
  rfl

/-- Against C163 on a border line: the number (1/2, 0) alone is written past the end of the storage, and
with a skipped point beside it, whose finite coordinate widens the grid, it is stored. -/
theorem C163_false_border :
    (createGridF toyI (0 : ℚ) 0 0 1 [⟨.fin (1 / 2), .fin 0, some 0⟩]).map
        (fun n => (getValidCells n.grid).length) = .ub .outOfBounds ∧
    (createGridF toyI (0 : ℚ) 0 0 1 [⟨.fin (1 / 2), .fin 0, some 0⟩, ⟨.fin 1, .nan, some 0⟩]).map
        (fun n => (getValidCells n.grid).length) = .ok 2 := by
  constructor <;> decide +kernel

/-- Non-trivial case of the conditions: two numbers, a point with a NaN beside a large number, a point
without any number. -/
example : let ps : List (FPoint ℚ) := [⟨.fin (1 / 4), .fin (5 / 4), some 0⟩, ⟨.fin 7, .nan, some 0⟩,
      ⟨.nan, .nan, none⟩, ⟨.fin (-2), .fin 0, some 1⟩]
    (∀ p ∈ ps, NoInf p) ∧ numbers ps = [![1 / 4, 5 / 4, 0], ![-2, 0, 1]] := by
  refine ⟨?_, rfl⟩
  intro p hp neg
  simp only [List.mem_cons, List.not_mem_nil, or_false] at hp
  rcases hp with rfl | rfl | rfl | rfl <;> simp

end Verif.NDTGrid
