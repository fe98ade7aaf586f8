import Verif.NDTGrid.Props
import Mathlib.Data.List.Perm.Subperm

/-
`getKNearestNeighborsVoxel`, ndt_grid2d.h:932-958: the Gaussians nearest to a point by rings that grow.

Simplifications:
* `std::sort` is an arbitrary function that permutes its argument.  Its order is that of the comparator, but
  this one compares `a` with `a` (952), so no cell comes before another one and every permutation is sorted;
* the radius is converted from `size_t` to `float` (945), which is exact below 2^24.
-/
namespace Verif.NDTGrid

open Verif Verif.Voxel

variable {K : Type v} [Field K] [LinearOrder K] [IsStrictOrderedRing K] [FloorRing K] {γ : Type u}

/-- The loop, ndt_grid2d.h:942-945; `radius` starts at 2, so it is positive. -/
def grow (I : CellI K γ) (n : NGrid K γ) (p : K × K) (k : ℕ) (cells : List (ℕ × γ)) (radius : ℕ) :
    Res (List (ℕ × γ)) :=
  if cells.length < k ∧ radius < n.grid.width ∧ 0 < radius then
    (neighbours I n p (radius : K)).bind fun cells => grow I n p k cells (radius * 2)
  else .ok cells
termination_by n.grid.width - radius

/-- `getKNearestNeighborsVoxel`, ndt_grid2d.h:932-958. -/
def nearestVoxel (sort : List (ℕ × γ) → List (ℕ × γ)) (I : CellI K γ) (n : NGrid K γ) (p : K × K) (k : ℕ) :
    Res (List (ℕ × γ)) :=
  (neighbours I n p 1).bind fun cells =>
  (grow I n p k cells 2).bind fun cells =>
  if cells.length < k then .ok cells else .ok ((sort cells).take k)

/-! ### Specification -/

/-- Slot `x.1` of the grid holds the cell `x.2` with a Gaussian whose mean is within `√D` of `p`. -/
def Within (I : CellI K γ) (n : NGrid K γ) (p : K × K) (D : K) (x : ℕ × γ) : Prop :=
  ∃ q, content n.grid q = some x.2 ∧ x.1 = slotNo n.grid q ∧ I.gaussian x.2 = true ∧
    dist2 (head (I.mean x.2)) p ≤ D

/-- There are `k` cells with a Gaussian within `√D`. -/
def Enough (I : CellI K γ) (n : NGrid K γ) (p : K × K) (k : ℕ) (D : K) : Prop :=
  ∃ l : List (ℕ × γ), (l.map Prod.fst).Nodup ∧ l.length = k ∧ ∀ x ∈ l, Within I n p D x

/-! ### Lemmas -/

/-- Answer of the radius search. -/
def near (I : CellI K γ) (n : NGrid K γ) (p : K × K) (r : K) : List (ℕ × γ) :=
  match neighbours I n p r with
  | .ok l => l
  | _ => []

section
variable {I : CellI K γ} {n : NGrid K γ} (hwf : WF n.grid) (hcs : 0 < n.grid.cellSize) (hp : Placed I n.grid)
  {p : K × K} (hin : isInside n.grid p = true)

include hwf hcs hp hin

theorem near_spec {r : K} (hr : 0 < r) : neighbours I n p r = .ok (near I n p r) ∧
    (∀ x, x ∈ near I n p r ↔ Within I n p (r ^ 2) x) ∧ ((near I n p r).map Prod.fst).Pairwise (· < ·) := by
  obtain ⟨l, h1, h2, h3⟩ := C17_radius_search_partial I hwf hcs hp hin hr
  have e : near I n p r = l := by unfold near; rw [h1]
  rw [e]
  exact ⟨h1, fun x => h2 x.1 x.2, h3⟩

/-- A ring with fewer than `k` Gaussians. -/
theorem few {r : K} (hr : 0 < r) {k : ℕ} (h : (near I n p r).length < k) : ¬ Enough I n p k (r ^ 2) := by
  rintro ⟨l, h1, h2, h3⟩
  obtain ⟨-, hm, -⟩ := near_spec hwf hcs hp hin hr
  have : l.Subperm (near I n p r) :=
    List.subperm_of_subset (List.Nodup.of_map _ h1) fun x hx => (hm x).2 (h3 x hx)
  have := this.length_le
  omega

theorem grow_spec (k r : ℕ) (hr : 1 ≤ r) :
    ∃ r' : ℕ, r ≤ r' ∧ grow I n p k (near I n p (r : K)) (2 * r) = .ok (near I n p (r' : K)) ∧
      (r' = r ∨ ∃ m : ℕ, 1 ≤ m ∧ r' = 2 * m ∧ (near I n p (m : K)).length < k) ∧
      (k ≤ (near I n p (r' : K)).length ∨ n.grid.width ≤ 2 * r') := by
  induction h : n.grid.width - 2 * r using Nat.strong_induction_on generalizing r with
  | _ d ih =>
    rw [grow]
    by_cases hc : (near I n p (r : K)).length < k ∧ 2 * r < n.grid.width ∧ 0 < 2 * r
    · rw [if_pos hc]
      have e := (near_spec hwf hcs hp hin (r := ((2 * r : ℕ) : K)) (by exact_mod_cast hc.2.2)).1
      rw [e, Res.bind_ok, mul_comm (2 * r) 2]
      obtain ⟨r', h1, h2, h3, h4⟩ := ih (n.grid.width - 2 * (2 * r)) (by omega) (2 * r) (by omega) rfl
      refine ⟨r', by omega, h2, Or.inr ?_, h4⟩
      rcases h3 with h3 | h3
      · exact ⟨r, hr, h3, hc.1⟩
      · exact h3
    · rw [if_neg hc]
      refine ⟨r, le_rfl, rfl, Or.inl rfl, ?_⟩
      by_cases hk : (near I n p (r : K)).length < k
      · right
        have : 0 < 2 * r := by omega
        by_contra hw
        exact hc ⟨hk, by omega, this⟩
      · left; omega

end

end Verif.NDTGrid
