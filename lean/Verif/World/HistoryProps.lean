import Verif.World.History
import Verif.World.Examples
import Verif.World.Messages
import Verif.Cell.Evidence

/-
C168: the histories of the cells of a map.
-/
namespace Verif.World

open Verif Verif.Voxel Verif.NDTGrid Verif.Geo

/-- What a user may expect of the occupancy of a cell: a number in `[-1, 1]`, published as a percentage in `[-100, 100]`,
and above 0 where there is a Gaussian. -/
structure SoundOcc (c : NDT.Cell) : Prop where
  number : ∃ o : ℝ, c.occ = some o ∧ -1 ≤ o ∧ o ≤ 1 ∧ (c.gaussian = true → 0 < o)
  percent : ∃ v : ℤ, NDT.getOccupancy c = .ok v ∧ -100 ≤ v ∧ v ≤ 100

theorem soundOcc {eig : NDT.Eig} (he : NDT.EigOk eig) {c : NDT.Cell} (h : Hist eig c) : SoundOcc c := by
  obtain ⟨⟨o, ho, h1, h2⟩, hv⟩ := NDT.C20_occupancy_bounds_partial he h
  refine ⟨⟨o, ho, h1, h2, fun hg => ?_⟩, hv⟩
  obtain ⟨o', ho', hp⟩ := h.positive he hg
  rw [ho] at ho'
  cases ho'
  exact hp

/-- C168, histories.  Whatever was done with a map, each of its cells is one that a sequence of operations on a single cell
produces, and none of the rays among them has length 0. -/
theorem C168_history {eig : NDT.Eig} (he : NDT.EigOk eig) {b : Bool} {n : Map} (h : Built eig b n) :
    ∀ c ∈ getValidCells n.grid, NDT.Reach eig NDT.properRay c := (h.hist he).hist

/-- C168, occupancy.  Whatever was done with a map, the occupancy of each of its cells is a number within its limits. -/
theorem C168_occupancy {eig : NDT.Eig} (he : NDT.EigOk eig) {b : Bool} {n : Map} (h : Built eig b n) :
    ∀ c ∈ getValidCells n.grid, SoundOcc c := fun c hc => soundOcc he (C168_history he h c hc)

/-- C168, published grid.  A square is published as unknown exactly if the map has no cell there, as occupied (99) exactly if
the cell's occupancy exceeds 0.8, and otherwise as free. -/
theorem C168_published {eig : NDT.Eig} (he : NDT.EigOk eig) {b : Bool} {n : Map} (h : Built eig b n) {q : ℤ × ℤ}
    (hq : InExtent n.grid q) : ∃ v, (occupancyMsg eig n).data[slotNo n.grid q]? = some v ∧
      (v = -1 ↔ content n.grid q = none) ∧
      (v = 99 ↔ ∃ c o, content n.grid q = some c ∧ c.occ = some o ∧ 4 / 5 < o) ∧
      (v = 0 ↔ ∃ c o, content n.grid q = some c ∧ c.occ = some o ∧ o ≤ 4 / 5) := by
  have hi := h.inv he
  refine ⟨_, ((C107_occupancy_partial eig hi.wf).2.2.2.2 q hq).1, ?_⟩
  cases hc : content n.grid q with
  | none => simp [shownValue]
  | some c =>
    obtain ⟨o, ho, -⟩ := (C168_occupancy he h c ((mem_validCells hi.wf c).2 ⟨q, hc⟩)).number
    by_cases h8 : 4 / 5 < o
    · simp [shownValue, ho, h8]
    · simp [shownValue, ho, h8, not_lt.1 h8]

/-- The hypotheses are met: a map with a Gaussian, at any pose, and a square of it. -/
example {eig : NDT.Eig} (he : NDT.EigOk eig) (p : Pose) : ∃ n, Built eig true n ∧ origin n = p ∧
    (∃ c ∈ getValidCells n.grid, c.gaussian = true) ∧ ∃ q, InExtent n.grid q := by
  obtain ⟨n, bn, on, -, c, hc, -⟩ := exMap he p 0
  have hm : c ∈ gaussians n := by rw [hc]; exact List.mem_singleton_self c
  obtain ⟨h1, h2⟩ := mem_gaussians.1 hm
  obtain ⟨q, hq⟩ := (mem_validCells (bn.inv he).wf c).1 h1
  refine ⟨n, bn, on, ⟨c, h1, h2⟩, q, ?_⟩
  by_contra hn
  rw [content_of_not_in hn] at hq
  cases hq

end Verif.World
