import Verif.World.Lemmas

/-
C107, C108: messages made from maps.
-/
namespace Verif.World

open Verif Verif.Voxel Verif.NDTGrid Verif.Geo

theorem place_eq (eig : NDT.Eig) (n : Map) (u v : ℝ) : (occupancyMsg eig n).place u v =
    toWorld (origin n) (-(n.grid.left : ℝ) * n.grid.cellSize + u, n.grid.up * n.grid.cellSize + v) := by
  have h1 := (C78_frames (origin n) ⟨0, 0, 0⟩ ⟨0, 0, 0⟩).1
    (-(n.grid.left : ℝ) * n.grid.cellSize, n.grid.up * n.grid.cellSize)
  have hz : ∀ v, toWorld ⟨0, 0, 0⟩ v = v := by intro v; unfold toWorld; ext <;> simp
  rw [hz] at h1
  have hc : Real.cos n.th = 1 - 2 * Real.sin (n.th / 2) ^ 2 := by
    have h2 := Real.cos_two_mul (n.th / 2)
    have h3 := Real.sin_sq_add_cos_sq (n.th / 2)
    rw [mul_div_cancel₀ _ (two_ne_zero)] at h2
    linarith
  have hs : Real.sin n.th = 2 * Real.sin (n.th / 2) * Real.cos (n.th / 2) := by
    have h2 := Real.sin_two_mul (n.th / 2)
    rwa [mul_div_cancel₀ _ (two_ne_zero)] at h2
  unfold OccupancyMsg.place occupancyMsg occupancyGrid
  simp only
  rw [h1]
  unfold toWorld origin
  simp only
  rw [hc, hs]
  ext <;> simp only <;> ring

/-- C107: the published occupancy grid has the right dimensions and one value per square; the value of the
square `(x, y)` is shown where the map has the point `((x + 1/2) s, (2 up - y + 1/2) s)`.
Missing: the centre of the square is `(x s, y s)`. -/
theorem C107_occupancy_partial (eig : NDT.Eig) {n : Map} (hwf : WF n.grid) :
    (occupancyMsg eig n).width = n.grid.width ∧ (occupancyMsg eig n).height = n.grid.height ∧
    (occupancyMsg eig n).resolution = n.grid.cellSize ∧
    (occupancyMsg eig n).data.length = n.grid.width * n.grid.height ∧
    ∀ q, InExtent n.grid q →
      (occupancyMsg eig n).data[slotNo n.grid q]? = some (shownValue (content n.grid q)) ∧
      (occupancyMsg eig n).shownAt (slotNo n.grid q) = toWorld (origin n)
        ((q.1 + 1 / 2) * n.grid.cellSize, (2 * n.grid.up - q.2 + 1 / 2) * n.grid.cellSize) := by
  unfold WF at hwf
  refine ⟨rfl, rfl, rfl, by simp [occupancyMsg, occupancyGrid, hwf], fun q hq => ⟨?_, ?_⟩⟩
  · have hlt := slotNo_lt hq
    show (n.grid.cells.map (occValue (cellI eig)))[slotNo n.grid q]? = _
    rw [List.getElem?_map, List.getElem?_eq_getElem (by omega), content_of_in hq,
      slot_eq_getElem (by omega)]
    cases n.grid.cells[slotNo n.grid q]'(by omega) with
    | none => rfl
    | some c =>
      simp only [Option.map_some, occValue, shownValue]
      rw [show (cellI eig).occ c = c.occ from rfl]
      cases c.occ with
      | none => rfl
      | some o => simp only [gt_iff_lt]
  · unfold OccupancyMsg.shownAt
    have hw : (occupancyMsg eig n).width = n.grid.width := rfl
    have hres : (occupancyMsg eig n).resolution = n.grid.cellSize := rfl
    obtain ⟨h1, h2, h3, h4⟩ := hq
    have hcol : (q.1 + n.grid.left).toNat < n.grid.width := by unfold Grid.width; omega
    have em : slotNo n.grid q % n.grid.width = (q.1 + n.grid.left).toNat := by
      unfold slotNo
      rw [Nat.mul_comm, Nat.mul_add_mod, Nat.mod_eq_of_lt hcol]
    have ed : slotNo n.grid q / n.grid.width = (n.grid.up - q.2).toNat := by
      unfold slotNo
      rw [Nat.mul_comm, Nat.mul_add_div (by omega), Nat.div_eq_of_lt hcol, Nat.add_zero]
    rw [hw, hres, em, ed, place_eq]
    have c1 : (((q.1 + n.grid.left).toNat : ℕ) : ℝ) = q.1 + n.grid.left := by
      have : (((q.1 + n.grid.left).toNat : ℕ) : ℤ) = q.1 + n.grid.left := Int.toNat_of_nonneg (by omega)
      exact_mod_cast congrArg (Int.cast : ℤ → ℝ) this
    have c2 : (((n.grid.up - q.2).toNat : ℕ) : ℝ) = n.grid.up - q.2 := by
      have : (((n.grid.up - q.2).toNat : ℕ) : ℤ) = n.grid.up - q.2 := Int.toNat_of_nonneg (by omega)
      exact_mod_cast congrArg (Int.cast : ℤ → ℝ) this
    rw [c1, c2]
    congr 1
    ext <;> simp only <;> ring

/-- C107 fails for every square of every map: its value is shown elsewhere than at the centre of the square,
half a cell off in the direction of x and, with respect to y, mirrored at the upper edge of the map. -/
theorem C107_false (eig : NDT.Eig) {n : Map} (hwf : WF n.grid) (hcs : 0 < n.grid.cellSize) (q : ℤ × ℤ)
    (hq : InExtent n.grid q) :
    (occupancyMsg eig n).shownAt (slotNo n.grid q) ≠ squareCentre n q := by
  rw [((C107_occupancy_partial eig hwf).2.2.2.2 q hq).2]
  unfold squareCentre
  intro h
  have e : ∀ {o : Pose} {p q : ℝ × ℝ}, toWorld o p = toWorld o q → p.1 = q.1 := by
    intro o p q h
    unfold toWorld at h
    have h1 := congrArg Prod.fst h
    have h2 := congrArg Prod.snd h
    simp only at h1 h2
    have hs := Real.sin_sq_add_cos_sq o.th
    linear_combination Real.cos o.th * h1 + Real.sin o.th * h2 - (p.1 - q.1) * hs
  have h1 := e h
  simp only at h1
  linarith

/-- The hypotheses are met: a new map. -/
example (eig : NDT.Eig) : ∃ n, Built eig true n ∧ WF n.grid ∧ 0 < n.grid.cellSize ∧ InExtent n.grid (0, 0) :=
  ⟨_, Built.init 0 0 0 zero_lt_one, init_wf _ 0 0 0 1, zero_lt_one, by refine ⟨?_, ?_, ?_, ?_⟩ <;> exact le_rfl⟩

/-- C108: what `serialize` fills in: extent, cell size, and mean, covariance, occupancy and count of every
stored cell, in order; and what the message takes over from it when the centre is defined. -/
theorem C108_window_message_partial (n : Map) (x y z : ℝ) :
    toMapMsg { serialize n with origin := (some x, some y, some z) } = .ok
      { size := (n.grid.width * n.grid.cellSize, n.grid.height * n.grid.cellSize, 0)
        cen := (x, y, z), cellSize := (n.grid.cellSize, n.grid.cellSize, 0)
        cells := (getValidCells n.grid).map fun c =>
          { mean := (c.mean 0, c.mean 1, c.mean 2)
            cov := [c.cov 0 0, c.cov 0 1, c.cov 0 2, c.cov 1 0, c.cov 1 1, c.cov 1 2,
              c.cov 2 0, c.cov 2 1, c.cov 2 2]
            occupancy := c.occ, n := c.points } } := by
  unfold toMapMsg serialize
  simp only [readVar, Res.bind_ok, List.map_map]
  congr 2

/-- C108 fails for every map: the third coordinate of the centre is read but never written. -/
theorem C108_false (n : Map) : toMapMsg (serialize n) = .ub .uninitialised := rfl

end Verif.World
