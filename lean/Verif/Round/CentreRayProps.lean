import Verif.Round.CentreRay
import Verif.Round.CellProps
import Verif.Round.Examples

/- Property C144 for rays that start at the centre of a square. -/
namespace Verif.Round

open Verif Verif.Voxel Verif.NDTGrid

set_option linter.unusedSectionVars false

section
variable {K : Type v} [Field K] [LinearOrder K] [IsStrictOrderedRing K] [FloorRing K] {α : Type u}

/-- **C144**, rays that start at the centre of a square along their longer axis, as those of the first scan of a
map do.  Every second sample of such a ray lies on a border line.  If the side of the squares is a power of two,
the samples are computed exactly along this axis, and the rounded code visits the same squares in the same order,
and creates the same cells, as in exact arithmetic, provided that the samples are further than `32·u·R` from the
borders in the other direction. -/
theorem C144_centre_ray_partial {F : Fmt K} {u v R : K} (hF : Double F u v) {g : Grid K α}
    (hH : Halves F R g.cellSize) (hcs : 0 < g.cellSize) (hg : InRange R g) (hvu : 8 * (v * R) ≤ u * g.cellSize)
    {a b : K × K} (hray : CentreRay (32 * (u * R)) v R g a b) (ops : CellOps α) :
    rayTrace F ops g a b = Voxel.rayTrace ops g a b := by
  have hcR : g.cellSize ≤ R := by have := hray.start.1; have := abs_nonneg a.1; linarith
  have hR : 0 ≤ R := hcs.le.trans hcR
  have huR : 0 ≤ u * R := mul_nonneg hF.nonneg hR
  have hv := hF.v_nonneg
  have hext : extent g.cellSize a b ≠ 0 := by
    intro h
    have := hray.whole 0
    rw [h, Int.cast_zero, sub_zero, abs_zero] at this
    have : 0 ≤ 32 * (u * R) / g.cellSize := div_nonneg (by linarith) hcs.le
    linarith
  have hL := extent_pos hext hcs
  have herr := length_err hF hcs a b
  have hLR : extent g.cellSize a b ≤ 2 * R / g.cellSize := by
    have := abs_le.1 hray.stop.1
    have := abs_le.1 hray.stop.2
    have h1 := hray.start.1
    have h2 := hray.start.2
    have := abs_le.1 (show |a.1| ≤ R by linarith)
    have := abs_le.1 (show |a.2| ≤ R by linarith)
    unfold extent
    refine max_le ?_ ?_ <;> refine div_le_div_of_nonneg_right ?_ hcs.le <;> rw [abs_le] <;>
      constructor <;> linarith
  have hvL : 3 * (v * extent g.cellSize a b) ≤ 32 * (u * R) / g.cellSize := by
    have h1 : v * extent g.cellSize a b ≤ u * (2 * R / g.cellSize) :=
      mul_le_mul hF.v_le hLR hL.le hF.nonneg
    have h2 : 32 * (u * R) / g.cellSize = 16 * (u * (2 * R / g.cellSize)) := by ring
    have h3 : 0 ≤ u * (2 * R / g.cellSize) := mul_nonneg hF.nonneg (div_nonneg (by linarith) hcs.le)
    rw [h2]; linarith
  have hvs : v * extent g.cellSize a b ≤ 1 / 64 * extent g.cellSize a b :=
    mul_le_mul_of_nonneg_right (hF.v_le.trans hF.small) hL.le
  have hpos : max (rayLength F g.cellSize a.1 b.1) (rayLength F g.cellSize a.2 b.2) ≠ 0 := by
    intro h
    rw [h] at herr
    have := (abs_le.1 herr).1
    linarith
  have hfloor : ⌊max (rayLength F g.cellSize a.1 b.1) (rayLength F g.cellSize a.2 b.2)⌋ =
      ⌊extent g.cellSize a b⌋ := floor_of_far herr fun m => lt_of_le_of_lt hvL (hray.whole m)
  have hbound : rayBound (max (rayLength F g.cellSize a.1 b.1) (rayLength F g.cellSize a.2 b.2)) =
      rayBound (extent g.cellSize a b) := by unfold rayBound; rw [hfloor]
  have hs0 : sample g.cellSize a b 0 = a := by unfold sample; simp
  -- the walk in the two coordinates
  have hAt : At u v R g.cellSize ((b.1 - a.1) / extent g.cellSize a b * (1 / 2))
        (rayDelta F (max (rayLength F g.cellSize a.1 b.1) (rayLength F g.cellSize a.2 b.2)) a.1 b.1)
        (fun j => j = 0 ∨ Reached g a b j) (fun j => (sample g.cellSize a b j).1) 0 a.1 ∧
      At u v R g.cellSize ((b.2 - a.2) / extent g.cellSize a b * (1 / 2))
        (rayDelta F (max (rayLength F g.cellSize a.1 b.1) (rayLength F g.cellSize a.2 b.2)) a.2 b.2)
        (fun j => j = 0 ∨ Reached g a b j) (fun j => (sample g.cellSize a b j).2) 0 a.2 := by
    have hne : ∀ {x y z w : K}, FromCentre v g.cellSize x y z w →
        max (|y - x| / g.cellSize) (|w - z| / g.cellSize) = extent g.cellSize a b → y - x ≠ 0 := by
      intro x y z w h he h0
      have := h.longer
      rw [h0, abs_zero, mul_zero] at this
      have : |w - z| = 0 := le_antisymm this (abs_nonneg _)
      rw [h0, this, abs_zero, zero_div, max_self] at he
      exact hext he.symm
    rcases hray.samples with ⟨h, ho⟩ | ⟨h, ho⟩
    · obtain ⟨d1, d2, d3, d4⟩ := h.delta hF hH hcs hcR (hne h rfl)
      refine ⟨.inr ⟨by simp [hs0], ?_, ?_⟩, .inl ⟨ho, by simp [hs0]⟩⟩
      · rw [d1, d3]; unfold extent; rw [d2]
      · intro j
        have := d4 j
        rw [← d2] at this
        exact this
    · obtain ⟨d1, d2, d3, d4⟩ := h.delta hF hH hcs hcR (hne h (max_comm _ _))
      rw [max_comm] at d1 d2
      refine ⟨.inl ⟨ho, by simp [hs0]⟩, .inr ⟨by simp [hs0], ?_, ?_⟩⟩
      · rw [d1, d3]; unfold extent; rw [d2]
      · intro j
        have := d4 j
        rw [← d2] at this
        exact this
  have hnear1 := hAt.1.near (.inl rfl)
  have hnear2 := hAt.2.near (.inl rfl)
  simp only [hs0] at hnear1 hnear2
  obtain ⟨-, i1, i2, -⟩ := near_bounds hF.toAccurate hH hcs hcR (by simpa using huR) hnear1 hg.left hg.right
  obtain ⟨-, i3, i4, -⟩ := near_bounds hF.toAccurate hH hcs hcR (by simpa using huR) hnear2 hg.down hg.up
  have hinside : isInside F g a = Voxel.isInside g a := by
    unfold isInside Voxel.isInside Grid.half
    simp only [ge_iff_le, i1, i2, i3, i4]
  unfold rayTrace Voxel.rayTrace
  simp only
  rw [hinside, hbound, near_index (p := a) (p' := a) hF.toAccurate hH hcs hcR rfl hg (by simpa using huR) hnear1 hnear2
    (by linarith [hray.start.1]) (by linarith [hray.start.2])]
  by_cases hi : (!Voxel.isInside g a) = true
  · rw [if_pos hi, if_pos hi]
  rw [if_neg hi, if_neg hi, if_neg hcs.ne', if_neg hcs.ne']
  cases Voxel.calcIndex g a with
  | throw e => rfl
  | ub e => rfl
  | ok idx =>
    simp only [Res.bind_ok]
    cases rayVisit ops ⟨g.cells, []⟩ idx with
    | throw e => rfl
    | ub e => rfl
    | ok s =>
      simp only [Res.bind_ok]
      rw [if_neg hpos, if_neg (show max (|b.1 - a.1| / g.cellSize) (|b.2 - a.2| / g.cellSize) ≠ 0 from hext)]
      change _ = (rayBound (extent g.cellSize a b)).bind _
      cases hN : rayBound (extent g.cellSize a b) with
      | throw e => rfl
      | ub e => rfl
      | ok N =>
        simp only [Res.bind_ok]
        have := rayLoop_near hF hH hcs hcR hg hvu hext hray ops
          (δ' := (rayDelta F (max (rayLength F g.cellSize a.1 b.1) (rayLength F g.cellSize a.2 b.2)) a.1 b.1,
            rayDelta F (max (rayLength F g.cellSize a.1 b.1) (rayLength F g.cellSize a.2 b.2)) a.2 b.2))
          (rayDelta_err hF hcs hL (le_max_left _ _) herr) (rayDelta_err hF hcs hL (le_max_right _ _) herr)
          hN N 0 a idx idx s (by omega) (fun i h1 h2 => by omega) hAt.1 hAt.2
        rw [this, hs0]
        rfl

end

/-- **C144**, the condition on the side of the squares: every power of two qualifies for `float` and `double`, up to
a range of two million squares. -/
theorem C144_power_of_two (e : ℤ) {R : ℝ} (hR : 8 * R < 2 ^ 24 * 2 ^ e) : Halves (ieee : Fmt ℝ) R (2 ^ e) := by
  have he : (0 : ℝ) < 2 ^ e := by positivity
  have hk : ∀ k : ℤ, |(k : ℝ)| * 2 ^ e ≤ 8 * R → |k| < 2 ^ 24 := by
    intro k h
    have : |(k : ℝ)| < 2 ^ 24 := lt_of_mul_lt_mul_right (h.trans_lt hR) he.le
    exact_mod_cast this
  have h53 : ∀ k : ℤ, |k| < 2 ^ 24 → |k| < 2 ^ 53 := fun k h => h.trans (by norm_num)
  have hh : (2 : ℝ) ^ e / 2 = 2 ^ (e - 1) := by rw [zpow_sub₀ (by norm_num), zpow_one]
  refine ⟨?_, ?_, ?_, ?_, ?_⟩
  · intro k h
    rw [hh]
    exact binary_exact 24 k (e - 1) (hk k h)
  · intro k h
    rw [hh]
    exact binary_exact 53 k (e - 1) (h53 k (hk k h))
  · intro n h
    have hn0 : (0 : ℝ) ≤ (n : ℝ) * 2 ^ e := by positivity
    have h1 : |(n : ℤ)| < 2 ^ 24 := hk n (by
      push_cast; rw [abs_of_nonneg (Nat.cast_nonneg n)]; linarith)
    have a1 := binary_exact 24 n 0 h1
    have a2 := binary_exact 53 n 0 (h53 _ h1)
    rw [zpow_zero, mul_one] at a1 a2
    exact ⟨by exact_mod_cast a1, by exact_mod_cast a2⟩
  · intro k h
    have := binary_exact 53 k (-1) (h53 k (hk k h))
    rw [zpow_neg_one, ← div_eq_mul_inv] at this
    exact this
  · intro x
    -- a rounded number is a whole number of at most 53 digits times a power of two
    have hrep : ∃ m k : ℤ, |m| < 2 ^ 53 ∧ |(ieee : Fmt ℝ).d x| = m * 2 ^ k := by
      change ∃ m k : ℤ, |m| < 2 ^ 53 ∧ |binary 53 x| = m * 2 ^ k
      by_cases hx : x = 0
      · exact ⟨0, 0, by norm_num, by simp [hx, binary]⟩
      have hp : 0 < |x| := abs_pos.2 hx
      have hlog := Int.lt_zpow_succ_log_self (R := ℝ) (b := 2) (by norm_num) |x|
      unfold binary
      rw [if_neg hx]
      simp only
      set l := Int.log 2 |x| with hl
      set ulp : ℝ := 2 ^ (l + 1 - ((53 : ℕ) : ℤ)) with hulp
      have hu : 0 < ulp := by positivity
      have hlt : |x / ulp| < 2 ^ 53 := by
        rw [abs_div, abs_of_pos hu, div_lt_iff₀ hu, hulp, ← zpow_natCast, ← zpow_add₀ (by norm_num)]
        push_cast at hlog ⊢
        rw [show (53 : ℤ) + (l + 1 - 53) = l + 1 by ring]
        exact hlog
      have hr := abs_sub_round (x / ulp)
      have hle : |round (x / ulp)| ≤ 2 ^ 53 := by
        have h1 : |((round (x / ulp) : ℤ) : ℝ)| < 2 ^ 53 + 1 := by
          have := abs_add_le ((round (x / ulp) : ℝ) - x / ulp) (x / ulp)
          rw [sub_add_cancel, abs_sub_comm] at this
          linarith
        have h2 : |round (x / ulp)| < 2 ^ 53 + 1 := by exact_mod_cast h1
        omega
      rw [abs_mul, abs_of_pos hu]
      rcases lt_or_eq_of_le hle with h | h
      · refine ⟨|round (x / ulp)|, l + 1 - ((53 : ℕ) : ℤ), by rwa [abs_abs], ?_⟩
        push_cast; rfl
      · refine ⟨1, l + 1, by norm_num, ?_⟩
        have h' : |((round (x / ulp) : ℤ) : ℝ)| = 2 ^ 53 := by exact_mod_cast h
        rw [h', hulp, ← zpow_natCast, ← zpow_add₀ (by norm_num)]
        push_cast
        rw [one_mul]; congr 1; ring
    obtain ⟨m, k, hm, hx⟩ := hrep
    rw [hx, mul_div_assoc, ← zpow_sub₀ (by norm_num)]
    exact binary_exact 53 m (k - e) hm

/-- Negation of C144 for rays from the centre of a square, `float` and `double`: with squares of 0.2 m (as a
`float`) a ray of 2 m to the right leaves the grid.  In exact arithmetic it visits four squares of its row; the
border of the grid, computed in `float`, lies beyond the sample on it, and the loop visits the first square of the
next row as well.  If there is no next row, it accesses the storage past its end. -/
theorem C144_centre_ray_false :
    let cs : ℚ := binary 24 (1 / 5)
    let g : ℕ → Grid ℚ Toy := fun rows => ⟨cs, 3, 3, rows, rows, 0, List.replicate (7 * (2 * rows + 1)) none⟩
    ((Voxel.rayTrace toyI.toCellOps (g 3) (0, 0) (2, 0)).map Prod.fst = .ok [24, 25, 26, 27] ∧
      (rayTrace ieee toyI.toCellOps (g 3) (0, 0) (2, 0)).map Prod.fst = .ok [24, 25, 26, 27, 28]) ∧
    (Voxel.rayTrace toyI.toCellOps (g 0) (0, 0) (2, 0)).map Prod.fst = .ok [3, 4, 5, 6] ∧
      (rayTrace ieee toyI.toCellOps (g 0) (0, 0) (2, 0)).map Prod.fst = .ub .outOfBounds := by
  refine ⟨⟨?_, ?_⟩, ?_, ?_⟩ <;> decide +kernel

/-! ### Example -/

/-- The ray from the centre of the map to (2.4, 0.6), in a grid of seven by seven squares of 1 m: the samples
(0.5, 0.125) and (1.5, 0.375) are on border lines. -/
theorem centre_ray : CentreRay (32 * (2⁻¹ ^ 24 * 8)) (2⁻¹ ^ 53) 8
    (⟨1, 3, 3, 3, 3, 0, List.replicate 49 none⟩ : Grid ℝ Toy) (0, 0) (12 / 5, 3 / 5) := by
  have he : extent 1 ((0, 0) : ℝ × ℝ) (12 / 5, 3 / 5) = 12 / 5 := by
    unfold extent; norm_num [abs_of_nonneg]
  have hf : ⌊(12 / 5 : ℝ)⌋ = 2 := by rw [Int.floor_eq_iff]; norm_num
  have hb : rayBound (12 / 5 : ℝ) = .ok 3 := by
    unfold rayBound; rw [hf]; rfl
  have hle : ∀ j, Reached (⟨1, 3, 3, 3, 3, 0, List.replicate 49 none⟩ : Grid ℝ Toy) (0, 0) (12 / 5, 3 / 5) j →
      j ≤ 3 := by
    rintro j ⟨⟨N, hN, hj⟩, -⟩
    change rayBound (extent 1 ((0, 0) : ℝ × ℝ) (12 / 5, 3 / 5)) = .ok N at hN
    rw [he, hb] at hN
    cases hN
    exact hj
  refine ⟨by norm_num, by norm_num [abs_of_nonneg], ?_, .inl ⟨⟨⟨0, by simp⟩, ?_⟩, ?_⟩, ?_⟩
  · intro j hj
    have := hle j hj
    unfold sample
    simp only [he]
    interval_cases j <;> norm_num [abs_of_nonneg]
  · norm_num [abs_of_nonneg]
  · intro j hj
    have : j ≤ 3 := by
      rcases hj with rfl | hj
      · omega
      · exact hle j hj
    unfold sample
    simp only [he]
    refine off_of_centre (by norm_num) 0 ?_
    interval_cases j <;> norm_num [abs_of_nonneg]
  · intro m
    simp only [he]
    rcases le_or_gt m 2 with h | h
    · have : (m : ℝ) ≤ 2 := by exact_mod_cast h
      rw [abs_of_pos (by linarith)]
      norm_num; linarith
    · have : (3 : ℝ) ≤ m := by exact_mod_cast h
      rw [abs_of_neg (by linarith)]
      norm_num; linarith

/-- With `float` and `double` the ray visits what it visits in exact arithmetic. -/
example : rayTrace ieee toyI.toCellOps (⟨1, 3, 3, 3, 3, 0, List.replicate 49 none⟩ : Grid ℝ Toy) (0, 0) (12 / 5, 3 / 5) =
    Voxel.rayTrace toyI.toCellOps ⟨1, 3, 3, 3, 3, 0, List.replicate 49 none⟩ (0, 0) (12 / 5, 3 / 5) := by
  refine C144_centre_ray_partial ieee_double ?_ one_pos ⟨?_, ?_, ?_, ?_⟩ ?_ centre_ray _
  · have := C144_power_of_two 0 (R := 8) (by norm_num)
    rwa [zpow_zero] at this
  all_goals norm_num

end Verif.Round
