import Verif.Round.CellProps
import Verif.Cell.Evidence

/-
The occupancy of a cell (`float occup_`) and its flag `gaussian_` with rounding: src/ndt/ndt_cell.cpp.

Simplifications:
* rounding to `float` is an arbitrary function `F.s`; overflow and NaN are not modelled (a ray of length zero gives a
  NaN, C20);
* the logarithm of the odds of a ray (computed in `double` from the Gaussian of the cell) and the occupancy of a cell
  that is merged are inputs, as is the decision whether the ray ends at the mean (line 146).
-/
namespace Verif.Round

open Verif Verif.NDT

/-- Members `occup_` and `gaussian_`, ndt_cell.h:205, 207. -/
structure Occ where
  occ : ℝ
  gaussian : Bool

/-- Constructor, ndt_cell.cpp:4-13. -/
def Occ.init : Occ := ⟨0, false⟩

/-- Calls that change the occupancy. -/
inductive OccOp
  /-- `computeGaussian` with `n` pending points -/
  | batch (n : ℕ)
  /-- `operator+=` with a cell that has a Gaussian, `n > 2` points and the occupancy `o` -/
  | merge (n : ℕ) (o : ℝ)
  /-- `updateOccupancy(start, end, n)`; `atEnd`: the mean is at the end of the ray; `x`: the value of
  `new_points * logodd_lik` -/
  | ray (n : ℕ) (atEnd : Bool) (x : ℝ)

/-- `updateOccupancy(float)`, ndt_cell.cpp:207-215, for the `float` `x`. -/
noncomputable def addOccF (F : Fmt ℝ) (o x : ℝ) : ℝ := clamp (F.s (o + x))

/-- `static_cast<float>(n) * LOG_LIKE_OCCUPANCY`, ndt_cell.cpp:45, 65-66; the constant is a `float`. -/
noncomputable def hit (F : Fmt ℝ) (n : ℕ) : ℝ := F.s (F.s n * F.s logLike)

/-- `NO_GAUSSIAN_OCCUP_UPDATE * new_points`, ndt_cell.cpp:138; the number is converted to `float`. -/
noncomputable def miss (F : Fmt ℝ) (n : ℕ) : ℝ := F.s (F.s noGaussianUpdate * F.s n)

open Classical in
/-- One call: ndt_cell.cpp:62-76 (and `rescaleCovar`, which sets the flag), 15-60, 134-183. -/
noncomputable def occStep (F : Fmt ℝ) (s : Occ) : OccOp → Occ
  | .batch n =>
    let occ := addOccF F s.occ (hit F n)
    ⟨occ, if occ ≤ 0 then false else if n < 6 then false else true⟩
  | .merge n o =>
    if s.gaussian then
      let occ := addOccF F s.occ (hit F n)
      ⟨occ, if occ < 0 then false else true⟩
    else ⟨o, true⟩
  | .ray n atEnd x =>
    if !s.gaussian then ⟨addOccF F s.occ (miss F n), false⟩
    else if atEnd then ⟨addOccF F s.occ 1, true⟩
    else
      let occ := addOccF F s.occ (F.s x)
      ⟨occ, if occ ≤ 0 then false else true⟩

/-- A series of calls. -/
noncomputable def occRun (F : Fmt ℝ) (s : Occ) (ops : List OccOp) : Occ := ops.foldl (occStep F) s

open Classical in
/-- `getOccupancy`, ndt_cell.h:118-125; the product is a `float`.  (`clamp` keeps the value above -1.) -/
noncomputable def published (F : Fmt ℝ) (o : ℝ) : ℤ :=
  if o ≥ 1 then 100 else if o < -1 then 0 else ⌊F.s (o * 100)⌋

/-! ### Specification -/

/-- The same call, with values that differ by the errors of other computations: by at most `β` in the occupancy of
a merged cell and by at most `ν` in the evidence of a ray. -/
inductive Same (β ν : ℝ) : OccOp → OccOp → Prop
  | batch (n) : Same β ν (.batch n) (.batch n)
  | merge (n) {o o'} : |o' - o| ≤ β → |o'| ≤ 1 → Same β ν (.merge n o) (.merge n o')
  | ray (n atEnd) {x x'} : |x' - x| ≤ ν → Same β ν (.ray n atEnd x) (.ray n atEnd x')

/-- Calls in which the flag of the cell is decided by the sign of the occupancy. -/
def Decides (s : Occ) : OccOp → Prop
  | .batch _ => True
  | .merge _ _ => s.gaussian = true
  | .ray _ atEnd _ => s.gaussian = true ∧ atEnd = false

/-- In exact arithmetic the occupancy is further than `B` from zero at every decision. -/
def Clear (B : ℝ) : Occ → List OccOp → Prop
  | _, [] => True
  | s, op :: ops => (Decides s op → B < |(occStep exactFmt s op).occ|) ∧ Clear B (occStep exactFmt s op) ops

/-! ### Lemmas -/

theorem clamp_lip (x y : ℝ) : |clamp x - clamp y| ≤ |x - y| := by
  rw [clamp_limited, clamp_limited]
  unfold limited
  have h1 := abs_max_sub_max_le_max (-1) (min 1 x) (-1) (min 1 y)
  have h2 := abs_min_sub_min_le_max 1 x 1 y
  rw [sub_self, abs_zero] at h1 h2
  exact h1.trans (max_le (abs_nonneg _) (h2.trans (max_le (abs_nonneg _) le_rfl)))

section
variable {F : Fmt ℝ} {u : ℝ} (h0 : 0 ≤ u) (h1 : u ≤ 1 / 1000) (hF : ∀ x, |F.s x - x| ≤ u * |x|)
include h0 h1 hF

theorem prod_err (a b : ℝ) : |F.s (F.s a * F.s b) - a * b| ≤ 4 * u * |a * b| := by
  have ea := hF a
  have eb := hF b
  have ep := hF (F.s a * F.s b)
  have e1 : |F.s a * F.s b - a * b| ≤ (2 * u + u ^ 2) * |a * b| := by
    have : F.s a * F.s b - a * b = (F.s a - a) * b + a * (F.s b - b) + (F.s a - a) * (F.s b - b) := by ring
    rw [this]
    have t1 : |(F.s a - a) * b| ≤ u * |a * b| := by
      rw [abs_mul, abs_mul, ← mul_assoc]; exact mul_le_mul_of_nonneg_right ea (abs_nonneg _)
    have t2 : |a * (F.s b - b)| ≤ u * |a * b| := by
      rw [abs_mul, abs_mul]
      calc |a| * |F.s b - b| ≤ |a| * (u * |b|) := mul_le_mul_of_nonneg_left eb (abs_nonneg _)
        _ = _ := by ring
    have t3 : |(F.s a - a) * (F.s b - b)| ≤ u ^ 2 * |a * b| := by
      rw [abs_mul, abs_mul]
      calc |F.s a - a| * |F.s b - b| ≤ (u * |a|) * (u * |b|) :=
            mul_le_mul ea eb (abs_nonneg _) (mul_nonneg h0 (abs_nonneg _))
        _ = _ := by ring
    have t4 := abs_add_le ((F.s a - a) * b + a * (F.s b - b)) ((F.s a - a) * (F.s b - b))
    have t5 := abs_add_le ((F.s a - a) * b) (a * (F.s b - b))
    linarith
  have e2 : |F.s a * F.s b| ≤ (1 + 2 * u + u ^ 2) * |a * b| := by
    have := abs_sub_abs_le_abs_sub (F.s a * F.s b) (a * b)
    linarith
  have e3 := abs_add_le (F.s (F.s a * F.s b) - F.s a * F.s b) (F.s a * F.s b - a * b)
  rw [sub_add_sub_cancel] at e3
  have e4 : u * |F.s a * F.s b| ≤ u * ((1 + 2 * u + u ^ 2) * |a * b|) := mul_le_mul_of_nonneg_left e2 h0
  have e5 : u * (1 + 2 * u + u ^ 2) + (2 * u + u ^ 2) ≤ 4 * u := by nlinarith
  have e6 := mul_le_mul_of_nonneg_right e5 (abs_nonneg (a * b))
  linarith

/-- The error of one update. -/
theorem addOcc_err {ν : ℝ} (hν0 : 0 ≤ ν) (hν : ν ≤ 1 / 10) {o o' x x' : ℝ} (ho : |o| ≤ 1) (ho' : |o'| ≤ 1)
    (hx : |x' - x| ≤ 4 * u * |x| + 2 * ν) :
    |addOccF F o' x' - clamp (o + x)| ≤ |o' - o| + (24 * u + 2 * ν) := by
  unfold addOccF
  have hs := hF (o' + x')
  rw [abs_le] at ho ho'
  by_cases hb : |x| ≤ 4
  · have q1 : |x'| ≤ 4.3 := by
      have := abs_sub_abs_le_abs_sub x' x
      nlinarith
    have q2 : |o' + x'| ≤ 5.3 := by
      have := abs_add_le o' x'
      have := abs_le.2 ho'
      linarith
    have q3 : |F.s (o' + x') - (o + x)| ≤ |o' - o| + (24 * u + 2 * ν) := by
      have e1 : F.s (o' + x') - (o + x) = (F.s (o' + x') - (o' + x')) + ((o' - o) + (x' - x)) := by ring
      rw [e1]
      have e2 := abs_add_le (F.s (o' + x') - (o' + x')) ((o' - o) + (x' - x))
      have e3 := abs_add_le (o' - o) (x' - x)
      nlinarith
    refine le_trans ?_ q3
    exact clamp_lip _ _
  · rw [not_le, lt_abs] at hb
    have h4 : |o' - o| + (24 * u + 2 * ν) ≥ 0 := by positivity
    rcases hb with hb | hb
    · rw [abs_of_pos (by linarith : (0 : ℝ) < x)] at hx
      have hx2 := (abs_le.1 hx).1
      have p1 : 2.7 ≤ o' + x' := by nlinarith
      rw [abs_of_pos (by linarith : (0 : ℝ) < o' + x')] at hs
      have p2 : 1 ≤ F.s (o' + x') := by nlinarith [(abs_le.1 hs).1]
      rw [clamp_one p2, clamp_one (by linarith), sub_self, abs_zero]
      exact h4
    · rw [abs_of_neg (by linarith : x < 0)] at hx
      have hx2 := (abs_le.1 hx).2
      have p1 : o' + x' ≤ -2.7 := by nlinarith
      rw [abs_of_neg (by linarith : o' + x' < 0)] at hs
      have p2 : F.s (o' + x') ≤ -1 := by nlinarith [(abs_le.1 hs).2]
      have m1 : ∀ z : ℝ, z ≤ -1 → clamp z = -1 := by
        intro z hz
        rw [clamp_limited, limited, min_eq_right (by linarith), max_eq_left hz]
      rw [m1 _ p2, m1 _ (by linarith), sub_self, abs_zero]
      exact h4

end

end Verif.Round
