import Verif.Round.Spec
import Mathlib.Tactic.Linarith
import Mathlib.Tactic.Ring
import Mathlib.Tactic.FieldSimp
import Mathlib.Tactic.Positivity
import Mathlib.Algebra.Order.Round

/- `binary b` is a rounding with relative error `2⁻ᵇ`: the formats of the code meet the assumptions of the
theorems on rounding. -/
namespace Verif.Round

set_option linter.unusedSectionVars false

variable {K : Type v} [Field K] [LinearOrder K] [IsStrictOrderedRing K] [FloorRing K]

theorem binary_err (b : ℕ) (x : K) : |binary b x - x| ≤ 2⁻¹ ^ b * |x| := by
  unfold binary
  by_cases hx : x = 0
  · simp [hx]
  · rw [if_neg hx]
    simp only
    have hpos : 0 < |x| := abs_pos.2 hx
    have hl := Int.zpow_log_le_self (R := K) (b := 2) (by norm_num) hpos
    set ulp : K := 2 ^ (Int.log 2 |x| + 1 - (b : ℤ)) with hulp
    have hu : 0 < ulp := zpow_pos (by norm_num) _
    have h1 := abs_sub_round (x / ulp)
    have h2 : |round (x / ulp) * ulp - x| = |x / ulp - round (x / ulp)| * ulp := by
      rw [← abs_of_pos hu, ← abs_mul, abs_of_pos hu, sub_mul, div_mul_cancel₀ _ hu.ne', abs_sub_comm]
    rw [h2]
    have h3 : ulp = 2 * 2⁻¹ ^ b * 2 ^ Int.log 2 |x| := by
      rw [hulp, zpow_sub₀ (by norm_num), zpow_add₀ (by norm_num), zpow_natCast, zpow_one, inv_pow]
      field_simp
    have h4 : |x / ulp - round (x / ulp)| * ulp ≤ 1 / 2 * ulp := mul_le_mul_of_nonneg_right h1 hu.le
    have h5 : (2⁻¹ : K) ^ b * 2 ^ Int.log 2 |x| ≤ 2⁻¹ ^ b * |x| :=
      mul_le_mul_of_nonneg_left (by exact_mod_cast hl) (by positivity)
    calc _ ≤ _ := h4
      _ = 2⁻¹ ^ b * 2 ^ Int.log 2 |x| := by rw [h3]; ring
      _ ≤ _ := h5

/-- `float` and `double` have relative error `2⁻²⁴`. -/
theorem ieee_accurate : Accurate (ieee : Fmt K) (2⁻¹ ^ 24) where
  nonneg := by positivity
  small := by norm_num
  single := binary_err 24
  double x := (binary_err 53 x).trans
    (mul_le_mul_of_nonneg_right (pow_le_pow_of_le_one (by positivity) (by norm_num) (by norm_num))
      (abs_nonneg x))

end Verif.Round
