import Verif.Round.Spec
import Verif.Grid.Geometry
import Mathlib.Tactic.Linarith
import Mathlib.Tactic.Ring
import Mathlib.Tactic.FieldSimp
import Mathlib.Tactic.Positivity

/- Helper lemmas for `Verif.Round.Props`: error bounds of the rounded expressions. -/
namespace Verif.Round

open Verif Verif.Voxel Verif.NDTGrid

set_option linter.unusedSectionVars false

variable {K : Type v} [Field K] [LinearOrder K] [IsStrictOrderedRing K] [FloorRing K] {α γ : Type u}

theorem round_step {r : K → K} {u R k a a' : K} (hr : ∀ x, |r x - x| ≤ u * |x|) (hu : 0 ≤ u)
    (hu' : u ≤ 1 / 64) (hR : 0 ≤ R) (hk : k ≤ 32) (h : |a' - a| ≤ k * (u * R)) (ha : |a| ≤ 4 * R) :
    |r a' - a| ≤ (k + 5) * (u * R) := by
  have h1 : |r a' - a| ≤ |r a' - a'| + |a' - a| := by
    have := abs_add_le (r a' - a') (a' - a)
    rwa [sub_add_sub_cancel] at this
  have h2 := hr a'
  have h3 : |a'| ≤ |a' - a| + |a| := by
    have := abs_add_le (a' - a) a
    rwa [sub_add_cancel] at this
  have huR : 0 ≤ u * R := mul_nonneg hu hR
  have h4 : k * (u * R) ≤ R := by nlinarith [mul_le_mul_of_nonneg_right hk huR, mul_le_mul_of_nonneg_right hu' hR]
  have h5 : |a'| ≤ 5 * R := by linarith
  have h6 : u * |a'| ≤ u * (5 * R) := mul_le_mul_of_nonneg_left h5 hu
  linarith

theorem lt_of_far {x y x' y' e1 e2 : K} (hx : |x' - x| ≤ e1) (hy : |y' - y| ≤ e2)
    (h : e1 + e2 < |x - y|) : x' < y' ↔ x < y := by
  rw [abs_le] at hx hy
  rcases le_total x y with hxy | hxy
  · rw [abs_of_nonpos (by linarith)] at h
    constructor <;> intro <;> linarith
  · rw [abs_of_nonneg (by linarith)] at h
    constructor <;> intro <;> linarith

theorem le_of_far {x y x' y' e1 e2 : K} (hx : |x' - x| ≤ e1) (hy : |y' - y| ≤ e2)
    (h : e1 + e2 < |x - y|) : x' ≤ y' ↔ x ≤ y := by
  have := lt_of_far hy hx (by rw [abs_sub_comm]; linarith)
  rw [← not_lt, ← not_lt, this]

theorem floor_of_far {q q' e : K} (h : |q' - q| ≤ e) (hq : ∀ m : ℤ, e < |q - m|) : ⌊q'⌋ = ⌊q⌋ := by
  rw [abs_le] at h
  have h1 := hq ⌊q⌋
  have h2 := hq (⌊q⌋ + 1)
  have h3 := Int.floor_le q
  have h4 := Int.lt_floor_add_one q
  rw [abs_of_nonneg (by linarith)] at h1
  rw [abs_of_nonpos (by push_cast; linarith)] at h2
  push_cast at h2
  rw [Int.floor_eq_iff]
  constructor <;> linarith

theorem ceil_of_far {q q' e : K} (h : |q' - q| ≤ e) (hq : ∀ m : ℤ, e < |q - m|) : ⌈q'⌉ = ⌈q⌉ := by
  have h1 : ⌊-q'⌋ = ⌊-q⌋ := by
    refine floor_of_far (e := e) ?_ fun m => ?_
    · rw [show -q' - -q = -(q' - q) by ring, abs_neg]; exact h
    · have := hq (-m)
      rw [show -q - (m : K) = -(q - ((-m : ℤ) : K)) by push_cast; ring, abs_neg]
      exact this
  rw [← neg_neg q', ← neg_neg q, Int.ceil_neg, Int.ceil_neg, h1]

section
variable {F : Fmt K} {u R cs : K} (hF : Accurate F u) (hcs : 0 < cs)

include hF hcs

theorem boundS_err (hR : 0 ≤ R) {n : ℕ} (hn : (n + 1 / 2) * cs ≤ R) :
    |boundS F cs n - (n * cs + cs / 2)| ≤ 15 * (u * R) := by
  have hn0 : (0 : K) ≤ n := Nat.cast_nonneg n
  have hnc : (0 : K) ≤ n * cs := mul_nonneg hn0 hcs.le
  have hnR : (n : K) * cs + cs / 2 ≤ R := by linarith
  have h0 : |F.s (n : K) * cs - n * cs| ≤ 1 * (u * R) := by
    rw [← sub_mul, abs_mul, abs_of_pos hcs]
    have := mul_le_mul_of_nonneg_right (hF.single (n : K)) hcs.le
    rw [abs_of_nonneg hn0] at this
    have h2 : u * (n * cs) ≤ u * R := mul_le_mul_of_nonneg_left (by linarith) hF.nonneg
    nlinarith
  have h1 := round_step hF.single hF.nonneg hF.small hR (by norm_num) h0
    (by rw [abs_of_nonneg hnc]; linarith)
  have h2 : |F.s (F.s (n : K) * cs) + cs / 2 - (n * cs + cs / 2)| ≤ (1 + 5) * (u * R) := by
    rw [add_sub_add_right_eq_sub]; exact h1
  have h3 := round_step hF.single hF.nonneg hF.small hR (by norm_num) h2
    (by rw [abs_of_nonneg (by linarith)]; linarith)
  have : (0 : K) ≤ u * R := mul_nonneg hF.nonneg hR
  unfold boundS
  linarith

theorem low_err {r : K → K} (hr : ∀ x, |r x - x| ≤ u * |x|) (hR : 0 ≤ R) {n : ℕ}
    (hn : (n + 1 / 2) * cs ≤ R) :
    |r (r (-r n * cs) - cs / 2) - (-n * cs - cs / 2)| ≤ 15 * (u * R) := by
  have hn0 : (0 : K) ≤ n := Nat.cast_nonneg n
  have hnc : (0 : K) ≤ n * cs := mul_nonneg hn0 hcs.le
  have hnR : (n : K) * cs + cs / 2 ≤ R := by linarith
  have h0 : |-r (n : K) * cs - -n * cs| ≤ 1 * (u * R) := by
    rw [show -r (n : K) * cs - -n * cs = -((r n - n) * cs) by ring, abs_neg, abs_mul, abs_of_pos hcs]
    have := mul_le_mul_of_nonneg_right (hr (n : K)) hcs.le
    rw [abs_of_nonneg hn0] at this
    have h2 : u * (n * cs) ≤ u * R := mul_le_mul_of_nonneg_left (by linarith) hF.nonneg
    nlinarith
  have h1 := round_step hr hF.nonneg hF.small hR (by norm_num) h0
    (by rw [neg_mul, abs_neg, abs_of_nonneg hnc]; linarith)
  have h2 : |r (-r (n : K) * cs) - cs / 2 - (-n * cs - cs / 2)| ≤ (1 + 5) * (u * R) := by
    rw [sub_sub_sub_cancel_right]; exact h1
  have h3 := round_step hr hF.nonneg hF.small hR (by norm_num) h2
    (by rw [show (-n * cs - cs / 2 : K) = -(n * cs + cs / 2) by ring, abs_neg,
          abs_of_nonneg (by linarith)]; linarith)
  have : (0 : K) ≤ u * R := mul_nonneg hF.nonneg hR
  linarith

theorem lowD_err (hR : 0 ≤ R) {n : ℕ} (hn : (n + 1 / 2) * cs ≤ R) :
    |lowD F cs n - (-n * cs - cs / 2)| ≤ 15 * (u * R) := low_err hF hcs hF.double hR hn

theorem lowS_err (hR : 0 ≤ R) {n : ℕ} (hn : (n + 1 / 2) * cs ≤ R) :
    |lowS F cs n - (-n * cs - cs / 2)| ≤ 15 * (u * R) := low_err hF hcs hF.single hR hn

/-- Distance of a position off the border lines from an upper bound of the grid. -/
theorem far_above {η x : K} (h : Off η cs x) (n : ℤ) : η < |x - (n * cs + cs / 2)| := by
  have := h n
  rwa [show ((n : K) + 1 / 2) * cs = n * cs + cs / 2 by ring] at this

theorem far_below {η x : K} (h : Off η cs x) (n : ℕ) : η < |x - (-n * cs - cs / 2)| := by
  have := h (-n - 1)
  rwa [show (((-n - 1 : ℤ) : K) + 1 / 2) * cs = -n * cs - cs / 2 by push_cast; ring] at this

/-- The rounded coordinate is the exact one; the position itself may carry an error. -/
theorem coordinate_eq (hR : 0 < R) {n : ℕ} (hn : (n + 1 / 2) * cs ≤ R) {x x' : K}
    (hx : |x| ≤ R) (hx' : |x' - x| ≤ 5 * (u * R)) (hoff : ∀ m : ℤ, 32 * (u * R) < |x - (m - 1 / 2) * cs|) :
    coordinate F cs n x' = ⌊(x + cs * n + cs / 2) / cs⌋ := by
  have hn0 : (0 : K) ≤ n := Nat.cast_nonneg n
  have hnc : (0 : K) ≤ n * cs := mul_nonneg hn0 hcs.le
  have hnR : (n : K) * cs + cs / 2 ≤ R := by linarith
  have hxl := (abs_le.1 hx).1
  have hxr := (abs_le.1 hx).2
  have huR : (0 : K) ≤ u * R := mul_nonneg hF.nonneg hR.le
  have h0 : |cs * F.s (n : K) - cs * n| ≤ 1 * (u * R) := by
    rw [← mul_sub, abs_mul, abs_of_pos hcs]
    have := mul_le_mul_of_nonneg_left (hF.single (n : K)) hcs.le
    rw [abs_of_nonneg hn0] at this
    have h2 : u * (n * cs) ≤ u * R := mul_le_mul_of_nonneg_left (by linarith) hF.nonneg
    nlinarith
  have h1 := round_step hF.single hF.nonneg hF.small hR.le (by norm_num) h0
    (by rw [abs_of_nonneg (by nlinarith)]; nlinarith)
  have h2 : |x' + F.s (cs * F.s (n : K)) - (x + cs * n)| ≤ 11 * (u * R) := by
    have := abs_add_le (x' - x) (F.s (cs * F.s (n : K)) - cs * n)
    rw [show x' + F.s (cs * F.s (n : K)) - (x + cs * n) =
      x' - x + (F.s (cs * F.s (n : K)) - cs * n) by ring]
    linarith
  have hb1 : |x + cs * n| ≤ 4 * R := by rw [abs_le]; constructor <;> nlinarith
  have h3 := round_step hF.double hF.nonneg hF.small hR.le (by norm_num) h2 hb1
  have h4 : |F.d (x' + F.s (cs * F.s (n : K))) + cs / 2 - (x + cs * n + cs / 2)| ≤ 16 * (u * R) := by
    rw [add_sub_add_right_eq_sub]; linarith
  have hb2 : |x + cs * n + cs / 2| ≤ 4 * R := by rw [abs_le]; constructor <;> nlinarith
  have h5 := round_step hF.double hF.nonneg hF.small hR.le (by norm_num) h4 hb2
  have h6 : |F.d (F.d (x' + F.s (cs * F.s (n : K))) + cs / 2) / cs - (x + cs * n + cs / 2) / cs|
      ≤ 21 * (u * (R / cs)) := by
    rw [← sub_div, abs_div, abs_of_pos hcs, show 21 * (u * (R / cs)) = 21 * (u * R) / cs by ring]
    exact div_le_div_of_nonneg_right (by linarith) hcs.le
  have hb3 : |(x + cs * n + cs / 2) / cs| ≤ 4 * (R / cs) := by
    rw [abs_div, abs_of_pos hcs, ← mul_div_assoc]
    exact div_le_div_of_nonneg_right hb2 hcs.le
  have h7 := round_step hF.double hF.nonneg hF.small (div_nonneg hR.le hcs.le) (by norm_num) h6 hb3
  unfold coordinate
  refine floor_of_far h7 fun m => ?_
  have h8 := hoff (m - n)
  rw [show (x + cs * n + cs / 2) / cs - m = (x - ((m - n : ℤ) - 1 / 2 : K) * cs) / cs by
    push_cast; field_simp; ring, abs_div, abs_of_pos hcs, lt_div_iff₀ hcs]
  refine lt_of_le_of_lt ?_ h8
  have : (21 + 5) * (u * (R / cs)) * cs = 26 * (u * R) := by field_simp; ring
  rw [this]; linarith

theorem incAbove_eq (hR : 0 < R) {n : ℕ} (hn : (n + 1 / 2) * cs ≤ R) {x x' : K} (hx : |x| ≤ R)
    (hx' : |x' - x| ≤ 5 * (u * R)) (hoff : Off (32 * (u * R)) cs x) :
    incAbove F cs n x' = if x > n * cs + cs / 2 then
      (if cs = 0 then .ub .badCast else toSizeT ⌈(x - (n * cs + cs / 2)) / cs⌉) else .ok 0 := by
  have hn0 : (0 : K) ≤ n := Nat.cast_nonneg n
  have hnc : (0 : K) ≤ n * cs := mul_nonneg hn0 hcs.le
  have huR : (0 : K) ≤ u * R := mul_nonneg hF.nonneg hR.le
  have hxl := (abs_le.1 hx).1
  have hxr := (abs_le.1 hx).2
  have hb := boundS_err hF hcs hR.le hn
  have hfar := far_above hF hcs hoff n
  push_cast at hfar
  have hcmp : x' > boundS F cs n ↔ x > n * cs + cs / 2 :=
    lt_of_far hb hx' (by rw [abs_sub_comm]; linarith)
  unfold incAbove
  rw [if_neg hcs.ne', if_neg hcs.ne']
  have hceil : ⌈F.s (F.s (x' - boundS F cs n) / cs)⌉ = ⌈(x - (n * cs + cs / 2)) / cs⌉ := by
    have h2 : |x' - boundS F cs n - (x - (n * cs + cs / 2))| ≤ 20 * (u * R) := by
      have := abs_sub (x' - x) (boundS F cs n - (n * cs + cs / 2))
      rw [show x' - boundS F cs n - (x - (n * cs + cs / 2)) =
        x' - x - (boundS F cs n - (n * cs + cs / 2)) by ring]
      linarith
    have hb2 : |x - (n * cs + cs / 2)| ≤ 4 * R := by rw [abs_le]; constructor <;> linarith
    have h5 := round_step hF.single hF.nonneg hF.small hR.le (by norm_num) h2 hb2
    have h6 : |F.s (x' - boundS F cs n) / cs - (x - (n * cs + cs / 2)) / cs| ≤ 25 * (u * (R / cs)) := by
      rw [← sub_div, abs_div, abs_of_pos hcs, show 25 * (u * (R / cs)) = 25 * (u * R) / cs by ring]
      exact div_le_div_of_nonneg_right (by linarith) hcs.le
    have hb3 : |(x - (n * cs + cs / 2)) / cs| ≤ 4 * (R / cs) := by
      rw [abs_div, abs_of_pos hcs, ← mul_div_assoc]
      exact div_le_div_of_nonneg_right hb2 hcs.le
    have h7 := round_step hF.single hF.nonneg hF.small (div_nonneg hR.le hcs.le) (by norm_num) h6 hb3
    refine ceil_of_far h7 fun m => ?_
    have h8 := hoff (m + n)
    rw [show (x - (n * cs + cs / 2)) / cs - m = (x - ((m + n : ℤ) + 1 / 2 : K) * cs) / cs by
      push_cast; field_simp; ring, abs_div, abs_of_pos hcs, lt_div_iff₀ hcs]
    refine lt_of_le_of_lt ?_ h8
    have : (25 + 5) * (u * (R / cs)) * cs = 30 * (u * R) := by field_simp; ring
    rw [this]; linarith
  rw [hceil]
  by_cases h : x > n * cs + cs / 2
  · rw [if_pos h, if_pos (hcmp.2 h)]
  · rw [if_neg h, if_neg (fun h' => h (hcmp.1 h'))]

theorem incBelow_eq (hR : 0 < R) {n : ℕ} (hn : (n + 1 / 2) * cs ≤ R) {x x' : K} (hx : |x| ≤ R)
    (hx' : |x' - x| ≤ 5 * (u * R)) (hoff : Off (32 * (u * R)) cs x) :
    incBelow F cs n x' = if x < -n * cs - cs / 2 then
      (if cs = 0 then .ub .badCast else toSizeT ⌈(-n * cs - cs / 2 - x) / cs⌉) else .ok 0 := by
  have hn0 : (0 : K) ≤ n := Nat.cast_nonneg n
  have hnc : (0 : K) ≤ n * cs := mul_nonneg hn0 hcs.le
  have huR : (0 : K) ≤ u * R := mul_nonneg hF.nonneg hR.le
  have hxl := (abs_le.1 hx).1
  have hxr := (abs_le.1 hx).2
  have hb := lowS_err hF hcs hR.le hn
  have hfar := far_below hF hcs hoff n
  have hcmp : x' < lowS F cs n ↔ x < -n * cs - cs / 2 := lt_of_far hx' hb (by linarith)
  unfold incBelow
  rw [if_neg hcs.ne', if_neg hcs.ne']
  have hceil : ⌈F.s (F.s (lowS F cs n - x') / cs)⌉ = ⌈(-n * cs - cs / 2 - x) / cs⌉ := by
    have h2 : |lowS F cs n - x' - (-n * cs - cs / 2 - x)| ≤ 20 * (u * R) := by
      have := abs_sub (lowS F cs n - (-n * cs - cs / 2)) (x' - x)
      rw [show lowS F cs n - x' - (-n * cs - cs / 2 - x) =
        lowS F cs n - (-n * cs - cs / 2) - (x' - x) by ring]
      linarith
    have hb2 : |(-n * cs - cs / 2 - x : K)| ≤ 4 * R := by rw [abs_le]; constructor <;> linarith
    have h5 := round_step hF.single hF.nonneg hF.small hR.le (by norm_num) h2 hb2
    have h6 : |F.s (lowS F cs n - x') / cs - (-n * cs - cs / 2 - x) / cs| ≤ 25 * (u * (R / cs)) := by
      rw [← sub_div, abs_div, abs_of_pos hcs, show 25 * (u * (R / cs)) = 25 * (u * R) / cs by ring]
      exact div_le_div_of_nonneg_right (by linarith) hcs.le
    have hb3 : |(-n * cs - cs / 2 - x : K) / cs| ≤ 4 * (R / cs) := by
      rw [abs_div, abs_of_pos hcs, ← mul_div_assoc]
      exact div_le_div_of_nonneg_right hb2 hcs.le
    have h7 := round_step hF.single hF.nonneg hF.small (div_nonneg hR.le hcs.le) (by norm_num) h6 hb3
    refine ceil_of_far h7 fun m => ?_
    have h8 := hoff (-m - n - 1)
    rw [show (-n * cs - cs / 2 - x) / cs - m = -((x - ((-m - n - 1 : ℤ) + 1 / 2 : K) * cs) / cs) by
      push_cast; field_simp; ring, abs_neg, abs_div, abs_of_pos hcs, lt_div_iff₀ hcs]
    refine lt_of_le_of_lt ?_ h8
    have : (25 + 5) * (u * (R / cs)) * cs = 30 * (u * R) := by field_simp; ring
    rw [this]; linarith
  rw [hceil]
  by_cases h : x < -n * cs - cs / 2
  · rw [if_pos h, if_pos (hcmp.2 h)]
  · rw [if_neg h, if_neg (fun h' => h (hcmp.1 h'))]

end

end Verif.Round
