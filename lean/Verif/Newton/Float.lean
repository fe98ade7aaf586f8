import Mathlib.Analysis.Real.Sqrt

/-
Numbers as the line search sees them: exact reals together with infinities and NaN.  There is one zero only
(division by zero takes its sign from the dividend).
-/
namespace Verif.Newton

/-- A `double` without rounding. -/
inductive Fp
  | nan
  | inf (neg : Bool)
  | fin (x : ℝ)

namespace Fp

/-- Unary minus. -/
def neg : Fp → Fp
  | nan => nan
  | inf s => inf (!s)
  | fin x => fin (-x)

/-- Addition. -/
def add : Fp → Fp → Fp
  | nan, _ => nan
  | _, nan => nan
  | inf s, inf s' => if s = s' then inf s else nan
  | inf s, fin _ => inf s
  | fin _, inf s => inf s
  | fin x, fin y => fin (x + y)

open Classical in
/-- Multiplication. -/
noncomputable def mul : Fp → Fp → Fp
  | nan, _ => nan
  | _, nan => nan
  | inf s, inf s' => inf (xor s s')
  | inf s, fin y => if y = 0 then nan else inf (xor s (decide (y < 0)))
  | fin x, inf s => if x = 0 then nan else inf (xor s (decide (x < 0)))
  | fin x, fin y => fin (x * y)

open Classical in
/-- Division. -/
noncomputable def div : Fp → Fp → Fp
  | nan, _ => nan
  | _, nan => nan
  | inf _, inf _ => nan
  | inf s, fin y => inf (xor s (decide (y < 0)))
  | fin _, inf _ => fin 0
  | fin x, fin y => if y = 0 then (if x = 0 then nan else inf (decide (x < 0))) else fin (x / y)

noncomputable instance : Neg Fp := ⟨neg⟩
noncomputable instance : Add Fp := ⟨add⟩
noncomputable instance : Sub Fp := ⟨fun a b => add a (neg b)⟩
noncomputable instance : Mul Fp := ⟨mul⟩
noncomputable instance : Div Fp := ⟨div⟩

/-- `<`; false for NaN. -/
def lt : Fp → Fp → Prop
  | nan, _ => False
  | _, nan => False
  | inf s, inf s' => s = true ∧ s' = false
  | inf s, fin _ => s = true
  | fin _, inf s => s = false
  | fin x, fin y => x < y

/-- `==`; false for NaN. -/
def eq : Fp → Fp → Prop
  | nan, _ => False
  | _, nan => False
  | inf s, inf s' => s = s'
  | inf _, fin _ => False
  | fin _, inf _ => False
  | fin x, fin y => x = y

/-- `<=`. -/
def le (a b : Fp) : Prop := lt a b ∨ eq a b

open Classical in
noncomputable instance (a b : Fp) : Decidable (lt a b) := inferInstance
open Classical in
noncomputable instance (a b : Fp) : Decidable (eq a b) := inferInstance
open Classical in
noncomputable instance (a b : Fp) : Decidable (le a b) := inferInstance

/-- `std::fabs`. -/
noncomputable def abs : Fp → Fp
  | nan => nan
  | inf _ => inf false
  | fin x => fin |x|

open Classical in
/-- `std::sqrt`. -/
noncomputable def sqrt : Fp → Fp
  | nan => nan
  | inf s => if s then nan else inf false
  | fin x => if x < 0 then nan else fin (Real.sqrt x)

/-- `std::min`: `(b < a) ? b : a`. -/
noncomputable def min (a b : Fp) : Fp := if lt b a then b else a

/-- `std::max`: `(a < b) ? b : a`. -/
noncomputable def max (a b : Fp) : Fp := if lt a b then b else a

theorem fin_neg (x : ℝ) : -fin x = fin (-x) := rfl
theorem fin_add (x y : ℝ) : fin x + fin y = fin (x + y) := rfl
theorem fin_sub (x y : ℝ) : fin x - fin y = fin (x - y) := by
  show add (fin x) (neg (fin y)) = _
  rw [sub_eq_add_neg]; rfl
theorem fin_mul (x y : ℝ) : fin x * fin y = fin (x * y) := rfl
theorem fin_div {x y : ℝ} (h : y ≠ 0) : fin x / fin y = fin (x / y) := by
  show div (fin x) (fin y) = _
  simp only [div]; rw [if_neg h]
theorem div_zero_zero : fin 0 / fin 0 = nan := by
  show div (fin 0) (fin 0) = _
  simp [div]
theorem fin_lt (x y : ℝ) : lt (fin x) (fin y) ↔ x < y := Iff.rfl
theorem fin_eq (x y : ℝ) : eq (fin x) (fin y) ↔ x = y := Iff.rfl
theorem fin_le (x y : ℝ) : le (fin x) (fin y) ↔ x ≤ y := by
  show x < y ∨ x = y ↔ _
  exact le_iff_lt_or_eq.symm
theorem fin_abs (x : ℝ) : abs (fin x) = fin |x| := rfl
theorem fin_sqrt {x : ℝ} (h : 0 ≤ x) : sqrt (fin x) = fin (Real.sqrt x) := by
  simp only [sqrt]; rw [if_neg (not_lt.2 h)]

theorem nan_lt (a : Fp) : ¬ lt nan a := fun h => h
theorem lt_nan (a : Fp) : ¬ lt a nan := by cases a <;> exact fun h => h
theorem nan_add (a : Fp) : nan + a = nan := rfl
theorem add_nan (a : Fp) : a + nan = nan := by cases a <;> rfl
theorem nan_mul (a : Fp) : nan * a = nan := rfl
theorem mul_nan (a : Fp) : a * nan = nan := by cases a <;> rfl
theorem nan_div (a : Fp) : nan / a = nan := rfl
theorem div_nan (a : Fp) : a / nan = nan := by cases a <;> rfl
theorem nan_sub (a : Fp) : nan - a = nan := rfl
theorem sub_nan (a : Fp) : a - nan = nan := by cases a <;> rfl

end Fp

end Verif.Newton
