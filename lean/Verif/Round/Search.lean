import Verif.Round.Binary
import Verif.Corr.Model

/-
The loops of the correlative search (include/ndt_gslam/registration/correlative_estimation2d.h) with the rounding of
`float`.  `Verif.Corr.Model` computes them in exact arithmetic (`Corr.loopValues`).
-/
namespace Verif.Round

set_option linter.unusedSectionVars false

variable {K : Type v} [Field K] [LinearOrder K] [IsStrictOrderedRing K] [FloorRing K]

/-- `for (float v = start; v < range; v += step)`, correlative_estimation2d.h:196-199, 221-225: the values of the loop
variable, `none` if the loop has not ended after `fuel` tests of its condition. -/
def loopF (F : Fmt K) (range step : K) : (fuel : ℕ) → (v : K) → Option (List K)
  | 0, _ => none
  | fuel + 1, v => if v < range then (loopF F range step fuel (F.s (v + step))).map (v :: ·) else some []

/-- `std::floor(dx / cell_size_)`, the number of cells by which `transformIndexes` shifts,
correlative_estimation_tools.h:359-360. -/
def shiftF (F : Fmt K) (cs d : K) : ℤ := ⌊F.s (d / cs)⌋

/-- Rounding to `b` binary digits with ties to even, as `float` (24) and `double` (53) do; exponents are unbounded. -/
def binaryEven (b : ℕ) (x : K) : K :=
  if x = 0 then 0 else
    let ulp : K := 2 ^ (Int.log 2 |x| + 1 - b)
    let q := x / ulp
    let f := ⌊q⌋
    (if q - f < 1 / 2 then f else if 1 / 2 < q - f then f + 1 else if f % 2 = 0 then f else f + 1 : ℤ) * ulp

/-- `float` and `double`. -/
def evenFmt : Fmt K := ⟨binaryEven 24, binaryEven 53⟩

/-! ### Specification -/

/-- `s` rounds to a nearest number of `b` binary digits, with any rule for ties. -/
def Nearest (b : ℕ) (s : K → K) : Prop :=
  s 0 = 0 ∧ ∀ x ≠ 0, ∃ n : ℤ, s x = n * 2 ^ (Int.log 2 |x| + 1 - b) ∧ |x / 2 ^ (Int.log 2 |x| + 1 - (b : ℤ)) - n| ≤ 1 / 2

/-- The loop from `-range` to `range` ends and its variable takes the values `l`. -/
def Searches (F : Fmt K) (range step : K) (l : List K) : Prop := ∃ fuel, loopF F range step fuel (-range) = some l

/-- What is expected of the candidates of one axis: they lie in the window, the `k`-th is `k` steps from its left end
up to `k` errors `e`, and every place of the window has one on its left that is not further than a step. -/
structure Spread (range step e : K) (l : List K) : Prop where
  inside : ∀ v ∈ l, -range ≤ v ∧ v < range
  close : ∀ (k : ℕ) (v : K), l[k]? = some v → |v - (-range + k * step)| ≤ k * e
  cover : ∀ x, -range ≤ x → x < range → ∃ v ∈ l, v ≤ x ∧ x ≤ v + (step + e)

/-! ### Lemmas -/

theorem binary_nearest (b : ℕ) : Nearest b (binary b : K → K) := by
  refine ⟨by simp [binary], fun x hx => ⟨round (x / 2 ^ (Int.log 2 |x| + 1 - (b : ℤ))), ?_, abs_sub_round _⟩⟩
  unfold binary
  rw [if_neg hx]

theorem binaryEven_nearest (b : ℕ) : Nearest b (binaryEven b : K → K) := by
  refine ⟨by simp [binaryEven], fun x hx => ?_⟩
  unfold binaryEven
  rw [if_neg hx]
  simp only
  refine ⟨_, rfl, ?_⟩
  generalize x / 2 ^ (Int.log 2 |x| + 1 - (b : ℤ)) = q
  have h1 := Int.floor_le q
  have h2 := Int.lt_floor_add_one q
  split_ifs with a c d <;> push_cast <;> rw [abs_le] <;> constructor <;> linarith

/-- A number closer than half a unit. -/
theorem Nearest.eq {b : ℕ} {s : K → K} (hs : Nearest b s) {x : K} (hx : x ≠ 0) (m : ℤ)
    (h : |x / 2 ^ (Int.log 2 |x| + 1 - (b : ℤ)) - m| < 1 / 2) : s x = m * 2 ^ (Int.log 2 |x| + 1 - (b : ℤ)) := by
  obtain ⟨n, h1, h2⟩ := hs.2 x hx
  have : n = m := by
    have a := abs_le.1 h2
    have b := abs_lt.1 h
    have c : (n : K) < m + 1 := by linarith
    have d : (m : K) < n + 1 := by linarith
    have c' : n < m + 1 := by exact_mod_cast c
    have d' : m < n + 1 := by exact_mod_cast d
    omega
  rw [h1, this]

theorem Nearest.err {b : ℕ} {s : K → K} (hs : Nearest b s) (x : K) : |s x - x| ≤ 2⁻¹ ^ b * |x| := by
  by_cases hx : x = 0
  · simp [hx, hs.1]
  obtain ⟨n, h1, h2⟩ := hs.2 x hx
  rw [h1]
  have hpos : 0 < |x| := abs_pos.2 hx
  have hl := Int.zpow_log_le_self (R := K) (b := 2) (by norm_num) hpos
  set ulp : K := 2 ^ (Int.log 2 |x| + 1 - (b : ℤ)) with hulp
  have hu : 0 < ulp := zpow_pos (by norm_num) _
  have h3 : |n * ulp - x| = |x / ulp - n| * ulp := by
    rw [← abs_of_pos hu, ← abs_mul, abs_of_pos hu, sub_mul, div_mul_cancel₀ _ hu.ne', abs_sub_comm]
  rw [h3]
  have h4 : ulp = 2 * 2⁻¹ ^ b * 2 ^ Int.log 2 |x| := by
    rw [hulp, zpow_sub₀ (by norm_num), zpow_add₀ (by norm_num), zpow_natCast, zpow_one, inv_pow]
    field_simp
  have h5 : |x / ulp - n| * ulp ≤ 1 / 2 * ulp := mul_le_mul_of_nonneg_right h2 hu.le
  have h6 : (2⁻¹ : K) ^ b * 2 ^ Int.log 2 |x| ≤ 2⁻¹ ^ b * |x| :=
    mul_le_mul_of_nonneg_left (by exact_mod_cast hl) (by positivity)
  calc _ ≤ _ := h5
    _ = 2⁻¹ ^ b * 2 ^ Int.log 2 |x| := by rw [h4]; ring
    _ ≤ _ := h6

/-- A larger number of tests does not change the result. -/
theorem loopF_mono {F : Fmt K} {range step : K} : ∀ {n m : ℕ} {v : K} {l : List K}, n ≤ m →
    loopF F range step n v = some l → loopF F range step m v = some l := by
  intro n
  induction n with
  | zero => intro m v l _ h; cases h
  | succ n ih =>
    intro m v l hm h
    obtain ⟨m, rfl⟩ : ∃ k, m = k + 1 := ⟨m - 1, by omega⟩
    unfold loopF at h ⊢
    split_ifs at h ⊢
    · obtain ⟨l', h1, h2⟩ := Option.map_eq_some_iff.1 h
      rw [ih (by omega) h1]
      exact congrArg some h2
    · exact h

/-- The list of candidates is determined. -/
theorem searches_unique {F : Fmt K} {range step : K} {l l' : List K} (h : Searches F range step l)
    (h' : Searches F range step l') : l = l' := by
  obtain ⟨n, h⟩ := h
  obtain ⟨m, h'⟩ := h'
  have a := loopF_mono (le_max_left n m) h
  have b := loopF_mono (le_max_right n m) h'
  rw [a] at b
  exact Option.some.inj b

/-- One step of the loop. -/
theorem loop_step_err {F : Fmt K} {u range step v : K} (hu : 0 ≤ u) (hF : ∀ x, |F.s x - x| ≤ u * |x|) (h0 : 0 ≤ step)
    (h1 : -range ≤ v) (h2 : v < range) : |F.s (v + step) - (v + step)| ≤ u * (range + step) := by
  refine (hF _).trans (mul_le_mul_of_nonneg_left ?_ hu)
  rw [abs_le]
  constructor <;> linarith

/-- The loop from any start: the number of tests suffices, and the values are spread. -/
theorem loopF_spec {F : Fmt K} {u range step : K} (hu : 0 ≤ u) (hF : ∀ x, |F.s x - x| ≤ u * |x|) (hs : 0 < step)
    (he : u * (range + step) < step) : ∀ (n : ℕ) (v : K), -range ≤ v →
    range ≤ v + n * (step - u * (range + step)) →
    ∃ l, loopF F range step (n + 1) v = some l ∧ l.length ≤ n ∧
      range ≤ v + l.length * (step + u * (range + step)) ∧
      (∀ w ∈ l, -range ≤ w ∧ w < range) ∧
      (∀ (k : ℕ) (w : K), l[k]? = some w → |w - (v + k * step)| ≤ k * (u * (range + step))) ∧
      (∀ x, v ≤ x → x < range → ∃ w ∈ l, w ≤ x ∧ x ≤ w + (step + u * (range + step))) := by
  intro n
  induction n with
  | zero =>
    intro v h1 h2
    have hv : ¬ v < range := by simpa using h2
    refine ⟨[], by rw [loopF, if_neg hv], by simp, by simpa using h2, by simp, by simp, ?_⟩
    intro x h3 h4; exact absurd (h3.trans_lt h4) hv
  | succ n ih =>
    intro v h1 h2
    by_cases hv : v < range
    · have e := abs_le.1 (loop_step_err hu hF hs.le h1 hv)
      obtain ⟨l, a, b, c, d, f, g⟩ := ih (F.s (v + step)) (by linarith [e.1]) (by push_cast at h2; linarith [e.1])
      refine ⟨v :: l, ?_, by simpa using b, ?_, ?_, ?_, ?_⟩
      · rw [loopF, if_pos hv, a]; rfl
      · simp only [List.length_cons]; push_cast; linarith [e.2]
      · intro w hw
        rcases List.mem_cons.1 hw with rfl | hw
        · exact ⟨h1, hv⟩
        · exact d w hw
      · intro k w hk
        cases k with
        | zero => simp only [List.getElem?_cons_zero, Option.some.injEq] at hk; subst hk; simp
        | succ k =>
          simp only [List.getElem?_cons_succ] at hk
          have := abs_le.1 (f k w hk)
          push_cast
          rw [abs_le]
          constructor <;> linarith [e.1, e.2, this.1, this.2]
      · intro x h3 h4
        by_cases hx : F.s (v + step) ≤ x
        · obtain ⟨w, hw, q⟩ := g x hx h4
          exact ⟨w, List.mem_cons_of_mem _ hw, q⟩
        · exact ⟨v, by simp, h3, by push Not at hx; linarith [e.2]⟩
    · refine ⟨[], by rw [loopF, if_neg hv], by simp, by simpa using hv, by simp, by simp, ?_⟩
      intro x h3 h4; exact absurd (h3.trans_lt h4) hv

/-- A loop whose variable does not change does not end. -/
theorem loopF_stuck {F : Fmt K} {range step v : K} (hv : v < range) (h : F.s (v + step) = v) (n : ℕ) :
    loopF F range step n v = none := by
  induction n with
  | zero => rfl
  | succ n ih => rw [loopF, if_pos hv, h, ih]; rfl

end Verif.Round
