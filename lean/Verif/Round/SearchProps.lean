import Verif.Round.Search

/- C159: the loops of the correlative search with rounding. -/
namespace Verif.Round

set_option linter.unusedSectionVars false

variable {K : Type v} [Field K] [LinearOrder K] [IsStrictOrderedRing K] [FloorRing K]

/-- **C159** for steps that are large enough against the rounding error `u` of the window: the search ends, its
candidates are spread over the window, and their number is that of the steps in the window up to the rounding. -/
theorem C159_partial {F : Fmt K} {u range step : K} (hu : 0 ≤ u) (hF : ∀ x, |F.s x - x| ≤ u * |x|) (hr : 0 < range)
    (hs : 0 < step) (he : u * (range + step) < step) :
    ∃ l, Searches F range step l ∧ Spread range step (u * (range + step)) l ∧
      2 * range ≤ l.length * (step + u * (range + step)) ∧
      (l.length : K) * (step - u * (range + step)) < 2 * range + (step - u * (range + step)) := by
  have hd : 0 < step - u * (range + step) := by linarith
  obtain ⟨n, hn⟩ : ∃ n : ℕ, n = ⌈2 * range / (step - u * (range + step))⌉₊ := ⟨_, rfl⟩
  have h1 : 2 * range / (step - u * (range + step)) ≤ n := by rw [hn]; exact Nat.le_ceil _
  have h2 : (n : K) < 2 * range / (step - u * (range + step)) + 1 := by
    rw [hn]; exact Nat.ceil_lt_add_one (by positivity)
  rw [div_le_iff₀ hd] at h1
  rw [← sub_lt_iff_lt_add, lt_div_iff₀ hd] at h2
  obtain ⟨l, a, b, c, d, e, f⟩ := loopF_spec hu hF hs he n (-range) le_rfl (by linarith)
  refine ⟨l, ⟨_, a⟩, ⟨d, e, f⟩, by linarith, ?_⟩
  have : (l.length : K) ≤ n := by exact_mod_cast b
  have := mul_le_mul_of_nonneg_right this hd.le
  linarith

/-- `float`, the rotations of the default parameters. -/
example : (0 : ℚ) ≤ 2⁻¹ ^ 24 ∧ (∀ x : ℚ, |(evenFmt : Fmt ℚ).s x - x| ≤ 2⁻¹ ^ 24 * |x|) ∧
    (2⁻¹ ^ 24 : ℚ) * (13421773 / 2 ^ 23 + 13421773 / 2 ^ 26) < 13421773 / 2 ^ 26 :=
  ⟨by positivity, (binaryEven_nearest 24).err, by norm_num⟩

/-! ### Exact loops -/

theorem Nearest.near {b : ℕ} {s : K → K} (hs : Nearest b s) (e m : ℤ) {x : K} (h1 : (2 : K) ^ e ≤ |x|)
    (h2 : |x| < 2 ^ (e + 1)) (h3 : |x / 2 ^ (e + 1 - (b : ℤ)) - m| < 1 / 2) : s x = m * 2 ^ (e + 1 - (b : ℤ)) := by
  have hp : 0 < |x| := lt_of_lt_of_le (by positivity) h1
  have hl : Int.log 2 |x| = e := by
    have a1 := (Int.zpow_le_iff_le_log (b := 2) (by norm_num) hp).1 (by exact_mod_cast h1 : ((2 : ℕ) : K) ^ e ≤ |x|)
    have a2 := (Int.lt_zpow_iff_log_lt (b := 2) (by norm_num) hp).1
      (by exact_mod_cast h2 : |x| < ((2 : ℕ) : K) ^ (e + 1))
    omega
  have := hs.eq (abs_pos.1 hp) m (by rw [hl]; exact h3)
  rw [hl] at this
  exact this

/-- Whole numbers of `b` bits times a power of two are not rounded. -/
theorem Nearest.exact {b : ℕ} {s : K → K} (hs : Nearest b s) (z e : ℤ) (hz : |z| < 2 ^ b) :
    s ((z : K) * 2 ^ e) = z * 2 ^ e := by
  by_cases h0 : z = 0
  · simp [h0, hs.1]
  have hp : (0 : K) < |(z : K) * 2 ^ e| := by
    rw [abs_pos]; exact mul_ne_zero (by exact_mod_cast h0) (by positivity)
  have hlt : |(z : K) * 2 ^ e| < 2 ^ ((b : ℤ) + e) := by
    rw [abs_mul, abs_of_pos (show (0 : K) < 2 ^ e by positivity), zpow_add₀ (by norm_num), zpow_natCast]
    refine mul_lt_mul_of_pos_right ?_ (by positivity)
    exact_mod_cast hz
  obtain ⟨q, hq⟩ : ∃ q, q = Int.log 2 |(z : K) * 2 ^ e| := ⟨_, rfl⟩
  have h1 : (2 : K) ^ q ≤ |(z : K) * 2 ^ e| := by
    rw [hq]; exact_mod_cast Int.zpow_log_le_self (R := K) (b := 2) (by norm_num) hp
  have hqe : q < b + e := (zpow_lt_zpow_iff_right₀ (by norm_num : (1 : K) < 2)).1 (h1.trans_lt hlt)
  obtain ⟨d, hd⟩ : ∃ d : ℕ, e = q + 1 - b + d := ⟨(e - (q + 1 - b)).toNat, by omega⟩
  have : (z : K) * 2 ^ e / 2 ^ (q + 1 - (b : ℤ)) = ((z * 2 ^ d : ℤ) : K) := by
    rw [div_eq_iff (by positivity)]
    push_cast
    conv_lhs => rw [hd, zpow_add₀ (by norm_num), zpow_natCast]
    ring
  rw [hs.eq (abs_pos.1 hp) (z * 2 ^ d) (by rw [← hq, this, sub_self, abs_zero]; norm_num), ← hq]
  push_cast
  conv_rhs => rw [hd, zpow_add₀ (by norm_num), zpow_natCast]
  ring

/-- A loop without rounding. -/
theorem loopF_exact {F : Fmt K} {step : K} (hs : 0 < step) (m : ℕ)
    (hF : ∀ k : ℕ, k ≤ 2 * m → F.s (((k : K) - m) * step) = ((k : K) - m) * step) : ∀ (n j : ℕ), j + n = 2 * m →
    loopF F (m * step) step (n + 1) (((j : K) - m) * step) =
      some ((List.range' j n).map fun (k : ℕ) => ((k : K) - m) * step) := by
  intro n
  induction n with
  | zero =>
    intro j hj
    have : (j : K) = 2 * m := by exact_mod_cast hj
    rw [loopF, if_neg]
    · rfl
    · rw [this]; intro h; linarith
  | succ n ih =>
    intro j hj
    have h1 : ((j : K) - m) * step < m * step := by
      refine mul_lt_mul_of_pos_right ?_ hs
      have : (j : K) + 1 ≤ 2 * m := by exact_mod_cast (by omega : j + 1 ≤ 2 * m)
      linarith
    have h2 : ((j : K) - m) * step + step = (((j + 1 : ℕ) : K) - m) * step := by push_cast; ring
    rw [loopF, if_pos h1, h2, hF (j + 1) (by omega), ih (j + 1) (by omega), List.range'_succ]
    rfl

/-- **C159** for `float`s whose step has few digits (`c · 2ᵉ` with `m · c < 2²⁴`; all powers of two): the candidates of a
window of `m` steps to both sides are exact, and every whole number of cells in the window is tried exactly once. -/
theorem C159_digits_partial {F : Fmt K} (hN : Nearest 24 F.s) (c e : ℤ) (m : ℕ) (hc : 0 < c) (hm : m * c < 2 ^ 24) :
    ∃ l, Searches F (m * ((c : K) * 2 ^ e)) ((c : K) * 2 ^ e) l ∧
      l = (List.range (2 * m)).map (fun (k : ℕ) => ((k : K) - m) * (c * 2 ^ e)) ∧
      l.map (shiftF F ((c : K) * 2 ^ e)) = (List.range (2 * m)).map fun (k : ℕ) => (k : ℤ) - m := by
  have hs : (0 : K) < c * 2 ^ e := mul_pos (by exact_mod_cast hc) (by positivity)
  have hb : ∀ k : ℕ, k ≤ 2 * m → |((k : ℤ) - m)| ≤ m := by
    intro k hk; rw [abs_le]; omega
  have hF : ∀ k : ℕ, k ≤ 2 * m → F.s (((k : K) - m) * (c * 2 ^ e)) = ((k : K) - m) * (c * 2 ^ e) := by
    intro k hk
    have h1 : |((k : ℤ) - m) * c| < 2 ^ 24 := by
      rw [abs_mul, abs_of_pos hc]
      exact lt_of_le_of_lt (mul_le_mul_of_nonneg_right (hb k hk) hc.le) hm
    have := hN.exact (((k : ℤ) - m) * c) e h1
    push_cast at this
    rw [mul_assoc] at this
    exact this
  have h := loopF_exact hs m hF (2 * m) 0 (by omega)
  refine ⟨_, ⟨_, by rw [← h]; congr 1; push_cast; ring⟩, by rw [List.range_eq_range'], ?_⟩
  rw [List.map_map, List.range_eq_range']
  refine List.map_congr_left fun k hk => ?_
  have hk : k < 2 * m := by simpa using (List.mem_range'_1.1 hk).2
  have h1 : |((k : ℤ) - m)| < 2 ^ 24 := by
    refine lt_of_le_of_lt (hb k hk.le) (lt_of_le_of_lt ?_ hm)
    nlinarith
  have h2 := hN.exact ((k : ℤ) - m) 0 h1
  simp only [zpow_zero, mul_one] at h2
  simp only [Function.comp, shiftF]
  rw [mul_div_assoc, div_self hs.ne', mul_one]
  have h3 : F.s ((k : K) - m) = (((k : ℤ) - m : ℤ) : K) := by
    rw [← h2]; push_cast; rfl
  rw [h3, Int.floor_intCast]

/-- Both rules for ties. -/
example : Nearest 24 (ieee : Fmt ℚ).s ∧ Nearest 24 (evenFmt : Fmt ℚ).s := ⟨binary_nearest 24, binaryEven_nearest 24⟩

/-- The default window: 4 m with cells of half a metre. -/
example : (4 : ℚ) = (8 : ℕ) * ((1 : ℤ) * 2 ^ (-1 : ℤ)) ∧ (8 : ℕ) * (1 : ℤ) < 2 ^ 24 := by norm_num

/-- In these cases the loop is the one of the exact model. -/
theorem C159_exact_partial {F : Fmt ℝ} (hN : Nearest 24 F.s) (c e : ℤ) (m : ℕ) (hc : 0 < c) (hm : m * c < 2 ^ 24) (hm0 : 0 < m) (l : List ℝ) :
    Searches F (m * (c * 2 ^ e)) (c * 2 ^ e) l ↔
      Corr.loopValues (m * (c * 2 ^ e)) (c * 2 ^ e) (-(m * (c * 2 ^ e))) = some l := by
  obtain ⟨l', h1, h2, -⟩ := C159_digits_partial hN c e m hc hm
  have hs : (0 : ℝ) < c * 2 ^ e := mul_pos (by exact_mod_cast hc) (by positivity)
  have hmp : (0 : ℝ) < m := by exact_mod_cast hm0
  have hl : Corr.loopValues (m * (c * 2 ^ e)) (c * 2 ^ e) (-(m * (c * 2 ^ e))) = some l' := by
    unfold Corr.loopValues
    rw [if_pos (by nlinarith), if_pos hs, h2]
    have : (m * (c * 2 ^ e) - -(m * (c * 2 ^ e))) / (c * 2 ^ e) = (((2 * m : ℕ)) : ℝ) := by
      rw [div_eq_iff hs.ne']; push_cast; ring
    rw [this, Nat.ceil_natCast]
    refine congrArg some (List.map_congr_left fun k _ => ?_)
    ring
  rw [hl, Option.some.injEq]
  exact ⟨fun h => searches_unique h1 h, fun h => h ▸ h1⟩

/-! ### Where it fails -/

/-- Negation of C159: if the step is less than a quarter of the spacing of `float`s at the window's size, the search
does not end. -/
theorem C159_false_ends {F : Fmt K} (hN : Nearest 24 F.s) (z : ℕ) (e : ℤ) (step : K) (h1 : 2 ^ 23 ≤ z) (h2 : z < 2 ^ 24) (hs : 0 < step)
    (hs' : step < 2 ^ (e - 2)) : ¬ ∃ l, Searches F (z * 2 ^ e) step l := by
  rintro ⟨l, n, h⟩
  have hp : (0 : K) < 2 ^ e := by positivity
  have q : (2 : K) ^ (e - 2) = 2 ^ e / 4 := by rw [zpow_sub₀ (by norm_num)]; norm_num
  rw [q] at hs'
  have hz1 : (2 ^ 23 : K) ≤ z := by exact_mod_cast h1
  have hz2 : (z : K) + 1 ≤ 2 ^ 24 := by exact_mod_cast h2
  have hr : (2 ^ 23 : K) * 2 ^ e ≤ z * 2 ^ e := mul_le_mul_of_nonneg_right hz1 hp.le
  have hr2 : (z + 1 : K) * 2 ^ e ≤ 2 ^ 24 * 2 ^ e := mul_le_mul_of_nonneg_right hz2 hp.le
  have habs : |-(z * 2 ^ e) + step| = z * 2 ^ e - step := by
    rw [abs_of_nonpos (by linarith)]; ring
  have hst : F.s (-(z * 2 ^ e) + step) = -(z * 2 ^ e) := by
    by_cases hc : (2 : K) ^ 23 * 2 ^ e ≤ z * 2 ^ e - step
    · have := hN.near (e + 23) (-z) (x := -(z * 2 ^ e) + step) (by
        rw [habs, zpow_add₀ (by norm_num)]; norm_num at hc ⊢; linarith) (by
        rw [habs, show e + 23 + 1 = e + 24 by ring, zpow_add₀ (by norm_num)]; norm_num at hr2 ⊢; linarith) (by
        rw [show e + 23 + 1 - ((24 : ℕ) : ℤ) = e by push_cast; ring, add_div, neg_div, mul_div_assoc, div_self hp.ne']
        push_cast
        rw [show -((z : K) * 1) + step / 2 ^ e - -z = step / 2 ^ e by ring, abs_of_pos (by positivity), div_lt_iff₀ hp]
        linarith)
      rw [this, show e + 23 + 1 - ((24 : ℕ) : ℤ) = e by push_cast; ring]
      push_cast; ring
    · have hh : (2 : K) ^ (e - 1) = 2 ^ e / 2 := by rw [zpow_sub₀ (by norm_num)]; norm_num
      have := hN.near (e + 22) (-(2 * z)) (x := -(z * 2 ^ e) + step) (by
        rw [habs, zpow_add₀ (by norm_num)]; norm_num at hr ⊢; linarith) (by
        rw [habs, show e + 22 + 1 = e + 23 by ring, zpow_add₀ (by norm_num)]; push Not at hc; norm_num at hc ⊢
        linarith) (by
        rw [show e + 22 + 1 - ((24 : ℕ) : ℤ) = e - 1 by push_cast; ring, hh]
        have : (-((z : K) * 2 ^ e) + step) / (2 ^ e / 2) - ((-(2 * z) : ℤ) : K) = step / (2 ^ e / 2) := by
          push_cast; field_simp; ring
        rw [this, abs_of_pos (by positivity), div_lt_iff₀ (by positivity)]
        linarith)
      rw [this, show e + 22 + 1 - ((24 : ℕ) : ℤ) = e - 1 by push_cast; ring, hh]
      push_cast; ring
  rw [loopF_stuck (by linarith) hst] at h
  cases h

/-- A window of 4 m and a step of a hundred millionth of a metre. -/
example : (4 : ℚ) = (2 ^ 23 : ℕ) * 2 ^ (-21 : ℤ) ∧ (1 / 10 ^ 8 : ℚ) < 2 ^ (-21 - 2 : ℤ) := by norm_num

/-- Negation of C159 for cells of 0.2 m in `float` and a window of 5 m: the shifts by 12 and by 14 cells are tried, the
one by 13 cells (2.6 m) is not. -/
theorem C159_false_shift : ∃ l, Searches (evenFmt : Fmt ℚ) 5 (13421773 / 2 ^ 26) l ∧
    (12 : ℤ) ∈ l.map (shiftF evenFmt (13421773 / 2 ^ 26)) ∧ (14 : ℤ) ∈ l.map (shiftF evenFmt (13421773 / 2 ^ 26)) ∧
    (13 : ℤ) ∉ l.map (shiftF evenFmt (13421773 / 2 ^ 26)) := by
  have h : (loopF (evenFmt : Fmt ℚ) 5 (13421773 / 2 ^ 26) 60 (-5)).map
      (fun l => (decide ((12 : ℤ) ∈ l.map (shiftF evenFmt (13421773 / 2 ^ 26))),
        decide ((14 : ℤ) ∈ l.map (shiftF evenFmt (13421773 / 2 ^ 26))),
        decide ((13 : ℤ) ∉ l.map (shiftF evenFmt (13421773 / 2 ^ 26))))) = some (true, true, true) := by decide +kernel
  obtain ⟨l, h1, h2⟩ := Option.map_eq_some_iff.1 h
  simp only [Prod.mk.injEq, decide_eq_true_eq] at h2
  exact ⟨l, ⟨60, h1⟩, h2⟩

end Verif.Round
