import Verif.Corr.Spec
import Mathlib.Tactic.Linarith
import Mathlib.Tactic.Ring
import Mathlib.Tactic.FieldSimp
import Mathlib.Tactic.Positivity

/-
Helper lemmas for the correlative matcher.
-/
namespace Verif.Corr

open Verif Verif.Geo

/-! ### Loops -/

theorem forEach_append {α σ : Type} (f : σ → α → Res σ) (s : σ) (l l' : List α) :
    forEach f s (l ++ l') = (forEach f s l).bind fun s' => forEach f s' l' := by
  induction l generalizing s with
  | nil => rfl
  | cons a l ih =>
    simp only [List.cons_append, forEach]
    cases f s a with
    | ok s' => simp only [Res.bind_ok, ih]
    | throw e => rfl
    | ub u => rfl

/-- Invariant of a loop, indexed by the elements done. -/
theorem forEach_inv {α σ : Type} {f : σ → α → Res σ} (P : List α → σ → Prop) (l : List α)
    (step : ∀ done a s, a ∈ l → P done s → ∃ s', f s a = .ok s' ∧ P (done ++ [a]) s') :
    ∀ (rest done : List α) (s : σ), (∀ a ∈ rest, a ∈ l) → P done s →
      ∃ s', forEach f s rest = .ok s' ∧ P (done ++ rest) s'
  | [], done, s, _, h => ⟨s, rfl, by simpa using h⟩
  | a :: rest, done, s, hl, h => by
    obtain ⟨s', h1, h2⟩ := step done a s (hl a (by simp)) h
    obtain ⟨s'', h3, h4⟩ := forEach_inv P l step rest (done ++ [a]) s' (fun b hb => hl b (by simp [hb])) h2
    refine ⟨s'', ?_, ?_⟩
    · rw [forEach, h1]
      exact h3
    · rwa [List.append_assoc, List.singleton_append] at h4

theorem forEach_inv' {α σ : Type} {f : σ → α → Res σ} (P : List α → σ → Prop) {l : List α} {s : σ}
    (step : ∀ done a s, a ∈ l → P done s → ∃ s', f s a = .ok s' ∧ P (done ++ [a]) s') (h : P [] s) :
    ∃ s', forEach f s l = .ok s' ∧ P l s' := by
  have := forEach_inv P l step l [] s (fun _ h => h) h
  simpa using this

/-! ### Lists in row-major order -/

theorem length_rows {α : Type} (m n : ℕ) (g : ℕ → ℕ → α) :
    ((List.range m).flatMap fun i => (List.range n).map (g i)).length = m * n := by
  induction m with
  | zero => simp
  | succ m ih => rw [List.range_succ, List.flatMap_append, List.length_append, ih]; simp; ring

theorem getElem?_rows {α : Type} (m n : ℕ) (g : ℕ → ℕ → α) {i j : ℕ} (hi : i < m) (hj : j < n) :
    ((List.range m).flatMap fun i => (List.range n).map (g i))[i * n + j]? = some (g i j) := by
  induction m with
  | zero => omega
  | succ m ih =>
    rw [List.range_succ, List.flatMap_append]
    rcases Nat.lt_succ_iff_lt_or_eq.1 hi with h | rfl
    · rw [List.getElem?_append_left]
      · exact ih h
      · rw [length_rows]
        calc i * n + j < i * n + n := by omega
          _ = (i + 1) * n := by ring
          _ ≤ m * n := Nat.mul_le_mul_right _ h
    · rw [List.getElem?_append_right (by rw [length_rows]; omega), length_rows, Nat.add_sub_cancel_left]
      simp [hj]

theorem mem_span {h : ℕ} {r : ℤ} : r ∈ span h ↔ -(h : ℤ) ≤ r ∧ r ≤ h := by
  unfold span
  simp only [List.mem_map, List.mem_range]
  constructor
  · rintro ⟨k, hk, rfl⟩; omega
  · rintro ⟨h1, h2⟩; exact ⟨(r + h).toNat, by omega, by omega⟩

theorem mem_offsets {h : ℕ} {o : ℤ × ℤ} : o ∈ offsets h ↔ |o.1| ≤ h ∧ |o.2| ≤ h := by
  unfold offsets
  simp only [List.mem_flatMap, List.mem_map, mem_span, abs_le]
  constructor
  · rintro ⟨r, hr, c, hc, rfl⟩; exact ⟨hr, hc⟩
  · rintro ⟨h1, h2⟩; exact ⟨o.1, h1, o.2, h2, rfl⟩

theorem offsets_eq (h : ℕ) : offsets h = (List.range (2 * h + 1)).flatMap fun i =>
    (List.range (2 * h + 1)).map fun (j : ℕ) => (((i : ℕ) : ℤ) - h, (j : ℤ) - h) := by
  unfold offsets span
  rw [List.flatMap_map]
  simp only [List.map_map]
  rfl

/-! ### Kernel -/

theorem limitStd_eq {res std : ℝ} (h : 0 < res) : limitStd res std = max (0.5 * res) (min (10 * res) std) := by
  unfold limitStd
  simp only
  by_cases h1 : std > 10 * res
  · rw [if_pos h1, min_eq_left h1.le, max_eq_right (by linarith)]
  · rw [if_neg h1]
    by_cases h2 : std < 0.5 * res
    · rw [if_pos h2, min_eq_right (by linarith), max_eq_left h2.le]
    · rw [if_neg h2, min_eq_right (not_lt.1 h1), max_eq_right (not_lt.1 h2)]

theorem limitStd_sigma {step std : ℝ} (h : 0 < step) : limitStd (1 / step) std = sigma step std / step := by
  rw [limitStd_eq (by positivity)]
  unfold sigma
  have hs : std = std * step / step := by field_simp
  rw [← max_div_div_right h.le, ← min_div_div_right h.le, ← hs]
  congr 1
  · ring
  · congr 1
    ring

theorem sigma_bounds (step std : ℝ) : 0.5 ≤ sigma step std ∧ sigma step std ≤ 10 := by
  unfold sigma
  exact ⟨le_max_left _ _, max_le (by norm_num) (min_le_left _ _)⟩

theorem sigma_pos (step std : ℝ) : 0 < sigma step std := by
  have := (sigma_bounds step std).1
  norm_num at this ⊢
  linarith

theorem kernelValue_eq {step std : ℝ} (h : 0 < step) (r c : ℤ) :
    kernelValue (1 / step) (limitStd (1 / step) std) OCCUPIED r c = bell (sigma step std) r c := by
  unfold kernelValue bell OCCUPIED
  simp only
  rw [limitStd_sigma h, div_pow, Real.sq_sqrt (by positivity)]
  have hs := sigma_pos step std
  congr 1
  rw [mul_comm]
  push_cast
  congr 2
  field_simp
  ring

theorem half_eq {step std : ℝ} (h : 0 < step) : (Kernel.init (1 / step) std OCCUPIED).half = reach step std := by
  unfold Kernel.init reach
  simp only
  rw [limitStd_sigma h]
  congr 2
  field_simp

theorem reach_bounds (step std : ℝ) : 1 ≤ reach step std ∧ reach step std ≤ 20 := by
  obtain ⟨h1, h2⟩ := sigma_bounds step std
  unfold reach
  rw [round_eq]
  have h3 : 1 ≤ ⌊2 * sigma step std + 1 / 2⌋ := by rw [Int.le_floor]; push_cast; linarith
  have h4 : ⌊2 * sigma step std + 1 / 2⌋ < 21 := by rw [Int.floor_lt]; push_cast; linarith
  omega

theorem kernel_get {step std : ℝ} (h : 0 < step) {r c : ℤ} (hr : |r| ≤ reach step std) (hc : |c| ≤ reach step std) :
    (Kernel.init (1 / step) std OCCUPIED).get r c = .ok (bell (sigma step std) r c) := by
  unfold Kernel.get
  rw [half_eq h]
  have hv : (Kernel.init (1 / step) std OCCUPIED).vals =
      (offsets (reach step std)).map fun o => bell (sigma step std) o.1 o.2 := by
    have := half_eq (std := std) h
    unfold Kernel.init at this ⊢
    simp only at this ⊢
    rw [this]
    simp only [kernelValue_eq h]
  rw [hv]
  generalize reach step std = H at *
  rw [abs_le] at hr hc
  have e : (r + H) * (2 * H + 1) + c + H = (((r + H).toNat * (2 * H + 1) + (c + H).toNat : ℕ) : ℤ) := by
    push_cast
    rw [Int.toNat_of_nonneg (by omega), Int.toNat_of_nonneg (by omega)]
    ring
  unfold at?
  rw [e, if_pos (Int.natCast_nonneg _), Int.toNat_natCast, List.getElem?_map, offsets_eq,
    getElem?_rows _ _ _ (by omega) (by omega)]
  simp only [Option.map_some]
  rw [Int.toNat_of_nonneg (by omega), Int.toNat_of_nonneg (by omega)]
  simp

theorem bell_zero (σ : ℝ) : bell σ 0 0 = 100 := by
  unfold bell
  simp

theorem bell_nonneg (σ : ℝ) (r c : ℤ) : 0 ≤ bell σ r c := by
  unfold bell
  rw [round_eq]
  apply Int.floor_nonneg.2
  positivity

theorem bell_le (σ : ℝ) (r c : ℤ) : bell σ r c ≤ 100 := by
  unfold bell
  rw [round_eq]
  have : Real.exp (-((r : ℝ) ^ 2 + (c : ℝ) ^ 2) / (2 * σ ^ 2)) ≤ 1 := by
    rw [Real.exp_le_one_iff]
    apply div_nonpos_of_nonpos_of_nonneg
    · have := sq_nonneg (r : ℝ); have := sq_nonneg (c : ℝ); linarith
    · positivity
  have h : ⌊100 * Real.exp (-((r : ℝ) ^ 2 + (c : ℝ) ^ 2) / (2 * σ ^ 2)) + 1 / 2⌋ < 101 := by
    rw [Int.floor_lt]
    push_cast
    linarith
  omega

theorem bell_lt {σ : ℝ} (hσ : 0 < σ) (hs : Sharp σ) {r c : ℤ} (h : ¬ (r = 0 ∧ c = 0)) : bell σ r c < 100 := by
  unfold bell
  rw [round_eq, Int.floor_lt]
  have h1 : (1 : ℝ) ≤ (r : ℝ) ^ 2 + (c : ℝ) ^ 2 := by
    have : (1 : ℤ) ≤ r ^ 2 + c ^ 2 := by
      by_cases hr : r = 0
      · have hc : c ≠ 0 := fun hc => h ⟨hr, hc⟩
        have := pow_pos (abs_pos.2 hc) 2
        rw [sq_abs] at this
        have := sq_nonneg r
        omega
      · have := pow_pos (abs_pos.2 hr) 2
        rw [sq_abs] at this
        have := sq_nonneg c
        omega
    exact_mod_cast this
  have h2 : Real.exp (-((r : ℝ) ^ 2 + (c : ℝ) ^ 2) / (2 * σ ^ 2)) ≤ Real.exp (-1 / (2 * σ ^ 2)) := by
    rw [Real.exp_le_exp]
    apply div_le_div_of_nonneg_right _ (by positivity)
    linarith
  unfold Sharp at hs
  push_cast
  linarith

/-- A sufficient condition. -/
theorem sharp_of_le {σ : ℝ} (hσ : 0 < σ) (h : σ ≤ 9.97) : Sharp σ := by
  unfold Sharp
  have h1 : σ ^ 2 ≤ 9.97 ^ 2 := by gcongr
  have h2 : (0.005030 : ℝ) ≤ 1 / (2 * σ ^ 2) := by
    rw [le_div_iff₀ (by positivity)]
    nlinarith
  have h3 := Real.add_one_le_exp (1 / (2 * σ ^ 2))
  rw [neg_div, Real.exp_neg]
  have h4 : (Real.exp (1 / (2 * σ ^ 2)))⁻¹ ≤ (1.00503)⁻¹ := by
    apply inv_anti₀ (by norm_num)
    linarith
  norm_num at h4 ⊢
  linarith

theorem bell_ten {o : ℤ × ℤ} (h : o = (1, 0) ∨ o = (0, 1)) : bell 10 o.1 o.2 = 100 := by
  have h1 : (0.995 : ℝ) ≤ Real.exp (-1 / (2 * 10 ^ 2)) := by
    have := Real.add_one_le_exp (-1 / (2 * 10 ^ 2) : ℝ)
    norm_num at this ⊢
    linarith
  apply le_antisymm (bell_le _ _ _)
  unfold bell
  rw [round_eq, Int.le_floor]
  rcases h with rfl | rfl <;> norm_num at h1 ⊢ <;> linarith

/-! ### Tables as functions -/

/-- The list holds the values of `f`, row by row. -/
def Tab (m n : ℕ) (l : List ℤ) (f : ℕ → ℕ → ℤ) : Prop :=
  l.length = m * n ∧ ∀ i j, i < m → j < n → l[i * n + j]? = some (f i j)

theorem idx_lt {m n i j : ℕ} (hi : i < m) (hj : j < n) : i * n + j < m * n := by
  calc i * n + j < i * n + n := by omega
    _ = (i + 1) * n := by ring
    _ ≤ m * n := Nat.mul_le_mul_right _ hi

theorem idx_inj {n i j i' j' : ℕ} (hj : j < n) (hj' : j' < n) (h : i * n + j = i' * n + j') : i = i' ∧ j = j' := by
  have h1 : (i * n + j) % n = j := by rw [Nat.mul_comm, Nat.mul_add_mod]; exact Nat.mod_eq_of_lt hj
  have h2 : (i' * n + j') % n = j' := by rw [Nat.mul_comm, Nat.mul_add_mod]; exact Nat.mod_eq_of_lt hj'
  have h3 : j = j' := by rw [← h1, ← h2, h]
  subst h3
  refine ⟨?_, rfl⟩
  have : i * n = i' * n := by omega
  exact Nat.eq_of_mul_eq_mul_right (by omega) this

theorem Tab.at? {m n : ℕ} {l : List ℤ} {f : ℕ → ℕ → ℤ} (h : Tab m n l f) {i j : ℕ} (hi : i < m) (hj : j < n) :
    at? l ((i : ℤ) * n + j) = .ok (f i j) := by
  unfold Corr.at?
  rw [show (i : ℤ) * n + j = ((i * n + j : ℕ) : ℤ) by push_cast; ring, if_pos (Int.natCast_nonneg _),
    Int.toNat_natCast, h.2 i j hi hj]

theorem Tab.put {m n : ℕ} {l : List ℤ} {f : ℕ → ℕ → ℤ} (h : Tab m n l f) {i j : ℕ} (hi : i < m) (hj : j < n) (v : ℤ) :
    ∃ l', put l ((i : ℤ) * n + j) v = .ok l' ∧ Tab m n l' fun a b => if a = i ∧ b = j then v else f a b := by
  unfold Corr.put
  have hlt := idx_lt hi hj
  rw [show (i : ℤ) * n + j = ((i * n + j : ℕ) : ℤ) by push_cast; ring, Int.toNat_natCast,
    if_pos ⟨Int.natCast_nonneg _, by rw [h.1]; exact hlt⟩]
  refine ⟨_, rfl, by rw [List.length_set, h.1], fun a b ha hb => ?_⟩
  rw [List.getElem?_set]
  simp only
  by_cases hab : a = i ∧ b = j
  · obtain ⟨rfl, rfl⟩ := hab
    rw [if_pos rfl, if_pos (by rw [h.1]; exact hlt), if_pos ⟨rfl, rfl⟩]
  · rw [if_neg, if_neg hab, h.2 a b ha hb]
    intro he
    obtain ⟨rfl, rfl⟩ := idx_inj hj hb he
    exact hab ⟨rfl, rfl⟩

theorem Tab.congr {m n : ℕ} {l : List ℤ} {f g : ℕ → ℕ → ℤ} (h : Tab m n l f)
    (hfg : ∀ i j, i < m → j < n → f i j = g i j) : Tab m n l g :=
  ⟨h.1, fun i j hi hj => by rw [h.2 i j hi hj, hfg i j hi hj]⟩

theorem tab_replicate (m n : ℕ) : Tab m n (List.replicate (n * m) 0) fun _ _ => 0 := by
  refine ⟨by rw [List.length_replicate, Nat.mul_comm], fun i j hi hj => ?_⟩
  rw [List.getElem?_replicate, if_pos (by rw [Nat.mul_comm n m]; exact idx_lt hi hj)]

/-! ### Smoothing -/

variable {t : Table} {step std : ℝ}

/-- The table has the kernel for the given parameters. -/
def HasKernel (t : Table) (step std : ℝ) : Prop := 0 < step ∧ t.kernel = Kernel.init (1 / step) std OCCUPIED

theorem HasKernel.get (h : HasKernel t step std) {r c : ℤ} (hr : |r| ≤ reach step std) (hc : |c| ≤ reach step std) :
    t.kernel.get r c = .ok (bell (sigma step std) r c) := by
  rw [h.2]; exact kernel_get h.1 hr hc

theorem HasKernel.half (h : HasKernel t step std) : t.kernel.half = reach step std := by rw [h.2, half_eq h.1]

theorem stamp_ok (hk : HasKernel t step std) {cells : List ℤ} {f : ℕ → ℕ → ℤ} (h : Tab t.m t.n cells f) {i j : ℕ}
    {row col : ℤ} {o : ℤ × ℤ} (ho : |o.1| ≤ reach step std ∧ |o.2| ≤ reach step std) (hi : i < t.m) (hj : j < t.n)
    (hr : row + o.1 = i) (hc : col + o.2 = j) :
    ∃ l', t.stamp row col cells o = .ok l' ∧
      Tab t.m t.n l' fun a b => if a = i ∧ b = j then max (f a b) (bell (sigma step std) o.1 o.2) else f a b := by
  unfold Table.stamp
  simp only
  rw [hk.get ho.1 ho.2, hr, hc, h.at? hi hj]
  simp only [Res.bind_ok]
  split_ifs with hlt
  · obtain ⟨l', h1, h2⟩ := h.put hi hj (bell (sigma step std) o.1 o.2)
    refine ⟨l', h1, h2.congr fun a b _ _ => ?_⟩
    split_ifs with hab
    · rw [hab.1, hab.2, max_eq_right hlt.le]
    · rfl
  · refine ⟨cells, rfl, h.congr fun a b _ _ => ?_⟩
    split_ifs with hab
    · rw [hab.1, hab.2, max_eq_left (not_lt.1 hlt)]
    · rfl

open Classical in
theorem applyKernel_ok (hk : HasKernel t step std) {cells : List ℤ} {f : ℕ → ℕ → ℤ} (h : Tab t.m t.n cells f)
    {row col : ℕ} (h1 : reach step std ≤ row) (h2 : row + reach step std < t.m) (h3 : reach step std ≤ col)
    (h4 : col + reach step std < t.n) :
    ∃ l', t.applyKernel row col cells = .ok l' ∧ Tab t.m t.n l' fun a b =>
      if |(a : ℤ) - row| ≤ reach step std ∧ |(b : ℤ) - col| ≤ reach step std then
        max (f a b) (bell (sigma step std) (a - row) (b - col)) else f a b := by
  unfold Table.applyKernel
  rw [hk.half]
  have := forEach_inv' (f := t.stamp row col) (l := offsets (reach step std)) (s := cells)
    (fun done l => Tab t.m t.n l fun a b => if ((a : ℤ) - row, (b : ℤ) - col) ∈ done then
      max (f a b) (bell (sigma step std) (a - row) (b - col)) else f a b) ?_ ?_
  · obtain ⟨l', e, ht⟩ := this
    refine ⟨l', e, ht.congr fun a b _ _ => ?_⟩
    simp only [mem_offsets]
  · intro done o s ho ht
    rw [mem_offsets] at ho
    have ho' := ho
    rw [abs_le, abs_le] at ho'
    obtain ⟨l', e, ht'⟩ := stamp_ok hk (i := (row + o.1).toNat) (j := (col + o.2).toNat) (row := row) (col := col) ht ho
      (by omega) (by omega) (by omega) (by omega)
    refine ⟨l', e, ht'.congr fun a b _ _ => ?_⟩
    simp only [List.mem_append, List.mem_singleton]
    by_cases hab : a = (row + o.1).toNat ∧ b = (col + o.2).toNat
    · have e1 : (a : ℤ) - row = o.1 := by omega
      have e2 : (b : ℤ) - col = o.2 := by omega
      rw [if_pos hab, e1, e2, if_pos (Or.inr rfl : (o.1, o.2) ∈ done ∨ (o.1, o.2) = o)]
      by_cases hd : (o.1, o.2) ∈ done
      · rw [if_pos hd, max_assoc, max_self]
      · rw [if_neg hd]
    · rw [if_neg hab]
      have : ((a : ℤ) - row, (b : ℤ) - col) ≠ o := by
        intro he
        have e1 : (a : ℤ) - row = o.1 := by rw [← he]
        have e2 : (b : ℤ) - col = o.2 := by rw [← he]
        omega
      simp only [this, or_false]
  · simpa using h

/-- The values that the smoothing with centres `S` offers for row `i` and column `j`. -/
def Offers (step std : ℝ) (base : ℤ) (S : ℕ → ℕ → Prop) (i j : ℕ) : Set ℤ :=
  {v | v = base ∨ ∃ a b : ℕ, S a b ∧ |(i : ℤ) - a| ≤ reach step std ∧ |(j : ℤ) - b| ≤ reach step std ∧
    v = bell (sigma step std) (i - a) (j - b)}

theorem mem_scan {p : ℕ × ℕ} : p ∈ t.scan ↔ 1 ≤ p.1 ∧ p.1 + 1 < t.m ∧ 1 ≤ p.2 ∧ p.2 + 1 < t.n := by
  unfold Table.scan
  simp only [List.mem_flatMap, List.mem_map, List.mem_range'_1]
  constructor
  · rintro ⟨r, hr, c, hc, rfl⟩; simp only; omega
  · rintro ⟨h1, h2, h3, h4⟩; exact ⟨p.1, by omega, p.2, by omega, rfl⟩

open Classical in
/-- The smoothing loop: nothing is written outside, and every entry becomes the largest value offered by the
occupied places. -/
theorem smooth_ok (hk : HasKernel t step std) (hs : Sharp (sigma step std)) {cells : List ℤ} {occ : ℕ → ℕ → Prop}
    (h : Tab t.m t.n cells fun i j => if occ i j then OCCUPIED else 0)
    (hocc : ∀ i j, occ i j → reach step std ≤ i ∧ i + reach step std < t.m ∧ reach step std ≤ j ∧
      j + reach step std < t.n) :
    ∃ l' f, forEach t.smooth cells t.scan = .ok l' ∧ Tab t.m t.n l' f ∧
      ∀ i j, IsGreatest (Offers step std 0 occ i j) (f i j) := by
  have hσ := sigma_pos step std
  have key := forEach_inv' (f := t.smooth) (l := t.scan) (s := cells)
    (fun done l => ∃ f, Tab t.m t.n l f ∧ ∀ i j, IsGreatest
      (Offers step std (if occ i j then OCCUPIED else 0) (fun a b => (a, b) ∈ done ∧ occ a b) i j) (f i j)) ?_ ?_
  · obtain ⟨l', e, f, ht, hf⟩ := key
    refine ⟨l', f, e, ht, fun i j => ?_⟩
    have hself : ∀ a b, occ a b → (a, b) ∈ t.scan := by
      intro a b hab
      have := hocc a b hab
      have := (reach_bounds step std).1
      rw [mem_scan]
      simp only
      omega
    have heq : Offers step std (if occ i j then OCCUPIED else 0) (fun a b => (a, b) ∈ t.scan ∧ occ a b) i j ∪ {0} =
        Offers step std 0 occ i j := by
      ext v
      simp only [Offers, Set.mem_union, Set.mem_ofPred_eq, Set.mem_singleton_iff]
      constructor
      · rintro ((h1 | ⟨a, b, ⟨-, hab⟩, h1⟩) | h1)
        · by_cases ho : occ i j
          · rw [if_pos ho] at h1
            refine .inr ⟨i, j, ho, by simp, by simp, ?_⟩
            rw [h1, sub_self, sub_self, bell_zero]
            rfl
          · rw [if_neg ho] at h1; exact .inl h1
        · exact .inr ⟨a, b, hab, h1⟩
        · exact .inl h1
      · rintro (h1 | ⟨a, b, hab, h1⟩)
        · exact .inr h1
        · exact .inl (.inr ⟨a, b, ⟨hself a b hab, hab⟩, h1⟩)
    have h0 : 0 ≤ f i j := by
      rcases (hf i j).1 with h1 | ⟨a, b, -, -, -, h1⟩
      · rw [h1]; split_ifs <;> simp [OCCUPIED]
      · rw [h1]; exact bell_nonneg _ _ _
    rw [← heq]
    refine ⟨.inl (hf i j).1, ?_⟩
    rintro v (hv | hv)
    · exact (hf i j).2 hv
    · rw [Set.mem_singleton_iff.1 hv]; exact h0
  · rintro done p s hp ⟨f, ht, hf⟩
    rw [mem_scan] at hp
    have h100 : f p.1 p.2 = OCCUPIED ↔ occ p.1 p.2 := by
      constructor
      · intro he
        rcases (hf p.1 p.2).1 with h1 | ⟨a, b, hab, -, -, h1⟩
        · by_contra hn
          rw [if_neg hn, he] at h1
          simp [OCCUPIED] at h1
        · by_cases hd : (p.1 : ℤ) - a = 0 ∧ (p.2 : ℤ) - b = 0
          · have e1 : p.1 = a := by omega
            have e2 : p.2 = b := by omega
            rw [e1, e2]
            exact hab.2
          · have := bell_lt hσ hs hd
            rw [← h1, he] at this
            simp [OCCUPIED] at this
      · intro ho
        apply le_antisymm
        · rcases (hf p.1 p.2).1 with h1 | ⟨a, b, -, -, -, h1⟩
          · rw [h1]; split_ifs; exact le_rfl
          · rw [h1]; exact bell_le _ _ _
        · apply (hf p.1 p.2).2
          left
          rw [if_pos ho]
    unfold Table.smooth
    rw [ht.at? (by omega) (by omega)]
    simp only [Res.bind_ok]
    by_cases ho : occ p.1 p.2
    · rw [if_pos (h100.2 ho)]
      obtain ⟨o1, o2, o3, o4⟩ := hocc _ _ ho
      obtain ⟨l', e, ht'⟩ := applyKernel_ok hk ht o1 o2 o3 o4
      refine ⟨l', e, _, ht', fun i j => ?_⟩
      have hset : Offers step std (if occ i j then OCCUPIED else 0) (fun a b => (a, b) ∈ done ++ [p] ∧ occ a b) i j =
          Offers step std (if occ i j then OCCUPIED else 0) (fun a b => (a, b) ∈ done ∧ occ a b) i j ∪
          {v | |(i : ℤ) - p.1| ≤ reach step std ∧ |(j : ℤ) - p.2| ≤ reach step std ∧
            v = bell (sigma step std) (i - p.1) (j - p.2)} := by
        ext v
        simp only [Offers, Set.mem_union, Set.mem_ofPred_eq, List.mem_append, List.mem_singleton]
        constructor
        · rintro (h1 | ⟨a, b, ⟨h1 | h1, hab⟩, h2⟩)
          · exact .inl (.inl h1)
          · exact .inl (.inr ⟨a, b, ⟨h1, hab⟩, h2⟩)
          · subst h1; exact .inr h2
        · rintro ((h1 | ⟨a, b, ⟨h1, hab⟩, h2⟩) | h2)
          · exact .inl h1
          · exact .inr ⟨a, b, ⟨.inl h1, hab⟩, h2⟩
          · exact .inr ⟨p.1, p.2, ⟨.inr rfl, ho⟩, h2⟩
      rw [hset]
      by_cases hn : |(i : ℤ) - p.1| ≤ reach step std ∧ |(j : ℤ) - p.2| ≤ reach step std
      · rw [if_pos hn]
        constructor
        · rcases max_choice (f i j) (bell (sigma step std) (i - p.1) (j - p.2)) with h1 | h1
          · rw [h1]; exact .inl (hf i j).1
          · rw [h1]; exact .inr ⟨hn.1, hn.2, rfl⟩
        · rintro v (hv | hv)
          · exact le_max_of_le_left ((hf i j).2 hv)
          · rw [hv.2.2]; exact le_max_right _ _
      · rw [if_neg hn]
        constructor
        · exact .inl (hf i j).1
        · rintro v (hv | hv)
          · exact (hf i j).2 hv
          · exact absurd ⟨hv.1, hv.2.1⟩ hn
    · rw [if_neg fun h => ho (h100.1 h)]
      refine ⟨s, rfl, f, ht, fun i j => ?_⟩
      have hset : Offers step std (if occ i j then OCCUPIED else 0) (fun a b => (a, b) ∈ done ++ [p] ∧ occ a b) i j =
          Offers step std (if occ i j then OCCUPIED else 0) (fun a b => (a, b) ∈ done ∧ occ a b) i j := by
        ext v
        simp only [Offers, Set.mem_ofPred_eq, List.mem_append, List.mem_singleton]
        constructor
        · rintro (h1 | ⟨a, b, ⟨h1 | h1, hab⟩, h2⟩)
          · exact .inl h1
          · exact .inr ⟨a, b, ⟨h1, hab⟩, h2⟩
          · subst h1; exact absurd hab ho
        · rintro (h1 | ⟨a, b, ⟨h1, hab⟩, h2⟩)
          · exact .inl h1
          · exact .inr ⟨a, b, ⟨.inl h1, hab⟩, h2⟩
      rw [hset]
      exact hf i j
  · refine ⟨_, h, fun i j => ⟨.inl rfl, ?_⟩⟩
    rintro v (h1 | ⟨a, b, ⟨h1, -⟩, -⟩)
    · exact h1.le
    · simp at h1

end Verif.Corr
