import Verif.Round.CellStats
import Verif.Round.Binary
import Verif.Cell.Lemmas

/- Rounding of mean and covariance: lemmas (C148). -/
namespace Verif.Round

open Verif Verif.NDT Matrix

/-! ### Errors of single operations -/

section
variable {F : Fmt ℝ} {v ε : ℝ} (h0 : 0 ≤ v) (hε : v ≤ ε) (hd : ∀ x, |F.d x - x| ≤ v * |x|)

include h0 hε hd

/-- Rounding of a number with error `e` whose exact value is at most `B`. -/
theorem round_err {x y e B : ℝ} (h : |x - y| ≤ e) (hB : |y| ≤ B) : |F.d x - y| ≤ e + ε * (B + e) := by
  have a := hd x
  have b := abs_add_le (F.d x - x) (x - y)
  rw [sub_add_sub_cancel] at b
  have c := abs_add_le (x - y) y
  rw [sub_add_cancel] at c
  have d : v * |x| ≤ ε * (B + e) :=
    mul_le_mul hε (by linarith) (abs_nonneg _) (h0.trans hε)
  linarith

theorem mul_err {a a' b b' p q A B c : ℝ} (hp : 0 ≤ p) (ha : |a - a'| ≤ p * ε * A)
    (hb : |b - b'| ≤ q * ε * B) (hA : |a'| ≤ A) (hB : |b'| ≤ B)
    (hc : p + q + p * q * ε + 1 + (p + q + p * q * ε) * ε ≤ c) :
    |F.d (a * b) - a' * b'| ≤ c * ε * (A * B) := by
  have A0 : 0 ≤ A := (abs_nonneg _).trans hA
  have B0 : 0 ≤ B := (abs_nonneg _).trans hB
  have ε0 : 0 ≤ ε := h0.trans hε
  have e1 : |a * b - a' * b'| ≤ (p + q + p * q * ε) * ε * (A * B) := by
    rw [show a * b - a' * b' = (a - a') * b' + a' * (b - b') + (a - a') * (b - b') by ring]
    have l1 := abs_add_le ((a - a') * b' + a' * (b - b')) ((a - a') * (b - b'))
    have l2 := abs_add_le ((a - a') * b') (a' * (b - b'))
    rw [abs_mul] at l1
    rw [abs_mul, abs_mul] at l2
    have k1 := mul_le_mul ha hB (abs_nonneg _) (by positivity)
    have k2 := mul_le_mul hA hb (abs_nonneg _) A0
    have k3 := mul_le_mul ha hb (abs_nonneg _) (by positivity)
    linarith
  have e2 : |a' * b'| ≤ A * B := by rw [abs_mul]; exact mul_le_mul hA hB (abs_nonneg _) A0
  have e3 := round_err h0 hε hd e1 e2
  have e4 := mul_le_mul_of_nonneg_right hc (by positivity : 0 ≤ ε * (A * B))
  linarith

theorem add_err {a a' b b' p q k S c : ℝ} (ha : |a - a'| ≤ p * ε * S) (hb : |b - b'| ≤ q * ε * S)
    (hk : |a' + b'| ≤ k * S) (hS : 0 ≤ S) (hc : p + q + k + (p + q) * ε ≤ c) :
    |F.d (a + b) - (a' + b')| ≤ c * ε * S := by
  have ε0 : 0 ≤ ε := h0.trans hε
  have e1 : |a + b - (a' + b')| ≤ (p + q) * ε * S := by
    rw [show a + b - (a' + b') = a - a' + (b - b') by ring]
    linarith [abs_add_le (a - a') (b - b')]
  have e3 := round_err h0 hε hd e1 hk
  have e4 := mul_le_mul_of_nonneg_right hc (by positivity : 0 ≤ ε * S)
  linarith

theorem sub_err {a a' b b' p q k S c : ℝ} (ha : |a - a'| ≤ p * ε * S) (hb : |b - b'| ≤ q * ε * S)
    (hk : |a' - b'| ≤ k * S) (hS : 0 ≤ S) (hc : p + q + k + (p + q) * ε ≤ c) :
    |F.d (a - b) - (a' - b')| ≤ c * ε * S := by
  have hb' : |-b - -b'| ≤ q * ε * S := by
    rw [neg_sub_neg, abs_sub_comm]
    exact hb
  rw [sub_eq_add_neg] at hk
  have := add_err h0 hε hd ha hb' hk hS hc
  rwa [← sub_eq_add_neg, ← sub_eq_add_neg] at this

theorem div_err {a a' p k S n c : ℝ} (hn : 0 < n) (ha : |a - a'| ≤ p * ε * S) (hk : |a'| ≤ k * S)
    (hS : 0 ≤ S) (hc : p + k + p * ε ≤ c) : |F.d (a / n) - a' / n| ≤ c * ε * (S / n) := by
  have ε0 : 0 ≤ ε := h0.trans hε
  have e1 : |a / n - a' / n| ≤ p * ε * (S / n) := by
    rw [← sub_div, abs_div, abs_of_pos hn, mul_div_assoc']
    exact div_le_div_of_nonneg_right ha hn.le
  have e2 : |a' / n| ≤ k * (S / n) := by
    rw [abs_div, abs_of_pos hn, mul_div_assoc']
    exact div_le_div_of_nonneg_right hk hn.le
  have e3 := round_err h0 hε hd e1 e2
  have e4 := mul_le_mul_of_nonneg_right hc (by positivity : 0 ≤ ε * (S / n))
  linarith

end

/-! ### Sums -/

theorem sum_bound {l : List ℝ} {B : ℝ} (h : ∀ x ∈ l, |x| ≤ B) : |l.sum| ≤ l.length * B := by
  induction l with
  | nil => simp
  | cons a l ih =>
    rw [List.sum_cons, List.length_cons]
    push_cast
    have := abs_add_le a l.sum
    have := ih fun x hx => h x (List.mem_cons_of_mem _ hx)
    have := h a (List.mem_cons_self ..)
    linarith

/-- An accumulated sum of terms that are themselves rounded. -/
theorem sumD_err {F : Fmt ℝ} {v : ℝ} (h0 : 0 ≤ v) (hd : ∀ x, |F.d x - x| ≤ v * |x|) {a B : ℝ} (ha : |a| ≤ B)
    (l : List (ℝ × ℝ)) (hl : ∀ x ∈ l, |x.1 - x.2| ≤ v * B ∧ |x.2| ≤ B) (hn : v * l.length ≤ 1) :
    |sumD F a (l.map Prod.fst) - (a + (l.map Prod.snd).sum)| ≤ 4 * v * l.length ^ 2 * B := by
  have B0 : 0 ≤ B := (abs_nonneg _).trans ha
  induction l using List.reverseRecOn with
  | nil => simp [sumD]
  | append_singleton l x ih =>
    have hlen : ((l ++ [x]).length : ℝ) = l.length + 1 := by simp
    rw [hlen] at hn ⊢
    have n0 : (0 : ℝ) ≤ l.length := Nat.cast_nonneg _
    have ih := ih (fun y hy => hl y (by simp [hy])) (by nlinarith)
    obtain ⟨h1, h2⟩ := hl x (by simp)
    have hs : |(l.map Prod.snd).sum| ≤ l.length * B := by
      have := sum_bound (l := l.map Prod.snd) (B := B) (by
        intro y hy
        obtain ⟨z, hz, rfl⟩ := List.mem_map.1 hy
        exact (hl z (by simp [hz])).2)
      simpa using this
    have e : sumD F a ((l ++ [x]).map Prod.fst) = F.d (sumD F a (l.map Prod.fst) + x.1) := by
      unfold sumD
      rw [List.map_append, List.foldl_append]
      rfl
    rw [e, List.map_append, List.sum_append]
    simp only [List.map_cons, List.map_nil, List.sum_cons, List.sum_nil, add_zero]
    set s := (l.map Prod.snd).sum
    set t := sumD F a (l.map Prod.fst)
    set n : ℝ := (l.length : ℝ) with hnn
    have f1 : |t + x.1 - (a + (s + x.2))| ≤ 4 * v * n ^ 2 * B + v * B := by
      rw [show t + x.1 - (a + (s + x.2)) = t - (a + s) + (x.1 - x.2) by ring]
      linarith [abs_add_le (t - (a + s)) (x.1 - x.2)]
    have f2 : |a + (s + x.2)| ≤ (n + 2) * B := by
      linarith [abs_add_le a (s + x.2), abs_add_le s x.2]
    have f3 := round_err h0 le_rfl hd f1 f2
    refine f3.trans ?_
    have v1 : v ≤ 1 := by nlinarith
    have g1 : v * (4 * v * n ^ 2 * B) ≤ 4 * v * n * B := by
      have : v * n ≤ 1 := by nlinarith
      have h3 : (v * n) * (4 * (v * n) * B) ≤ 1 * (4 * (v * n) * B) :=
        mul_le_mul_of_nonneg_right this (by positivity)
      linarith
    have g2 : v * (v * B) ≤ v * B := by
      have := mul_le_mul_of_nonneg_right v1 (by positivity : 0 ≤ v * B)
      linarith
    have g3 : 0 ≤ v * n * B := by positivity
    nlinarith

/-! ### Definiteness -/

/-- A matrix entrywise close to one that is bounded below is bounded below. -/
theorem quad_close {C V : Mat} {e lam : ℝ} (h : ∀ i j, |C i j - V i j| ≤ e)
    (hV : ∀ x : Vec, lam * (x ⬝ᵥ x) ≤ x ⬝ᵥ V.mulVec x) (x : Vec) :
    (lam - 3 * e) * (x ⬝ᵥ x) ≤ x ⬝ᵥ C.mulVec x := by
  have hx := hV x
  have key : |x ⬝ᵥ C.mulVec x - x ⬝ᵥ V.mulVec x| ≤ 3 * e * (x ⬝ᵥ x) := by
    have e1 : x ⬝ᵥ C.mulVec x - x ⬝ᵥ V.mulVec x = ∑ i, ∑ j, x i * x j * (C i j - V i j) := by
      simp only [dotProduct, mulVec, Fin.sum_univ_three]
      ring
    rw [e1]
    refine (Finset.abs_sum_le_sum_abs _ _).trans ?_
    have e2 : ∀ i, |∑ j, x i * x j * (C i j - V i j)| ≤ ∑ j, |x i| * |x j| * e := by
      intro i
      refine (Finset.abs_sum_le_sum_abs _ _).trans (Finset.sum_le_sum fun j _ => ?_)
      rw [abs_mul, abs_mul]
      exact mul_le_mul_of_nonneg_left (h i j) (by positivity)
    refine (Finset.sum_le_sum fun i _ => e2 i).trans ?_
    have e0 : 0 ≤ e := (abs_nonneg _).trans (h 0 0)
    simp only [dotProduct, Fin.sum_univ_three]
    have s0 := abs_mul_abs_self (x 0)
    have s1 := abs_mul_abs_self (x 1)
    have s2 := abs_mul_abs_self (x 2)
    rw [← s0, ← s1, ← s2]
    have q1 := mul_nonneg e0 (sq_nonneg (|x 0| - |x 1|))
    have q2 := mul_nonneg e0 (sq_nonneg (|x 0| - |x 2|))
    have q3 := mul_nonneg e0 (sq_nonneg (|x 1| - |x 2|))
    nlinarith
  have := (abs_le.1 key).1
  linarith

theorem posDef_close {C V : Mat} {e lam : ℝ} (hC : C.transpose = C) (h : ∀ i j, |C i j - V i j| ≤ e)
    (hV : ∀ x : Vec, lam * (x ⬝ᵥ x) ≤ x ⬝ᵥ V.mulVec x) (he : 3 * e < lam) : C.PosDef := by
  refine Matrix.PosDef.of_dotProduct_mulVec_pos ?_ ?_
  · rw [Matrix.IsHermitian, Matrix.conjTranspose_eq_transpose_of_trivial]; exact hC
  · intro x hx
    have h1 := quad_close h hV x
    have h2 : 0 < x ⬝ᵥ x := by
      rcases (dotProduct_self_eq_zero (v := x)).not.2 hx |> fun h => lt_or_gt_of_ne h with h | h
      · exact absurd h (not_lt.2 (by simp only [dotProduct]; exact Finset.sum_nonneg fun i _ => mul_self_nonneg _))
      · exact h
    rw [star_trivial]
    exact (mul_pos (by linarith) h2).trans_le h1

theorem lower_symm (c : Mat) : (lower c).transpose = lower c := by
  ext i j
  simp [lower, max_comm, min_comm]

theorem lower_close {C V : Mat} {e : ℝ} (hV : V.transpose = V) (h : ∀ i j, |C i j - V i j| ≤ e) (i j : Fin 3) :
    |lower C i j - V i j| ≤ e := by
  simp only [lower, Matrix.of_apply]
  rcases le_total i j with hij | hij
  · rw [max_eq_right hij, min_eq_left hij]
    have : V i j = V j i := congrFun (congrFun hV j) i
    rw [this]; exact h j i
  · rw [max_eq_left hij, min_eq_right hij]; exact h i j

end Verif.Round
