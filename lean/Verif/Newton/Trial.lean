import Verif.Newton.Model
import Mathlib.Analysis.Calculus.Deriv.Pow
import Mathlib.Analysis.Calculus.Deriv.Add
import Mathlib.Analysis.Calculus.Deriv.Mul
import Mathlib.Analysis.Calculus.LocalExtr.Basic
import Mathlib.Analysis.Calculus.Deriv.MeanValue
import Mathlib.Topology.Order.Compact
import Mathlib.Tactic.LinearCombination
import Mathlib.Tactic.FieldSimp

/-
Specification and lemmas for the interpolation and the interval of the line search.
-/
namespace Verif.Newton

/-! ### Specification -/

/-- `q` is a polynomial of degree at most three. -/
def Cubic (q : ℝ → ℝ) : Prop := ∃ c0 c1 c2 c3 : ℝ, ∀ x, q x = c0 + c1 * x + c2 * x ^ 2 + c3 * x ^ 3

/-- `q` is a polynomial of degree at most two. -/
def Quadratic (q : ℝ → ℝ) : Prop := ∃ c0 c1 c2 : ℝ, ∀ x, q x = c0 + c1 * x + c2 * x ^ 2

/-- At `a` the function has the value `f` and the slope `g`. -/
def Meets (q : ℝ → ℝ) (a f g : ℝ) : Prop := q a = f ∧ HasDerivAt q g a

/-- An interval of numbers. -/
def numbers (al fl gl au fu gu : ℝ) : Interval := ⟨.fin al, .fin fl, .fin gl, .fin au, .fin fu, .fin gu⟩

/-- The value at the better end is not larger, and from there the function falls towards the other end. -/
def Bracket (i : Interval) : Prop :=
  ∃ al fl gl au fu gu : ℝ, i = numbers al fl gl au fu gu ∧ fl ≤ fu ∧ gl * (au - al) < 0

/-- `x` is strictly between `a` and `b`, in either order. -/
def Between (a b x : ℝ) : Prop := (a < x ∧ x < b) ∨ (b < x ∧ x < a)

/-! ### Polynomials -/

theorem cubic_deriv {q : ℝ → ℝ} {c0 c1 c2 c3 : ℝ} (h : ∀ x, q x = c0 + c1 * x + c2 * x ^ 2 + c3 * x ^ 3) (x : ℝ) :
    HasDerivAt q (c1 + 2 * c2 * x + 3 * c3 * x ^ 2) x := by
  have hq : q = fun x => c0 + c1 * x + c2 * x ^ 2 + c3 * x ^ 3 := funext h
  rw [hq]
  have h1 : HasDerivAt (fun x : ℝ => c0 + c1 * x) c1 x := by
    simpa using ((hasDerivAt_id x).const_mul c1).const_add c0
  have h2 : HasDerivAt (fun x : ℝ => c2 * x ^ 2) (c2 * (2 * x)) x := by
    simpa using (hasDerivAt_pow 2 x).const_mul c2
  have h3 : HasDerivAt (fun x : ℝ => c3 * x ^ 3) (c3 * (3 * x ^ 2)) x := by
    simpa using (hasDerivAt_pow 3 x).const_mul c3
  exact ((h1.add h2).add h3).congr_deriv (by ring)

theorem cubic_deriv2 {q : ℝ → ℝ} {c0 c1 c2 c3 : ℝ} (h : ∀ x, q x = c0 + c1 * x + c2 * x ^ 2 + c3 * x ^ 3) (x : ℝ) :
    deriv (deriv q) x = 2 * c2 + 6 * c3 * x := by
  have hd : deriv q = fun x => c1 + (2 * c2) * x + (3 * c3) * x ^ 2 + 0 * x ^ 3 := by
    funext x
    rw [(cubic_deriv h x).deriv]
    ring
  rw [hd, (cubic_deriv (q := fun x => c1 + (2 * c2) * x + (3 * c3) * x ^ 2 + 0 * x ^ 3) (fun x => rfl) x).deriv]
  ring

/-- The cubic of the interpolation exists. -/
theorem exists_cubic (a f g t ft gt : ℝ) (h : a ≠ t) : ∃ q, Cubic q ∧ Meets q a f g ∧ Meets q t ft gt := by
  set m := t - a with hm
  have hm0 : m ≠ 0 := sub_ne_zero.2 h.symm
  set B := 3 * (ft - f) / m ^ 2 - (2 * g + gt) / m with hB
  set C := (g + gt) / m ^ 2 - 2 * (ft - f) / m ^ 3 with hC
  refine ⟨fun x => (f - g * a + B * a ^ 2 - C * a ^ 3) + (g - 2 * B * a + 3 * C * a ^ 2) * x +
    (B - 3 * C * a) * x ^ 2 + C * x ^ 3, ⟨_, _, _, _, fun x => rfl⟩, ⟨by ring, ?_⟩, ?_, ?_⟩
  · exact (cubic_deriv (fun x => rfl) a).congr_deriv (by ring)
  · have ht : t = a + m := by rw [hm]; ring
    have : B * m ^ 2 + C * m ^ 3 = ft - f - g * m := by rw [hB, hC]; field_simp; ring
    rw [ht]
    linear_combination this
  · refine (cubic_deriv (fun x => rfl) t).congr_deriv ?_
    have ht : t = a + m := by rw [hm]; ring
    have : 2 * B * m + 3 * C * m ^ 2 = gt - g := by rw [hB, hC]; field_simp; ring
    rw [ht]
    linear_combination this

/-! ### The cubic step -/

/-- What the formula computes. -/
theorem cubic_eq {a f g t ft gt c : ℝ} (h0 : t - a ≠ 0)
    (h : cubic (.fin a) (.fin f) (.fin g) (.fin t) (.fin ft) (.fin gt) = .fin c) :
    ∃ z w, z = 3 * (ft - f) / (t - a) - gt - g ∧ 0 ≤ w ∧ w ^ 2 = z ^ 2 - gt * g ∧ gt - g + 2 * w ≠ 0 ∧
      c = a + (t - a) * (w - g - z) / (gt - g + 2 * w) := by
  unfold cubic at h
  simp only [Fp.fin_sub, Fp.fin_mul] at h
  rw [Fp.fin_div h0] at h
  simp only [Fp.fin_sub, Fp.fin_mul] at h
  set z := 3 * (ft - f) / (t - a) - gt - g with hz
  by_cases hd : z * z - gt * g < 0
  · exfalso
    have : Fp.sqrt (.fin (z * z - gt * g)) = .nan := by simp only [Fp.sqrt]; rw [if_pos hd]
    simp only [this, Fp.nan_sub, Fp.mul_nan, Fp.nan_div, Fp.add_nan] at h
    cases h
  · rw [Fp.fin_sqrt (not_lt.1 hd)] at h
    simp only [Fp.fin_sub, Fp.fin_mul, Fp.fin_add] at h
    set w := Real.sqrt (z * z - gt * g) with hw
    by_cases hden : gt - g + 2 * w = 0
    · exfalso
      rw [hden] at h
      have hq : Fp.fin ((t - a) * (w - g - z)) / Fp.fin 0 = .nan ∨
          ∃ s, Fp.fin ((t - a) * (w - g - z)) / Fp.fin 0 = .inf s := by
        show Fp.div _ _ = _ ∨ ∃ s, Fp.div _ _ = _
        simp only [Fp.div, if_true]
        split_ifs
        · exact .inl rfl
        · exact .inr ⟨_, rfl⟩
      rcases hq with hq | ⟨s, hq⟩
      · rw [hq, Fp.add_nan] at h; cases h
      · rw [hq] at h
        have : Fp.fin a + Fp.inf s = .inf s := rfl
        rw [this] at h; cases h
    · rw [Fp.fin_div hden, Fp.fin_add] at h
      refine ⟨z, w, rfl, Real.sqrt_nonneg _, ?_, hden, (Fp.fin.inj h).symm⟩
      rw [hw, Real.sq_sqrt (not_lt.1 hd)]
      ring

/-- The cubic step is a stationary point of the cubic; the sign of the curvature there is that of `t - a`. -/
theorem cubic_stationary {a f g t ft gt c : ℝ} (h0 : t - a ≠ 0)
    (h : cubic (.fin a) (.fin f) (.fin g) (.fin t) (.fin ft) (.fin gt) = .fin c) {q : ℝ → ℝ} (hq : Cubic q)
    (h1 : Meets q a f g) (h2 : Meets q t ft gt) :
    HasDerivAt q 0 c ∧ ∃ w, 0 ≤ w ∧ deriv (deriv q) c * (t - a) = 2 * w := by
  obtain ⟨z, w, hz, hw0, hw, hden, rfl⟩ := cubic_eq h0 h
  obtain ⟨c0, c1, c2, c3, hp⟩ := hq
  have eg : g = c1 + 2 * c2 * a + 3 * c3 * a ^ 2 := h1.2.unique (cubic_deriv hp a)
  have egt : gt = c1 + 2 * c2 * t + 3 * c3 * t ^ 2 := h2.2.unique (cubic_deriv hp t)
  have ef : ft - f = (t - a) * (c1 + c2 * (t + a) + c3 * (t ^ 2 + t * a + a ^ 2)) := by
    rw [← h1.1, ← h2.1, hp, hp]; ring
  have ez : z = c1 + c2 * (a + t) + 3 * c3 * (a * t) := by
    rw [hz, ef, egt, eg]
    field_simp
    ring
  set τ := (w - g - z) / (gt - g + 2 * w) with hτ
  have hτd : τ * (gt - g + 2 * w) = w - g - z := div_mul_cancel₀ _ hden
  have hc : a + (t - a) * (w - g - z) / (gt - g + 2 * w) = a + (t - a) * τ := by rw [hτ]; ring
  rw [hc]
  have k1 : ((g + gt - 2 * z) * τ ^ 2 + 2 * (z - g) * τ + g) * (gt - g + 2 * w) ^ 2 = 0 := by
    have : ((g + gt - 2 * z) * τ ^ 2 + 2 * (z - g) * τ + g) * (gt - g + 2 * w) ^ 2 =
        (g + gt - 2 * z) * (τ * (gt - g + 2 * w)) ^ 2 + 2 * (z - g) * (τ * (gt - g + 2 * w)) * (gt - g + 2 * w) +
          g * (gt - g + 2 * w) ^ 2 := by ring
    rw [this, hτd]
    linear_combination (gt + g + 2 * z) * hw
  have k1' := (mul_eq_zero.1 k1).resolve_right (pow_ne_zero 2 hden)
  have k2 : (2 * (g + gt - 2 * z) * τ + 2 * (z - g) - 2 * w) * (gt - g + 2 * w) = 0 := by
    have : (2 * (g + gt - 2 * z) * τ + 2 * (z - g) - 2 * w) * (gt - g + 2 * w) =
        2 * (g + gt - 2 * z) * (τ * (gt - g + 2 * w)) + (2 * (z - g) - 2 * w) * (gt - g + 2 * w) := by ring
    rw [this, hτd]
    linear_combination (-4) * hw
  have k2' := (mul_eq_zero.1 k2).resolve_right hden
  refine ⟨(cubic_deriv hp _).congr_deriv ?_, w, hw0, ?_⟩
  · rw [← k1', ez, egt, eg]
    ring
  · rw [cubic_deriv2 hp]
    rw [ez, egt, eg] at k2'
    linear_combination k2'

end Verif.Newton
