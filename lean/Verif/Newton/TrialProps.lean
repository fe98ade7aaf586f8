import Verif.Newton.Trial

/-
Property theorems of the interpolation and the interval of the line search: C137, C138.
-/
namespace Verif.Newton

/-! ### C137: interpolation -/

/-- `c` is a stationary point, and no maximum, of the cubic with these values and slopes. -/
def CubicStep (a f g t ft gt c : ℝ) : Prop :=
  ∀ q, Cubic q → Meets q a f g → Meets q t ft gt → HasDerivAt q 0 c ∧ 0 ≤ deriv (deriv q) c

/-- **C137**, partial: the cubic step is a stationary point of the interpolating cubic, and no maximum, if the first
point is on the left.  Missing: the first point is on the right (`C137_maximum`). -/
theorem C137_cubic_partial {a f g t ft gt c : ℝ} (hat : a < t)
    (h : cubic (.fin a) (.fin f) (.fin g) (.fin t) (.fin ft) (.fin gt) = .fin c) : CubicStep a f g t ft gt c := by
  intro q hq h1 h2
  obtain ⟨k1, w, hw, k2⟩ := cubic_stationary (sub_pos.2 hat).ne' h hq h1 h2
  refine ⟨k1, ?_⟩
  by_contra hn
  have := mul_neg_of_neg_of_pos (not_le.1 hn) (sub_pos.2 hat)
  linarith

/-- With the first point on the right it is no minimum: the wrong one of the two stationary points. -/
theorem C137_maximum {a f g t ft gt c : ℝ} (hat : t < a)
    (h : cubic (.fin a) (.fin f) (.fin g) (.fin t) (.fin ft) (.fin gt) = .fin c) {q : ℝ → ℝ} (hq : Cubic q)
    (h1 : Meets q a f g) (h2 : Meets q t ft gt) : HasDerivAt q 0 c ∧ deriv (deriv q) c ≤ 0 := by
  obtain ⟨k1, w, hw, k2⟩ := cubic_stationary (sub_neg.2 hat).ne h hq h1 h2
  refine ⟨k1, ?_⟩
  by_contra hn
  have := mul_neg_of_pos_of_neg (not_le.1 hn) (sub_neg.2 hat)
  linarith

/-- The cubic step lies between the points, where the slopes make a minimum between them certain. -/
theorem cubic_between {a f g t ft gt : ℝ} (hat : a < t) (hg : g < 0) (h : f < ft ∨ 0 < gt) :
    ∃ c, cubic (.fin a) (.fin f) (.fin g) (.fin t) (.fin ft) (.fin gt) = .fin c ∧ a < c ∧ c < t := by
  have hh : 0 < t - a := sub_pos.2 hat
  unfold cubic
  simp only [Fp.fin_sub, Fp.fin_mul]
  rw [Fp.fin_div hh.ne']
  simp only [Fp.fin_sub, Fp.fin_mul]
  obtain ⟨D, hD⟩ : ∃ D, D = (ft - f) / (t - a) := ⟨_, rfl⟩
  have hD3 : 3 * (ft - f) / (t - a) = 3 * D := by rw [hD]; ring
  rw [hD3]
  have hpos : f < ft → 0 < D := fun h => by rw [hD]; exact div_pos (by linarith) hh
  obtain ⟨z, hz⟩ : ∃ z, z = 3 * D - gt - g := ⟨_, rfl⟩
  rw [← hz]
  have hdisc : 0 ≤ z * z - gt * g := by
    by_cases hgt : 0 ≤ gt
    · nlinarith [mul_self_nonneg z, mul_nonneg hgt (neg_nonneg.2 hg.le)]
    · have hD0 := hpos (h.resolve_right fun h => hgt h.le)
      have h1 : -gt - g < z := by linarith
      have h2 := mul_self_lt_mul_self (by linarith [not_le.1 hgt] : 0 ≤ -gt - g) h1
      nlinarith [mul_pos_of_neg_of_neg (not_le.1 hgt) hg]
  rw [Fp.fin_sqrt hdisc]
  obtain ⟨w, hw⟩ : ∃ w, w = Real.sqrt (z * z - gt * g) := ⟨_, rfl⟩
  rw [← hw]
  have hw0 : 0 ≤ w := by rw [hw]; exact Real.sqrt_nonneg _
  have hw2 : w * w = z * z - gt * g := by rw [hw]; exact Real.mul_self_sqrt hdisc
  have n1 : 0 < w - g - z := by
    by_contra hn
    have h1 : w ≤ g + z := by linarith
    have h2 := mul_self_le_mul_self hw0 h1
    have h3 : -g * gt ≤ g * (g + 2 * z) := by nlinarith
    have h4 : g + 2 * z + gt ≤ 0 := by nlinarith
    rcases h with h | h
    · have := hpos h
      by_cases h5 : gt ≤ g
      · nlinarith
      · nlinarith
    · nlinarith
  have n2 : 0 < w + gt + z := by
    rcases h with h | h
    · have := hpos h
      linarith
    · by_contra hn
      have h1 : w ≤ -z := by linarith
      have h2 := mul_self_le_mul_self hw0 h1
      nlinarith
  have hden : 0 < gt - g + 2 * w := by linarith
  simp only [Fp.fin_sub, Fp.fin_mul, Fp.fin_add]
  rw [Fp.fin_div hden.ne', Fp.fin_add]
  refine ⟨_, rfl, ?_, ?_⟩
  · have : 0 < (t - a) * (w - g - z) / (gt - g + 2 * w) := by positivity
    linarith
  · have : (t - a) * (w - g - z) / (gt - g + 2 * w) < t - a := by
      rw [div_lt_iff₀ hden]
      exact mul_lt_mul_of_pos_left (by linarith) hh
    linarith

/-- **C137**, partial: if the value has grown, the trial value lies between the two points; it is the minimum of the
interpolating cubic or half way to the minimum of the interpolating parabola, whichever is nearer.
Missing: trial point on the left of the better end (`C137_false_first`). -/
theorem C137_first_partial {al fl gl au fu gu t ft gt : ℝ} (hat : al < t) (hf : fl < ft) (hg : gl < 0) :
    ∃ c ac aq, trialValue (numbers al fl gl au fu gu) (.fin t) (.fin ft) (.fin gt) = .fin c ∧ al < c ∧ c < t ∧
      CubicStep al fl gl t ft gt ac ∧
      (∀ q, Quadratic q → Meets q al fl gl → q t = ft → HasDerivAt q 0 aq) ∧
      c = if |ac - al| < |aq - al| then ac else (aq + ac) / 2 := by
  have hh : 0 < t - al := sub_pos.2 hat
  obtain ⟨ac, hc, c1, c2⟩ := cubic_between (f := fl) (ft := ft) (gt := gt) hat hg (.inl hf)
  have hD : (fl - ft) / (al - t) = (ft - fl) / (t - al) := by
    rw [← neg_div_neg_eq]; ring
  have hD0 : 0 < (ft - fl) / (t - al) := div_pos (by linarith) hh
  obtain ⟨D, hDd⟩ : ∃ D, D = (ft - fl) / (t - al) := ⟨_, rfl⟩
  rw [← hDd] at hD0 hD
  have hne : gl - D ≠ 0 := by linarith
  obtain ⟨aq, haq⟩ : ∃ aq, aq = al - 0.5 * (al - t) * gl / (gl - D) := ⟨_, rfl⟩
  have q1 : al < aq ∧ aq < t := by
    have e : aq = al + (t - al) / 2 * (-gl / (D - gl)) := by
      rw [haq]
      have : D - gl ≠ 0 := by linarith
      field_simp
      ring
    have h1 : 0 < -gl / (D - gl) := div_pos (by linarith) (by linarith)
    have h2 : -gl / (D - gl) < 1 := by rw [div_lt_one (by linarith)]; linarith
    constructor <;> nlinarith
  refine ⟨if |ac - al| < |aq - al| then ac else (aq + ac) / 2, ac, aq, ?_, ?_, ?_, C137_cubic_partial hat hc, ?_, rfl⟩
  · unfold trialValue numbers
    simp only [hc]
    rw [if_pos ((Fp.fin_lt _ _).2 hf)]
    simp only [Fp.fin_sub, Fp.fin_mul]
    rw [Fp.fin_div (by linarith), hD]
    simp only [Fp.fin_sub]
    rw [Fp.fin_div hne]
    simp only [Fp.fin_sub, ← haq, Fp.fin_abs, Fp.fin_lt, Fp.fin_add, Fp.fin_mul]
    split_ifs
    · rfl
    · congr 1; ring
  · split_ifs <;> linarith
  · split_ifs <;> linarith
  · rintro q ⟨c0, c1', c2', hq⟩ ⟨m1, m2⟩ m3
    have hq3 : ∀ x, q x = c0 + c1' * x + c2' * x ^ 2 + 0 * x ^ 3 := fun x => by rw [hq]; ring
    refine (cubic_deriv hq3 aq).congr_deriv ?_
    have eg : gl = c1' + 2 * c2' * al + 3 * 0 * al ^ 2 := m2.unique (cubic_deriv hq3 al)
    have ef : D = c1' + c2' * (t + al) := by
      rw [hDd, ← m1, ← m3, hq, hq]
      field_simp
      ring
    have hc2 : gl - D = -c2' * (t - al) := by rw [eg, ef]; ring
    have hc2' : c2' ≠ 0 := by
      rintro rfl
      exact hne (by rw [hc2]; ring)
    rw [haq, hc2, eg]
    field_simp
    ring

/-- **C137**, partial: if the value has not grown and the slopes have opposite signs, the trial value lies between the
two points; it is the minimum of the cubic or that of the parabola with these slopes, whichever is farther from the
trial point.  Missing: trial point on the left of the better end. -/
theorem C137_second_partial {al fl gl au fu gu t ft gt : ℝ} (hat : al < t) (hf : ft ≤ fl) (hg : gl < 0) (hgt : 0 < gt) :
    ∃ c ac as, trialValue (numbers al fl gl au fu gu) (.fin t) (.fin ft) (.fin gt) = .fin c ∧ al < c ∧ c < t ∧
      CubicStep al fl gl t ft gt ac ∧
      (∀ q, Quadratic q → HasDerivAt q gl al → HasDerivAt q gt t → HasDerivAt q 0 as) ∧
      c = if |as - t| ≤ |ac - t| then ac else as := by
  have hh : 0 < t - al := sub_pos.2 hat
  obtain ⟨ac, hc, c1, c2⟩ := cubic_between (f := fl) (ft := ft) (gt := gt) hat hg (.inr hgt)
  have hne : gl - gt ≠ 0 := by linarith
  obtain ⟨as, has⟩ : ∃ as, as = al - (al - t) / (gl - gt) * gl := ⟨_, rfl⟩
  have q1 : al < as ∧ as < t := by
    have e : as = al + (t - al) * (-gl / (gt - gl)) := by
      rw [has]
      have : gt - gl ≠ 0 := by linarith
      field_simp
      ring
    have h1 : 0 < -gl / (gt - gl) := div_pos (by linarith) (by linarith)
    have h2 : -gl / (gt - gl) < 1 := by rw [div_lt_one (by linarith)]; linarith
    constructor <;> nlinarith
  refine ⟨if |as - t| ≤ |ac - t| then ac else as, ac, as, ?_, ?_, ?_, C137_cubic_partial hat hc, ?_, rfl⟩
  · unfold trialValue numbers secant
    simp only [hc]
    rw [if_neg (fun h => absurd ((Fp.fin_lt _ _).1 h) (not_lt.2 hf)), Fp.fin_mul,
      if_pos ((Fp.fin_lt _ _).2 (mul_neg_of_pos_of_neg hgt hg))]
    simp only [Fp.fin_sub]
    rw [Fp.fin_div hne]
    simp only [Fp.fin_sub, Fp.fin_mul, ← has, Fp.fin_abs, Fp.fin_le]
    split_ifs <;> rfl
  · split_ifs <;> linarith
  · split_ifs <;> linarith
  · rintro q ⟨c0, c1', c2', hq⟩ m1 m2
    have hq3 : ∀ x, q x = c0 + c1' * x + c2' * x ^ 2 + 0 * x ^ 3 := fun x => by rw [hq]; ring
    refine (cubic_deriv hq3 as).congr_deriv ?_
    have e1 : gl = c1' + 2 * c2' * al + 3 * 0 * al ^ 2 := m1.unique (cubic_deriv hq3 al)
    have e2 : gt = c1' + 2 * c2' * t + 3 * 0 * t ^ 2 := m2.unique (cubic_deriv hq3 t)
    have hd : gl - gt = 2 * c2' * (al - t) := by rw [e1, e2]; ring
    have hc2' : c2' ≠ 0 := by
      rintro rfl
      exact hne (by rw [hd]; ring)
    have hal : al - t ≠ 0 := by linarith
    rw [has, hd, e1]
    field_simp
    ring

/-- **C137**, partial: if the value has not grown and the slope is of the same sign and not steeper, the trial value
goes at most two thirds of the way from the trial point to the other end.  Missing: that it lies beyond the trial point. -/
theorem C137_third_partial {al fl gl au fu gu t ft gt c : ℝ} (hat : al < t) (hf : ft ≤ fl) (hg : 0 ≤ gt * gl)
    (hs : |gt| ≤ |gl|) (h : trialValue (numbers al fl gl au fu gu) (.fin t) (.fin ft) (.fin gt) = .fin c) :
    c ≤ t + 0.66 * (au - t) := by
  unfold trialValue numbers at h
  simp only at h
  rw [if_neg (fun h => absurd ((Fp.fin_lt _ _).1 h) (not_lt.2 hf)), Fp.fin_mul,
    if_neg (fun h => absurd ((Fp.fin_lt _ _).1 h) (not_lt.2 hg)), Fp.fin_abs, Fp.fin_abs,
    if_pos ((Fp.fin_le _ _).2 hs), if_pos ((Fp.fin_lt _ _).2 hat), Fp.fin_sub, Fp.fin_mul, Fp.fin_add] at h
  obtain ⟨b, hb⟩ : ∃ b : Fp, Fp.min (.fin (t + 0.66 * (au - t))) b = .fin c := ⟨_, h⟩
  clear h
  replace h := hb
  unfold Fp.min at h
  split_ifs at h with h1
  · rw [h] at h1
    exact ((Fp.fin_lt _ _).1 h1).le
  · exact (Fp.fin.inj h).ge

/-- **C137**, partial: in this case the trial value is the minimum of the cubic or that of the parabola with these
slopes (which lies beyond the trial point), whichever is nearer, and the latter if the cubic has none; but at most two
thirds of the way to the other end.  Missing: that the former lies beyond the trial point. -/
theorem C137_third_rule_partial {al fl gl au fu gu t ft gt : ℝ} (hat : al ≠ t) (hf : ft ≤ fl) (hg : 0 ≤ gt * gl)
    (hs : |gt| < |gl|) :
    ∃ as, 0 ≤ (as - t) * (t - al) ∧ (∀ q, Quadratic q → HasDerivAt q gl al → HasDerivAt q gt t → HasDerivAt q 0 as) ∧
      (∀ ac, cubic (.fin al) (.fin fl) (.fin gl) (.fin t) (.fin ft) (.fin gt) = .fin ac →
        trialValue (numbers al fl gl au fu gu) (.fin t) (.fin ft) (.fin gt) =
          .fin (if al < t then min (t + 0.66 * (au - t)) (if |ac - t| < |as - t| then ac else as)
            else max (t + 0.66 * (au - t)) (if |ac - t| < |as - t| then ac else as))) ∧
      (cubic (.fin al) (.fin fl) (.fin gl) (.fin t) (.fin ft) (.fin gt) = .nan →
        trialValue (numbers al fl gl au fu gu) (.fin t) (.fin ft) (.fin gt) =
          .fin (if al < t then min (t + 0.66 * (au - t)) as else max (t + 0.66 * (au - t)) as)) := by
  have hne : gl - gt ≠ 0 := fun h => by
    rw [sub_eq_zero.1 h] at hs
    exact lt_irrefl _ hs
  have hal : al - t ≠ 0 := sub_ne_zero.2 hat
  obtain ⟨as, has⟩ : ∃ as, as = al - (al - t) / (gl - gt) * gl := ⟨_, rfl⟩
  have hsec : secant (numbers al fl gl au fu gu) (.fin t) (.fin gt) = .fin as := by
    unfold secant numbers
    simp only [Fp.fin_sub]
    rw [Fp.fin_div hne]
    simp only [Fp.fin_sub, Fp.fin_mul, ← has]
  have htv : trialValue (numbers al fl gl au fu gu) (.fin t) (.fin ft) (.fin gt) =
      (let next := if Fp.lt (Fp.abs (cubic (.fin al) (.fin fl) (.fin gl) (.fin t) (.fin ft) (.fin gt) - .fin t))
          (.fin |as - t|) then cubic (.fin al) (.fin fl) (.fin gl) (.fin t) (.fin ft) (.fin gt) else .fin as
        if al < t then Fp.min (.fin (t + 0.66 * (au - t))) next else Fp.max (.fin (t + 0.66 * (au - t))) next) := by
    unfold trialValue
    simp only [hsec]
    simp only [numbers, Fp.fin_lt, Fp.fin_mul, Fp.fin_abs, Fp.fin_le, Fp.fin_sub, Fp.fin_add]
    rw [if_neg (not_lt.2 hf), if_neg (not_lt.2 hg), if_pos hs.le]
  have hmm : ∀ x y : ℝ, Fp.min (.fin x) (.fin y) = .fin (min x y) ∧ Fp.max (.fin x) (.fin y) = .fin (max x y) := by
    intro x y
    simp only [Fp.min, Fp.max, Fp.fin_lt, min_def, max_def]
    constructor <;> split_ifs <;> first | rfl | (congr 1; linarith)
  refine ⟨as, ?_, ?_, ?_, ?_⟩
  · have e : (as - t) * (t - al) = (t - al) ^ 2 * (gt * (gl - gt)) / (gl - gt) ^ 2 := by
      rw [has]
      field_simp
      ring
    have : 0 ≤ gt * (gl - gt) := by
      have h1 := mul_self_lt_mul_self (abs_nonneg gt) hs
      rw [abs_mul_abs_self, abs_mul_abs_self] at h1
      have h2 := mul_le_mul_of_nonneg_left hs.le (abs_nonneg gt)
      rw [abs_mul_abs_self, ← abs_mul, abs_of_nonneg hg] at h2
      linarith
    rw [e]
    positivity
  · rintro q ⟨c0, c1', c2', hq⟩ m1 m2
    have hq3 : ∀ x, q x = c0 + c1' * x + c2' * x ^ 2 + 0 * x ^ 3 := fun x => by rw [hq]; ring
    refine (cubic_deriv hq3 as).congr_deriv ?_
    have e1 : gl = c1' + 2 * c2' * al + 3 * 0 * al ^ 2 := m1.unique (cubic_deriv hq3 al)
    have e2 : gt = c1' + 2 * c2' * t + 3 * 0 * t ^ 2 := m2.unique (cubic_deriv hq3 t)
    have hd : gl - gt = 2 * c2' * (al - t) := by rw [e1, e2]; ring
    have hc2' : c2' ≠ 0 := by
      rintro rfl
      exact hne (by rw [hd]; ring)
    rw [has, hd, e1]
    field_simp
    ring
  · intro ac hac
    rw [htv, hac]
    simp only [Fp.fin_sub, Fp.fin_abs, Fp.fin_lt]
    split_ifs <;> simp only [(hmm _ _).1, (hmm _ _).2]
  · intro hac
    rw [htv, hac]
    have : ¬ Fp.lt (Fp.abs (.nan - .fin t)) (.fin |as - t|) := by
      rw [Fp.nan_sub]
      exact Fp.nan_lt _
    simp only [if_neg this]
    split_ifs <;> simp only [(hmm _ _).1, (hmm _ _).2]

/-- Both cases of the cubic occur in `C137_third_rule_partial`: after value 0 and slope -2 at 0, with slope -1/2 at 1, it
has a stationary point if the value there is -1/2 and none if it is -1. -/
example : cubic (.fin 0) (.fin 0) (.fin (-2)) (.fin 1) (.fin (-1/2)) (.fin (-1/2)) = .fin (2/3) ∧
    cubic (.fin 0) (.fin 0) (.fin (-2)) (.fin 1) (.fin (-1)) (.fin (-1/2)) = .nan := by
  constructor
  · unfold cubic
    simp only [Fp.fin_sub, Fp.fin_mul]
    rw [Fp.fin_div (by norm_num)]
    simp only [Fp.fin_sub, Fp.fin_mul]
    rw [Fp.fin_sqrt (by norm_num), show (3 * (-1/2 - 0) / (1 - 0) - -1/2 - -2) * (3 * (-1/2 - 0) / (1 - 0) - -1/2 - -2) -
      -1/2 * -2 = (0 : ℝ) by norm_num, Real.sqrt_zero]
    simp only [Fp.fin_sub, Fp.fin_mul, Fp.fin_add]
    rw [Fp.fin_div (by norm_num), Fp.fin_add]
    norm_num
  · unfold cubic
    simp only [Fp.fin_sub, Fp.fin_mul]
    rw [Fp.fin_div (by norm_num)]
    simp only [Fp.fin_sub, Fp.fin_mul]
    rw [show Fp.sqrt (.fin ((3 * (-1 - 0) / (1 - 0) - -1/2 - -2) * (3 * (-1 - 0) / (1 - 0) - -1/2 - -2) - -1/2 * -2)) =
      .nan by simp only [Fp.sqrt]; rw [if_pos (by norm_num)]]
    rfl

/-- **C137**, partial: if the value has not grown and the slope is steeper, of the same sign, the trial value is a
stationary point, and no maximum, of the cubic through the other end if that lies on the left of the trial point; on the
usual side it is no minimum (`C137_false_fourth`). -/
theorem C137_fourth_partial {al fl gl au fu gu t ft gt c : ℝ} (hf : ft ≤ fl) (hg : 0 ≤ gt * gl) (hs : |gl| < |gt|)
    (h : trialValue (numbers al fl gl au fu gu) (.fin t) (.fin ft) (.fin gt) = .fin c) :
    (au < t → CubicStep au fu gu t ft gt c) ∧
    (t < au → ∀ q, Cubic q → Meets q au fu gu → Meets q t ft gt → HasDerivAt q 0 c ∧ deriv (deriv q) c ≤ 0) := by
  have hc : cubic (.fin au) (.fin fu) (.fin gu) (.fin t) (.fin ft) (.fin gt) = .fin c := by
    rw [← h]
    simp only [trialValue, numbers, Fp.fin_lt, Fp.fin_mul, Fp.fin_abs, Fp.fin_le]
    rw [if_neg (not_lt.2 hf), if_neg (not_lt.2 hg), if_neg (not_le.2 hs)]
  exact ⟨fun h => C137_cubic_partial h hc, fun h q hq h1 h2 => C137_maximum h hc hq h1 h2⟩

/-- C137 fails in the first case for a trial point on the left of the better end: with value 0 and slope 1 at 1, value
1 and slope -4 at 0, a minimum between 0 and 1 is certain, but the trial value is 1.375. -/
theorem C137_false_first (au fu gu : ℝ) :
    trialValue (numbers 1 0 1 au fu gu) (.fin 0) (.fin 1) (.fin (-4)) = .fin 1.375 := by
  have hc : cubic (.fin 1) (.fin 0) (.fin 1) (.fin 0) (.fin 1) (.fin (-4)) = .fin 2 := by
    unfold cubic
    simp only [Fp.fin_sub, Fp.fin_mul]
    rw [Fp.fin_div (by norm_num)]
    simp only [Fp.fin_sub, Fp.fin_mul]
    rw [Fp.fin_sqrt (by norm_num), show (3 * (1 - 0) / (0 - 1) - -4 - 1) * (3 * (1 - 0) / (0 - 1) - -4 - 1) - -4 * 1 =
      (2 : ℝ) * 2 by norm_num, Real.sqrt_mul_self (by norm_num)]
    simp only [Fp.fin_sub, Fp.fin_mul, Fp.fin_add]
    rw [Fp.fin_div (by norm_num), Fp.fin_add]
    norm_num
  unfold trialValue numbers
  simp only [hc]
  rw [if_pos ((Fp.fin_lt _ _).2 (by norm_num))]
  simp only [Fp.fin_sub, Fp.fin_mul]
  rw [Fp.fin_div (by norm_num)]
  simp only [Fp.fin_sub]
  rw [Fp.fin_div (by norm_num)]
  simp only [Fp.fin_sub, Fp.fin_add, Fp.fin_mul, Fp.fin_abs]
  rw [if_neg]
  · norm_num
  · rw [Fp.fin_lt]
    norm_num [abs_of_pos, abs_of_neg]

/-- C137 fails in the fourth case, in the usual order: with value -2 and slope -2 at the trial point 1, and value 0 and
slope 8 at the other end 2, a minimum between 1 and 2 is certain, but the trial value is 0 (the maximum of the cubic). -/
theorem C137_false_fourth : trialValue (numbers 0 0 (-1) 2 0 8) (.fin 1) (.fin (-2)) (.fin (-2)) = .fin 0 := by
  unfold trialValue numbers
  simp only
  rw [if_neg (by rw [Fp.fin_lt]; norm_num), Fp.fin_mul, if_neg (by rw [Fp.fin_lt]; norm_num), Fp.fin_abs, Fp.fin_abs,
    if_neg (by rw [Fp.fin_le]; norm_num)]
  unfold cubic
  simp only [Fp.fin_sub, Fp.fin_mul]
  rw [Fp.fin_div (by norm_num)]
  simp only [Fp.fin_sub, Fp.fin_mul]
  rw [Fp.fin_sqrt (by norm_num), show (3 * (-2 - 0) / (1 - 2) - -2 - 8) * (3 * (-2 - 0) / (1 - 2) - -2 - 8) - -2 * 8 =
    (4 : ℝ) * 4 by norm_num, Real.sqrt_mul_self (by norm_num)]
  simp only [Fp.fin_sub, Fp.fin_mul, Fp.fin_add]
  rw [Fp.fin_div (by norm_num), Fp.fin_add]
  norm_num

/-- The hypotheses of `C137_cubic_partial` are met, and there is a cubic to speak of. -/
example : ∃ c, cubic (.fin 0) (.fin 0) (.fin (-1)) (.fin 1) (.fin 1) (.fin 3) = .fin c ∧
    ∃ q, Cubic q ∧ Meets q 0 0 (-1) ∧ Meets q 1 1 3 := by
  obtain ⟨c, hc, -⟩ := cubic_between (a := 0) (f := 0) (g := -1) (t := 1) (ft := 1) (gt := 3) (by norm_num) (by norm_num)
    (.inl (by norm_num))
  exact ⟨c, hc, exists_cubic _ _ _ _ _ _ (by norm_num)⟩

/-! ### C138: interval -/

/-- **C138**, partial: a bracket stays a bracket when a trial point between its ends is taken in; the trial point becomes
an end, and the other end is one of the old ones.  The search only stops at a stationary point.
Missing: the initial interval is none (`C138_false`). -/
theorem C138_update_partial {al fl gl au fu gu t ft gt : ℝ} (hb : Bracket (numbers al fl gl au fu gu))
    (ht : Between al au t) :
    let r := updateInterval (numbers al fl gl au fu gu) (.fin t) (.fin ft) (.fin gt)
    (r.1 = true → gt = 0) ∧
    (r.1 = false → Bracket r.2 ∧
      (r.2 = numbers al fl gl t ft gt ∨ r.2 = numbers t ft gt au fu gu ∨ r.2 = numbers t ft gt al fl gl)) := by
  obtain ⟨al', fl', gl', au', fu', gu', he, h1, h2⟩ := hb
  simp only [numbers, Interval.mk.injEq, Fp.fin.injEq] at he
  obtain ⟨rfl, rfl, rfl, rfl, rfl, rfl⟩ := he
  have hne : al - t ≠ 0 := by rcases ht with ⟨_, _⟩ | ⟨_, _⟩ <;> linarith
  intro r
  simp only [r, updateInterval, numbers, Fp.fin_sub, Fp.fin_mul, Fp.fin_lt]
  split_ifs with c1 c2 c3
  · refine ⟨by simp, fun _ => ⟨⟨_, _, _, _, _, _, rfl, c1.le, ?_⟩, .inl rfl⟩⟩
    rcases ht with ⟨u1, u2⟩ | ⟨u1, u2⟩
    · have : gl < 0 := by by_contra h; nlinarith
      nlinarith
    · have : 0 < gl := by by_contra h; nlinarith
      nlinarith
  · refine ⟨by simp, fun _ => ⟨⟨_, _, _, _, _, _, rfl, (not_lt.1 c1).trans h1, ?_⟩, .inr (.inl rfl)⟩⟩
    rcases ht with ⟨u1, u2⟩ | ⟨u1, u2⟩
    · have : gt < 0 := by by_contra h; nlinarith
      nlinarith
    · have : 0 < gt := by by_contra h; nlinarith
      nlinarith
  · exact ⟨by simp, fun _ => ⟨⟨_, _, _, _, _, _, rfl, not_lt.1 c1, c3⟩, .inr (.inr rfl)⟩⟩
  · refine ⟨fun _ => ?_, by simp⟩
    have : gt * (al - t) = 0 := le_antisymm (not_lt.1 c2) (not_lt.1 c3)
    exact (mul_eq_zero.1 this).resolve_right hne

/-- To the right of a point with negative slope there are smaller values. -/
theorem below_right {f : ℝ → ℝ} {a u g : ℝ} (hf : HasDerivAt f g a) (hg : g < 0) (h : a < u) :
    ∃ x, a < x ∧ x < u ∧ f x < f a := by
  have h1 := (hasDerivAt_iff_tendsto_slope.1 hf).eventually (gt_mem_nhds hg)
  have h2 : ∀ᶠ x in nhdsWithin a (Set.Ioi a), _root_.slope f a x < 0 :=
    h1.filter_mono (nhdsWithin_mono _ fun x hx => ne_of_gt hx)
  have h3 : ∀ᶠ x in nhdsWithin a (Set.Ioi a), x ∈ Set.Ioo a u := Ioo_mem_nhdsGT h
  obtain ⟨x, hx, hx1, hx2⟩ := (h2.and h3).exists
  refine ⟨x, hx1, hx2, ?_⟩
  rw [slope_def_field, div_neg_iff] at hx
  rcases hx with ⟨_, hx⟩ | ⟨hx, _⟩ <;> linarith

/-- A bracket with the better end on the left. -/
theorem bracket_right {f f' : ℝ → ℝ} (hf : ∀ x, HasDerivAt f (f' x) x) {a u : ℝ} (h : a < u) (h1 : f a ≤ f u)
    (h2 : f' a < 0) : ∃ c, (a < c ∧ c < u) ∧ f' c = 0 ∧ f c < f a ∧ f c < f u := by
  obtain ⟨x, x1, x2, x3⟩ := below_right (hf a) h2 h
  obtain ⟨c, hc, hm⟩ := isCompact_Icc.exists_isMinOn (Set.nonempty_Icc.2 h.le)
    (fun x _ => (hf x).continuousAt.continuousWithinAt : ContinuousOn f (Set.Icc a u))
  have hca : f c < f a := (hm ⟨x1.le, x2.le⟩ : f c ≤ f x).trans_lt x3
  have n1 : a < c := lt_of_le_of_ne hc.1 fun e => by rw [e] at hca; exact lt_irrefl _ hca
  have n2 : c < u := lt_of_le_of_ne hc.2 fun e => by rw [← e] at h1; linarith
  exact ⟨c, ⟨n1, n2⟩, (hm.isLocalMin (Icc_mem_nhds n1 n2)).hasDerivAt_eq_zero (hf c), hca, hca.trans_le h1⟩

/-- **C138**: a bracket contains a stationary point with a value below those of both ends. -/
theorem C138_bracket {f f' : ℝ → ℝ} (hf : ∀ x, HasDerivAt f (f' x) x) {a u : ℝ}
    (hb : Bracket (numbers a (f a) (f' a) u (f u) (f' u))) :
    ∃ c, Between a u c ∧ f' c = 0 ∧ f c < f a ∧ f c < f u := by
  obtain ⟨al', fl', gl', au', fu', gu', he, h1, h2⟩ := hb
  simp only [numbers, Interval.mk.injEq, Fp.fin.injEq] at he
  obtain ⟨rfl, rfl, rfl, rfl, rfl, rfl⟩ := he
  rcases lt_trichotomy a u with h | h | h
  · obtain ⟨c, hc, k⟩ := bracket_right hf h h1 (by by_contra hn; nlinarith)
    exact ⟨c, .inl hc, k⟩
  · rw [h] at h2
    simp at h2
  · have hf2 : ∀ x, HasDerivAt (fun x => f (-x)) (-f' (-x)) x := fun x => by
      have := (hf (-x)).comp x (hasDerivAt_neg x)
      rw [mul_neg_one] at this
      exact this
    obtain ⟨c, ⟨hc1, hc2⟩, k0, k⟩ := bracket_right hf2 (neg_lt_neg h) (by simpa using h1)
      (by simp only [neg_neg]; by_contra hn; nlinarith)
    exact ⟨-c, .inr ⟨by linarith, by linarith⟩, by simpa using k0, by simpa using k⟩

/-- C138 fails at the start: the search begins with both ends at 0, and a first trial point `t` at which the function is
not larger and still falls gives the interval from `t` back to 0, which is no bracket. -/
theorem C138_false {f0 g0 t ft gt : ℝ} (ht : 0 < t) (hf : ft ≤ f0) (hg : gt < 0) :
    updateInterval (numbers 0 f0 g0 0 f0 g0) (.fin t) (.fin ft) (.fin gt) = (false, numbers t ft gt 0 f0 g0) ∧
    ¬ Bracket (numbers t ft gt 0 f0 g0) := by
  constructor
  · simp only [updateInterval, numbers, Fp.fin_sub, Fp.fin_mul, Fp.fin_lt]
    rw [if_neg (not_lt.2 hf), if_pos (by nlinarith)]
  · rintro ⟨al', fl', gl', au', fu', gu', he, h1, h2⟩
    simp only [numbers, Interval.mk.injEq, Fp.fin.injEq] at he
    obtain ⟨rfl, rfl, rfl, rfl, rfl, rfl⟩ := he
    nlinarith

/-- The hypotheses of `C138_update_partial` and `C138_bracket` are met. -/
example : Bracket (numbers 0 ((0 : ℝ) ^ 2 - 0) (2 * 0 - 1) 2 ((2 : ℝ) ^ 2 - 2) (2 * 2 - 1)) ∧ Between 0 2 1 := by
  exact ⟨⟨_, _, _, _, _, _, rfl, by norm_num, by norm_num⟩, .inl ⟨by norm_num, by norm_num⟩⟩

/-- A case of `C138_false`: the function `-x`, which has no minimum. -/
example : ¬ Bracket (numbers 1 (-1) (-1) 0 0 (-1)) :=
  (C138_false (f0 := 0) (g0 := -1) one_pos (by norm_num) (by norm_num)).2

end Verif.Newton
