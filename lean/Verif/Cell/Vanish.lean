import Verif.Cell.Evidence
import Mathlib.Analysis.Complex.ExponentialBounds

/-
C177: objects that have gone leave the map, objects that stay are kept.
-/
namespace Verif.NDT

open Verif Matrix

/-! ### Specification vocabulary -/

/-- One look past the measured objects: from `s` to the measured end `e`, with the number of points measured there. -/
abbrev Look := Vec × Vec × ℕ

/-- The looks, one after the other, applied to a cell. -/
noncomputable def looks (c : Cell) : List Look → Res Cell
  | [] => .ok c
  | (s, e, n) :: l => (rayUpdate c s e n).bind fun c' => looks c' l

/-- The line from `s` to `e` comes within Mahalanobis distance `√M` of the Gaussian, and it does so at least `D`
away from the measured end. -/
def LooksThrough (M D : ℝ) (c : Cell) (s e : Vec) : Prop :=
  s ≠ e ∧ 0.01 ≤ (∑ i, |c.mean i - e i|) ∧ (∃ y, OnLine s e y ∧ mahal c y ≤ M) ∧
    ∀ x, OnLine s e x → mahal c x ≤ M → D ^ 2 ≤ dist2 x e

/-- The line from `s` to `e` stays at Mahalanobis distance `√M` from the Gaussian or more. -/
def LooksPast (M : ℝ) (c : Cell) (s e : Vec) : Prop := s ≠ e ∧ ∀ x, OnLine s e x → M ≤ mahal c x

/-- What one point behind a look through the Gaussian counts at least. -/
noncomputable def weight (M D : ℝ) : ℝ :=
  logOdds (0.5 + 0.1 * (Real.exp (-M / 2) * (1 - Real.exp (-D ^ 2 / (2 * 0.01 ^ 2)))))

/-- The number of points behind the looks. -/
def behind (l : List Look) : ℕ := (l.map fun r => r.2.2).sum

/-! ### Lemmas -/

theorem logOdds_mono {a b : ℝ} (ha : 0 < a) (hab : a ≤ b) (hb : b < 1) : logOdds a ≤ logOdds b := by
  unfold logOdds
  apply Real.log_le_log
  · apply div_pos <;> linarith
  · rw [div_le_div_iff₀ (by linarith) (by linarith)]
    nlinarith

theorem logOdds_nonneg {a : ℝ} (ha : 0.5 ≤ a) (hb : a < 1) : 0 ≤ logOdds a := by
  have h := logOdds_mono (a := 0.5) (by norm_num) ha hb
  have h0 : logOdds 0.5 = 0 := by unfold logOdds; norm_num
  linarith

theorem mahal_nonneg {c : Cell} (h : c.cov.PosDef) (x : Vec) : 0 ≤ mahal c x := by
  have := h.inv.posSemidef.dotProduct_mulVec_nonneg (x - c.mean)
  simpa only [star_trivial, mahal] using this

theorem dist2_nonneg (x y : Vec) : 0 ≤ dist2 x y := by
  rw [dist2, ← norm2_sq]; exact mul_self_nonneg _

theorem unit_mul {p q : ℝ} (p0 : 0 ≤ p) (p1 : p ≤ 1) (q0 : 0 ≤ q) (q1 : q ≤ 1) :
    0 ≤ p * (1 - q) ∧ p * (1 - q) ≤ 1 :=
  ⟨mul_nonneg p0 (by linarith), by nlinarith⟩

theorem exp_unit {x : ℝ} (h : x ≤ 0) : 0 ≤ Real.exp x ∧ Real.exp x ≤ 1 :=
  ⟨(Real.exp_pos _).le, Real.exp_le_one_iff.2 h⟩

theorem weight_le {M D M' E : ℝ} (hM : 0 ≤ M') (hMM : M' ≤ M) (hD : D ^ 2 ≤ E) :
    0 ≤ weight M D ∧ weight M D ≤
      logOdds (0.5 + 0.1 * (Real.exp (-M' / 2) * (1 - Real.exp (-E / (2 * 0.01 ^ 2))))) := by
  have hE : 0 ≤ E := (sq_nonneg D).trans hD
  obtain ⟨p0, p1⟩ := exp_unit (x := -M / 2) (by linarith)
  obtain ⟨p0', p1'⟩ := exp_unit (x := -M' / 2) (by linarith)
  obtain ⟨q0, q1⟩ := exp_unit (x := -D ^ 2 / (2 * 0.01 ^ 2)) (by
    apply div_nonpos_of_nonpos_of_nonneg (by linarith [sq_nonneg D]) (by positivity))
  obtain ⟨q0', q1'⟩ := exp_unit (x := -E / (2 * 0.01 ^ 2)) (by
    apply div_nonpos_of_nonpos_of_nonneg (by linarith) (by positivity))
  have hp : Real.exp (-M / 2) ≤ Real.exp (-M' / 2) := Real.exp_le_exp.2 (by linarith)
  have hq : Real.exp (-E / (2 * 0.01 ^ 2)) ≤ Real.exp (-D ^ 2 / (2 * 0.01 ^ 2)) :=
    Real.exp_le_exp.2 (by
      apply div_le_div_of_nonneg_right (by linarith) (by positivity))
  obtain ⟨a0, a1⟩ := unit_mul p0 p1 q0 q1
  obtain ⟨b0, b1⟩ := unit_mul p0' p1' q0' q1'
  have hab : Real.exp (-M / 2) * (1 - Real.exp (-D ^ 2 / (2 * 0.01 ^ 2))) ≤
      Real.exp (-M' / 2) * (1 - Real.exp (-E / (2 * 0.01 ^ 2))) :=
    mul_le_mul hp (by linarith) (by linarith) p0'
  constructor
  · exact logOdds_nonneg (by linarith) (by linarith)
  · exact logOdds_mono (by linarith) (by linarith) (by linarith)

theorem ray_place {c c' : Cell} {s e : Vec} {n : ℕ} (h : rayUpdate c s e n = .ok c') :
    c'.mean = c.mean ∧ c'.cov = c.cov ∧ c'.points = c.points := by
  unfold rayUpdate at h
  split_ifs at h with h1 h2
  · cases h; exact ⟨rfl, rfl, rfl⟩
  · cases h; exact ⟨rfl, rfl, rfl⟩
  · obtain ⟨r, -, rfl⟩ := Res.map_eq_ok.1 h
    exact ⟨rfl, rfl, rfl⟩

theorem LooksThrough.same {M D : ℝ} {c c' : Cell} {s e : Vec} (hm : c'.mean = c.mean) (hc : c'.cov = c.cov)
    (h : LooksThrough M D c s e) : LooksThrough M D c' s e := by
  unfold LooksThrough mahal at *
  rw [hm, hc]; exact h

theorem LooksPast.same {M : ℝ} {c c' : Cell} {s e : Vec} (hm : c'.mean = c.mean) (hc : c'.cov = c.cov)
    (h : LooksPast M c s e) : LooksPast M c' s e := by
  unfold LooksPast mahal at *
  rw [hm, hc]; exact h

/-- A cell without Gaussian gets none from looks. -/
theorem looks_empty : ∀ (l : List Look) (c : Cell), c.gaussian = false →
    ∃ c', looks c l = .ok c' ∧ c'.gaussian = false
  | [], c, h => ⟨c, rfl, h⟩
  | (s, e, n) :: l, c, h => by
    have : rayUpdate c s e n = .ok { c with occ := addOcc c.occ (some (noGaussianUpdate * n)) } := by
      unfold rayUpdate
      rw [if_pos h]
    obtain ⟨c', h1, h2⟩ := looks_empty l { c with occ := addOcc c.occ (some (noGaussianUpdate * n)) } h
    exact ⟨c', by unfold looks; rw [this, Res.bind_ok]; exact h1, h2⟩

/-- One look through a Gaussian: it is gone, or its occupancy has fallen by at least the weight of the points. -/
theorem look_through {eig : Eig} (he : EigOk eig) {c : Cell} (h : Reach eig properRay c) (hg : c.gaussian = true)
    {o : ℝ} (ho : c.occ = some o) {M D : ℝ} {s e : Vec} (hl : LooksThrough M D c s e) (n : ℕ) :
    ∃ c', rayUpdate c s e n = .ok c' ∧ (c'.gaussian = false ∨
      ∃ o', c'.gaussian = true ∧ c'.occ = some o' ∧ 0 < o' ∧ o' ≤ o - n * weight M D) := by
  obtain ⟨hse, hend, ⟨y, hy, hyM⟩, hD⟩ := hl
  obtain ⟨x, hx, hmin, hr⟩ := C121_ray_gaussian he h s e n ho hg hse hend
  obtain ⟨g1, -⟩ := h.ginv he hg
  have hxM := (hmin y hy).trans hyM
  obtain ⟨w0, w1⟩ := weight_le (mahal_nonneg g1 x) hxM (hD x hx hxM)
  have hn : (0 : ℝ) ≤ n := Nat.cast_nonneg n
  have hw := mul_le_mul_of_nonneg_left w1 hn
  refine ⟨_, hr, ?_⟩
  generalize logOdds (0.5 + 0.1 * (Real.exp (-mahal c x / 2) * (1 - Real.exp (-dist2 x e / (2 * 0.01 ^ 2))))) = w at *
  by_cases hpos : 0 < limited (o - n * w)
  · right
    refine ⟨_, by simpa using hpos, rfl, hpos, ?_⟩
    unfold limited at hpos ⊢
    rcases max_cases (-1) (min 1 (o - n * w)) with ⟨h1, -⟩ | ⟨h1, -⟩
    · rw [h1] at hpos; linarith
    · rw [h1]
      exact (min_le_right _ _).trans (by linarith)
  · left
    simpa using hpos

/-! ### C177 -/

/-- **C177**, objects that have gone: a Gaussian with any history and occupancy `o` (which is at most 1) is not in the
map any more after looks through it with enough points behind it. -/
theorem C177_vanishes {eig : Eig} (he : EigOk eig) {M D : ℝ} : ∀ (l : List Look) {c : Cell} {o : ℝ},
    Reach eig properRay c → c.occ = some o → (∀ r ∈ l, LooksThrough M D c r.1 r.2.1) →
    o ≤ behind l * weight M D → ∃ c', looks c l = .ok c' ∧ c'.gaussian = false := by
  intro l
  induction l with
  | nil =>
    intro c o h ho _ hs
    refine ⟨c, rfl, ?_⟩
    by_contra hg
    obtain ⟨x, hx, hx0⟩ := h.positive he (by simpa using hg)
    rw [ho] at hx
    cases hx
    simp only [behind, List.map_nil, List.sum_nil, Nat.cast_zero, zero_mul] at hs
    linarith
  | cons r l ih =>
    obtain ⟨s, e, n⟩ := r
    intro c o h ho hl hs
    by_cases hg : c.gaussian = true
    · have hl0 := hl (s, e, n) (by simp)
      obtain ⟨c1, h1, hc1⟩ := look_through he h hg ho hl0 n
      obtain ⟨e1, e2, -⟩ := ray_place h1
      have hr : Reach eig properRay c1 := .ray s e n h hl0.1 h1
      unfold looks
      rw [h1, Res.bind_ok]
      rcases hc1 with hc1 | ⟨o', -, ho', -, hle⟩
      · exact looks_empty l c1 hc1
      · refine ih hr ho' (fun r hr' => (hl r (List.mem_cons_of_mem _ hr')).same e1 e2) (hle.trans ?_)
        have : (behind ((s, e, n) :: l) : ℝ) = n + behind l := by
          unfold behind
          rw [List.map_cons, List.sum_cons]
          push_cast
          rfl
        rw [this] at hs
        linarith
    · exact looks_empty _ c (by simpa using hg)

/-- **C177**, objects that stay: a Gaussian with any history and occupancy `o` is kept, with its place and shape, by
looks past it with few enough points behind it. -/
theorem C177_kept {eig : Eig} (he : EigOk eig) {M : ℝ} (hM : 0 ≤ M) : ∀ (l : List Look) {c : Cell} {o : ℝ},
    Reach eig properRay c → c.gaussian = true → c.occ = some o → (∀ r ∈ l, LooksPast M c r.1 r.2.1) →
    behind l * logOdds (0.5 + 0.1 * Real.exp (-M / 2)) < o →
    ∃ c' o', looks c l = .ok c' ∧ c'.gaussian = true ∧ c'.mean = c.mean ∧ c'.cov = c.cov ∧ c'.points = c.points ∧
      c'.occ = some o' ∧ o - behind l * logOdds (0.5 + 0.1 * Real.exp (-M / 2)) ≤ o' := by
  obtain ⟨m0, m1⟩ := exp_unit (x := -M / 2) (by linarith)
  set w := logOdds (0.5 + 0.1 * Real.exp (-M / 2)) with hw
  have w0 : 0 ≤ w := logOdds_nonneg (by linarith) (by linarith)
  intro l
  induction l with
  | nil =>
    intro c o _ hg ho _ _
    refine ⟨c, o, rfl, hg, rfl, rfl, rfl, ho, ?_⟩
    simp [behind]
  | cons r l ih =>
    obtain ⟨s, e, n⟩ := r
    intro c o h hg ho hl hs
    have hb : (behind ((s, e, n) :: l) : ℝ) = n + behind l := by
      unfold behind
      rw [List.map_cons, List.sum_cons]
      push_cast
      rfl
    rw [hb] at hs ⊢
    have hn : (0 : ℝ) ≤ n := Nat.cast_nonneg n
    have hbl : (0 : ℝ) ≤ behind l := Nat.cast_nonneg _
    obtain ⟨o0, ho0, -, ho1⟩ := h.occ he
    rw [ho] at ho0
    cases ho0
    obtain ⟨hse, hpast⟩ := hl (s, e, n) (by simp)
    obtain ⟨g1, -⟩ := h.ginv he hg
    have step : ∃ c1 o1, rayUpdate c s e n = .ok c1 ∧ c1.gaussian = true ∧ c1.occ = some o1 ∧ o - n * w ≤ o1 := by
      by_cases hend : 0.01 ≤ ∑ i, |c.mean i - e i|
      · obtain ⟨x, hx, -, hr⟩ := C121_ray_gaussian he h s e n ho hg hse hend
        obtain ⟨p0, p1⟩ := exp_unit (x := -mahal c x / 2) (by linarith [mahal_nonneg g1 x])
        obtain ⟨q0, q1⟩ := exp_unit (x := -dist2 x e / (2 * 0.01 ^ 2)) (by
          apply div_nonpos_of_nonpos_of_nonneg (by linarith [dist2_nonneg x e]) (by positivity))
        have hp : Real.exp (-mahal c x / 2) ≤ Real.exp (-M / 2) := Real.exp_le_exp.2 (by linarith [hpast x hx])
        obtain ⟨a0, a1⟩ := unit_mul p0 p1 q0 q1
        have hle : logOdds (0.5 + 0.1 * (Real.exp (-mahal c x / 2) * (1 - Real.exp (-dist2 x e / (2 * 0.01 ^ 2))))) ≤
            w := by
          apply logOdds_mono (by linarith) _ (by linarith)
          nlinarith
        generalize logOdds (0.5 + 0.1 * (Real.exp (-mahal c x / 2) *
          (1 - Real.exp (-dist2 x e / (2 * 0.01 ^ 2))))) = v at *
        have hv := mul_le_mul_of_nonneg_left hle hn
        have hlim : o - n * w ≤ limited (o - n * v) := by
          unfold limited
          refine le_max_of_le_right (le_min ?_ ?_) <;> nlinarith
        refine ⟨_, _, hr, ?_, rfl, hlim⟩
        have : 0 < limited (o - n * v) := lt_of_lt_of_le (by nlinarith) hlim
        simpa using this
      · have := (C121_confirmed he h hg).2.1 s e n (not_le.1 hend)
        exact ⟨_, 1, this, hg, rfl, by nlinarith⟩
    obtain ⟨c1, o1, h1, hg1, ho1', hle⟩ := step
    obtain ⟨e1, e2, e3⟩ := ray_place h1
    obtain ⟨c', o', k1, k2, k3, k4, k5, k6, k7⟩ := ih (.ray s e n h hse h1) hg1 ho1'
      (fun r hr' => (hl r (List.mem_cons_of_mem _ hr')).same e1 e2) (by linarith)
    refine ⟨c', o', ?_, k2, k3.trans e1, k4.trans e2, k5.trans e3, k6, by linarith⟩
    unfold looks
    rw [h1, Res.bind_ok]
    exact k1

/-- Three points behind a look through the middle of a Gaussian are enough. -/
theorem weight_third {M D : ℝ} (hM0 : 0 ≤ M) (hM : M ≤ 1 / 4) (hD : 1 / 10 ≤ D) : 1 / 3 ≤ weight M D := by
  have hp : 7 / 8 ≤ Real.exp (-M / 2) := by
    have := Real.add_one_le_exp (-M / 2)
    linarith
  have hq : Real.exp (-D ^ 2 / (2 * 0.01 ^ 2)) ≤ 1 / 51 := by
    have h1 : -D ^ 2 / (2 * 0.01 ^ 2) ≤ -50 := by
      rw [div_le_iff₀ (by norm_num)]
      nlinarith
    have h2 : (51 : ℝ) ≤ Real.exp 50 := by
      have := Real.add_one_le_exp (50 : ℝ)
      linarith
    refine (Real.exp_le_exp.2 h1).trans ?_
    rw [Real.exp_neg, one_div]
    exact inv_anti₀ (by norm_num) h2
  have q0 : 0 < Real.exp (-D ^ 2 / (2 * 0.01 ^ 2)) := Real.exp_pos _
  unfold weight logOdds
  set p := Real.exp (-M / 2)
  set q := Real.exp (-D ^ 2 / (2 * 0.01 ^ 2))
  have ha : 7 / 8 * (50 / 51) ≤ p * (1 - q) := mul_le_mul hp (by linarith) (by norm_num) (by linarith)
  have p1 : p ≤ 1 := (exp_unit (by linarith)).2
  have hb : p * (1 - q) ≤ 1 := by nlinarith
  have h14 : Real.exp (1 / 3) ≤ 1.4 := by
    have h3 : Real.exp (1 / 3) ^ 3 = Real.exp 1 := by
      rw [← Real.exp_nat_mul]
      norm_num
    by_contra hlt
    have h4 : (1.4 : ℝ) ^ 3 < Real.exp (1 / 3) ^ 3 := pow_lt_pow_left₀ (not_le.1 hlt) (by norm_num) (by norm_num)
    rw [h3] at h4
    have := Real.exp_one_lt_d9
    norm_num at h4 this
    linarith
  rw [Real.le_log_iff_exp_le (by apply div_pos <;> linarith)]
  refine h14.trans ?_
  rw [le_div_iff₀ (by linarith)]
  linarith

/-- **C177**, a single look: one look with three points behind it (a measured Gaussian has at least that many) that
comes within half a standard deviation of the mean removes a Gaussian, whatever its history. -/
theorem C177_once {eig : Eig} (he : EigOk eig) {c : Cell} (h : Reach eig properRay c) {M D : ℝ} (hM0 : 0 ≤ M)
    (hM : M ≤ 1 / 4) (hD : 1 / 10 ≤ D) {s e : Vec} (hl : LooksThrough M D c s e) {n : ℕ} (hn : 3 ≤ n) :
    ∃ c', rayUpdate c s e n = .ok c' ∧ c'.gaussian = false := by
  obtain ⟨o, ho, -, ho1⟩ := h.occ he
  have hw := weight_third hM0 hM hD
  have hn' : (3 : ℝ) ≤ n := by exact_mod_cast hn
  obtain ⟨c', h1, h2⟩ := C177_vanishes he (M := M) (D := D) [(s, e, n)] h ho (by
    intro r hr
    rw [List.mem_singleton] at hr
    subst hr
    exact hl) (by
      have : (behind [(s, e, n)] : ℝ) = n := by simp [behind]
      rw [this]
      nlinarith)
  unfold looks at h1
  obtain ⟨c1, h3, h4⟩ := Res.bind_eq_ok.1 h1
  unfold looks at h4
  cases h4
  exact ⟨_, h3, h2⟩

/-- The mean is the only point at distance 0. -/
theorem mahal_zero {c : Cell} (h : c.cov.PosDef) {x : Vec} (hx : mahal c x ≤ 0) : x = c.mean := by
  by_contra hne
  have := h.inv.dotProduct_mulVec_pos (x := x - c.mean) (fun h0 => hne (sub_eq_zero.1 h0))
  simp only [star_trivial] at this
  unfold mahal at hx
  linarith

/-- A look through the middle of a Gaussian that ends 1 m behind it. -/
theorem through_mean {c : Cell} (h : c.cov.PosDef) {s e : Vec} (hse : s ≠ e) (t : ℝ) (ht : c.mean = e + t • (e - s))
    (hd : 1 ≤ |c.mean 0 - e 0|) : LooksThrough 0 (1 / 10) c s e := by
  refine ⟨hse, ?_, ⟨c.mean, ⟨t, ht⟩, ?_⟩, fun x _ hx => ?_⟩
  · rw [Fin.sum_univ_three]
    have := abs_nonneg (c.mean 1 - e 1)
    have := abs_nonneg (c.mean 2 - e 2)
    linarith
  · unfold mahal
    simp
  · rw [mahal_zero h hx]
    unfold dist2 dotProduct
    rw [Fin.sum_univ_three]
    simp only [Pi.sub_apply]
    have h1 := abs_mul_abs_self (c.mean 0 - e 0)
    nlinarith [mul_self_nonneg (c.mean 1 - e 1), mul_self_nonneg (c.mean 2 - e 2)]

theorem confirmed_often {eig : Eig} (he : EigOk eig) : ∀ (l : List Cell) {c : Cell}, Reach eig properRay c →
    c.gaussian = true → (∀ d ∈ l, Reach eig properRay d ∧ d.gaussian = true) →
    Reach eig properRay (l.foldl (merge eig) c) ∧ (l.foldl (merge eig) c).gaussian = true
  | [], _, h, hg, _ => ⟨h, hg⟩
  | d :: l, c, h, hg, hl => by
    obtain ⟨h1, h2⟩ := hl d (by simp)
    exact confirmed_often he l (.merge h h1) ((C121_confirmed he h hg).2.2 d h1 h2).2
      fun d' hd' => hl d' (List.mem_cons_of_mem _ hd')

/-- **C177** is false in its second half: however many measured Gaussians have confirmed a Gaussian of the map, there
is a single look, with three points behind it, that removes it. -/
theorem C177_false {eig : Eig} (he : EigOk eig) {c : Cell} (h : Reach eig properRay c) (hg : c.gaussian = true)
    (l : List Cell) (hl : ∀ d ∈ l, Reach eig properRay d ∧ d.gaussian = true) :
    (l.foldl (merge eig) c).gaussian = true ∧
    ∃ s e c', s ≠ e ∧ rayUpdate (l.foldl (merge eig) c) s e 3 = .ok c' ∧ c'.gaussian = false := by
  obtain ⟨h1, h2⟩ := confirmed_often he l h hg hl
  refine ⟨h2, ?_⟩
  set c1 := l.foldl (merge eig) c
  obtain ⟨g1, -⟩ := h1.ginv he h2
  have hv : c1.mean - ![1, 0, 0] ≠ c1.mean + ![1, 0, 0] := by
    intro h0
    have := congrFun h0 0
    simp only [Pi.sub_apply, Pi.add_apply, cons_val_zero] at this
    linarith
  have hl0 : LooksThrough 0 (1 / 10) c1 (c1.mean - ![1, 0, 0]) (c1.mean + ![1, 0, 0]) := by
    refine through_mean g1 hv (-1 / 2) ?_ ?_
    · ext i
      simp only [Pi.sub_apply, Pi.add_apply, Pi.smul_apply, smul_eq_mul]
      ring
    · simp
  obtain ⟨c', h3, h4⟩ := C177_once he h1 le_rfl (by norm_num) le_rfl hl0 (n := 3) le_rfl
  exact ⟨_, _, c', hv, h3, h4⟩

/-- A Gaussian of six points, six looks through its middle with one point behind each, and a look past it.  -/
example : ∃ eig, EigOk eig ∧ ∃ c : Cell, Reach eig properRay c ∧ c.gaussian = true ∧ c.occ = some 1 ∧
    (∃ l : List Look, l.length = 6 ∧ (∀ r ∈ l, LooksThrough 0 (1 / 10) c r.1 r.2.1) ∧
      (1 : ℝ) ≤ behind l * weight 0 (1 / 10)) ∧
    (∃ l : List Look, l ≠ [] ∧ 0 < behind l ∧ (∀ r ∈ l, LooksPast 0 c r.1 r.2.1) ∧
      behind l * logOdds (0.5 + 0.1 * Real.exp (-0 / 2)) < 1) := by
  obtain ⟨eig, he⟩ := exists_eig
  have hr : Reach eig properRay (computeGaussian eig exCell) := .computeGaussian (exCell_reach eig _)
  have hg : (computeGaussian eig exCell).gaussian = true := by rw [exCompute]; rfl
  obtain ⟨g1, -⟩ := hr.ginv he hg
  have hm : (computeGaussian eig exCell).mean = 0 := by rw [exCompute]; exact sixPoints_mean
  have hv : (![-1, 0, 0] : Vec) ≠ ![1, 0, 0] := by
    intro h0
    have := congrFun h0 0
    norm_num at this
  refine ⟨eig, he, _, hr, hg, by rw [exCompute]; rfl,
    ⟨List.replicate 6 (![-1, 0, 0], ![1, 0, 0], 1), List.length_replicate, fun r hr' => ?_, ?_⟩,
    ⟨[(![-1, 0, 0], ![1, 0, 0], 1)], by simp, by simp [behind], fun r hr' => ?_, ?_⟩⟩
  · rw [(List.mem_replicate.1 hr').2]
    refine through_mean g1 hv (-1 / 2) ?_ ?_
    · rw [hm]
      ext i
      fin_cases i <;> norm_num
    · rw [hm]; norm_num
  · have := weight_third (M := 0) (D := 1 / 10) le_rfl (by norm_num) le_rfl
    have hb : behind (List.replicate 6 ((![-1, 0, 0], ![1, 0, 0], 1) : Look)) = 6 := rfl
    rw [hb]
    push_cast
    linarith
  · rw [List.mem_singleton] at hr'
    subst hr'
    exact ⟨hv, fun x _ => mahal_nonneg g1 x⟩
  · have hb : behind [((![-1, 0, 0], ![1, 0, 0], 1) : Look)] = 1 := rfl
    rw [hb]
    have h1 : logOdds (0.5 + 0.1 * Real.exp (-0 / 2)) = Real.log (3 / 2) := by
      unfold logOdds
      norm_num
    have h2 := abs_le.1 log_three_halves
    rw [h1]
    push_cast
    norm_num at h2 ⊢
    linarith [h2.1]

end Verif.NDT
