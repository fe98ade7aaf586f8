import Verif.Round.PoseLemmas

/- Property C147: rounding in the estimated pose. -/
namespace Verif.Round

open Verif Verif.Geo

/-- Errors of a single update. -/
structure Errors (F : Fmt ℝ) (ang : Trans → ℝ) (v ω ρ : ℝ) : Prop where
  v_nonneg : 0 ≤ v
  v_le : v ≤ 1 / 64
  double : ∀ x, |F.d x - x| ≤ v * |x|
  ω_nonneg : 0 ≤ ω
  ρ_nonneg : 0 ≤ ρ
  angle : AngleOk ang ρ

/-- Error of the linear part per product. -/
def kap (v ω : ℝ) : ℝ := 2 * ω + 15 * v

/-- Error of the heading per update. -/
def eta (v ω ρ : ℝ) : ℝ := 14 * kap v ω + ρ

/-- The state after `N` updates, the last `j` of them since the start of the present frame.  `A` is the error
of the translation per update. -/
structure Inv (κ ρ S τ A : ℝ) (N j : ℕ) (s : Track) (o l : Pose) : Prop where
  le : j ≤ N
  temp : Turned (j * κ) s.temp l.th
  temp_x : |s.temp 0 2 - l.x| ≤ j * (3 / 2 * A + 9 / 4 * τ)
  temp_y : |s.temp 1 2 - l.y| ≤ j * (3 / 2 * A + 9 / 4 * τ)
  len_x : |l.x| ≤ j * S
  len_y : |l.y| ≤ j * S
  origin : ∃ φ, |φ - o.th| ≤ (N - j) * (12 * κ + ρ) ∧ rot s.origin.th = rot φ
  origin_x : |s.origin.x - o.x| ≤ (N - j) * (6 * A + 6 * τ)
  origin_y : |s.origin.y - o.y| ≤ (N - j) * (6 * A + 6 * τ)
  position : ∃ φ, |φ - (comp o l).th| ≤ N * (12 * κ + ρ) ∧ Turned ((2 * N + 2) * κ) s.position φ
  position_x : |s.position 0 2 - (comp o l).x| ≤ N * (6 * A + 6 * τ)
  position_y : |s.position 1 2 - (comp o l).y| ≤ N * (6 * A + 6 * τ)
  far_x : |(comp o l).x| ≤ N * S
  far_y : |(comp o l).y| ≤ N * S

theorem rot_dot_le (θ m n : ℝ) (i : Fin 2) : |(rot θ i).re * m + (rot θ i).im * n| ≤ |m| + |n| := by
  have h := rot_abs_le θ i
  have a := abs_add_le ((rot θ i).re * m) ((rot θ i).im * n)
  rw [abs_mul, abs_mul] at a
  have := mul_le_mul_of_nonneg_right h.1 (abs_nonneg m)
  have := mul_le_mul_of_nonneg_right h.2 (abs_nonneg n)
  linarith

theorem Turned.mono {ε ε' θ : ℝ} {t : Trans} (h : Turned ε t θ) (he : ε ≤ ε') : Turned ε' t θ :=
  fun i => (h i).trans he

theorem start_inv {κ ρ S τ A : ℝ} (hκ : 0 ≤ κ) : Inv κ ρ S τ A 0 0 Track.start ⟨0, 0, 0⟩ ⟨0, 0, 0⟩ := by
  have ht : ∀ ε, 0 ≤ ε → Turned ε 1 0 := by
    intro ε he i
    have : row 1 i - rot 0 i = 0 := by
      rw [sub_eq_zero]
      match i with
      | 0 => apply Complex.ext <;> simp [row, rot]
             exact Matrix.one_apply_eq (0 : Fin 3)
      | 1 => apply Complex.ext <;> simp [row, rot]
             exact Matrix.one_apply_eq (1 : Fin 3)
    rw [this, norm_zero]; exact he
  refine ⟨le_rfl, ht _ (by simp), ?_, ?_, ?_, ?_, ⟨0, ?_, rfl⟩, ?_, ?_, ⟨0, ?_, ht _ ?_⟩, ?_, ?_, ?_, ?_⟩ <;>
    simp [Track.start, comp, hκ]

/-- Relations between the constants of a run of at most `M` updates. -/
structure Consts (v ω ρ S τ κ A M : ℝ) : Prop where
  v0 : 0 ≤ v
  v1 : v ≤ 1 / 64
  ρ0 : 0 ≤ ρ
  τ0 : 0 ≤ τ
  S0 : 0 ≤ S
  κv : 15 * v ≤ κ
  κω : 2 * ω + 15 * v = κ
  M1 : 1 ≤ M
  hA : A = (M + 1) * (14 * κ + ρ) * S
  hκ : (2 * M + 2) * κ ≤ 1 / 4
  hσ : 6 * A + 6 * τ ≤ S

namespace Consts

variable {v ω ρ S τ κ A M : ℝ} (C : Consts v ω ρ S τ κ A M)

include C

theorem κ0 : 0 ≤ κ := by have := C.v0; have := C.κv; linarith

theorem A0 : 0 ≤ A := by
  have := C.κ0; have := C.ρ0; have := C.M1; have := C.S0
  rw [C.hA]; positivity

theorem part {k : ℝ} (hk : k ≤ 2 * M + 2) : k * κ ≤ 1 / 4 :=
  (mul_le_mul_of_nonneg_right hk C.κ0).trans C.hκ

theorem hω : ω ≤ 1 / 4 := by
  have h := C.part (k := 1) (by linarith [C.M1])
  have := C.v0; have := C.κω
  have := C.κ0
  linarith

theorem vMS : 210 * (v * (M * S)) ≤ A := by
  have h1 : 210 * v ≤ 14 * κ + ρ := by have := C.κv; have := C.ρ0; linarith
  have hMS : 0 ≤ M * S := mul_nonneg (by linarith [C.M1]) C.S0
  have h2 := mul_le_mul_of_nonneg_right h1 hMS
  have h3 : 0 ≤ (14 * κ + ρ) * S := mul_nonneg (by linarith [C.κ0, C.ρ0]) C.S0
  rw [C.hA]
  linarith

theorem vS {k : ℝ} (hk : k ≤ M) : 210 * (v * (k * S)) ≤ A := by
  have h := mul_le_mul_of_nonneg_left (mul_le_mul_of_nonneg_right hk C.S0) C.v0
  linarith [C.vMS]

theorem bound {k : ℝ} (k0 : 0 ≤ k) (kM : k ≤ M) : k * (6 * A + 6 * τ) ≤ M * S := by
  have h1 : k * (6 * A + 6 * τ) ≤ k * S := mul_le_mul_of_nonneg_left C.hσ k0
  have h2 : k * S ≤ M * S := mul_le_mul_of_nonneg_right kM C.S0
  linarith

theorem le_A {e : ℝ} (he : e ≤ (M + 1) * (14 * κ + ρ)) : e * S ≤ A := by
  rw [C.hA]; exact mul_le_mul_of_nonneg_right he C.S0

/-- Arithmetic of the translation of `transform_temp_`. -/
theorem temp_arith {j e : ℝ} (hj : 0 ≤ j) (hjM : j + 1 ≤ M) (he : e ≤ (M + 1) * (14 * κ + ρ)) :
    j * (3 / 2 * A + 9 / 4 * τ) + e * S + 2 * τ + 6 * v * (S + τ) ≤ M * S ∧
    j * (3 / 2 * A + 9 / 4 * τ) + e * S + 2 * τ + 6 * v * (S + τ) + 2 * v * (M * S) ≤
      (j + 1) * (3 / 2 * A + 9 / 4 * τ) := by
  have h1 := C.le_A he
  have h2 := C.vMS
  have h3 := C.vS (k := 1) C.M1
  have h4 := mul_le_mul_of_nonneg_right C.v1 C.τ0
  have h5 := C.bound (k := j + 1) (by linarith) hjM
  have h6 := mul_nonneg hj C.A0
  have h7 := mul_nonneg hj C.τ0
  have h8 := C.A0
  have h9 := C.τ0
  constructor <;> linarith only [h1, h2, h3, h4, h5, h6, h7, h8, h9]

/-- Arithmetic of the translation of `position_` within a frame. -/
theorem position_arith {k e : ℝ} (hk : 0 ≤ k) (hkM : k + 1 ≤ M) (he : e ≤ (M + 1) * (14 * κ + ρ)) :
    k * (6 * A + 6 * τ) + e * S + 2 * τ + 6 * v * (S + τ) ≤ M * S ∧
    k * (6 * A + 6 * τ) + e * S + 2 * τ + 6 * v * (S + τ) + 2 * v * (M * S) ≤ (k + 1) * (6 * A + 6 * τ) := by
  have h1 := C.le_A he
  have h2 := C.vMS
  have h3 := C.vS (k := 1) C.M1
  have h4 := mul_le_mul_of_nonneg_right C.v1 C.τ0
  have h5 := C.bound (k := k + 1) (by linarith) hkM
  have h8 := C.A0
  have h9 := C.τ0
  constructor <;> linarith only [h1, h2, h3, h4, h5, h8, h9]

/-- Arithmetic of the translation of `position_` at the start of a frame; `j` updates in the old one. -/
theorem frame_arith {k j e : ℝ} (hj : 1 ≤ j) (hjk : j ≤ k) (hkM : k ≤ M) (he : e ≤ (M + 1) * (14 * κ + ρ)) :
    (k - j) * (6 * A + 6 * τ) + e * (2 * (j * S)) + 2 * (j * (3 / 2 * A + 9 / 4 * τ)) +
      6 * v * (2 * (j * S) + j * (3 / 2 * A + 9 / 4 * τ)) ≤ M * S ∧
    (k - j) * (6 * A + 6 * τ) + e * (2 * (j * S)) + 2 * (j * (3 / 2 * A + 9 / 4 * τ)) +
      6 * v * (2 * (j * S) + j * (3 / 2 * A + 9 / 4 * τ)) + 2 * v * (M * S) ≤ k * (6 * A + 6 * τ) := by
  have h1 : e * (2 * (j * S)) ≤ 2 * (j * A) := by
    have := mul_le_mul_of_nonneg_left (C.le_A he) (by linarith : 0 ≤ 2 * j)
    linarith
  have h2 := C.vMS
  have h3 := C.vS (k := j) (by linarith)
  have g0 : 0 ≤ j * (3 / 2 * A + 9 / 4 * τ) := mul_nonneg (by linarith) (by linarith [C.A0, C.τ0])
  have h4 := mul_le_mul_of_nonneg_right C.v1 g0
  have h5 := C.bound (k := k) (by linarith) hkM
  have h6 : A ≤ j * A := by nlinarith [C.A0]
  have h7 := mul_nonneg (by linarith : 0 ≤ j) C.τ0
  have h8 := C.A0
  constructor <;> linarith only [h1, h2, h3, h4, h5, h6, h7, h8]

end Consts

/-- Adding a motion of length `S`. -/
theorem comp_len {p m : Pose} {n S : ℝ} (hx : |p.x| ≤ n * S) (hy : |p.y| ≤ n * S) (hm : |m.x| + |m.y| ≤ S) :
    |(comp p m).x| ≤ (n + 1) * S ∧ |(comp p m).y| ≤ (n + 1) * S := by
  have a := rot_dot_le p.th m.x m.y 0
  have b := rot_dot_le p.th m.x m.y 1
  have c := abs_add_le p.x ((rot p.th 0).re * m.x + (rot p.th 0).im * m.y)
  have d := abs_add_le p.y ((rot p.th 1).re * m.x + (rot p.th 1).im * m.y)
  constructor
  · change |p.x + ((rot p.th 0).re * m.x + (rot p.th 0).im * m.y)| ≤ _; linarith
  · change |p.y + ((rot p.th 1).re * m.x + (rot p.th 1).im * m.y)| ≤ _; linarith

/-- Translation of a product, both coordinates.  The left factor is turned by `φ`, which differs from the exact
heading of `p` by at most `a`. -/
theorem product_shift {F : Fmt ℝ} {v ε a φ τ S f R : ℝ} (v0 : 0 ≤ v) (v1 : v ≤ 1 / 64)
    (hd : ∀ x, |F.d x - x| ≤ v * |x|) {s t : Trans} {p m : Pose} (hs : Turned ε s φ) (hε : ε ≤ 1 / 4)
    (hφ : |φ - p.th| ≤ a) (hsx : |s 0 2 - p.x| ≤ f) (hsy : |s 1 2 - p.y| ≤ f) (htx : |t 0 2 - m.x| ≤ τ)
    (hty : |t 1 2 - m.y| ≤ τ) (hm : |m.x| + |m.y| ≤ S) (hx : |(comp p m).x| ≤ R) (hy : |(comp p m).y| ≤ R)
    (hsmall : f + (ε + a) * S + 2 * τ + 6 * v * (S + τ) ≤ R) :
    |mulT F s t 0 2 - (comp p m).x| ≤ f + (ε + a) * S + 2 * τ + 6 * v * (S + τ) + 2 * v * R ∧
    |mulT F s t 1 2 - (comp p m).y| ≤ f + (ε + a) * S + 2 * τ + 6 * v * (S + τ) + 2 * v * R := by
  have key : ∀ i : Fin 2, ∀ q : ℝ, |s i.castSucc 2 - q| ≤ f →
      |q + ((rot p.th i).re * m.x + (rot p.th i).im * m.y)| ≤ R →
      |mulT F s t i.castSucc 2 - (q + ((rot p.th i).re * m.x + (rot p.th i).im * m.y))| ≤
        f + (ε + a) * S + 2 * τ + 6 * v * (S + τ) + 2 * v * R := by
    intro i q hq hl
    obtain ⟨e1, -, -, e2, e3⟩ := hs.entries hε i
    obtain ⟨c1, c2⟩ := rot_close φ p.th i
    have d1 := abs_sub_le (s i.castSucc 0) (rot φ i).re (rot p.th i).re
    have d2 := abs_sub_le (s i.castSucc 1) (rot φ i).im (rot p.th i).im
    rw [mulT_shift]
    exact shift_err v0 v1 hd (d1.trans (add_le_add e2 (c1.trans hφ))) (d2.trans (add_le_add e3 (c2.trans hφ))) e1
      htx hty hm hq hl hsmall
  exact ⟨key 0 p.x hsx hx, key 1 p.y hsy hy⟩

/-- One update without a new frame. -/
theorem stay_inv {F : Fmt ℝ} {v ω ρ S τ κ A : ℝ} {M : ℕ} (C : Consts v ω ρ S τ κ A M)
    (hd : ∀ x, |F.d x - x| ≤ v * |x|) {N j : ℕ} {s : Track} {o l : Pose} {t : Trans} {m : Pose}
    (h : Inv κ ρ S τ A N j s o l) (hN : N + 1 ≤ M) (ht : Near ω τ t m) (hm : |m.x| + |m.y| ≤ S) :
    Inv κ ρ S τ A (N + 1) (j + 1) ⟨s.origin, mulT F s.temp t, mulT F s.position t⟩ o (comp l m) := by
  have hNM : (N : ℝ) + 1 ≤ M := by exact_mod_cast hN
  have hjN : (j : ℝ) ≤ N := by exact_mod_cast h.le
  have hj0 : (0 : ℝ) ≤ j := Nat.cast_nonneg j
  have κ0 := C.κ0
  have ρ0 := C.ρ0
  have hl' := comp_len h.len_x h.len_y hm
  have hp' := comp_len h.far_x h.far_y hm
  have hN1S : ((N : ℝ) + 1) * S ≤ M * S := mul_le_mul_of_nonneg_right hNM C.S0
  have hj1S : ((j : ℝ) + 1) * S ≤ M * S := mul_le_mul_of_nonneg_right (by linarith) C.S0
  have jκ : (j : ℝ) * κ ≤ 1 / 4 := C.part (by linarith)
  have Nκ : (2 * (N : ℝ) + 2) * κ ≤ 1 / 4 := C.part (by linarith)
  have hT : Turned ((j + 1 : ℕ) * κ) (mulT F s.temp t) (comp l m).th :=
    (mulT_turned C.v0 C.v1 hd jκ C.hω h.temp ht.turned).mono (by push_cast; linarith [C.κω])
  have a1 : (j : ℝ) * κ + 0 ≤ (M + 1) * (14 * κ + ρ) := by
    have := mul_le_mul (by linarith : (j : ℝ) ≤ M + 1) (by linarith : κ ≤ 14 * κ + ρ) κ0 (by linarith)
    linarith
  obtain ⟨b1, b2⟩ := C.temp_arith hj0 (by linarith) a1
  obtain ⟨tx, ty⟩ := product_shift C.v0 C.v1 hd h.temp jκ (by simp : |l.th - l.th| ≤ 0) h.temp_x h.temp_y ht.x ht.y
    hm (hl'.1.trans hj1S) (hl'.2.trans hj1S) b1
  obtain ⟨φ, hφ, hP⟩ := h.position
  have a2 : (2 * (N : ℝ) + 2) * κ + N * (12 * κ + ρ) ≤ (M + 1) * (14 * κ + ρ) := by
    have := mul_le_mul_of_nonneg_right (by linarith : (N : ℝ) + 1 ≤ M + 1) (by linarith : 0 ≤ 14 * κ + ρ)
    linarith
  obtain ⟨c1, c2⟩ := C.position_arith (Nat.cast_nonneg N) hNM a2
  obtain ⟨px, py⟩ := product_shift C.v0 C.v1 hd hP Nκ hφ h.position_x h.position_y ht.x ht.y hm
    (hp'.1.trans hN1S) (hp'.2.trans hN1S) c1
  rw [comp_assoc] at px py hp'
  have e1 : ((N + 1 : ℕ) : ℝ) - ((j + 1 : ℕ) : ℝ) = N - j := by push_cast; ring
  have e2 : ((N + 1 : ℕ) : ℝ) = N + 1 := by push_cast; ring
  have e3 : ((j + 1 : ℕ) : ℝ) = j + 1 := by push_cast; ring
  refine ⟨by have := h.le; omega, hT, ?_, ?_, ?_, ?_, ?_, ?_, ?_, ⟨φ + m.th, ?_, ?_⟩, ?_, ?_, ?_, ?_⟩
  · rw [e3]; exact tx.trans b2
  · rw [e3]; exact ty.trans b2
  · rw [e3]; exact hl'.1
  · rw [e3]; exact hl'.2
  · rw [e1]; exact h.origin
  · rw [e1]; exact h.origin_x
  · rw [e1]; exact h.origin_y
  · rw [← comp_assoc]
    change |φ + m.th - ((comp o l).th + m.th)| ≤ _
    rw [add_sub_add_right_eq_sub, e2]
    linarith
  · refine (mulT_turned C.v0 C.v1 hd Nκ C.hω hP ht.turned).mono ?_
    rw [e2]
    linarith [C.κω]
  · rw [e2]; exact px.trans c2
  · rw [e2]; exact py.trans c2
  · rw [e2]; exact hp'.1
  · rw [e2]; exact hp'.2

/-- Start of a new frame after an update. -/
theorem frame_inv {F : Fmt ℝ} {ang : Trans → ℝ} {v ω ρ S τ κ A : ℝ} {M : ℕ} (C : Consts v ω ρ S τ κ A M)
    (hd : ∀ x, |F.d x - x| ≤ v * |x|) (hang : AngleOk ang ρ) {N j : ℕ} {s : Track} {o l : Pose}
    (h : Inv κ ρ S τ A N j s o l) (hj : 1 ≤ j) (hN : N ≤ M) :
    Inv κ ρ S τ A N 0 ⟨poseOf ang (mulT F (transOf F s.origin) s.temp), 1, mulT F (transOf F s.origin) s.temp⟩
      (comp o l) ⟨0, 0, 0⟩ := by
  have hNM : (N : ℝ) ≤ M := by exact_mod_cast hN
  have hjN : (j : ℝ) ≤ N := by exact_mod_cast h.le
  have hj1 : (1 : ℝ) ≤ j := by exact_mod_cast hj
  have κ0 := C.κ0
  have ρ0 := C.ρ0
  have v0 := C.v0
  have κv := C.κv
  have lam0 : 0 ≤ 12 * κ + ρ := by linarith
  have hNS : (N : ℝ) * S ≤ M * S := mul_le_mul_of_nonneg_right hNM C.S0
  have jκ : (j : ℝ) * κ ≤ 1 / 4 := C.part (by linarith)
  obtain ⟨φ, hφ, hr⟩ := h.origin
  have hO : Turned (2 * v) (transOf F s.origin) φ := by
    intro i
    rw [← congrFun hr i]
    exact transOf_turned C.v0 C.v1 hd s.origin i
  have v4 : 2 * v ≤ 1 / 4 := by linarith [C.v1]
  have hP : Turned ((2 * j + 2) * κ) (mulT F (transOf F s.origin) s.temp) (φ + l.th) :=
    (mulT_turned C.v0 C.v1 hd v4 jκ hO h.temp).mono (by linarith)
  have hth : |φ + l.th - (comp o l).th| ≤ (N - j) * (12 * κ + ρ) := by
    change |φ + l.th - (o.th + l.th)| ≤ _
    rw [add_sub_add_right_eq_sub]; exact hφ
  have a1 : 2 * v + (N - j) * (12 * κ + ρ) ≤ (M + 1) * (14 * κ + ρ) := by
    have h1 := mul_le_mul (by linarith : (N : ℝ) - j ≤ M) (by linarith : 12 * κ + ρ ≤ 14 * κ + ρ) lam0 (by linarith)
    linarith
  obtain ⟨b1, b2⟩ := C.frame_arith hj1 hjN hNM a1
  have hlen : |l.x| + |l.y| ≤ 2 * (j * S) := by linarith [h.len_x, h.len_y]
  obtain ⟨px, py⟩ := product_shift (p := o) C.v0 C.v1 hd hO v4 hφ h.origin_x h.origin_y h.temp_x h.temp_y hlen
    (h.far_x.trans hNS) (h.far_y.trans hNS) b1
  have px := px.trans b2
  have py := py.trans b2
  obtain ⟨k, hk⟩ := hang _ _ _ (C.part (by linarith)) hP
  have z := start_inv (κ := κ) (ρ := ρ) (S := S) (τ := τ) (A := A) κ0
  have e0 : ((N : ℝ) - (0 : ℕ)) = N := by push_cast; ring
  refine ⟨Nat.zero_le _, z.temp, z.temp_x, z.temp_y, z.len_x, z.len_y,
    ⟨ang (mulT F (transOf F s.origin) s.temp) - k * (2 * Real.pi), ?_, ?_⟩, ?_, ?_, ⟨φ + l.th, ?_, ?_⟩, ?_, ?_, ?_, ?_⟩
  · have e : 3 * ((2 * (j : ℝ) + 2) * κ) + ρ ≤ j * (12 * κ + ρ) := by
      have := mul_le_mul_of_nonneg_right hj1 κ0
      have := mul_le_mul_of_nonneg_right hj1 ρ0
      linarith
    have := abs_sub_le (ang (mulT F (transOf F s.origin) s.temp) - k * (2 * Real.pi)) (φ + l.th) (comp o l).th
    rw [sub_right_comm _ _ (φ + l.th)] at this
    rw [e0]
    linarith
  · funext i
    fin_cases i <;> simp [rot, poseOf, Real.cos_sub_int_mul_two_pi, Real.sin_sub_int_mul_two_pi]
  · rw [e0]; exact px
  · rw [e0]; exact py
  · rw [comp_zero]
    exact hth.trans (mul_le_mul_of_nonneg_right (by linarith) lam0)
  · exact hP.mono (mul_le_mul_of_nonneg_right (by linarith) κ0)
  · rw [comp_zero]; exact px
  · rw [comp_zero]; exact py
  · rw [comp_zero]; exact h.far_x
  · rw [comp_zero]; exact h.far_y

section
variable {F : Fmt ℝ} {ang : Trans → ℝ} {v ω ρ S τ : ℝ} {M : ℕ} (hE : Errors F ang v ω ρ)
  (hτ : 0 ≤ τ) (hS : 0 ≤ S)
  (hκ : (2 * M + 2) * kap v ω ≤ 1 / 4)
  (hσ : 6 * ((M + 1) * eta v ω ρ * S) + 6 * τ ≤ S)

include hE hτ hS hκ hσ

/-- One update. -/
theorem update_inv (far : Trans → Bool) {N j : ℕ} {s : Track} {o l : Pose} {t : Trans} {m : Pose}
    (h : Inv (kap v ω) ρ S τ ((M + 1) * eta v ω ρ * S) N j s o l) (hN : N + 1 ≤ M) (ht : Near ω τ t m)
    (hm : |m.x| + |m.y| ≤ S) :
    ∃ j' o' l', Inv (kap v ω) ρ S τ ((M + 1) * eta v ω ρ * S) (N + 1) j' (s.update F ang far t) o' l' ∧
      comp o' l' = comp (comp o l) m := by
  have C : Consts v ω ρ S τ (kap v ω) ((M + 1) * eta v ω ρ * S) M :=
    ⟨hE.v_nonneg, hE.v_le, hE.ρ_nonneg, hτ, hS, by have := hE.ω_nonneg; unfold kap; linarith, rfl,
      by exact_mod_cast (by omega : 1 ≤ M), rfl, hκ, hσ⟩
  have h1 := stay_inv C hE.double h hN ht hm
  unfold Track.update
  simp only
  split_ifs with hf
  · exact ⟨0, comp o (comp l m), ⟨0, 0, 0⟩, frame_inv C hE.double hE.angle h1 (by omega) (by omega),
      by rw [comp_zero, comp_assoc]⟩
  · exact ⟨j + 1, o, comp l m, h1, (comp_assoc _ _ _).symm⟩

theorem updates_inv (far : Trans → Bool) (incs : List (Trans × Pose)) (hM : incs.length ≤ M)
    (hin : ∀ x ∈ incs, Near ω τ x.1 x.2 ∧ |x.2.x| + |x.2.y| ≤ S) :
    ∃ j o l, Inv (kap v ω) ρ S τ ((M + 1) * eta v ω ρ * S) incs.length j
        (Track.start.updates F ang far (incs.map Prod.fst)) o l ∧
      comp o l = (incs.map Prod.snd).foldl comp ⟨0, 0, 0⟩ := by
  induction incs using List.reverseRecOn with
  | nil =>
    refine ⟨0, ⟨0, 0, 0⟩, ⟨0, 0, 0⟩, start_inv ?_, comp_zero _⟩
    have := hE.v_nonneg
    have := hE.ω_nonneg
    unfold kap; linarith
  | append_singleton xs x ih =>
    rw [List.length_append, List.length_singleton] at hM
    obtain ⟨j, o, l, h, hc⟩ := ih (by omega) fun y hy => hin y (by simp [hy])
    obtain ⟨h1, h2⟩ := hin x (by simp)
    obtain ⟨j', o', l', h', hc'⟩ := update_inv hE hτ hS hκ hσ far h (by omega) h1 h2
    refine ⟨j', o', l', ?_, ?_⟩
    · rw [List.map_append, List.length_append]
      unfold Track.updates at h' ⊢
      rw [List.foldl_append]
      exact h'
    · rw [hc', hc, List.map_append, List.foldl_append]
      rfl

end

/-- **C147**.  After `M` updates the pose estimate differs from the exact composition of the motions by at most
`(2·M + 1)·η` in the heading (up to whole turns) and `M·(6·(M + 1)·η·S + 6·τ)` in the position, wherever new
frames were started; `η = 28·ω + 210·v + ρ` collects the errors of one update: of the rotation in the motions
(`ω`), of `double` (`v`) and of reading the angle (`ρ`); `τ` is the error of the translation in the motions and
`S` their length. -/
theorem C147_partial {F : Fmt ℝ} {ang : Trans → ℝ} {v ω ρ S τ : ℝ} (hE : Errors F ang v ω ρ) (hτ : 0 ≤ τ)
    (hS : 0 ≤ S) (far : Trans → Bool) (incs : List (Trans × Pose))
    (hin : ∀ x ∈ incs, Near ω τ x.1 x.2 ∧ |x.2.x| + |x.2.y| ≤ S)
    (hκ : (2 * incs.length + 2) * (2 * ω + 15 * v) ≤ 1 / 4)
    (hσ : 6 * ((incs.length + 1) * (28 * ω + 210 * v + ρ) * S) + 6 * τ ≤ S) :
    let p := poseOf ang (Track.start.updates F ang far (incs.map Prod.fst)).position
    let exact := (incs.map Prod.snd).foldl comp ⟨0, 0, 0⟩
    |p.x - exact.x| ≤ incs.length * (6 * ((incs.length + 1) * (28 * ω + 210 * v + ρ) * S) + 6 * τ) ∧
    |p.y - exact.y| ≤ incs.length * (6 * ((incs.length + 1) * (28 * ω + 210 * v + ρ) * S) + 6 * τ) ∧
    ∃ k : ℤ, |p.th - exact.th - k * (2 * Real.pi)| ≤ (2 * incs.length + 1) * (28 * ω + 210 * v + ρ) := by
  have e : 28 * ω + 210 * v + ρ = eta v ω ρ := by unfold eta kap; ring
  have e2 : 2 * ω + 15 * v = kap v ω := rfl
  rw [e] at hσ ⊢
  rw [e2] at hκ
  obtain ⟨j, o, l, h, hc⟩ := updates_inv hE hτ hS hκ hσ far incs le_rfl hin
  intro p exact
  have h1 := h.position_x
  have h2 := h.position_y
  obtain ⟨φ, h3, h4⟩ := h.position
  rw [hc] at h1 h2 h3
  refine ⟨h1, h2, ?_⟩
  obtain ⟨k, hk⟩ := hE.angle _ _ _ hκ h4
  refine ⟨k, ?_⟩
  have κ0 : 0 ≤ kap v ω := by
    have := hE.v_nonneg
    have := hE.ω_nonneg
    unfold kap; linarith
  have hn : (0 : ℝ) ≤ incs.length := Nat.cast_nonneg _
  have l1 : 0 ≤ (incs.length : ℝ) * kap v ω := mul_nonneg hn κ0
  have l2 : 0 ≤ (incs.length : ℝ) * ρ := mul_nonneg hn hE.ρ_nonneg
  have := abs_sub_le (p.th - k * (2 * Real.pi)) φ exact.th
  rw [sub_right_comm p.th _ exact.th, sub_right_comm p.th _ φ] at this
  unfold eta
  have l3 : |p.th - φ - k * (2 * Real.pi)| ≤ 3 * ((2 * incs.length + 2) * kap v ω) + ρ := hk
  linarith

end Verif.Round
