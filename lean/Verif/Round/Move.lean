import Verif.Round.MapsProps

/- Property C146: moving the frame of a map many times. -/
namespace Verif.Round

open Verif Verif.Voxel Verif.NDTGrid

set_option linter.unusedSectionVars false

variable {K : Type v} [Field K] [LinearOrder K] [IsStrictOrderedRing K] [FloorRing K] {γ : Type u}

/-- In addition `double` has relative error at most `v`. -/
structure Double (F : Fmt K) (u v : K) : Prop extends Accurate F u where
  v_nonneg : 0 ≤ v
  v_le : v ≤ u
  exact : ∀ x, |F.d x - x| ≤ v * |x|

/-- Origin and means of the Gaussians have coordinates of at most `R`; the grid is not rotated. -/
structure Small (I : CellI K γ) (R : K) (n : NGrid K γ) : Prop where
  aligned : |n.th| ≤ 1 / 10000000
  ox : |n.ox| ≤ R
  oy : |n.oy| ≤ R
  mean : ∀ q c, content n.grid q = some c → I.gaussian c = true → |I.mean c 0| ≤ R ∧ |I.mean c 1| ≤ R

/-- Every Gaussian of `n'` is a Gaussian of `n`, a fixed number of squares away, displaced in the world by at
most `e` and within its square by at most `d` along each axis. -/
def Drift (I : CellI K γ) (e d : K) (n n' : NGrid K γ) : Prop :=
  ∃ mx my : ℤ, ∀ q' c', content n'.grid q' = some c' → I.gaussian c' = true →
    ∃ c, content n.grid (q'.1 + mx, q'.2 + my) = some c ∧ I.gaussian c = true ∧
      |(n'.ox + I.mean c' 0) - (n.ox + I.mean c 0)| ≤ e ∧
      |(n'.oy + I.mean c' 1) - (n.oy + I.mean c 1)| ≤ e ∧
      |(I.mean c' 0 - q'.1 * n.grid.cellSize) - (I.mean c 0 - (q'.1 + mx) * n.grid.cellSize)| ≤ d ∧
      |(I.mean c' 1 - q'.2 * n.grid.cellSize) - (I.mean c 1 - (q'.2 + my) * n.grid.cellSize)| ≤ d

theorem Drift.refl (I : CellI K γ) (n : NGrid K γ) : Drift I 0 0 n n := by
  refine ⟨0, 0, fun q' c' h hg => ⟨c', ?_, hg, ?_, ?_, ?_, ?_⟩⟩
  · simpa using h
  all_goals simp

theorem Drift.trans {I : CellI K γ} {e d e' d' : K} {a b c : NGrid K γ}
    (hcs : b.grid.cellSize = a.grid.cellSize) (h : Drift I e d a b) (h' : Drift I e' d' b c) :
    Drift I (e + e') (d + d') a c := by
  obtain ⟨mx, my, h⟩ := h
  obtain ⟨mx', my', h'⟩ := h'
  refine ⟨mx' + mx, my' + my, fun q' c' hc hg => ?_⟩
  obtain ⟨c1, k1, k2, k3, k4, k5, k6⟩ := h' q' c' hc hg
  obtain ⟨c2, l1, l2, l3, l4, l5, l6⟩ := h _ c1 k1 k2
  rw [hcs] at k5 k6
  push_cast at l5 l6 ⊢
  refine ⟨c2, by rw [← l1]; congr 2 <;> ring, l2, ?_, ?_, ?_, ?_⟩ <;>
    rw [abs_le] at * <;> constructor <;> linarith

theorem Drift.mono {I : CellI K γ} {e d e' d' : K} {a b : NGrid K γ} (he : e ≤ e') (hd : d ≤ d')
    (h : Drift I e d a b) : Drift I e' d' a b := by
  obtain ⟨mx, my, h⟩ := h
  refine ⟨mx, my, fun q' c' hc hg => ?_⟩
  obtain ⟨c, h1, h2, h3, h4, h5, h6⟩ := h q' c' hc hg
  exact ⟨c, h1, h2, h3.trans he, h4.trans he, h5.trans hd, h6.trans hd⟩

section
variable {F : Fmt K} {u v T cs : K} (hF : Double F u v) (hcs : 0 < cs) {t : K} (ht : |t| ≤ T)

include hF hcs ht

/-- The steps are not much longer than the motion. -/
theorem axisSteps_le : |(axisSteps F cs t : K) * cs| ≤ (1 + v) * T := by
  have hT : 0 ≤ T := (abs_nonneg t).trans ht
  have hv := hF.v_nonneg
  have hd : |F.d (t / cs)| ≤ (1 + v) * (T / cs) := by
    have h1 := hF.exact (t / cs)
    have h2 : |t / cs| ≤ T / cs := by
      rw [abs_div, abs_of_pos hcs]; exact div_le_div_of_nonneg_right ht hcs.le
    have h3 : |F.d (t / cs)| ≤ |F.d (t / cs) - t / cs| + |t / cs| := by
      have := abs_add_le (F.d (t / cs) - t / cs) (t / cs)
      rwa [sub_add_cancel] at this
    have h4 : v * |t / cs| ≤ v * (T / cs) := mul_le_mul_of_nonneg_left h2 hv
    linarith
  have key : |(axisSteps F cs t : K)| ≤ (1 + v) * (T / cs) := by
    unfold axisSteps
    split_ifs with h1 h2
    · have a := Int.le_ceil (F.d (t / cs))
      have b : (⌈F.d (t / cs)⌉ : K) ≤ 0 := by exact_mod_cast Int.ceil_le.2 (by push_cast; exact h2.le)
      rw [abs_of_neg h2] at hd
      rw [abs_of_nonpos b]; linarith
    · have a := Int.floor_le (F.d (t / cs))
      have b : (0 : K) ≤ ⌊F.d (t / cs)⌋ := by exact_mod_cast Int.floor_nonneg.2 (not_lt.1 h2)
      rw [abs_of_nonneg (not_lt.1 h2)] at hd
      rw [abs_of_nonneg b]; linarith
    · rw [Int.cast_zero, abs_zero]; exact (abs_nonneg _).trans hd
  rw [abs_mul, abs_of_pos hcs]
  have := mul_le_mul_of_nonneg_right key hcs.le
  have e : (1 + v) * (T / cs) * cs = (1 + v) * T := by field_simp
  rwa [e] at this

/-- The computed distance of the move against the number of squares. -/
theorem travelled_err : |travelled F cs t - axisSteps F cs t * cs| ≤ 3 * (u * T) := by
  have hT : 0 ≤ T := (abs_nonneg t).trans ht
  have hu := hF.nonneg
  have huT : 0 ≤ u * T := mul_nonneg hu hT
  have hv1 : v ≤ 1 / 64 := hF.v_le.trans hF.small
  have hm := axisSteps_le hF hcs ht
  unfold travelled
  split_ifs with h
  · set m : K := (axisSteps F cs t : K)
    have h0 : |F.s m * cs - m * cs| ≤ u * |m * cs| := by
      rw [← sub_mul, abs_mul, abs_mul, abs_of_pos hcs, ← mul_assoc]
      exact mul_le_mul_of_nonneg_right (hF.single m) hcs.le
    have h1 := hF.single (F.s m * cs)
    have h2 : |F.s m * cs| ≤ |F.s m * cs - m * cs| + |m * cs| := by
      have := abs_add_le (F.s m * cs - m * cs) (m * cs)
      rwa [sub_add_cancel] at this
    have h3 : |F.s (F.s m * cs) - m * cs| ≤ |F.s (F.s m * cs) - F.s m * cs| + |F.s m * cs - m * cs| := by
      have := abs_add_le (F.s (F.s m * cs) - F.s m * cs) (F.s m * cs - m * cs)
      rwa [sub_add_sub_cancel] at this
    have hb : |m * cs| ≤ 65 / 64 * T := hm.trans (mul_le_mul_of_nonneg_right (by linarith) hT)
    have h4 : u * |m * cs| ≤ u * (65 / 64 * T) := mul_le_mul_of_nonneg_left hb hu
    have h5 : |F.s m * cs| ≤ 5 / 4 * T := by
      have : u * (65 / 64 * T) ≤ 1 / 64 * (65 / 64 * T) :=
        mul_le_mul_of_nonneg_right hF.small (by linarith)
      linarith
    have h6 : u * |F.s m * cs| ≤ u * (5 / 4 * T) := mul_le_mul_of_nonneg_left h5 hu
    linarith
  · have : axisSteps F cs t = 0 := by unfold axisSteps; rw [if_neg h]
    rw [this]
    simpa using by linarith

theorem travelled_le : |travelled F cs t| ≤ 2 * T := by
  have hT : 0 ≤ T := (abs_nonneg t).trans ht
  have h1 := travelled_err hF hcs ht
  have h2 := axisSteps_le hF hcs ht
  have h3 : |travelled F cs t| ≤ |travelled F cs t - axisSteps F cs t * cs| + |axisSteps F cs t * cs| := by
    have := abs_add_le (travelled F cs t - axisSteps F cs t * cs) (axisSteps F cs t * cs)
    rwa [sub_add_cancel] at this
  have h4 : (1 + v) * T ≤ 65 / 64 * T :=
    mul_le_mul_of_nonneg_right (by linarith [hF.v_le.trans hF.small]) hT
  have h5 : u * T ≤ 1 / 64 * T := mul_le_mul_of_nonneg_right hF.small hT
  linarith

end

/-- One move. -/
theorem move_drift {F : Fmt K} {u v T R : K} (hF : Double F u v) {I : CellI K γ} (hI : Lawful I)
    {n : NGrid K γ} (hwf : WF n.grid) (hcs : 0 < n.grid.cellSize) (hn : Small I R n) (hTR : T ≤ R)
    {tx ty : K} (hx : |tx| ≤ T) (hy : |ty| ≤ T) :
    ∃ r n', move F I n tx ty = .ok (r, n') ∧ WF n'.grid ∧ n'.grid.cellSize = n.grid.cellSize ∧
      n'.th = n.th ∧ |(n'.ox + r.1) - (n.ox + tx)| ≤ 6 * (v * R) ∧ |(n'.oy + r.2) - (n.oy + ty)| ≤ 6 * (v * R) ∧
      Drift I (6 * (v * R)) (3 * (u * T) + 3 * (v * R)) n n' := by
  have hR : 0 ≤ R := (abs_nonneg _).trans hn.ox
  have hT : 0 ≤ T := (abs_nonneg _).trans hx
  have hvR : 0 ≤ v * R := mul_nonneg hF.v_nonneg hR
  have huT : 0 ≤ u * T := mul_nonneg hF.nonneg hT
  have dbl : ∀ x, |x| ≤ 3 * R → |F.d x - x| ≤ 3 * (v * R) := by
    intro x h
    have h1 := hF.exact x
    have h2 : v * |x| ≤ v * (3 * R) := mul_le_mul_of_nonneg_left h hF.v_nonneg
    linarith
  unfold move
  rw [if_neg (not_lt.2 hn.aligned), if_neg (by rintro ⟨h, -⟩; exact absurd h (ne_of_gt hcs))]
  simp only
  split_ifs with hc
  · obtain ⟨g, hg, hwf', hL, hR', hU, hD, hcs', -, hcont⟩ := translate_spec hwf
      (-axisSteps F n.grid.cellSize tx) (-axisSteps F n.grid.cellSize ty) true
    rw [hg, Res.bind_ok]
    simp only [if_true, Nat.add_zero] at hL hR' hU hD
    have hbox : SameBox n.grid g := ⟨hL, hR', hU, hD, hcs'⟩
    have tx1 := travelled_le hF hcs hx
    have ty1 := travelled_le hF hcs hy
    have tx2 := travelled_err hF hcs hx
    have ty2 := travelled_err hF hcs hy
    have ox1 : |F.d (n.ox + travelled F n.grid.cellSize tx) - (n.ox + travelled F n.grid.cellSize tx)|
        ≤ 3 * (v * R) := dbl _ ((abs_add_le _ _).trans (by linarith [hn.ox]))
    have oy1 : |F.d (n.oy + travelled F n.grid.cellSize ty) - (n.oy + travelled F n.grid.cellSize ty)|
        ≤ 3 * (v * R) := dbl _ ((abs_add_le _ _).trans (by linarith [hn.oy]))
    have hrest : ∀ t, |t| ≤ T → |rest F n.grid.cellSize t - (t - travelled F n.grid.cellSize t)| ≤ 3 * (v * R) := by
      intro t ht
      unfold rest
      split_ifs with hm
      · exact dbl _ ((abs_sub _ _).trans (by linarith [travelled_le hF hcs ht]))
      · unfold travelled
        rw [if_neg hm, sub_zero, sub_self, abs_zero]
        linarith
    have rx := hrest tx hx
    have ry := hrest ty hy
    refine ⟨_, _, rfl, wf_map _ hwf', hcs', rfl, ?_, ?_, axisSteps F n.grid.cellSize tx,
      axisSteps F n.grid.cellSize ty, ?_⟩
    · change |F.d (n.ox + travelled F n.grid.cellSize tx) + rest F n.grid.cellSize tx - (n.ox + tx)| ≤ _
      rw [abs_le] at ox1 rx ⊢
      constructor <;> linarith
    · change |F.d (n.oy + travelled F n.grid.cellSize ty) + rest F n.grid.cellSize ty - (n.oy + ty)| ≤ _
      rw [abs_le] at oy1 ry ⊢
      constructor <;> linarith
    · intro q' c' hq hgc
      change content { g with cells := g.cells.map (Option.map _) } q' = _ at hq
      have hin : InExtent g q' := by
        by_contra hni
        rw [content_map, content_of_not_in hni] at hq
        cases hq
      rw [content_map, hcont q' hin, sub_neg_eq_add, sub_neg_eq_add] at hq
      obtain ⟨c, hc1, rfl⟩ := Option.map_eq_some_iff.1 hq
      have hg' : I.gaussian c = true := by
        unfold shiftCell at hgc
        split_ifs at hgc with h
        · exact h
        · exact hgc
      have hmean : I.mean (shiftCell F I (travelled F n.grid.cellSize tx) (travelled F n.grid.cellSize ty) c) =
          ![F.d (I.mean c 0 + -travelled F n.grid.cellSize tx),
            F.d (I.mean c 1 + -travelled F n.grid.cellSize ty), F.d (I.mean c 2 + 0)] := by
        unfold shiftCell
        rw [if_pos hg', hI.mean_setMean]
      obtain ⟨b0, b1⟩ := hn.mean _ c hc1 hg'
      have m0 := dbl (I.mean c 0 + -travelled F n.grid.cellSize tx)
        ((abs_add_le _ _).trans (by rw [abs_neg]; linarith))
      have m1 := dbl (I.mean c 1 + -travelled F n.grid.cellSize ty)
        ((abs_add_le _ _).trans (by rw [abs_neg]; linarith))
      refine ⟨c, hc1, hg', ?_, ?_, ?_, ?_⟩ <;> rw [hmean] <;>
        simp only [Matrix.cons_val_zero, Matrix.cons_val_one, updateMeans]
      · rw [abs_le] at ox1 m0 ⊢
        constructor <;> linarith
      · rw [abs_le] at oy1 m1 ⊢
        constructor <;> linarith
      · rw [abs_le] at tx2 m0 ⊢
        constructor <;> linarith
      · rw [abs_le] at ty2 m1 ⊢
        constructor <;> linarith
  · refine ⟨(tx, ty), n, rfl, hwf, rfl, rfl, ?_, ?_, (Drift.refl I n).mono (by linarith) (by linarith)⟩ <;>
      simpa using hvR

/-- All states of the run are small. -/
def SmallRun (F : Fmt K) (I : CellI K γ) (R : K) (n : NGrid K γ) (ts : List (K × K)) : Prop :=
  ∀ pre, pre <+: ts → ∀ n', moveAll F I n pre = .ok n' → Small I R n'

/-- **C146** (within rounding): any number of moves.  If origin and means stay within `R` and no single motion
is longer than `T`, every Gaussian of the resulting map is one of the original map; it has moved in the world
by at most `6·v·R` per move and within its square by at most `3·u·T + 3·v·R` per move. -/
theorem C146_partial {F : Fmt K} {u v T R : K} (hF : Double F u v) {I : CellI K γ} (hI : Lawful I)
    (hTR : T ≤ R) : ∀ (ts : List (K × K)) {n : NGrid K γ}, WF n.grid → 0 < n.grid.cellSize →
    SmallRun F I R n ts → (∀ t ∈ ts, |t.1| ≤ T ∧ |t.2| ≤ T) →
    ∃ n', moveAll F I n ts = .ok n' ∧ WF n'.grid ∧ n'.grid.cellSize = n.grid.cellSize ∧
      Drift I (ts.length * (6 * (v * R))) (ts.length * (3 * (u * T) + 3 * (v * R))) n n' := by
  intro ts
  induction ts with
  | nil =>
    intro n hwf _ _ _
    exact ⟨n, rfl, hwf, rfl, by simpa using Drift.refl I n⟩
  | cons t ts ih =>
    intro n hwf hcs hsm hts
    have h0 : Small I R n := hsm [] (List.nil_prefix) n rfl
    obtain ⟨r, n1, h1, hwf1, hcs1, hth1, -, -, hd1⟩ := move_drift hF hI hwf hcs h0 hTR
      (hts t List.mem_cons_self).1 (hts t List.mem_cons_self).2
    obtain ⟨n2, h2, hwf2, hcs2, hd2⟩ := ih hwf1 (hcs1 ▸ hcs) (by
      intro pre hpre n' hn'
      refine hsm (t :: pre) (List.cons_prefix_cons.2 ⟨rfl, hpre⟩) n' ?_
      simp only [moveAll, h1, Res.bind_ok]
      exact hn') (fun x hx => hts x (List.mem_cons_of_mem _ hx))
    refine ⟨n2, by simp only [moveAll, h1, Res.bind_ok]; exact h2, hwf2, hcs2.trans hcs1, ?_⟩
    refine (hd1.trans hcs1 hd2).mono ?_ ?_ <;> push_cast [List.length_cons] <;> linarith

/-- **C146**, no motion is lost by a move: new origin and remaining motion add up to the old origin and the
motion, up to `6·v·R`. -/
theorem C146_motion_partial {F : Fmt K} {u v T R : K} (hF : Double F u v) {I : CellI K γ} (hI : Lawful I)
    {n : NGrid K γ} (hwf : WF n.grid) (hcs : 0 < n.grid.cellSize) (hn : Small I R n) (hTR : T ≤ R)
    {tx ty : K} (hx : |tx| ≤ T) (hy : |ty| ≤ T) :
    ∃ r n', move F I n tx ty = .ok (r, n') ∧ |(n'.ox + r.1) - (n.ox + tx)| ≤ 6 * (v * R) ∧
      |(n'.oy + r.2) - (n.oy + ty)| ≤ 6 * (v * R) := by
  obtain ⟨r, n', h, -, -, -, h1, h2, -⟩ := move_drift hF hI hwf hcs hn hTR hx hy
  exact ⟨r, n', h, h1, h2⟩

/-- **C146**, squares: if the means keep a distance from the borders of their squares that exceeds the drift of
the whole sequence, every Gaussian is still stored in the square that contains its mean. -/
theorem C146_squares_partial {F : Fmt K} {u v T R : K} (hF : Double F u v) {I : CellI K γ} (hI : Lawful I)
    (hTR : T ≤ R) (ts : List (K × K)) {n : NGrid K γ} (hwf : WF n.grid) (hcs : 0 < n.grid.cellSize)
    (hsm : SmallRun F I R n ts) (hts : ∀ t ∈ ts, |t.1| ≤ T ∧ |t.2| ≤ T)
    (hoff : ∀ q c, content n.grid q = some c → I.gaussian c = true →
      |I.mean c 0 - q.1 * n.grid.cellSize| + ts.length * (3 * (u * T) + 3 * (v * R)) < n.grid.cellSize / 2 ∧
      |I.mean c 1 - q.2 * n.grid.cellSize| + ts.length * (3 * (u * T) + 3 * (v * R)) < n.grid.cellSize / 2) :
    ∃ n', moveAll F I n ts = .ok n' ∧
      ∀ q c, content n'.grid q = some c → I.gaussian c = true →
        squareOf n'.grid.cellSize (head (I.mean c)) = q := by
  obtain ⟨n', h, -, hcs', mx, my, hd⟩ := C146_partial hF hI hTR ts hwf hcs hsm hts
  refine ⟨n', h, fun q c hc hg => ?_⟩
  obtain ⟨c0, k1, k2, -, -, k3, k4⟩ := hd q c hc hg
  obtain ⟨o1, o2⟩ := hoff _ c0 k1 k2
  rw [hcs', squareOf_iff hcs]
  push_cast at o1 o2
  have h1 := abs_le.1 k3
  have h2 := abs_le.1 k4
  have h3 := neg_abs_le (I.mean c0 0 - (q.1 + mx) * n.grid.cellSize)
  have h4 := le_abs_self (I.mean c0 0 - (q.1 + mx) * n.grid.cellSize)
  have h5 := neg_abs_le (I.mean c0 1 - (q.2 + my) * n.grid.cellSize)
  have h6 := le_abs_self (I.mean c0 1 - (q.2 + my) * n.grid.cellSize)
  unfold head
  simp only
  refine ⟨?_, ?_, ?_, ?_⟩ <;> linarith

/-- `float` and `double` as a pair. -/
theorem ieee_double : Double (ieee : Fmt K) (2⁻¹ ^ 24) (2⁻¹ ^ 53) where
  toAccurate := ieee_accurate
  v_nonneg := by positivity
  v_le := pow_le_pow_of_le_one (by positivity) (by norm_num) (by norm_num)
  exact := binary_err 53

/-- The `float` next to 0.3. -/
def cs3 : ℚ := 5033165 / 2 ^ 24

/-- Negation of exact conservation: squares of side 0.3, a Gaussian in the centre of a square, and a move by
seven squares.  Seven times 0.3 is rounded, so afterwards the mean is off the centre of its square. -/
theorem C146_false : binary 24 (3 / 10 : ℚ) = cs3 ∧
    ((NDTGrid.mergeCells toyI (NDTGrid.init toyI 0 0 0 cs3) [toy (7 * cs3) 0 3] true).bind fun n =>
      (move ieee toyI n (7 * cs3) 0).map fun x => (x.1, x.2.grid.cells.map (Option.map Toy.x), x.2.ox)) =
      .ok ((-1 / 2 ^ 24, 0), [some (-1 / 2 ^ 24), none, none, none, none, none, none, none],
        7 * cs3 + 1 / 2 ^ 24) := by
  constructor <;> decide +kernel

end Verif.Round
