import Mathlib.Algebra.Order.Group.MinMax
import Verif.Round.Move

/- Property C144 for rays. -/
namespace Verif.Round

open Verif Verif.Voxel Verif.NDTGrid

set_option linter.unusedSectionVars false

variable {K : Type v} [Field K] [LinearOrder K] [IsStrictOrderedRing K] [FloorRing K] {α : Type u}

/-- Extent of a ray along its longer axis in squares. -/
def extent (cs : K) (a b : K × K) : K := max (|b.1 - a.1| / cs) (|b.2 - a.2| / cs)

/-- The `j`-th sample of a ray: steps of half a square along the longer axis. -/
def sample (cs : K) (a b : K × K) (j : ℕ) : K × K :=
  (a.1 + j * ((b.1 - a.1) / extent cs a b * (1 / 2)), a.2 + j * ((b.2 - a.2) / extent cs a b * (1 / 2)))

/-- The position is on or beyond the border of the grid. -/
def Out (g : Grid K α) (p : K × K) : Prop :=
  p.1 ≥ (g.right : K) * g.cellSize + g.half ∨ p.1 ≤ -(g.left : K) * g.cellSize - g.half ∨
  p.2 ≥ (g.up : K) * g.cellSize + g.half ∨ p.2 ≤ -(g.down : K) * g.cellSize - g.half

/-- Start and end of the ray are in the range and the start is safe; all samples that the loop makes, up to the
first one outside the grid, are safe; and the extent of the ray is not close to a whole number of squares. -/
structure SafeRay (η R : K) (g : Grid K α) (a b : K × K) : Prop where
  start : Safe η R g.cellSize a
  stop : |b.1| ≤ R ∧ |b.2| ≤ R
  samples : ∀ N, rayBound (extent g.cellSize a b) = .ok N → ∀ j ≤ N,
    (∀ i, 1 ≤ i → i < j → ¬ Out g (sample g.cellSize a b i)) → Safe η R g.cellSize (sample g.cellSize a b j)
  whole : ∀ m : ℤ, η / g.cellSize < |extent g.cellSize a b - m|

theorem abs_le_add {x y e : K} (h : |x - y| ≤ e) : |x| ≤ |y| + e := by
  have := abs_add_le (x - y) y
  rw [sub_add_cancel] at this
  linarith

section
variable {F : Fmt K} {u v cs : K} (hF : Double F u v) (hcs : 0 < cs)

include hF hcs

theorem rayLength_err (a b : K) : |rayLength F cs a b - |b - a| / cs| ≤ 3 * (v * (|b - a| / cs)) := by
  have hv := hF.v_nonneg
  have hv1 : v ≤ 1 / 64 := hF.v_le.trans hF.small
  unfold rayLength
  set x := b - a
  have hx := abs_nonneg x
  have hxc : 0 ≤ |x| / cs := div_nonneg hx hcs.le
  have h1 := hF.exact x
  have h2 : |(|F.d x| / cs - |x| / cs)| ≤ v * (|x| / cs) := by
    rw [← sub_div, abs_div, abs_of_pos hcs, ← mul_div_assoc]
    exact div_le_div_of_nonneg_right ((abs_abs_sub_abs_le _ _).trans h1) hcs.le
  have h3 := hF.exact (|F.d x| / cs)
  have h4 : |(|F.d x| / cs)| ≤ 2 * (|x| / cs) := by
    have := abs_le_add h2
    rw [abs_of_nonneg hxc] at this
    have : v * (|x| / cs) ≤ 1 * (|x| / cs) := mul_le_mul_of_nonneg_right (by linarith) hxc
    linarith
  have h5 : v * |(|F.d x| / cs)| ≤ v * (2 * (|x| / cs)) := mul_le_mul_of_nonneg_left h4 hv
  have h6 := abs_add_le (F.d (|F.d x| / cs) - |F.d x| / cs) (|F.d x| / cs - |x| / cs)
  rw [sub_add_sub_cancel] at h6
  linarith

theorem length_err (a b : K × K) :
    |max (rayLength F cs a.1 b.1) (rayLength F cs a.2 b.2) - extent cs a b| ≤ 3 * (v * extent cs a b) := by
  have hv := hF.v_nonneg
  have h1 := rayLength_err hF hcs a.1 b.1
  have h2 := rayLength_err hF hcs a.2 b.2
  have e1 : |b.1 - a.1| / cs ≤ extent cs a b := le_max_left _ _
  have e2 : |b.2 - a.2| / cs ≤ extent cs a b := le_max_right _ _
  refine (abs_max_sub_max_le_max _ _ _ _).trans (max_le (h1.trans ?_) (h2.trans ?_))
  · have := mul_le_mul_of_nonneg_left e1 hv
    linarith
  · have := mul_le_mul_of_nonneg_left e2 hv
    linarith

theorem rayDelta_err {L LL a b : K} (hL : 0 < L) (hab : |b - a| / cs ≤ L) (hLL : |LL - L| ≤ 3 * (v * L)) :
    |rayDelta F LL a b - (b - a) / L * (1 / 2)| ≤ 6 * (v * cs) := by
  have hv := hF.v_nonneg
  have hv1 : v ≤ 1 / 64 := hF.v_le.trans hF.small
  unfold rayDelta
  set x := b - a
  have hvL : v * L ≤ 1 / 64 * L := mul_le_mul_of_nonneg_right hv1 hL.le
  have hvc : 0 ≤ v * cs := mul_nonneg hv hcs.le
  have hLL1 : 15 / 16 * L ≤ LL := by have := (abs_le.1 hLL).1; linarith
  have hLL0 : 0 < LL := by linarith
  have hx : |x| ≤ L * cs := by rwa [div_le_iff₀ hcs] at hab
  have h1 : |F.d x - x| ≤ v * (L * cs) := (hF.exact x).trans (mul_le_mul_of_nonneg_left hx hv)
  have hq : |x / L| ≤ cs := by
    rw [abs_div, abs_of_pos hL, div_le_iff₀ hL]; linarith
  have h2 : |F.d x / LL - x / L| ≤ 5 * (v * cs) := by
    have e : F.d x / LL - x / L = ((F.d x - x) * L - x * (LL - L)) / (LL * L) := by
      field_simp; ring
    rw [e, abs_div, abs_of_pos (mul_pos hLL0 hL), div_le_iff₀ (mul_pos hLL0 hL)]
    have k1 : |(F.d x - x) * L| ≤ v * (L * cs) * L := by
      rw [abs_mul, abs_of_pos hL]; exact mul_le_mul_of_nonneg_right h1 hL.le
    have k2 : |x * (LL - L)| ≤ L * cs * (3 * (v * L)) := by
      rw [abs_mul]; exact mul_le_mul hx hLL (abs_nonneg _) (mul_nonneg hL.le hcs.le)
    have k3 := abs_sub ((F.d x - x) * L) (x * (LL - L))
    have k4 : 5 * (v * cs) * (15 / 16 * L * L) ≤ 5 * (v * cs) * (LL * L) :=
      mul_le_mul_of_nonneg_left (mul_le_mul_of_nonneg_right hLL1 hL.le) (by linarith)
    have k5 : 0 ≤ v * cs * (L * L) := mul_nonneg hvc (mul_nonneg hL.le hL.le)
    linarith
  have h3 := hF.exact (F.d x / LL)
  have hvc2 : v * cs ≤ 1 / 64 * cs := mul_le_mul_of_nonneg_right hv1 hcs.le
  have h4 : |F.d x / LL| ≤ 2 * cs := by have := abs_le_add h2; linarith
  have h5 : v * |F.d x / LL| ≤ v * (2 * cs) := mul_le_mul_of_nonneg_left h4 hv
  have h6 : |F.d (F.d x / LL) - x / L| ≤ 7 * (v * cs) := by
    have := abs_add_le (F.d (F.d x / LL) - F.d x / LL) (F.d x / LL - x / L)
    rw [sub_add_sub_cancel] at this
    linarith
  have h7 : |F.d (F.d x / LL) * (1 / 2) - x / L * (1 / 2)| ≤ 7 / 2 * (v * cs) := by
    rw [← sub_mul, abs_mul, abs_of_pos (by norm_num : (0 : K) < 1 / 2)]
    linarith
  have h8 := hF.exact (F.d (F.d x / LL) * (1 / 2))
  have h9 : |F.d (F.d x / LL) * (1 / 2)| ≤ 2 * cs := by
    have h := abs_le_add h7
    have : |x / L * (1 / 2)| ≤ cs := by
      rw [abs_mul, abs_of_pos (by norm_num : (0 : K) < 1 / 2)]; linarith [abs_nonneg (x / L)]
    linarith
  have h10 : v * |F.d (F.d x / LL) * (1 / 2)| ≤ v * (2 * cs) := mul_le_mul_of_nonneg_left h9 hv
  have h11 := abs_add_le (F.d (F.d (F.d x / LL) * (1 / 2)) - F.d (F.d x / LL) * (1 / 2))
    (F.d (F.d x / LL) * (1 / 2) - x / L * (1 / 2))
  rw [sub_add_sub_cancel] at h11
  linarith

end

theorem extent_pos {cs : K} {a b : K × K} (h : extent cs a b ≠ 0) (hcs : 0 < cs) : 0 < extent cs a b := by
  have : 0 ≤ extent cs a b := (div_nonneg (abs_nonneg _) hcs.le).trans (le_max_left _ _)
  exact lt_of_le_of_ne this (Ne.symm h)

/-- A sample that is in range: the number of steps is limited. -/
theorem steps_le {η R cs : K} (hcs : 0 < cs) {a b : K × K} (hext : extent cs a b ≠ 0) (ha : Safe η R cs a)
    {j : ℕ} (hj : Safe η R cs (sample cs a b j)) : (j : K) * cs ≤ 4 * R := by
  have hL := extent_pos hext hcs
  have hj0 : (0 : K) ≤ j := Nat.cast_nonneg j
  have key : ∀ {x y : K}, |y - x| / cs = extent cs a b → |x| + cs ≤ R →
      |x + j * ((y - x) / extent cs a b * (1 / 2))| + cs ≤ R → (j : K) * cs ≤ 4 * R := by
    intro x y he hx hy
    have h1 : |(j : K) * ((y - x) / extent cs a b * (1 / 2))| = j * cs * (1 / 2) := by
      rw [abs_mul, abs_mul, abs_div, abs_of_pos hL, abs_of_nonneg hj0,
        abs_of_pos (by norm_num : (0 : K) < 1 / 2), ← he]
      have : |y - x| ≠ 0 := fun h => by rw [h, zero_div] at he; exact hext he.symm
      field_simp
    have h2 := abs_add_le (x + j * ((y - x) / extent cs a b * (1 / 2))) (-x)
    rw [abs_neg, show x + j * ((y - x) / extent cs a b * (1 / 2)) + -x =
      j * ((y - x) / extent cs a b * (1 / 2)) by ring, h1] at h2
    linarith
  rcases max_choice (|b.1 - a.1| / cs) (|b.2 - a.2| / cs) with h | h
  · exact key h.symm ha.x_le hj.x_le
  · exact key h.symm ha.y_le hj.y_le

/-- One step of the walk. -/
theorem walk_step {F : Fmt K} {u v R cs : K} (hF : Double F u v) (hcs : 0 < cs) (hcR : cs ≤ R)
    {p p' δ δ' : K} {k : ℕ} (hp : |p' - p| ≤ k * (8 * (v * R))) (hδ : |δ' - δ| ≤ 6 * (v * cs))
    (hk : ((k + 1 : ℕ) : K) * (8 * (v * R)) ≤ R / 2) (hr : |p + δ| ≤ R) :
    |F.d (p' + δ') - (p + δ)| ≤ (k + 1 : ℕ) * (8 * (v * R)) := by
  have hv := hF.v_nonneg
  have hvR : v * cs ≤ v * R := mul_le_mul_of_nonneg_left hcR hv
  have hvc : 0 ≤ v * cs := mul_nonneg hv hcs.le
  have h1 : |p' + δ' - (p + δ)| ≤ k * (8 * (v * R)) + 6 * (v * R) := by
    have := abs_add_le (p' - p) (δ' - δ)
    rw [show p' + δ' - (p + δ) = p' - p + (δ' - δ) by ring]
    linarith
  have h2 := hF.exact (p' + δ')
  push_cast at hk ⊢
  have h3 : |p' + δ'| ≤ 2 * R := by have := abs_le_add h1; linarith
  have h4 : v * |p' + δ'| ≤ v * (2 * R) := mul_le_mul_of_nonneg_left h3 hv
  have h5 := abs_add_le (F.d (p' + δ') - (p' + δ')) (p' + δ' - (p + δ))
  rw [sub_add_sub_cancel] at h5
  linarith

/-- The loop. -/
theorem rayLoop_eq {F : Fmt K} {u v R : K} (hF : Double F u v) {g : Grid K α} (hcs : 0 < g.cellSize)
    (hcR : g.cellSize ≤ R) (hg : InRange R g) (hvu : 8 * (v * R) ≤ u * g.cellSize) {a b : K × K}
    (hray : SafeRay (32 * (u * R)) R g a b) (ops : CellOps α) {δ' : K × K}
    (hx : |δ'.1 - (b.1 - a.1) / extent g.cellSize a b * (1 / 2)| ≤ 6 * (v * g.cellSize))
    (hy : |δ'.2 - (b.2 - a.2) / extent g.cellSize a b * (1 / 2)| ≤ 6 * (v * g.cellSize))
    {N : ℕ} (hN : rayBound (extent g.cellSize a b) = .ok N) :
    ∀ (n k : ℕ) (p' : K × K) (old cur : ℕ) (s : RayState α), k + n = N →
      (∀ i, 1 ≤ i → i ≤ k → ¬ Out g (sample g.cellSize a b i)) →
      |p'.1 - (sample g.cellSize a b k).1| ≤ k * (8 * (v * R)) →
      |p'.2 - (sample g.cellSize a b k).2| ≤ k * (8 * (v * R)) →
      rayLoop F ops g δ' n p' old cur s =
        Voxel.rayLoop ops g ((b.1 - a.1) / extent g.cellSize a b * (1 / 2),
          (b.2 - a.2) / extent g.cellSize a b * (1 / 2)) n (sample g.cellSize a b k) old cur s := by
  have hR : 0 ≤ R := hcs.le.trans hcR
  have huR : 0 ≤ u * R := mul_nonneg hF.nonneg hR
  have hext : extent g.cellSize a b ≠ 0 := by
    intro h
    have := hray.whole 0
    rw [h, Int.cast_zero, sub_zero, abs_zero] at this
    have : 0 ≤ 32 * (u * R) / g.cellSize := div_nonneg (by linarith) hcs.le
    linarith
  intro n
  induction n with
  | zero => intros; rfl
  | succ n ih =>
    intro k p' old cur s hkn hin hpx hpy
    have hsafe : Safe (32 * (u * R)) R g.cellSize (sample g.cellSize a b (k + 1)) :=
      hray.samples N hN (k + 1) (by omega) (fun i hi hi' => hin i hi (by omega))
    have hstep := steps_le hcs hext hray.start hsafe
    -- the accumulated error is small
    have hacc : ((k + 1 : ℕ) : K) * (8 * (v * R)) ≤ 4 * (u * R) := by
      have h1 : ((k + 1 : ℕ) : K) * (8 * (v * R)) ≤ (k + 1 : ℕ) * (u * g.cellSize) :=
        mul_le_mul_of_nonneg_left hvu (Nat.cast_nonneg _)
      have h2 : u * (((k + 1 : ℕ) : K) * g.cellSize) ≤ u * (4 * R) :=
        mul_le_mul_of_nonneg_left hstep hF.nonneg
      linarith
    have hsmall : u * R ≤ 1 / 64 * R := mul_le_mul_of_nonneg_right hF.small hR
    have hnext : sample g.cellSize a b (k + 1) =
        ((sample g.cellSize a b k).1 + (b.1 - a.1) / extent g.cellSize a b * (1 / 2),
         (sample g.cellSize a b k).2 + (b.2 - a.2) / extent g.cellSize a b * (1 / 2)) := by
      unfold sample
      push_cast
      simp only [Prod.mk.injEq]
      constructor <;> ring
    have hX : |F.d (p'.1 + δ'.1) - (sample g.cellSize a b (k + 1)).1| ≤ (k + 1 : ℕ) * (8 * (v * R)) := by
      have := hsafe.x_le
      rw [hnext] at this ⊢
      exact walk_step hF hcs hcR hpx hx (by linarith) (by simp only at this; linarith)
    have hY : |F.d (p'.2 + δ'.2) - (sample g.cellSize a b (k + 1)).2| ≤ (k + 1 : ℕ) * (8 * (v * R)) := by
      have := hsafe.y_le
      rw [hnext] at this ⊢
      exact walk_step hF hcs hcR hpy hy (by linarith) (by simp only at this; linarith)
    have b1 := lowD_err hF.toAccurate hcs hR hg.left
    have b2 := boundS_err hF.toAccurate hcs hR hg.right
    have b3 := lowD_err hF.toAccurate hcs hR hg.down
    have b4 := boundS_err hF.toAccurate hcs hR hg.up
    have f1 := far_below hF.toAccurate hcs hsafe.offX g.left
    have f2 := far_above hF.toAccurate hcs hsafe.offX g.right
    have f3 := far_below hF.toAccurate hcs hsafe.offY g.down
    have f4 := far_above hF.toAccurate hcs hsafe.offY g.up
    push_cast at f2 f4
    have e1 : F.d (p'.1 + δ'.1) ≤ lowD F g.cellSize g.left ↔
        (sample g.cellSize a b (k + 1)).1 ≤ -(g.left : K) * g.cellSize - g.half :=
      le_of_far hX b1 (by unfold Grid.half; linarith)
    have e2 : F.d (p'.1 + δ'.1) ≥ boundS F g.cellSize g.right ↔
        (sample g.cellSize a b (k + 1)).1 ≥ (g.right : K) * g.cellSize + g.half :=
      le_of_far b2 hX (by rw [abs_sub_comm]; unfold Grid.half; linarith)
    have e3 : F.d (p'.2 + δ'.2) ≤ lowD F g.cellSize g.down ↔
        (sample g.cellSize a b (k + 1)).2 ≤ -(g.down : K) * g.cellSize - g.half :=
      le_of_far hY b3 (by unfold Grid.half; linarith)
    have e4 : F.d (p'.2 + δ'.2) ≥ boundS F g.cellSize g.up ↔
        (sample g.cellSize a b (k + 1)).2 ≥ (g.up : K) * g.cellSize + g.half :=
      le_of_far b4 hY (by rw [abs_sub_comm]; unfold Grid.half; linarith)
    simp only [rayLoop, Voxel.rayLoop]
    rw [← hnext]
    cases hv : (if cur ≠ old then rayVisit ops s cur else .ok s) with
    | throw e => rfl
    | ub e => rfl
    | ok s' =>
      simp only [Res.bind_ok]
      by_cases hout : Out g (sample g.cellSize a b (k + 1))
      · have hout' := hout
        rw [hnext] at hout'
        refine (if_pos ?_).trans (if_pos hout').symm
        rw [e1, e2, e3, e4]; exact hout
      · have hout' := hout
        rw [hnext] at hout'
        refine Eq.trans (if_neg ?_) (Eq.trans ?_ (if_neg hout').symm)
        · rw [e1, e2, e3, e4]; exact hout
        rw [calcIndex_eq (p := sample g.cellSize a b (k + 1)) hF.toAccurate hcs hg hsafe
          (p' := (F.d (p'.1 + δ'.1), F.d (p'.2 + δ'.2))) (by simp only; linarith) (by simp only; linarith)]
        cases hidx : Voxel.calcIndex g (sample g.cellSize a b (k + 1)) with
        | throw e => rfl
        | ub e => rfl
        | ok idx =>
          simp only [Res.bind_ok]
          refine ih (k + 1) _ cur idx s' (by omega) ?_ hX hY
          intro i hi hi'
          rcases Nat.lt_or_ge i (k + 1) with h | h
          · exact hin i hi (by omega)
          · obtain rfl : i = k + 1 := by omega
            exact hout

/-- **C144**, rays: along a ray whose samples are further than `32·u·R` from the borders and whose extent is not
within `32·u·R` of a whole number of squares, the rounded code visits the same squares in the same order, and
creates the same cells, as in exact arithmetic.  (The number of squares per range must not be so large that the
rounding of `double` adds up to that of `float`: `8·v·R ≤ u·cell size`.) -/
theorem C144_ray_partial {F : Fmt K} {u v R : K} (hF : Double F u v) {g : Grid K α} (hcs : 0 < g.cellSize)
    (hg : InRange R g) (hvu : 8 * (v * R) ≤ u * g.cellSize) {a b : K × K}
    (hray : SafeRay (32 * (u * R)) R g a b) (ops : CellOps α) :
    rayTrace F ops g a b = Voxel.rayTrace ops g a b := by
  have hcR : g.cellSize ≤ R := by have := hray.start.x_le; have := abs_nonneg a.1; linarith
  have hR : 0 ≤ R := hcs.le.trans hcR
  have huR : 0 ≤ u * R := mul_nonneg hF.nonneg hR
  have hv := hF.v_nonneg
  have hext : extent g.cellSize a b ≠ 0 := by
    intro h
    have := hray.whole 0
    rw [h, Int.cast_zero, sub_zero, abs_zero] at this
    have : 0 ≤ 32 * (u * R) / g.cellSize := div_nonneg (by linarith) hcs.le
    linarith
  have hL := extent_pos hext hcs
  have herr := length_err hF hcs a b
  have hLR : extent g.cellSize a b ≤ 2 * R / g.cellSize := by
    have := abs_le.1 hray.stop.1
    have := abs_le.1 hray.stop.2
    have h1 := hray.start.x_le
    have h2 := hray.start.y_le
    have := abs_le.1 (show |a.1| ≤ R by linarith)
    have := abs_le.1 (show |a.2| ≤ R by linarith)
    unfold extent
    refine max_le ?_ ?_ <;> refine div_le_div_of_nonneg_right ?_ hcs.le <;> rw [abs_le] <;>
      constructor <;> linarith
  have hvL : 3 * (v * extent g.cellSize a b) ≤ 32 * (u * R) / g.cellSize := by
    have h1 : v * extent g.cellSize a b ≤ u * (2 * R / g.cellSize) :=
      mul_le_mul hF.v_le hLR hL.le hF.nonneg
    have h2 : 32 * (u * R) / g.cellSize = 16 * (u * (2 * R / g.cellSize)) := by ring
    have h3 : 0 ≤ u * (2 * R / g.cellSize) := mul_nonneg hF.nonneg (div_nonneg (by linarith) hcs.le)
    rw [h2]; linarith
  have hvs : v * extent g.cellSize a b ≤ 1 / 64 * extent g.cellSize a b :=
    mul_le_mul_of_nonneg_right (hF.v_le.trans hF.small) hL.le
  have hpos : max (rayLength F g.cellSize a.1 b.1) (rayLength F g.cellSize a.2 b.2) ≠ 0 := by
    intro h
    rw [h] at herr
    have := (abs_le.1 herr).1
    linarith
  have hfloor : ⌊max (rayLength F g.cellSize a.1 b.1) (rayLength F g.cellSize a.2 b.2)⌋ =
      ⌊extent g.cellSize a b⌋ := floor_of_far herr fun m => lt_of_le_of_lt hvL (hray.whole m)
  have hbound : rayBound (max (rayLength F g.cellSize a.1 b.1) (rayLength F g.cellSize a.2 b.2)) =
      rayBound (extent g.cellSize a b) := by unfold rayBound; rw [hfloor]
  unfold rayTrace Voxel.rayTrace
  simp only
  rw [isInside_eq hF.toAccurate hcs hg hray.start, hbound,
    calcIndex_eq hF.toAccurate hcs hg hray.start (zero_err hF.toAccurate hR _) (zero_err hF.toAccurate hR _)]
  by_cases hi : (!Voxel.isInside g a) = true
  · rw [if_pos hi, if_pos hi]
  rw [if_neg hi, if_neg hi, if_neg hcs.ne', if_neg hcs.ne']
  cases Voxel.calcIndex g a with
  | throw e => rfl
  | ub e => rfl
  | ok idx =>
    simp only [Res.bind_ok]
    cases rayVisit ops ⟨g.cells, []⟩ idx with
    | throw e => rfl
    | ub e => rfl
    | ok s =>
      simp only [Res.bind_ok]
      rw [if_neg hpos, if_neg (show max (|b.1 - a.1| / g.cellSize) (|b.2 - a.2| / g.cellSize) ≠ 0 from hext)]
      change _ = (rayBound (extent g.cellSize a b)).bind _
      cases hN : rayBound (extent g.cellSize a b) with
      | throw e => rfl
      | ub e => rfl
      | ok N =>
        simp only [Res.bind_ok]
        have hs0 : sample g.cellSize a b 0 = a := by unfold sample; simp
        have := rayLoop_eq hF hcs hcR hg hvu hray ops
          (δ' := (rayDelta F (max (rayLength F g.cellSize a.1 b.1) (rayLength F g.cellSize a.2 b.2)) a.1 b.1,
            rayDelta F (max (rayLength F g.cellSize a.1 b.1) (rayLength F g.cellSize a.2 b.2)) a.2 b.2))
          (rayDelta_err hF hcs hL (le_max_left _ _) herr) (rayDelta_err hF hcs hL (le_max_right _ _) herr)
          hN N 0 a idx idx s (by omega) (fun i h1 h2 => by omega) (by rw [hs0]; simp) (by rw [hs0]; simp)
        rw [this, hs0]
        rfl

end Verif.Round
