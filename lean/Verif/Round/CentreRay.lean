import Verif.Round.Ray

/- Rays along whose longer axis the computation is exact: lemmas for property C144. -/
namespace Verif.Round

open Verif Verif.Voxel Verif.NDTGrid

set_option linter.unusedSectionVars false

variable {K : Type v} [Field K] [LinearOrder K] [IsStrictOrderedRing K] [FloorRing K] {α : Type u}

/-! ### Specification -/

/-- Halves of squares within the range are represented exactly, and a division by the side of a square is exact:
the side is a power of two. -/
structure Halves (F : Fmt K) (R cs : K) : Prop where
  single : ∀ k : ℤ, |(k : K)| * cs ≤ 8 * R → F.s (k * (cs / 2)) = k * (cs / 2)
  double : ∀ k : ℤ, |(k : K)| * cs ≤ 8 * R → F.d (k * (cs / 2)) = k * (cs / 2)
  count : ∀ n : ℕ, (n : K) * cs ≤ R → F.s n = n ∧ F.d n = n
  half : ∀ k : ℤ, |(k : K)| * cs ≤ 8 * R → F.d (k / 2) = k / 2
  quotient : ∀ x, F.d (|F.d x| / cs) = |F.d x| / cs

/-- A ray goes from `a` to `b` along its longer axis, where it starts at the centre of a square, and from `c` to
`d` along the other one. -/
structure FromCentre (v cs a b c d : K) : Prop where
  centre : ∃ i : ℤ, a = i * cs
  longer : |d - c| ≤ (1 - 6 * v) * |b - a|

/-- The loop makes the `j`-th sample of the ray: the ray is that long, and no earlier sample is outside the
grid. -/
def Reached (g : Grid K α) (a b : K × K) (j : ℕ) : Prop :=
  (∃ N, rayBound (extent g.cellSize a b) = .ok N ∧ j ≤ N) ∧
    ∀ i, 1 ≤ i → i < j → ¬ Out g (sample g.cellSize a b i)

/-- A ray that starts at the centre of a square along its longer axis; in the other direction its samples are
further than `η` from the border lines.  All samples that the loop makes are in the range, and the extent of the
ray is not close to a whole number of squares. -/
structure CentreRay (η v R : K) (g : Grid K α) (a b : K × K) : Prop where
  start : |a.1| + g.cellSize ≤ R ∧ |a.2| + g.cellSize ≤ R
  stop : |b.1| ≤ R ∧ |b.2| ≤ R
  inside : ∀ j, Reached g a b j →
    |(sample g.cellSize a b j).1| + g.cellSize ≤ R ∧ |(sample g.cellSize a b j).2| + g.cellSize ≤ R
  samples : FromCentre v g.cellSize a.1 b.1 a.2 b.2 ∧
      (∀ j, j = 0 ∨ Reached g a b j → Off η g.cellSize (sample g.cellSize a b j).2) ∨
    FromCentre v g.cellSize a.2 b.2 a.1 b.1 ∧
      ∀ j, j = 0 ∨ Reached g a b j → Off η g.cellSize (sample g.cellSize a b j).1
  whole : ∀ m : ℤ, η / g.cellSize < |extent g.cellSize a b - m|

/-! ### One coordinate -/

/-- A computed coordinate `x'` for `x`: close to it and off the border lines, or equal to it and a multiple of half
a square. -/
def NearCoord (u R cs e x x' : K) : Prop :=
  Off (32 * (u * R)) cs x ∧ |x' - x| ≤ e ∨ x' = x ∧ ∃ m : ℤ, x = m * (cs / 2)

section
variable {F : Fmt K} {u v R cs : K} (hF : Accurate F u) (hH : Halves F R cs) (hcs : 0 < cs) (hcR : cs ≤ R)

include hF hH hcs hcR

theorem boundS_exact {n : ℕ} (hn : (n + 1 / 2) * cs ≤ R) : boundS F cs n = n * cs + cs / 2 := by
  have hn0 : (0 : K) ≤ n := Nat.cast_nonneg n
  have hnc : (0 : K) ≤ n * cs := mul_nonneg hn0 hcs.le
  unfold boundS
  rw [(hH.count n (by linarith)).1]
  have h1 := hH.single (2 * n) (by push_cast; rw [abs_of_nonneg (by linarith)]; linarith)
  have h2 := hH.single (2 * n + 1) (by push_cast; rw [abs_of_nonneg (by linarith)]; linarith)
  push_cast at h1 h2
  rw [show (n : K) * cs = 2 * n * (cs / 2) by ring, h1,
    show 2 * (n : K) * (cs / 2) + cs / 2 = (2 * n + 1) * (cs / 2) by ring, h2]

theorem lowD_exact {n : ℕ} (hn : (n + 1 / 2) * cs ≤ R) : lowD F cs n = -n * cs - cs / 2 := by
  have hn0 : (0 : K) ≤ n := Nat.cast_nonneg n
  have hnc : (0 : K) ≤ n * cs := mul_nonneg hn0 hcs.le
  unfold lowD
  rw [(hH.count n (by linarith)).2]
  have h1 := hH.double (-(2 * n)) (by push_cast; rw [abs_neg, abs_of_nonneg (by linarith)]; linarith)
  have h2 := hH.double (-(2 * n + 1)) (by push_cast; rw [abs_neg, abs_of_nonneg (by linarith)]; linarith)
  push_cast at h1 h2
  rw [show -(n : K) * cs = -(2 * n) * (cs / 2) by ring, h1,
    show -(2 * (n : K)) * (cs / 2) - cs / 2 = -(2 * n + 1) * (cs / 2) by ring, h2]

theorem coordinate_exact {n : ℕ} (hn : (n + 1 / 2) * cs ≤ R) {x : K} (hx : |x| ≤ R) {m : ℤ}
    (hm : x = m * (cs / 2)) : coordinate F cs n x = ⌊(x + cs * n + cs / 2) / cs⌋ := by
  have hn0 : (0 : K) ≤ n := Nat.cast_nonneg n
  have hnc : (0 : K) ≤ n * cs := mul_nonneg hn0 hcs.le
  have hmc : |(m : K)| * cs ≤ 2 * R := by
    rw [hm, abs_mul, abs_of_pos (by linarith : (0 : K) < cs / 2)] at hx
    linarith
  have key : ∀ t : K, |t| ≤ 2 * n + 1 → |(m : K) + t| * cs ≤ 8 * R := by
    intro t ht
    have h1 := abs_add_le (m : K) t
    have h2 := mul_le_mul_of_nonneg_right (h1.trans (add_le_add_right ht |(m : K)|)) hcs.le
    linarith
  have h1 := hH.single (2 * n) (by push_cast; rw [abs_of_nonneg (by linarith)]; linarith)
  have h2 := hH.double (m + 2 * n) (by push_cast; exact key _ (by rw [abs_of_nonneg (by linarith)]; linarith))
  have h3 := hH.double (m + (2 * n + 1)) (by push_cast; exact key _ (by rw [abs_of_nonneg (by linarith)]))
  have h4 := hH.half (m + (2 * n + 1)) (by push_cast; exact key _ (by rw [abs_of_nonneg (by linarith)]))
  push_cast at h1 h2 h3 h4
  unfold coordinate
  rw [(hH.count n (by linarith)).1, hm, show cs * (n : K) = 2 * n * (cs / 2) by ring, h1,
    show (m : K) * (cs / 2) + 2 * n * (cs / 2) = (m + 2 * n) * (cs / 2) by ring, h2,
    show ((m : K) + 2 * n) * (cs / 2) + cs / 2 = (m + (2 * n + 1)) * (cs / 2) by ring, h3,
    show ((m : K) + (2 * n + 1)) * (cs / 2) / cs = (m + (2 * n + 1)) / 2 by field_simp, h4]

/-- Comparisons with the bounds of the grid. -/
theorem near_bounds {e x x' : K} (he : e ≤ 5 * (u * R)) (h : NearCoord u R cs e x x') {n k : ℕ}
    (hn : (n + 1 / 2) * cs ≤ R) (hk : (k + 1 / 2) * cs ≤ R) :
    (x' ≤ lowD F cs n ↔ x ≤ -n * cs - cs / 2) ∧ (lowD F cs n ≤ x' ↔ -n * cs - cs / 2 ≤ x) ∧
    (x' ≤ boundS F cs k ↔ x ≤ k * cs + cs / 2) ∧ (boundS F cs k ≤ x' ↔ k * cs + cs / 2 ≤ x) := by
  have hR : 0 ≤ R := hcs.le.trans hcR
  have huR : 0 ≤ u * R := mul_nonneg hF.nonneg hR
  rcases h with ⟨ho, hx⟩ | ⟨rfl, -⟩
  · have b1 := lowD_err hF hcs hR hn
    have b2 := boundS_err hF hcs hR hk
    have f1 := far_below hF hcs ho n
    have f2 := far_above hF hcs ho k
    push_cast at f2
    exact ⟨le_of_far hx b1 (by linarith), le_of_far b1 hx (by rw [abs_sub_comm]; linarith),
      le_of_far hx b2 (by linarith), le_of_far b2 hx (by rw [abs_sub_comm]; linarith)⟩
  · rw [boundS_exact hF hH hcs hcR hk, lowD_exact hF hH hcs hcR hn]
    exact ⟨Iff.rfl, Iff.rfl, Iff.rfl, Iff.rfl⟩

theorem near_coordinate {e x x' : K} (he : e ≤ 5 * (u * R)) (h : NearCoord u R cs e x x') (hx : |x| ≤ R) {n : ℕ}
    (hn : (n + 1 / 2) * cs ≤ R) : coordinate F cs n x' = ⌊(x + cs * n + cs / 2) / cs⌋ := by
  have hR : 0 < R := hcs.trans_le hcR
  rcases h with ⟨ho, hd⟩ | ⟨rfl, m, hm⟩
  · refine coordinate_eq hF hcs hR hn hx (hd.trans he) fun m => ?_
    have := ho (m - 1)
    rwa [show (((m - 1 : ℤ) : K) + 1 / 2) = (m : K) - 1 / 2 by push_cast; ring] at this
  · exact coordinate_exact hF hH hcs hcR hn hx hm

omit hF hH hcs hcR in
theorem NearCoord.neg {e x x' : K} (h : NearCoord u R cs e x x') : NearCoord u R cs e (-x) (-x') := by
  rcases h with ⟨ho, hd⟩ | ⟨rfl, m, hm⟩
  · refine .inl ⟨fun k => ?_, ?_⟩
    · have := ho (-k - 1)
      rw [show -x - ((k : K) + 1 / 2) * cs = -(x - (((-k - 1 : ℤ) : K) + 1 / 2) * cs) by push_cast; ring, abs_neg]
      exact this
    · rw [show -x' - -x = -(x' - x) by ring, abs_neg]; exact hd
  · exact .inr ⟨rfl, -m, by rw [hm]; push_cast; ring⟩

theorem near_index {g : Grid K α} (hgc : g.cellSize = cs) (hg : InRange R g) {e : K} (he : e ≤ 5 * (u * R))
    {p p' : K × K} (hx : NearCoord u R cs e p.1 p'.1) (hy : NearCoord u R cs e p.2 p'.2) (hpx : |p.1| ≤ R) (hpy : |p.2| ≤ R) :
    calcIndex F g p' = Voxel.calcIndex g p := by
  subst hgc
  unfold calcIndex Voxel.calcIndex calcCoordinates Voxel.calcCoordinates Grid.half
  rw [near_coordinate hF hH hcs hcR he hx hpx hg.left,
    near_coordinate hF hH hcs hcR he hy.neg (by rwa [abs_neg]) hg.up]

end

/-- What is known of the coordinate computed for the `k`-th sample. -/
def At (u v R cs δ δ' : K) (P : ℕ → Prop) (x : ℕ → K) (k : ℕ) (p' : K) : Prop :=
  (∀ j, P j → Off (32 * (u * R)) cs (x j)) ∧ |p' - x k| ≤ k * (8 * (v * R)) ∨
    p' = x k ∧ δ' = δ ∧ ∀ j, ∃ m : ℤ, x j = m * (cs / 2)

theorem At.near {u v R cs δ δ' : K} {P : ℕ → Prop} {x : ℕ → K} {k : ℕ} {p' : K} (h : At u v R cs δ δ' P x k p')
    (hk : P k) : NearCoord u R cs (k * (8 * (v * R))) (x k) p' := by
  rcases h with ⟨h1, h2⟩ | ⟨h1, -, h3⟩
  · exact .inl ⟨h1 k hk, h2⟩
  · exact .inr ⟨h1, h3 k⟩

theorem At.step {F : Fmt K} {u v R cs δ δ' : K} {P : ℕ → Prop} {x : ℕ → K} {k : ℕ} {p' : K} (hF : Double F u v)
    (hH : Halves F R cs) (hcs : 0 < cs) (hcR : cs ≤ R) (h : At u v R cs δ δ' P x k p') (hx : x (k + 1) = x k + δ)
    (hδ : |δ' - δ| ≤ 6 * (v * cs)) (hk : ((k + 1 : ℕ) : K) * (8 * (v * R)) ≤ R / 2) (hr : |x (k + 1)| + cs ≤ R) :
    At u v R cs δ δ' P x (k + 1) (F.d (p' + δ')) := by
  rcases h with ⟨h1, h2⟩ | ⟨h1, h2, h3⟩
  · refine .inl ⟨h1, ?_⟩
    rw [hx] at hr ⊢
    exact walk_step hF hcs hcR h2 hδ hk (by linarith)
  · refine .inr ⟨?_, h2, h3⟩
    obtain ⟨m, hm⟩ := h3 (k + 1)
    rw [h1, h2, ← hx, hm]
    refine hH.double m ?_
    rw [hm, abs_mul, abs_of_pos (by linarith : (0 : K) < cs / 2)] at hr
    linarith

/-- Steps along the longer axis are exactly half a square. -/
theorem FromCentre.delta {F : Fmt K} {u v R cs a b c d : K} (hF : Double F u v) (hH : Halves F R cs) (hcs : 0 < cs)
    (hcR : cs ≤ R) (h : FromCentre v cs a b c d) (hab : b - a ≠ 0) :
    max (rayLength F cs a b) (rayLength F cs c d) = rayLength F cs a b ∧
    max (|b - a| / cs) (|d - c| / cs) = |b - a| / cs ∧
    rayDelta F (rayLength F cs a b) a b = (b - a) / (|b - a| / cs) * (1 / 2) ∧
    ∀ j : ℕ, ∃ m : ℤ, a + j * ((b - a) / (|b - a| / cs) * (1 / 2)) = m * (cs / 2) := by
  have hv := hF.v_nonneg
  have hv1 : v ≤ 1 / 64 := hF.v_le.trans hF.small
  have hX : 0 < |b - a| / cs := div_pos (abs_pos.2 hab) hcs
  have hYX : |d - c| / cs ≤ (1 - 6 * v) * (|b - a| / cs) := by
    rw [← mul_div_assoc]; exact div_le_div_of_nonneg_right h.longer hcs.le
  have hY : 0 ≤ |d - c| / cs := div_nonneg (abs_nonneg _) hcs.le
  have hvX : 0 ≤ v * (|b - a| / cs) := mul_nonneg hv hX.le
  have hsgn : ∀ w : K, w ≠ 0 → ∃ s : ℤ, (s = 1 ∨ s = -1) ∧ w / (|w| / cs) = s * cs ∧ (s = 1 ↔ 0 < w) := by
    intro w hw
    rcases lt_or_gt_of_ne hw with h | h
    · refine ⟨-1, .inr rfl, ?_, ?_⟩
      · rw [abs_of_neg h]; push_cast; field_simp
      · constructor
        · intro h'; norm_num at h'
        · intro h'; linarith
    · refine ⟨1, .inl rfl, ?_, ?_⟩
      · rw [abs_of_pos h]; push_cast; field_simp
      · simp [h]
  obtain ⟨s, hs, hs1, hs2⟩ := hsgn _ hab
  have hw := hF.exact (b - a)
  have hvw : v * |b - a| < |b - a| := by
    have := abs_pos.2 hab
    nlinarith
  have hw0 : F.d (b - a) ≠ 0 := by
    intro h0
    rw [h0, zero_sub, abs_neg] at hw
    linarith
  obtain ⟨t, ht, ht1, ht2⟩ := hsgn _ hw0
  have hst : t = s := by
    have hiff : 0 < F.d (b - a) ↔ 0 < b - a := by
      have hl := abs_le.1 hw
      rcases lt_or_gt_of_ne hab with h | h
      · rw [abs_of_neg h] at hl hvw
        constructor <;> intro h' <;> linarith [hl.1, hl.2]
      · rw [abs_of_pos h] at hl hvw
        constructor <;> intro h' <;> linarith [hl.1, hl.2]
    rcases hs with rfl | rfl <;> rcases ht with rfl | rfl
    · rfl
    · have := ht2.2 (hiff.2 (hs2.1 rfl)); norm_num at this
    · have := hs2.2 (hiff.1 (ht2.1 rfl)); norm_num at this
    · rfl
  have hs3 : |(s : K)| = 1 := by rcases hs with rfl | rfl <;> simp
  refine ⟨max_eq_left ?_, max_eq_left ?_, ?_, ?_⟩
  · have e1 := (abs_le.1 (rayLength_err hF hcs a b)).1
    have e2 := (abs_le.1 (rayLength_err hF hcs c d)).2
    have e3 : v * (|d - c| / cs) ≤ v * (|b - a| / cs) := mul_le_mul_of_nonneg_left (by nlinarith) hv
    nlinarith
  · nlinarith
  · unfold rayDelta rayLength
    rw [hH.quotient, ht1, hs1, hst]
    have h1 := hH.double (2 * s) (by push_cast; rw [abs_mul, hs3]; norm_num; linarith)
    have h2 := hH.double s (by rw [hs3]; linarith)
    push_cast at h1
    rw [show (s : K) * cs = 2 * s * (cs / 2) by ring, h1,
      show 2 * (s : K) * (cs / 2) * (1 / 2) = s * (cs / 2) by ring, h2]
  · intro j
    obtain ⟨i, hi⟩ := h.centre
    refine ⟨2 * i + j * s, ?_⟩
    rw [hs1, hi]
    push_cast
    ring

/-- A sample that is in range: the number of steps is limited. -/
theorem steps_in_range {R cs : K} (hcs : 0 < cs) {a b : K × K} (hext : extent cs a b ≠ 0)
    (ha : |a.1| + cs ≤ R ∧ |a.2| + cs ≤ R) {j : ℕ}
    (hj : |(sample cs a b j).1| + cs ≤ R ∧ |(sample cs a b j).2| + cs ≤ R) : (j : K) * cs ≤ 4 * R := by
  have hL := extent_pos hext hcs
  have hj0 : (0 : K) ≤ j := Nat.cast_nonneg j
  have key : ∀ {x y : K}, |y - x| / cs = extent cs a b → |x| + cs ≤ R →
      |x + j * ((y - x) / extent cs a b * (1 / 2))| + cs ≤ R → (j : K) * cs ≤ 4 * R := by
    intro x y he hx hy
    have h1 : |(j : K) * ((y - x) / extent cs a b * (1 / 2))| = j * cs * (1 / 2) := by
      rw [abs_mul, abs_mul, abs_div, abs_of_pos hL, abs_of_nonneg hj0,
        abs_of_pos (by norm_num : (0 : K) < 1 / 2), ← he]
      have : |y - x| ≠ 0 := fun h => by rw [h, zero_div] at he; exact hext he.symm
      field_simp
    have h2 := abs_add_le (x + j * ((y - x) / extent cs a b * (1 / 2))) (-x)
    rw [abs_neg, show x + j * ((y - x) / extent cs a b * (1 / 2)) + -x =
      j * ((y - x) / extent cs a b * (1 / 2)) by ring, h1] at h2
    linarith
  rcases max_choice (|b.1 - a.1| / cs) (|b.2 - a.2| / cs) with h | h
  · exact key h.symm ha.1 hj.1
  · exact key h.symm ha.2 hj.2

/-- The loop. -/
theorem rayLoop_near {F : Fmt K} {u v R : K} (hF : Double F u v) {g : Grid K α} (hH : Halves F R g.cellSize)
    (hcs : 0 < g.cellSize) (hcR : g.cellSize ≤ R) (hg : InRange R g) (hvu : 8 * (v * R) ≤ u * g.cellSize)
    {a b : K × K} (hext : extent g.cellSize a b ≠ 0) (hray : CentreRay (32 * (u * R)) v R g a b) (ops : CellOps α)
    {δ' : K × K} (hx : |δ'.1 - (b.1 - a.1) / extent g.cellSize a b * (1 / 2)| ≤ 6 * (v * g.cellSize))
    (hy : |δ'.2 - (b.2 - a.2) / extent g.cellSize a b * (1 / 2)| ≤ 6 * (v * g.cellSize))
    {N : ℕ} (hN : rayBound (extent g.cellSize a b) = .ok N) :
    ∀ (n k : ℕ) (p' : K × K) (old cur : ℕ) (s : RayState α), k + n = N →
      (∀ i, 1 ≤ i → i ≤ k → ¬ Out g (sample g.cellSize a b i)) →
      At u v R g.cellSize ((b.1 - a.1) / extent g.cellSize a b * (1 / 2)) δ'.1
        (fun j => j = 0 ∨ Reached g a b j) (fun j => (sample g.cellSize a b j).1) k p'.1 →
      At u v R g.cellSize ((b.2 - a.2) / extent g.cellSize a b * (1 / 2)) δ'.2
        (fun j => j = 0 ∨ Reached g a b j) (fun j => (sample g.cellSize a b j).2) k p'.2 →
      rayLoop F ops g δ' n p' old cur s =
        Voxel.rayLoop ops g ((b.1 - a.1) / extent g.cellSize a b * (1 / 2),
          (b.2 - a.2) / extent g.cellSize a b * (1 / 2)) n (sample g.cellSize a b k) old cur s := by
  have hR : 0 ≤ R := hcs.le.trans hcR
  have huR : 0 ≤ u * R := mul_nonneg hF.nonneg hR
  intro n
  induction n with
  | zero => intros; rfl
  | succ n ih =>
    intro k p' old cur s hkn hin hpx hpy
    have hreach : Reached g a b (k + 1) := ⟨⟨N, hN, by omega⟩, fun i hi hi' => hin i hi (by omega)⟩
    have hrange := hray.inside (k + 1) hreach
    have hstep := steps_in_range hcs hext hray.start hrange
    have hacc : ((k + 1 : ℕ) : K) * (8 * (v * R)) ≤ 4 * (u * R) := by
      have h1 : ((k + 1 : ℕ) : K) * (8 * (v * R)) ≤ (k + 1 : ℕ) * (u * g.cellSize) :=
        mul_le_mul_of_nonneg_left hvu (Nat.cast_nonneg _)
      have h2 : u * (((k + 1 : ℕ) : K) * g.cellSize) ≤ u * (4 * R) :=
        mul_le_mul_of_nonneg_left hstep hF.nonneg
      linarith
    have hsmall : u * R ≤ 1 / 64 * R := mul_le_mul_of_nonneg_right hF.small hR
    have hnext : sample g.cellSize a b (k + 1) =
        ((sample g.cellSize a b k).1 + (b.1 - a.1) / extent g.cellSize a b * (1 / 2),
         (sample g.cellSize a b k).2 + (b.2 - a.2) / extent g.cellSize a b * (1 / 2)) := by
      unfold sample
      push_cast
      simp only [Prod.mk.injEq]
      constructor <;> ring
    have hX := hpx.step hF hH hcs hcR (congrArg Prod.fst hnext) hx (by linarith) hrange.1
    have hY := hpy.step hF hH hcs hcR (congrArg Prod.snd hnext) hy (by linarith) hrange.2
    obtain ⟨e1, -, -, e2⟩ := near_bounds hF.toAccurate hH hcs hcR (by linarith) (hX.near (.inr hreach)) hg.left hg.right
    obtain ⟨e3, -, -, e4⟩ := near_bounds hF.toAccurate hH hcs hcR (by linarith) (hY.near (.inr hreach)) hg.down hg.up
    simp only [rayLoop, Voxel.rayLoop]
    rw [← hnext]
    cases hv : (if cur ≠ old then rayVisit ops s cur else .ok s) with
    | throw e => rfl
    | ub e => rfl
    | ok s' =>
      simp only [Res.bind_ok]
      have hiff : (F.d (p'.1 + δ'.1) ≥ boundS F g.cellSize g.right ∨ F.d (p'.1 + δ'.1) ≤ lowD F g.cellSize g.left ∨
          F.d (p'.2 + δ'.2) ≥ boundS F g.cellSize g.up ∨ F.d (p'.2 + δ'.2) ≤ lowD F g.cellSize g.down) ↔
          Out g (sample g.cellSize a b (k + 1)) := by
        simp only [ge_iff_le, e1, e2, e3, e4]; rfl
      by_cases hout : Out g (sample g.cellSize a b (k + 1))
      · have hout' := hout
        rw [hnext] at hout'
        exact (if_pos (hiff.2 hout)).trans (if_pos hout').symm
      · have hout' := hout
        rw [hnext] at hout'
        refine Eq.trans (if_neg fun h => hout (hiff.1 h)) (Eq.trans ?_ (if_neg hout').symm)
        rw [near_index (p := sample g.cellSize a b (k + 1)) hF.toAccurate hH hcs hcR rfl hg
          (p' := (F.d (p'.1 + δ'.1), F.d (p'.2 + δ'.2))) (by linarith) (hX.near (.inr hreach)) (hY.near (.inr hreach))
          (by linarith [hrange.1]) (by linarith [hrange.2])]
        cases hidx : Voxel.calcIndex g (sample g.cellSize a b (k + 1)) with
        | throw e => rfl
        | ub e => rfl
        | ok idx =>
          simp only [Res.bind_ok]
          refine ih (k + 1) _ cur idx s' (by omega) ?_ hX hY
          intro i hi hi'
          rcases Nat.lt_or_ge i (k + 1) with h | h
          · exact hin i hi (by omega)
          · obtain rfl : i = k + 1 := by omega
            exact hout

end Verif.Round
