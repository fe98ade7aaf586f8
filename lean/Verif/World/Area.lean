import Verif.World.Lemmas

/-
C103: radius and centroid of a map.
-/
namespace Verif.World

open Verif Verif.Voxel Verif.NDTGrid Verif.Geo

theorem covers_iff {n : Map} (hcs : 0 < n.grid.cellSize) (x y : ℝ) : Covers n (x, y) ↔
    (-(n.grid.left + 1 / 2 : ℝ) * n.grid.cellSize ≤ x ∧ x < (n.grid.right + 1 / 2) * n.grid.cellSize) ∧
    (-(n.grid.down + 1 / 2 : ℝ) * n.grid.cellSize < y ∧ y ≤ (n.grid.up + 1 / 2) * n.grid.cellSize) := by
  unfold Covers
  rw [inExtent_iff hcs]
  rw [le_div_iff₀ hcs, div_lt_iff₀ hcs, lt_div_iff₀ hcs, div_le_iff₀ hcs]
  constructor
  · rintro ⟨⟨h1, h2⟩, h3, h4⟩
    exact ⟨⟨by linarith, by linarith⟩, by linarith, by linarith⟩
  · rintro ⟨⟨h1, h2⟩, h3, h4⟩
    exact ⟨⟨by linarith, by linarith⟩, by linarith, by linarith⟩

theorem covers_bounds {n : Map} (hcs : 0 < n.grid.cellSize) :
    IsLUB {x | ∃ y, Covers n (x, y)} ((n.grid.right + 1 / 2) * n.grid.cellSize) ∧
    IsGLB {x | ∃ y, Covers n (x, y)} (-(n.grid.left + 1 / 2 : ℝ) * n.grid.cellSize) ∧
    IsLUB {y | ∃ x, Covers n (x, y)} ((n.grid.up + 1 / 2) * n.grid.cellSize) ∧
    IsGLB {y | ∃ x, Covers n (x, y)} (-(n.grid.down + 1 / 2 : ℝ) * n.grid.cellSize) := by
  have hl : (0 : ℝ) ≤ n.grid.left := Nat.cast_nonneg _
  have hr : (0 : ℝ) ≤ n.grid.right := Nat.cast_nonneg _
  have hu : (0 : ℝ) ≤ n.grid.up := Nat.cast_nonneg _
  have hd : (0 : ℝ) ≤ n.grid.down := Nat.cast_nonneg _
  have xl : (-(n.grid.left + 1 / 2 : ℝ) * n.grid.cellSize) < (n.grid.right + 1 / 2) * n.grid.cellSize := by
    nlinarith
  have yl : (-(n.grid.down + 1 / 2 : ℝ) * n.grid.cellSize) < (n.grid.up + 1 / 2) * n.grid.cellSize := by
    nlinarith
  have ex : {x | ∃ y, Covers n (x, y)} =
      Set.Ico (-(n.grid.left + 1 / 2 : ℝ) * n.grid.cellSize) ((n.grid.right + 1 / 2) * n.grid.cellSize) := by
    ext x
    constructor
    · rintro ⟨y, h⟩
      exact ((covers_iff hcs x y).1 h).1
    · intro h
      exact ⟨_, (covers_iff hcs x _).2 ⟨h, yl, le_rfl⟩⟩
  have ey : {y | ∃ x, Covers n (x, y)} =
      Set.Ioc (-(n.grid.down + 1 / 2 : ℝ) * n.grid.cellSize) ((n.grid.up + 1 / 2) * n.grid.cellSize) := by
    ext y
    constructor
    · rintro ⟨x, h⟩
      exact ((covers_iff hcs x y).1 h).2
    · intro h
      exact ⟨_, (covers_iff hcs _ y).2 ⟨⟨le_rfl, xl⟩, h⟩⟩
  rw [ex, ey]
  exact ⟨isLUB_Ico xl, isGLB_Ico xl, isLUB_Ioc yl, isGLB_Ioc yl⟩

/-- C103, centroid: the reported centroid is twice the centre of the covered area, which is right exactly for
maps that extend equally far to both sides. -/
theorem C103_centroid_partial {n : Map} (hcs : 0 < n.grid.cellSize) :
    IsCentre n ((getCentroid n).1 / 2, (getCentroid n).2 / 2) ∧
    (IsCentre n (getCentroid n) ↔ n.grid.left = n.grid.right ∧ n.grid.up = n.grid.down) := by
  obtain ⟨b1, b2, b3, b4⟩ := covers_bounds hcs
  have key : ∀ c, IsCentre n c ↔ c.1 = (n.grid.right - n.grid.left : ℝ) / 2 * n.grid.cellSize ∧
      c.2 = (n.grid.up - n.grid.down : ℝ) / 2 * n.grid.cellSize := by
    intro c
    constructor
    · rintro ⟨a, b, h1, h2, h3, h4⟩
      have e1 := h1.unique b1
      have e2 := h2.unique b2
      have e3 := h3.unique b3
      have e4 := h4.unique b4
      constructor <;> linarith
    · rintro ⟨h1, h2⟩
      refine ⟨(n.grid.right + n.grid.left + 1) / 2 * n.grid.cellSize,
        (n.grid.up + n.grid.down + 1) / 2 * n.grid.cellSize, ?_, ?_, ?_, ?_⟩
      · convert b1 using 1; rw [h1]; ring
      · convert b2 using 1; rw [h1]; ring
      · convert b3 using 1; rw [h2]; ring
      · convert b4 using 1; rw [h2]; ring
  refine ⟨(key _).2 ⟨?_, ?_⟩, ?_⟩
  · simp only [getCentroid]; ring
  · simp only [getCentroid]; ring
  · rw [key]
    simp only [getCentroid]
    constructor
    · rintro ⟨h1, h2⟩
      have h1' : (n.grid.right - n.grid.left : ℝ) / 2 * n.grid.cellSize = 0 := by linarith
      have h2' : (n.grid.up - n.grid.down : ℝ) / 2 * n.grid.cellSize = 0 := by linarith
      rw [mul_eq_zero, or_iff_left (ne_of_gt hcs)] at h1' h2'
      have h3 : (n.grid.left : ℝ) = n.grid.right := by linarith
      have h4 : (n.grid.up : ℝ) = n.grid.down := by linarith
      exact ⟨by exact_mod_cast h3, by exact_mod_cast h4⟩
    · rintro ⟨h1, h2⟩
      rw [h1, h2]
      constructor <;> ring

/-- C103, radius: all covered points lie within the reported radius of the centre exactly if the map is not
too tall, `3 h² ≤ 12 w² + 8 w h` for `w` columns and `h` rows. -/
theorem C103_radius_partial {n : Map} (hcs : 0 < n.grid.cellSize) {c : ℝ × ℝ} (hc : IsCentre n c) :
    (∀ p, Covers n p → (p.1 - c.1) ^ 2 + (p.2 - c.2) ^ 2 ≤ getRadius n ^ 2) ↔
      3 * n.grid.height ^ 2 ≤ 12 * n.grid.width ^ 2 + 8 * n.grid.width * n.grid.height := by
  obtain ⟨b1, b2, b3, b4⟩ := covers_bounds hcs
  obtain ⟨a, b, h1, h2, h3, h4⟩ := hc
  have e1 := h1.unique b1
  have e2 := h2.unique b2
  have e3 := h3.unique b3
  have e4 := h4.unique b4
  set s := n.grid.cellSize with hs
  have hw : (n.grid.width : ℝ) = n.grid.left + n.grid.right + 1 := by unfold Grid.width; push_cast; ring
  have hh : (n.grid.height : ℝ) = n.grid.up + n.grid.down + 1 := by unfold Grid.height; push_cast; ring
  have ha : a = n.grid.width * s / 2 := by rw [hw]; linarith
  have hb : b = n.grid.height * s / 2 := by rw [hh]; linarith
  have hl : (0 : ℝ) ≤ n.grid.left := Nat.cast_nonneg _
  have hr : (0 : ℝ) ≤ n.grid.right := Nat.cast_nonneg _
  have hu : (0 : ℝ) ≤ n.grid.up := Nat.cast_nonneg _
  have hd : (0 : ℝ) ≤ n.grid.down := Nat.cast_nonneg _
  have hcast : (3 * n.grid.height ^ 2 ≤ 12 * n.grid.width ^ 2 + 8 * n.grid.width * n.grid.height) ↔
      (3 * (n.grid.height : ℝ) ^ 2 ≤ 12 * (n.grid.width : ℝ) ^ 2 + 8 * n.grid.width * n.grid.height) := by
    constructor
    · intro h; exact_mod_cast h
    · intro h; exact_mod_cast h
  have key : a ^ 2 + b ^ 2 ≤ getRadius n ^ 2 ↔
      (3 * (n.grid.height : ℝ) ^ 2 ≤ 12 * (n.grid.width : ℝ) ^ 2 + 8 * n.grid.width * n.grid.height) := by
    have e : getRadius n ^ 2 - (a ^ 2 + b ^ 2) = (12 * n.grid.width ^ 2 + 8 * n.grid.width * n.grid.height -
        3 * n.grid.height ^ 2) / 16 * s ^ 2 := by
      unfold getRadius; rw [ha, hb]; ring
    have hs2 : 0 < s ^ 2 := by positivity
    constructor
    · intro h
      by_contra hn
      have : (12 * n.grid.width ^ 2 + 8 * n.grid.width * n.grid.height -
        3 * n.grid.height ^ 2 : ℝ) / 16 < 0 := by linarith
      have := mul_neg_of_neg_of_pos this hs2
      linarith
    · intro h
      have : (0 : ℝ) ≤ (12 * n.grid.width ^ 2 + 8 * n.grid.width * n.grid.height -
        3 * n.grid.height ^ 2 : ℝ) / 16 := by linarith
      have := mul_nonneg this hs2.le
      linarith
  rw [hcast, ← key]
  constructor
  · intro h
    have := h (c.1 - a, c.2 + b) ((covers_iff hcs _ _).2 ⟨⟨by rw [e2], by rw [e2]; nlinarith⟩,
      by rw [e3]; nlinarith, by rw [e3]⟩)
    simp only at this
    nlinarith
  · rintro h ⟨x, y⟩ hp
    obtain ⟨⟨p1, p2⟩, p3, p4⟩ := (covers_iff hcs _ _).1 hp
    have q1 : |x - c.1| ≤ a := abs_le.2 ⟨by linarith, by linarith⟩
    have q2 : |y - c.2| ≤ b := abs_le.2 ⟨by linarith, by linarith⟩
    have r1 := sq_le_sq' (by linarith [abs_le.1 q1]) (abs_le.1 q1).2
    have r2 := sq_le_sq' (by linarith [abs_le.1 q2]) (abs_le.1 q2).2
    simp only
    linarith

/-- A map of one column that was enlarged upwards. -/
theorem exTall (eig : NDT.Eig) : ∃ n, Built eig true n ∧ n.grid.cellSize = 1 ∧ n.grid.left = 0 ∧
    n.grid.right = 0 ∧ n.grid.up = 3 ∧ n.grid.down = 0 := by
  have hcs : (0 : ℝ) < (NDTGrid.init (cellI eig) 0 0 0 1).grid.cellSize := zero_lt_one
  set g := (NDTGrid.init (cellI eig) 0 0 0 1).grid with hg
  have g1 : g.left = 0 := rfl
  have g2 : g.right = 0 := rfl
  have g3 : g.up = 0 := rfl
  have g4 : g.down = 0 := rfl
  have g5 : g.cellSize = 1 := rfl
  obtain ⟨l, hl1, -, -, hl4⟩ := calcIncLeft_spec hcs 0
  obtain ⟨r, hr1, -, -, hr4⟩ := calcIncRight_spec hcs 0
  obtain ⟨u, hu1, hu2, hu3, -⟩ := calcIncUp_spec hcs 3
  obtain ⟨d, hd1, -, -, hd4⟩ := calcIncDown_spec hcs 0
  rw [g1, g5] at hl4
  rw [g2, g5] at hr4
  rw [g3, g5] at hu2 hu3
  rw [g4, g5] at hd4
  have el := hl4 (by norm_num)
  have er := hr4 (by norm_num)
  have ed := hd4 (by norm_num)
  have eu : u = 3 := by
    have h1 : (2 : ℝ) < u := by norm_num at hu2; linarith
    have h2 : (u : ℝ) < 4 := by have := hu3 (by norm_num); norm_num at this; linarith
    have h1' : 2 < u := by exact_mod_cast h1
    have h2' : u < 4 := by exact_mod_cast h2
    omega
  subst el er ed eu
  obtain ⟨g', hg', -, hL, hR, hU, hD, hc, -, -⟩ := enlargeGrid_spec (init_wf (cellI eig) 0 0 0 1) 0 0 3 0
  have he : enlarge g 0 0 0 3 = .ok g' := by
    unfold enlarge
    rw [hl1, hr1, hu1, hd1]
    exact hg'
  refine ⟨_, Built.enlarge 0 0 0 3 (Built.init 0 0 0 zero_lt_one) he, hc, hL, hR, hU, hD⟩

/-- C103 fails: the reported centroid `(0, 3)` of a map of one column and four rows is not its centre
`(0, 3/2)`, and covered points are farther than the reported radius from the reported centroid as well as
from the centre. -/
theorem C103_false (eig : NDT.Eig) : ∃ n, Built eig true n ∧ ¬ IsCentre n (getCentroid n) ∧
    (∃ p, Covers n p ∧ getRadius n ^ 2 < (p.1 - (getCentroid n).1) ^ 2 + (p.2 - (getCentroid n).2) ^ 2) ∧
    (∀ c, IsCentre n c → ∃ p, Covers n p ∧ getRadius n ^ 2 < (p.1 - c.1) ^ 2 + (p.2 - c.2) ^ 2) := by
  obtain ⟨n, hb, h1, h2, h3, h4, h5⟩ := exTall eig
  have hcs : 0 < n.grid.cellSize := by rw [h1]; norm_num
  have hw : n.grid.width = 1 := by unfold Grid.width; omega
  have hh : n.grid.height = 4 := by unfold Grid.height; omega
  refine ⟨n, hb, ?_, ⟨(0, 0), ?_, ?_⟩, fun c hc => ?_⟩
  · rw [(C103_centroid_partial hcs).2]
    omega
  · rw [covers_iff hcs, h1, h2, h3, h4, h5]
    norm_num
  · unfold getRadius getCentroid
    rw [hw, hh, h1, h2, h3, h4, h5]
    norm_num
  · have := (C103_radius_partial hcs hc).not.2 (by rw [hw, hh]; norm_num)
    push Not at this
    exact this

/-- The hypotheses of the partial theorems are met: a new map. -/
example (eig : NDT.Eig) : ∃ n, Built eig true n ∧ 0 < n.grid.cellSize ∧ IsCentre n (getCentroid n) ∧
    3 * n.grid.height ^ 2 ≤ 12 * n.grid.width ^ 2 + 8 * n.grid.width * n.grid.height := by
  refine ⟨_, Built.init 0 0 0 zero_lt_one, zero_lt_one, ?_, ?_⟩
  · exact (C103_centroid_partial (n := NDTGrid.init (cellI eig) 0 0 0 1) zero_lt_one).2.2 ⟨rfl, rfl⟩
  · show 3 * 1 ^ 2 ≤ 12 * 1 ^ 2 + 8 * 1 * 1
    norm_num

end Verif.World
