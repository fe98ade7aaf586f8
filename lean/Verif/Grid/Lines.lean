import Mathlib.Tactic.Linarith
import Mathlib.Tactic.Ring
import Mathlib.Tactic.FieldSimp
import Mathlib.Tactic.NormNum
import Mathlib.Tactic.LinearCombination
import Mathlib.Algebra.Order.Field.Basic

/-
`linesIntersection`, voxel_grid2d.h:836-901: intersection of two line segments.  Arithmetic is exact.
-/
namespace Verif.Voxel

variable {K : Type v} [Field K] [LinearOrder K] [IsStrictOrderedRing K]

/-- `cross`, voxel_grid2d.h:903-908. -/
def cross (a b : K × K) : K := a.1 * b.2 - a.2 * b.1

/-- `dot` of Eigen. -/
def dot2 (a b : K × K) : K := a.1 * b.1 + a.2 * b.2

/-- `linesIntersection`, voxel_grid2d.h:836-901: result and `intersection`. -/
def linesIntersection (p p2 q q2 : K × K) (colinear : Bool) : Bool × (K × K) :=
  let eps : K := 1 / 10000000
  let r := p2 - p
  let s := q2 - q
  let rxs := cross r s
  let qpxr := cross (q - p) r
  if |rxs| < eps ∧ |qpxr| < eps then
    if colinear then
      if (0 ≤ dot2 (q - p) r ∧ dot2 (q - p) r ≤ dot2 r r) ∨ (0 ≤ dot2 (p - q) s ∧ dot2 (p - q) s ≤ dot2 s s) then
        (true, (0, 0))
      else (false, (0, 0))
    else (false, (0, 0))
  else if |rxs| < eps ∧ |qpxr| ≥ eps then (false, (0, 0))
  else
    let t := cross (q - p) s / rxs
    let u := cross (q - p) r / rxs
    if |rxs| ≥ eps ∧ (0 ≤ t ∧ t ≤ 1) ∧ (0 ≤ u ∧ u ≤ 1) then (true, (p.1 + t * r.1, p.2 + t * r.2))
    else (false, (0, 0))

/-! ### Specification -/

/-- `x` is on the segment from `a` to `b`. -/
def OnSegment (a b x : K × K) : Prop :=
  ∃ t : K, 0 ≤ t ∧ t ≤ 1 ∧ x.1 = a.1 + t * (b.1 - a.1) ∧ x.2 = a.2 + t * (b.2 - a.2)

/-- The parallelogram spanned by the two segments has an area of at least 1e-7: they are not parallel and not
too short. -/
def Spread (p p2 q q2 : K × K) : Prop :=
  1 / 10000000 ≤ |(p2.1 - p.1) * (q2.2 - q.2) - (p2.2 - p.2) * (q2.1 - q.1)|

/-! ### Lemmas -/

theorem cramer {p p2 q q2 x : K × K} (h : cross (p2 - p) (q2 - q) ≠ 0) {t u : K}
    (h1 : x.1 = p.1 + t * (p2.1 - p.1)) (h2 : x.2 = p.2 + t * (p2.2 - p.2))
    (h3 : x.1 = q.1 + u * (q2.1 - q.1)) (h4 : x.2 = q.2 + u * (q2.2 - q.2)) :
    t = cross (q - p) (q2 - q) / cross (p2 - p) (q2 - q) ∧
      u = cross (q - p) (p2 - p) / cross (p2 - p) (q2 - q) := by
  have e1 : q.1 - p.1 = t * (p2.1 - p.1) - u * (q2.1 - q.1) := by linear_combination h1 - h3
  have e2 : q.2 - p.2 = t * (p2.2 - p.2) - u * (q2.2 - q.2) := by linear_combination h2 - h4
  constructor
  · rw [eq_div_iff h]
    simp only [cross, Prod.fst_sub, Prod.snd_sub]
    rw [e1, e2]; ring
  · rw [eq_div_iff h]
    simp only [cross, Prod.fst_sub, Prod.snd_sub]
    rw [e1, e2]; ring

/-! ### C150 -/

/-- C150 for segments that are not nearly parallel and not too short: the answer is yes exactly if the segments
have a point in common, and this is the point that is returned; it is the only one. -/
theorem C150_partial (p p2 q q2 : K × K) (colinear : Bool) (hs : Spread p p2 q q2) :
    ((linesIntersection p p2 q q2 colinear).1 = true ↔ ∃ x, OnSegment p p2 x ∧ OnSegment q q2 x) ∧
    ((linesIntersection p p2 q q2 colinear).1 = true →
      ∀ x, OnSegment p p2 x ∧ OnSegment q q2 x ↔ x = (linesIntersection p p2 q q2 colinear).2) := by
  have hc : 1 / 10000000 ≤ |cross (p2 - p) (q2 - q)| := by
    unfold Spread at hs; unfold cross; simpa using hs
  have hne : cross (p2 - p) (q2 - q) ≠ 0 := by
    intro h0; rw [h0, abs_zero] at hc; norm_num at hc
  have key : ∀ x, OnSegment p p2 x ∧ OnSegment q q2 x →
      (0 ≤ cross (q - p) (q2 - q) / cross (p2 - p) (q2 - q) ∧
        cross (q - p) (q2 - q) / cross (p2 - p) (q2 - q) ≤ 1) ∧
      (0 ≤ cross (q - p) (p2 - p) / cross (p2 - p) (q2 - q) ∧
        cross (q - p) (p2 - p) / cross (p2 - p) (q2 - q) ≤ 1) ∧
      x = (p.1 + cross (q - p) (q2 - q) / cross (p2 - p) (q2 - q) * (p2 - p).1,
        p.2 + cross (q - p) (q2 - q) / cross (p2 - p) (q2 - q) * (p2 - p).2) := by
    rintro x ⟨⟨t, t0, t1, h1, h2⟩, ⟨u, u0, u1, h3, h4⟩⟩
    obtain ⟨et, eu⟩ := cramer hne h1 h2 h3 h4
    rw [← et, ← eu]
    exact ⟨⟨t0, t1⟩, ⟨u0, u1⟩, Prod.ext h1 h2⟩
  unfold linesIntersection
  simp only
  rw [if_neg (fun h => absurd h.1 (not_lt.2 hc)), if_neg (fun h => absurd h.1 (not_lt.2 hc))]
  by_cases hin : |cross (p2 - p) (q2 - q)| ≥ 1 / 10000000 ∧
      (0 ≤ cross (q - p) (q2 - q) / cross (p2 - p) (q2 - q) ∧
        cross (q - p) (q2 - q) / cross (p2 - p) (q2 - q) ≤ 1) ∧
      (0 ≤ cross (q - p) (p2 - p) / cross (p2 - p) (q2 - q) ∧
        cross (q - p) (p2 - p) / cross (p2 - p) (q2 - q) ≤ 1)
  · rw [if_pos hin]
    obtain ⟨-, ⟨t0, t1⟩, u0, u1⟩ := hin
    have on : OnSegment p p2 (p.1 + cross (q - p) (q2 - q) / cross (p2 - p) (q2 - q) * (p2 - p).1,
        p.2 + cross (q - p) (q2 - q) / cross (p2 - p) (q2 - q) * (p2 - p).2) ∧
      OnSegment q q2 (p.1 + cross (q - p) (q2 - q) / cross (p2 - p) (q2 - q) * (p2 - p).1,
        p.2 + cross (q - p) (q2 - q) / cross (p2 - p) (q2 - q) * (p2 - p).2) := by
      refine ⟨⟨_, t0, t1, rfl, rfl⟩, ⟨_, u0, u1, ?_, ?_⟩⟩
      · have := hne
        field_simp
        simp only [cross, Prod.fst_sub, Prod.snd_sub]
        ring
      · have := hne
        field_simp
        simp only [cross, Prod.fst_sub, Prod.snd_sub]
        ring
    refine ⟨⟨fun _ => ⟨_, on⟩, fun _ => rfl⟩, fun _ x => ⟨fun h => (key x h).2.2, ?_⟩⟩
    rintro rfl
    exact on
  · rw [if_neg hin]
    refine ⟨⟨(fun h => by cases h), ?_⟩, (fun h => by cases h)⟩
    rintro ⟨x, hx⟩
    obtain ⟨a, b, -⟩ := key x hx
    exact absurd ⟨hc, a, b⟩ hin

theorem along {a r : K × K} (hr : r ≠ 0) (h : cross a r = 0) :
    (0 ≤ dot2 a r ∧ dot2 a r ≤ dot2 r r) ↔ ∃ t : K, 0 ≤ t ∧ t ≤ 1 ∧ a.1 = t * r.1 ∧ a.2 = t * r.2 := by
  have hpos : 0 < dot2 r r := by
    unfold dot2
    rcases eq_or_ne r.1 0 with h1 | h1
    · have h2 : r.2 ≠ 0 := fun h2 => hr (Prod.ext h1 h2)
      have := mul_self_pos.2 h2
      nlinarith [mul_self_nonneg r.1]
    · have := mul_self_pos.2 h1
      nlinarith [mul_self_nonneg r.2]
  constructor
  · rintro ⟨h0, h1⟩
    refine ⟨dot2 a r / dot2 r r, div_nonneg h0 hpos.le, (div_le_one hpos).2 h1, ?_, ?_⟩
    · rw [div_mul_eq_mul_div, eq_div_iff hpos.ne']
      unfold dot2
      unfold cross at h
      linear_combination r.2 * h
    · rw [div_mul_eq_mul_div, eq_div_iff hpos.ne']
      unfold dot2
      unfold cross at h
      linear_combination -r.1 * h
  · rintro ⟨t, t0, t1, e1, e2⟩
    have : dot2 a r = t * dot2 r r := by unfold dot2; rw [e1, e2]; ring
    rw [this]
    constructor <;> nlinarith

/-- C150, collinear segments, if asked for: the answer is yes exactly if one of the two starts on the other.  So a yes
is right, and for segments in the same direction a no is right, too. -/
theorem C150_collinear {p p2 q q2 : K × K} (hp : p ≠ p2) (hq : q ≠ q2)
    (h1 : (p2.1 - p.1) * (q2.2 - q.2) = (p2.2 - p.2) * (q2.1 - q.1))
    (h2 : (q.1 - p.1) * (p2.2 - p.2) = (q.2 - p.2) * (p2.1 - p.1)) :
    ((linesIntersection p p2 q q2 true).1 = true ↔ OnSegment p p2 q ∨ OnSegment q q2 p) ∧
    ((linesIntersection p p2 q q2 true).1 = true → ∃ x, OnSegment p p2 x ∧ OnSegment q q2 x) ∧
    (0 < (p2.1 - p.1) * (q2.1 - q.1) + (p2.2 - p.2) * (q2.2 - q.2) →
      ((linesIntersection p p2 q q2 true).1 = true ↔ ∃ x, OnSegment p p2 x ∧ OnSegment q q2 x)) := by
  have nz : ∀ {a b : K × K}, a ≠ b → b - a ≠ 0 := fun hab h => hab (Prod.ext
    (sub_eq_zero.1 (congrArg Prod.fst h)).symm (sub_eq_zero.1 (congrArg Prod.snd h)).symm)
  have hr := nz hp
  have hs := nz hq
  have c1 : cross (p2 - p) (q2 - q) = 0 := by
    simp only [cross, Prod.fst_sub, Prod.snd_sub]; linear_combination h1
  have c2 : cross (q - p) (p2 - p) = 0 := by
    simp only [cross, Prod.fst_sub, Prod.snd_sub]; linear_combination h2
  have c3 : cross (p - q) (q2 - q) = 0 := by
    simp only [cross, Prod.fst_sub, Prod.snd_sub]
    rcases eq_or_ne (p2.1 - p.1) 0 with h | h
    · have hb : p2.2 - p.2 ≠ 0 := fun hb => hr (Prod.ext h hb)
      apply mul_left_cancel₀ hb
      linear_combination (-(q2.2 - q.2)) * h2 + (p.2 - q.2) * h1
    · apply mul_left_cancel₀ h
      linear_combination (-(q2.1 - q.1)) * h2 + (p.1 - q.1) * h1
  have main : (linesIntersection p p2 q q2 true).1 = true ↔ OnSegment p p2 q ∨ OnSegment q q2 p := by
    have e1 : OnSegment p p2 q ↔ 0 ≤ dot2 (q - p) (p2 - p) ∧ dot2 (q - p) (p2 - p) ≤ dot2 (p2 - p) (p2 - p) := by
      rw [along hr c2]
      unfold OnSegment
      simp only [Prod.fst_sub, Prod.snd_sub, sub_eq_iff_eq_add']
    have e2 : OnSegment q q2 p ↔ 0 ≤ dot2 (p - q) (q2 - q) ∧ dot2 (p - q) (q2 - q) ≤ dot2 (q2 - q) (q2 - q) := by
      rw [along hs c3]
      unfold OnSegment
      simp only [Prod.fst_sub, Prod.snd_sub, sub_eq_iff_eq_add']
    rw [e1, e2]
    unfold linesIntersection
    simp only
    rw [c1, c2, abs_zero, if_pos ⟨by norm_num, by norm_num⟩, if_pos trivial]
    split_ifs with h
    · exact ⟨fun _ => h, fun _ => rfl⟩
    · exact ⟨(fun h' => by cases h'), fun h' => absurd h' h⟩
  have start : ∀ a b : K × K, OnSegment a b a := fun a b => ⟨0, le_rfl, zero_le_one, by ring, by ring⟩
  have sound : (linesIntersection p p2 q q2 true).1 = true → ∃ x, OnSegment p p2 x ∧ OnSegment q q2 x := by
    intro h
    rcases main.1 h with h | h
    · exact ⟨q, h, start q q2⟩
    · exact ⟨p, start p p2, h⟩
  refine ⟨main, sound, fun hd => ⟨sound, ?_⟩⟩
  rintro ⟨x, ⟨t, t0, t1, a1, a2⟩, ⟨u, u0, u1, b1, b2⟩⟩
  have hrr : 0 < dot2 (p2 - p) (p2 - p) := by
    by_contra hle
    have hle := not_lt.1 hle
    simp only [dot2, Prod.fst_sub, Prod.snd_sub] at hle
    have z1 : (p2.1 - p.1) = 0 := by
      have := mul_self_nonneg (p2.2 - p.2)
      have := mul_self_nonneg (p2.1 - p.1)
      exact mul_self_eq_zero.1 (by linarith)
    have z2 : (p2.2 - p.2) = 0 := by
      have := mul_self_nonneg (p2.2 - p.2)
      have := mul_self_nonneg (p2.1 - p.1)
      exact mul_self_eq_zero.1 (by linarith)
    exact hr (Prod.ext z1 z2)
  set k := ((p2.1 - p.1) * (q2.1 - q.1) + (p2.2 - p.2) * (q2.2 - q.2)) / dot2 (p2 - p) (p2 - p) with hk
  have k0 : 0 < k := div_pos hd hrr
  have k1 : q2.1 - q.1 = k * (p2.1 - p.1) := by
    rw [hk, div_mul_eq_mul_div, eq_div_iff hrr.ne']
    simp only [dot2, Prod.fst_sub, Prod.snd_sub]
    linear_combination (-(p2.2 - p.2)) * h1
  have k2 : q2.2 - q.2 = k * (p2.2 - p.2) := by
    rw [hk, div_mul_eq_mul_div, eq_div_iff hrr.ne']
    simp only [dot2, Prod.fst_sub, Prod.snd_sub]
    linear_combination (p2.1 - p.1) * h1
  clear_value k
  have htk : t / k * k = t := div_mul_cancel₀ t k0.ne'
  rw [main]
  rcases le_total 0 (t - u * k) with hw | hw
  · left
    refine ⟨t - u * k, hw, by nlinarith, ?_, ?_⟩
    · linear_combination a1 - b1 - u * k1
    · linear_combination a2 - b2 - u * k2
  · right
    refine ⟨u - t / k, ?_, ?_, ?_, ?_⟩
    · rw [sub_nonneg, div_le_iff₀ k0]; linarith
    · have := div_nonneg t0 k0.le
      linarith
    · linear_combination b1 - a1 + (t / k) * k1 + (p2.1 - p.1) * htk
    · linear_combination b2 - a2 + (t / k) * k2 + (p2.2 - p.2) * htk

/-- C150: with the answer no the returned point is the origin; collinear segments get it if they are not asked for,
and so do parallel ones apart from each other. -/
theorem C150_no (p p2 q q2 : K × K) (colinear : Bool) :
    ((linesIntersection p p2 q q2 colinear).1 = false → (linesIntersection p p2 q q2 colinear).2 = (0, 0)) ∧
    (¬ Spread p p2 q q2 → (linesIntersection p p2 q q2 false).1 = false) ∧
    (¬ Spread p p2 q q2 → 1 / 10000000 ≤ |(q.1 - p.1) * (p2.2 - p.2) - (q.2 - p.2) * (p2.1 - p.1)| →
      (linesIntersection p p2 q q2 colinear).1 = false) := by
  refine ⟨?_, fun h => ?_, fun h h' => ?_⟩
  · unfold linesIntersection
    simp only
    split_ifs <;> simp
  · have hc : |cross (p2 - p) (q2 - q)| < 1 / 10000000 := by
      unfold Spread at h; unfold cross; simpa using h
    unfold linesIntersection
    simp only
    split_ifs with h1 h2 h3 h4 h5
    · exact h2.elim
    · rfl
    · rfl
    · rfl
    · exact absurd h5.1 (not_le.2 hc)
    · rfl
  · have hc : |cross (p2 - p) (q2 - q)| < 1 / 10000000 := by
      unfold Spread at h; unfold cross; simpa using h
    have hc' : |cross (q - p) (p2 - p)| ≥ 1 / 10000000 := by
      unfold cross; simpa using h'
    unfold linesIntersection
    simp only
    rw [if_neg (fun h => absurd h.2 (not_lt.2 hc')), if_pos ⟨hc, hc'⟩]

/-- Two overlapping pieces of a wall, and two parallel walls. -/
example : (((0 : ℚ), (0 : ℚ)) ≠ (2, 2) ∧ ((1 : ℚ), (1 : ℚ)) ≠ (3, 3) ∧
    (linesIntersection ((0 : ℚ), 0) (2, 2) (1, 1) (3, 3) true).1 = true) ∧
    ¬ Spread ((0 : ℚ), 0) (2, 0) (0, 1) (2, 1) := by
  refine ⟨⟨by decide +kernel, by decide +kernel, by decide +kernel⟩, ?_⟩
  unfold Spread
  norm_num

/-- Negation of C150 for all segments: two crossing segments of a tenth of a millimetre are said not to meet; two
segments on a line that overlap are said not to, although collinear ones are asked for; and if they are said to
overlap the point `(0, 0)` is returned, which is on neither. -/
theorem C150_false :
    (linesIntersection ((-1 / 20000 : ℚ), 0) (1 / 20000, 0) (0, -1 / 20000) (0, 1 / 20000) false).1 = false ∧
    (OnSegment ((-1 / 20000 : ℚ), 0) (1 / 20000, 0) (0, 0) ∧ OnSegment ((0 : ℚ), -1 / 20000) (0, 1 / 20000) (0, 0)) ∧
    (linesIntersection ((0 : ℚ), 0) (2, 0) (3, 0) (1, 0) true).1 = false ∧
    (OnSegment ((0 : ℚ), 0) (2, 0) (3 / 2, 0) ∧ OnSegment ((3 : ℚ), 0) (1, 0) (3 / 2, 0)) ∧
    linesIntersection ((1 : ℚ), 1) (3, 1) (2, 1) (4, 1) true = (true, (0, 0)) ∧
    ¬ OnSegment ((1 : ℚ), 1) (3, 1) (0, 0) := by
  refine ⟨by decide +kernel, ⟨⟨1 / 2, ?_⟩, ⟨1 / 2, ?_⟩⟩, by decide +kernel, ⟨⟨3 / 4, ?_⟩, ⟨3 / 4, ?_⟩⟩,
    by decide +kernel, ?_⟩
  · norm_num
  · norm_num
  · norm_num
  · norm_num
  · rintro ⟨t, -, -, -, h⟩
    norm_num at h

/-- Two walls that cross. -/
example : Spread ((0 : ℚ), 0) (2, 2) (0, 2) (2, 0) ∧
    linesIntersection ((0 : ℚ), 0) (2, 2) (0, 2) (2, 0) false = (true, (1, 1)) := by
  refine ⟨?_, by decide +kernel⟩
  unfold Spread
  norm_num [abs_of_neg]

end Verif.Voxel
