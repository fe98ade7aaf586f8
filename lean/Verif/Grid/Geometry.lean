import Verif.Grid.Move

/-
Positions, squares and slots: `isInside`, `calcCoordinates`, `calcIndex`, `calcInc*`,
`enlargeToFit`, `enlarge`.
-/
namespace Verif.Voxel

set_option linter.unusedSectionVars false

variable {K : Type v} [Field K] [LinearOrder K] [IsStrictOrderedRing K] [FloorRing K] {α : Type u}

/-- `squareOf` really is the square that contains the point. -/
theorem squareOf_iff {cs : K} (hcs : 0 < cs) (p : K × K) (q : ℤ × ℤ) :
    squareOf cs p = q ↔
      ((q.1 : K) - 1 / 2) * cs ≤ p.1 ∧ p.1 < ((q.1 : K) + 1 / 2) * cs ∧
      ((q.2 : K) - 1 / 2) * cs < p.2 ∧ p.2 ≤ ((q.2 : K) + 1 / 2) * cs := by
  unfold squareOf
  rw [Prod.ext_iff]
  simp only [Int.floor_eq_iff, Int.ceil_eq_iff]
  have e1 : ∀ a b : K, a ≤ b / cs + 1 / 2 ↔ (a - 1 / 2) * cs ≤ b := by
    intro a b; rw [← le_div_iff₀ hcs]; constructor <;> intro h <;> linarith
  have e2 : ∀ a b : K, b / cs + 1 / 2 < a + 1 ↔ b < (a + 1 / 2) * cs := by
    intro a b; rw [← div_lt_iff₀ hcs]; constructor <;> intro h <;> linarith
  have e3 : ∀ a b : K, a - 1 < b / cs - 1 / 2 ↔ (a - 1 / 2) * cs < b := by
    intro a b; rw [← lt_div_iff₀ hcs]; constructor <;> intro h <;> linarith
  have e4 : ∀ a b : K, b / cs - 1 / 2 ≤ a ↔ b ≤ (a + 1 / 2) * cs := by
    intro a b; rw [← div_le_iff₀ hcs]; constructor <;> intro h <;> linarith
  rw [e1, e2, e3, e4]
  tauto

theorem col_eq {g : Grid K α} (hcs : 0 < g.cellSize) (p : K × K) :
    ⌊(p.1 + g.cellSize * g.left + g.half) / g.cellSize⌋ = (squareOf g.cellSize p).1 + g.left := by
  unfold squareOf Grid.half
  have : (p.1 + g.cellSize * g.left + g.cellSize / 2) / g.cellSize
      = p.1 / g.cellSize + 1 / 2 + (g.left : ℤ) := by
    field_simp; push_cast; ring
  rw [this, Int.floor_add_intCast]

theorem row_eq {g : Grid K α} (hcs : 0 < g.cellSize) (p : K × K) :
    ⌊(-p.2 + g.cellSize * g.up + g.half) / g.cellSize⌋ = g.up - (squareOf g.cellSize p).2 := by
  unfold squareOf Grid.half
  have : (-p.2 + g.cellSize * g.up + g.cellSize / 2) / g.cellSize
      = -(p.2 / g.cellSize - 1 / 2) + (g.up : ℤ) := by
    field_simp; push_cast; ring
  rw [this, Int.floor_add_intCast, Int.floor_neg]
  ring

theorem calcCoordinates_eq {g : Grid K α} (hcs : 0 < g.cellSize) (p : K × K) :
    calcCoordinates g p =
      (toSizeT ((squareOf g.cellSize p).1 + g.left)).bind fun col =>
      (toSizeT (g.up - (squareOf g.cellSize p).2)).bind fun row => .ok (col, row) := by
  unfold calcCoordinates
  rw [if_neg (ne_of_gt hcs), col_eq hcs, row_eq hcs]

/-- Coordinates in units of cells. -/
theorem isInside_iff {g : Grid K α} (hcs : 0 < g.cellSize) (p : K × K) :
    isInside g p = true ↔
      (-(g.left : K) - 1 / 2 ≤ p.1 / g.cellSize ∧ p.1 / g.cellSize ≤ g.right + 1 / 2) ∧
      (-(g.down : K) - 1 / 2 ≤ p.2 / g.cellSize ∧ p.2 / g.cellSize ≤ g.up + 1 / 2) := by
  unfold isInside Grid.half
  simp only [Bool.and_eq_true, decide_eq_true_eq, ge_iff_le]
  have e1 : ∀ a b : K, -a * g.cellSize - g.cellSize / 2 ≤ b ↔ -a - 1 / 2 ≤ b / g.cellSize := by
    intro a b; rw [le_div_iff₀ hcs]; constructor <;> intro h <;> linarith
  have e2 : ∀ a b : K, b ≤ a * g.cellSize + g.cellSize / 2 ↔ b / g.cellSize ≤ a + 1 / 2 := by
    intro a b; rw [div_le_iff₀ hcs]; constructor <;> intro h <;> linarith
  rw [e1, e1, e2, e2]
  tauto

/-- In terms of squares: an inside point lies in the extent, or one column right of it (exactly on
the right border line), or one row below it (exactly on the bottom border line). -/
theorem isInside_square {g : Grid K α} (hcs : 0 < g.cellSize) {p : K × K} (h : isInside g p = true) :
    -(g.left : ℤ) ≤ (squareOf g.cellSize p).1 ∧ (squareOf g.cellSize p).1 ≤ g.right + 1 ∧
    -(g.down : ℤ) - 1 ≤ (squareOf g.cellSize p).2 ∧ (squareOf g.cellSize p).2 ≤ g.up := by
  rw [isInside_iff hcs] at h
  obtain ⟨⟨h1, h2⟩, h3, h4⟩ := h
  unfold squareOf
  simp only
  refine ⟨Int.le_floor.2 ?_, ?_, ?_, Int.ceil_le.2 ?_⟩
  · push_cast; linarith
  · rw [← Int.lt_add_one_iff, Int.floor_lt]; push_cast; linarith
  · rw [Int.sub_one_lt_iff.symm, Int.lt_ceil]; push_cast; linarith
  · push_cast; linarith

theorem inExtent_iff {g : Grid K α} (_hcs : 0 < g.cellSize) (p : K × K) :
    InExtent g (squareOf g.cellSize p) ↔
      (-(g.left : K) - 1 / 2 ≤ p.1 / g.cellSize ∧ p.1 / g.cellSize < g.right + 1 / 2) ∧
      (-(g.down : K) - 1 / 2 < p.2 / g.cellSize ∧ p.2 / g.cellSize ≤ g.up + 1 / 2) := by
  unfold InExtent squareOf
  simp only
  rw [Int.le_floor, ← Int.lt_add_one_iff, Int.floor_lt, Int.ceil_le, ← Int.sub_one_lt_iff,
    Int.lt_ceil]
  push_cast
  constructor
  · rintro ⟨h1, h2, h3, h4⟩
    exact ⟨⟨by linarith, by linarith⟩, by linarith, by linarith⟩
  · rintro ⟨⟨h1, h2⟩, h3, h4⟩
    exact ⟨by linarith, by linarith, by linarith, by linarith⟩

theorem inExtent_isInside {g : Grid K α} (hcs : 0 < g.cellSize) {p : K × K}
    (h : InExtent g (squareOf g.cellSize p)) : isInside g p = true := by
  rw [inExtent_iff hcs] at h
  rw [isInside_iff hcs]
  exact ⟨⟨h.1.1, h.1.2.le⟩, h.2.1.le, h.2.2⟩

theorem toSizeT_of_nonneg {z : ℤ} (h : 0 ≤ z) : toSizeT z = .ok z.toNat := by
  unfold toSizeT; rw [if_neg (by omega)]

/-- For every point reported as inside the coordinates are computed without undefined behaviour. -/
theorem calcCoordinates_inside {g : Grid K α} (hcs : 0 < g.cellSize) {p : K × K}
    (h : isInside g p = true) :
    calcCoordinates g p = .ok (((squareOf g.cellSize p).1 + g.left).toNat,
      (g.up - (squareOf g.cellSize p).2).toNat) := by
  have hs := isInside_square hcs h
  rw [calcCoordinates_eq hcs, toSizeT_of_nonneg (by omega), toSizeT_of_nonneg (by omega)]
  rfl

theorem calcIndex_inside {g : Grid K α} (hcs : 0 < g.cellSize) {p : K × K}
    (h : isInside g p = true) :
    calcIndex g p = .ok (slotNo g (squareOf g.cellSize p)) := by
  unfold calcIndex
  rw [calcCoordinates_inside hcs h]
  rfl

theorem calcIndex_inExtent {g : Grid K α} (hcs : 0 < g.cellSize) {p : K × K}
    (h : InExtent g (squareOf g.cellSize p)) :
    calcIndex g p = .ok (slotNo g (squareOf g.cellSize p)) :=
  calcIndex_inside hcs (inExtent_isInside hcs h)

theorem getCellPtr_inExtent {g : Grid K α} (hwf : WF g) (hcs : 0 < g.cellSize) {p : K × K}
    (h : InExtent g (squareOf g.cellSize p)) :
    getCellPtr g p = .ok (content g (squareOf g.cellSize p)) := by
  unfold getCellPtr
  rw [calcIndex_inExtent hcs h, content_of_in h]
  have := slotNo_lt h
  unfold WF at hwf
  simp only [Res.bind_ok, readSlot]
  rw [if_pos (by omega)]

/-! ### Growing -/

/-- Number of columns added on the right for a coordinate (and, mirrored, on the other sides). -/
theorem inc_spec {cs a x : K} (hcs : 0 < cs) :
    ∃ n : ℕ, (if x > a then (if cs = 0 then Res.ub .badCast else toSizeT ⌈(x - a) / cs⌉) else Res.ok 0)
      = .ok n ∧ x ≤ a + n * cs ∧ (a < x → a + n * cs < x + cs) ∧ (x ≤ a → n = 0) := by
  split_ifs with h h0
  · exact absurd h0 (ne_of_gt hcs)
  · have hpos : 0 < (x - a) / cs := div_pos (by linarith) hcs
    have hc : 0 ≤ ⌈(x - a) / cs⌉ := (Int.ceil_pos.2 hpos).le
    refine ⟨⌈(x - a) / cs⌉.toNat, toSizeT_of_nonneg hc, ?_, ?_, fun h' => by linarith⟩
    · have h1 := Int.le_ceil ((x - a) / cs)
      have h2 : ((⌈(x - a) / cs⌉.toNat : ℕ) : K) = (⌈(x - a) / cs⌉ : K) := by
        exact_mod_cast congrArg (Int.cast : ℤ → K) (Int.toNat_of_nonneg hc)
      rw [h2]
      rw [div_le_iff₀ hcs] at h1
      linarith
    · intro _
      have h1 := Int.ceil_lt_add_one ((x - a) / cs)
      have h2 : ((⌈(x - a) / cs⌉.toNat : ℕ) : K) = (⌈(x - a) / cs⌉ : K) := by
        exact_mod_cast congrArg (Int.cast : ℤ → K) (Int.toNat_of_nonneg hc)
      rw [h2]
      have h3 : (⌈(x - a) / cs⌉ : K) * cs < ((x - a) / cs + 1) * cs :=
        mul_lt_mul_of_pos_right h1 hcs
      rw [add_mul, div_mul_cancel₀ _ (ne_of_gt hcs)] at h3
      linarith
  · exact ⟨0, rfl, by push_cast; linarith, fun h' => absurd h' h, fun _ => rfl⟩

theorem calcIncRight_spec {g : Grid K α} (hcs : 0 < g.cellSize) (x : K) :
    ∃ n : ℕ, calcIncRight g x = .ok n ∧ x / g.cellSize ≤ g.right + n + 1 / 2 ∧
      (g.right + 1 / 2 < x / g.cellSize → g.right + n - 1 / 2 < x / g.cellSize) ∧
      (x / g.cellSize ≤ g.right + 1 / 2 → n = 0) := by
  obtain ⟨n, h1, h2, h3, h4⟩ := inc_spec (a := (g.right : K) * g.cellSize + g.half) (x := x) hcs
  unfold Grid.half at h2 h3 h4
  refine ⟨n, h1, ?_, ?_, ?_⟩
  · rw [div_le_iff₀ hcs]; linarith
  · rw [lt_div_iff₀ hcs, lt_div_iff₀ hcs]; intro h
    have := h3 (by linarith); linarith
  · rw [div_le_iff₀ hcs]; intro h; exact h4 (by linarith)

theorem calcIncUp_spec {g : Grid K α} (hcs : 0 < g.cellSize) (x : K) :
    ∃ n : ℕ, calcIncUp g x = .ok n ∧ x / g.cellSize ≤ g.up + n + 1 / 2 ∧
      (g.up + 1 / 2 < x / g.cellSize → g.up + n - 1 / 2 < x / g.cellSize) ∧
      (x / g.cellSize ≤ g.up + 1 / 2 → n = 0) := by
  obtain ⟨n, h1, h2, h3, h4⟩ := inc_spec (a := (g.up : K) * g.cellSize + g.half) (x := x) hcs
  unfold Grid.half at h2 h3 h4
  refine ⟨n, h1, ?_, ?_, ?_⟩
  · rw [div_le_iff₀ hcs]; linarith
  · rw [lt_div_iff₀ hcs, lt_div_iff₀ hcs]; intro h
    have := h3 (by linarith); linarith
  · rw [div_le_iff₀ hcs]; intro h; exact h4 (by linarith)

theorem calcIncLeft_spec {g : Grid K α} (hcs : 0 < g.cellSize) (x : K) :
    ∃ n : ℕ, calcIncLeft g x = .ok n ∧ -(g.left + n + 1 / 2) ≤ x / g.cellSize ∧
      (x / g.cellSize < -(g.left + 1 / 2 : K) → x / g.cellSize < -(g.left + n - 1 / 2 : K)) ∧
      (-(g.left + 1 / 2 : K) ≤ x / g.cellSize → n = 0) := by
  obtain ⟨n, h1, h2, h3, h4⟩ := inc_spec (a := (g.left : K) * g.cellSize + g.half) (x := -x) hcs
  unfold Grid.half at h2 h3 h4
  refine ⟨n, ?_, ?_, ?_, ?_⟩
  · rw [← h1]
    unfold calcIncLeft Grid.half
    have e : (x < -(g.left : K) * g.cellSize - g.cellSize / 2) ↔
        (-x > (g.left : K) * g.cellSize + g.cellSize / 2) := by
      constructor <;> intro h <;> linarith
    simp only [e]
    have e2 : (-(g.left : K) * g.cellSize - g.cellSize / 2 - x)
        = (-x - ((g.left : K) * g.cellSize + g.cellSize / 2)) := by ring
    rw [e2]
  · rw [le_div_iff₀ hcs]; linarith
  · rw [div_lt_iff₀ hcs, div_lt_iff₀ hcs]; intro h
    have := h3 (by linarith); linarith
  · rw [le_div_iff₀ hcs]; intro h; exact h4 (by linarith)

theorem calcIncDown_spec {g : Grid K α} (hcs : 0 < g.cellSize) (x : K) :
    ∃ n : ℕ, calcIncDown g x = .ok n ∧ -(g.down + n + 1 / 2) ≤ x / g.cellSize ∧
      (x / g.cellSize < -(g.down + 1 / 2 : K) → x / g.cellSize < -(g.down + n - 1 / 2 : K)) ∧
      (-(g.down + 1 / 2 : K) ≤ x / g.cellSize → n = 0) := by
  obtain ⟨n, h1, h2, h3, h4⟩ := inc_spec (a := (g.down : K) * g.cellSize + g.half) (x := -x) hcs
  unfold Grid.half at h2 h3 h4
  refine ⟨n, ?_, ?_, ?_, ?_⟩
  · rw [← h1]
    unfold calcIncDown Grid.half
    have e : (x < -(g.down : K) * g.cellSize - g.cellSize / 2) ↔
        (-x > (g.down : K) * g.cellSize + g.cellSize / 2) := by
      constructor <;> intro h <;> linarith
    simp only [e]
    have e2 : (-(g.down : K) * g.cellSize - g.cellSize / 2 - x)
        = (-x - ((g.down : K) * g.cellSize + g.cellSize / 2)) := by ring
    rw [e2]
  · rw [le_div_iff₀ hcs]; linarith
  · rw [div_lt_iff₀ hcs, div_lt_iff₀ hcs]; intro h
    have := h3 (by linarith); linarith
  · rw [le_div_iff₀ hcs]; intro h; exact h4 (by linarith)

/-- Facts about a grid grown to fit a point. -/
structure Grown (g g' : Grid K α) : Prop where
  wf : WF g'
  cs : g'.cellSize = g.cellSize
  valid : g'.validCells = g.validCells
  left : g.left ≤ g'.left
  right : g.right ≤ g'.right
  up : g.up ≤ g'.up
  down : g.down ≤ g'.down
  content : ∀ q, content g' q = content g q

theorem Grown.refl {g : Grid K α} (h : WF g) : Grown g g :=
  ⟨h, rfl, rfl, le_rfl, le_rfl, le_rfl, le_rfl, fun _ => rfl⟩

theorem enlarge_spec {g : Grid K α} (hwf : WF g) (hcs : 0 < g.cellSize) (minx miny maxx maxy : K) :
    ∃ g', enlarge g minx miny maxx maxy = .ok g' ∧ Grown g g' ∧
      (-(g'.left : K) - 1 / 2 ≤ minx / g.cellSize ∧ maxx / g.cellSize ≤ g'.right + 1 / 2) ∧
      (-(g'.down : K) - 1 / 2 ≤ miny / g.cellSize ∧ maxy / g.cellSize ≤ g'.up + 1 / 2) ∧
      (-(g.left : K) - 1 / 2 ≤ minx / g.cellSize ∧ maxx / g.cellSize ≤ g.right + 1 / 2 ∧
       -(g.down : K) - 1 / 2 ≤ miny / g.cellSize ∧ maxy / g.cellSize ≤ g.up + 1 / 2 → g' = g) := by
  obtain ⟨l, hl1, hl2, hl3, hl4⟩ := calcIncLeft_spec hcs minx
  obtain ⟨r, hr1, hr2, hr3, hr4⟩ := calcIncRight_spec hcs maxx
  obtain ⟨u, hu1, hu2, hu3, hu4⟩ := calcIncUp_spec hcs maxy
  obtain ⟨d, hd1, hd2, hd3, hd4⟩ := calcIncDown_spec hcs miny
  obtain ⟨g', hg', hwf', hL, hR, hU, hD, hc, hv, hcont⟩ := enlargeGrid_spec hwf l r u d
  unfold enlarge
  rw [hl1, hr1, hu1, hd1]
  refine ⟨g', hg', ⟨hwf', hc, hv, by omega, by omega, by omega, by omega, hcont⟩, ?_, ?_, ?_⟩
  · rw [hL, hR]; push_cast; constructor <;> linarith
  · rw [hU, hD]; push_cast; constructor <;> linarith
  · rintro ⟨h1, h2, h3, h4⟩
    have z1 := hl4 (by linarith)
    have z2 := hr4 h2
    have z3 := hu4 h4
    have z4 := hd4 (by linarith)
    subst z1 z2 z3 z4
    unfold enlargeGrid at hg'
    simp at hg'
    exact hg'.symm

/-- The point lies on a right border line at or beyond the right border of the grid, or on a bottom
border line at or beyond the bottom border.  These are exactly the points that are addressed
wrongly. -/
def OnOpenBorder (g : Grid K α) (p : K × K) : Prop :=
  (∃ k : ℕ, p.1 = (g.right + k + 1 / 2) * g.cellSize) ∨
  (∃ k : ℕ, p.2 = -((g.down + k + 1 / 2) * g.cellSize))

theorem enlargeToFit_spec {g : Grid K α} (hwf : WF g) (hcs : 0 < g.cellSize) (p : K × K) :
    ∃ g', enlargeToFit g p = .ok g' ∧ Grown g g' ∧ isInside g' p = true ∧
      (InExtent g' (squareOf g.cellSize p) ↔ ¬ OnOpenBorder g p) := by
  -- both cases give explicit increments
  obtain ⟨l, r, u, d, g', hg', hwf', hL, hR, hU, hD, hc, hv, hcont, hl, hr, hu, hd, hr', hd'⟩ :
      ∃ (l r u d : ℕ) (g' : Grid K α), enlargeToFit g p = .ok g' ∧ WF g' ∧ g'.left = g.left + l ∧
        g'.right = g.right + r ∧ g'.up = g.up + u ∧ g'.down = g.down + d ∧
        g'.cellSize = g.cellSize ∧ g'.validCells = g.validCells ∧
        (∀ q, content g' q = content g q) ∧
        (-(g.left + l + 1 / 2 : K) ≤ p.1 / g.cellSize) ∧ (p.1 / g.cellSize ≤ g.right + r + 1 / 2) ∧
        (p.2 / g.cellSize ≤ g.up + u + 1 / 2) ∧ (-(g.down + d + 1 / 2 : K) ≤ p.2 / g.cellSize) ∧
        (0 < r → (g.right + r - 1 / 2 : K) < p.1 / g.cellSize) ∧
        (0 < d → p.2 / g.cellSize < -(g.down + d - 1 / 2 : K)) := by
    unfold enlargeToFit
    by_cases hin : isInside g p = true
    · rw [if_pos hin]
      have := (isInside_iff hcs p).1 hin
      refine ⟨0, 0, 0, 0, g, rfl, hwf, rfl, rfl, rfl, rfl, rfl, rfl, fun _ => rfl, ?_, ?_, ?_, ?_,
        fun h => absurd h (lt_irrefl _), fun h => absurd h (lt_irrefl _)⟩ <;> push_cast <;> linarith
    · rw [if_neg hin]
      obtain ⟨l, hl1, hl2, hl3, hl4⟩ := calcIncLeft_spec hcs p.1
      obtain ⟨r, hr1, hr2, hr3, hr4⟩ := calcIncRight_spec hcs p.1
      obtain ⟨u, hu1, hu2, hu3, hu4⟩ := calcIncUp_spec hcs p.2
      obtain ⟨d, hd1, hd2, hd3, hd4⟩ := calcIncDown_spec hcs p.2
      obtain ⟨g', hg', hwf', hL, hR, hU, hD, hc, hv, hcont⟩ := enlargeGrid_spec hwf l r u d
      rw [hl1, hr1, hu1, hd1]
      refine ⟨l, r, u, d, g', hg', hwf', hL, hR, hU, hD, hc, hv, hcont, hl2, hr2, hu2, hd2, ?_, ?_⟩
      · intro h
        apply hr3
        by_contra hcon
        have := hr4 (by linarith)
        omega
      · intro h
        apply hd3
        by_contra hcon
        have := hd4 (by linarith)
        omega
  refine ⟨g', hg', ⟨hwf', hc, hv, by omega, by omega, by omega, by omega, hcont⟩, ?_, ?_⟩
  · rw [isInside_iff (by rw [hc]; exact hcs), hc, hL, hR, hU, hD]
    push_cast
    exact ⟨⟨by linarith, by linarith⟩, by linarith, by linarith⟩
  · rw [← hc, inExtent_iff (by rw [hc]; exact hcs), hc, hL, hR, hU, hD]
    push_cast
    have kx : ∀ k : ℕ, p.1 = (g.right + k + 1 / 2) * g.cellSize ↔
        p.1 / g.cellSize = g.right + k + 1 / 2 := by
      intro k; rw [div_eq_iff (ne_of_gt hcs)]
    have ky : ∀ k : ℕ, p.2 = -((g.down + k + 1 / 2) * g.cellSize) ↔
        p.2 / g.cellSize = -(g.down + k + 1 / 2) := by
      intro k; rw [div_eq_iff (ne_of_gt hcs), neg_mul]
    unfold OnOpenBorder
    simp only [kx, ky]
    constructor
    · rintro ⟨⟨h1, h2⟩, h3, h4⟩ (⟨k, hk⟩ | ⟨k, hk⟩)
      · rw [hk] at h2 hr'
        have hkr : (k : K) < r := by linarith
        have hkr' : k < r := by exact_mod_cast hkr
        have := hr' (by omega)
        have h5 : (r : K) < k + 1 := by linarith
        have h6 : r < k + 1 := by exact_mod_cast h5
        omega
      · rw [hk] at h3 hd'
        have hkr : (k : K) < d := by linarith
        have hkr' : k < d := by exact_mod_cast hkr
        have := hd' (by omega)
        have h5 : (d : K) < k + 1 := by linarith
        have h6 : d < k + 1 := by exact_mod_cast h5
        omega
    · intro hno
      push Not at hno
      refine ⟨⟨by linarith, lt_of_le_of_ne hr ?_⟩, lt_of_le_of_ne ?_ ?_, by linarith⟩
      · exact hno.1 r
      · linarith
      · have := hno.2 d
        intro h
        exact this (by rw [← h]; ring)

end Verif.Voxel
