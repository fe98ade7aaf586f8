import Verif.NDTGrid.Scan
import Mathlib.Algebra.Order.Ring.Rat
import Mathlib.Data.Rat.Floor
import Mathlib.Tactic.NormNum
import Mathlib.Tactic.FinCases

/-
Properties C14-C19, C56, C71-C75 of the NDT grid and of the mapper.
-/
namespace Verif.NDTGrid

open Verif Verif.Voxel

set_option linter.unusedSectionVars false

variable {K : Type v} [Field K] [LinearOrder K] [IsStrictOrderedRing K] [FloorRing K] {γ : Type u}

/-! ### A small cell type for the examples -/

/-- Mean, Gaussian flag, points, occupancy. -/
structure Toy where
  x : ℚ
  y : ℚ
  z : ℚ
  g : Bool
  n : ℕ
  o : Option ℚ
deriving DecidableEq

/-- A cell is Gaussian from two points on; the mean is the average; rays do nothing. -/
def toyI : CellI ℚ Toy where
  default := ⟨0, 0, 0, false, 0, some (1 / 2)⟩
  merge a b :=
    if a.g then { a with x := (a.x + b.x) / 2, y := (a.y + b.y) / 2, z := (a.z + b.z) / 2,
                         n := a.n + b.n } else b
  mean c := ![c.x, c.y, c.z]
  setMean c m := { c with x := m 0, y := m 1, z := m 2 }
  gaussian := Toy.g
  points := Toy.n
  occ := Toy.o
  ray c _ _ _ := .ok c
  addPoint c p := { c with x := c.x + p 0, y := c.y + p 1, z := c.z + p 2, n := c.n + 1 }
  compute c := if 2 ≤ c.n then { c with x := c.x / c.n, y := c.y / c.n, z := c.z / c.n, g := true } else c

/-- A Gaussian of `n` points at `(x, y)`. -/
def toy (x y : ℚ) (n : ℕ) : Toy := ⟨x, y, 0, true, n, some (9 / 10)⟩

theorem toy_lawful : Lawful toyI where
  default_gaussian := rfl
  mean_setMean _ m := by funext i; fin_cases i <;> rfl
  gaussian_setMean _ _ := rfl
  ray c s e k c' h hg := by cases h; exact ⟨hg, rfl⟩
  merge o c _ _ := by
    by_cases ho : o.g = true
    · refine ⟨1 / 2, by norm_num, by norm_num, fun h => ?_, fun i => ?_⟩
      · change o.g = false at h
        rw [h] at ho
        cases ho
      · fin_cases i <;> simp [toyI, if_pos ho] <;> ring
    · refine ⟨1, by norm_num, le_rfl, fun _ => rfl, fun i => ?_⟩
      fin_cases i <;> simp [toyI, if_neg ho]

theorem toy_fold (ps : List (Fin 3 → ℚ)) : ∀ c : Toy,
    ps.foldl toyI.addPoint c =
      { c with x := c.x + (ps.map fun p => p 0).sum, y := c.y + (ps.map fun p => p 1).sum,
               z := c.z + (ps.map fun p => p 2).sum, n := c.n + ps.length } := by
  induction ps with
  | nil => intro c; cases c; simp
  | cons p ps ih =>
    intro c
    rw [List.foldl_cons, ih]
    simp only [toyI, Toy.mk.injEq, List.map_cons, List.sum_cons, List.length_cons, and_true, true_and]
    exact ⟨by ring, by ring, by ring, by omega⟩

theorem toy_scan : LawfulScan toyI where
  empty := by decide +kernel
  mean ps h i := by
    unfold cellOf at h ⊢
    rw [toy_fold] at h ⊢
    simp only [toyI, zero_add] at h ⊢
    by_cases hl : 2 ≤ ps.length
    · rw [if_pos hl]
      have : (ps.length : ℚ) ≠ 0 := by
        have : 0 < ps.length := by omega
        exact_mod_cast (ne_of_gt this)
      fin_cases i <;> simp <;> field_simp
    · rw [if_neg hl] at h
      cases h

/-- A grid with two Gaussians, at `(0, 0)` and `(1, 0)`; cell size 1, extent one to the right. -/
def exN : NGrid ℚ Toy :=
  { ox := 0, oy := 0, th := 0, initialized := true, timestamp := 0,
    grid := { cellSize := 1, left := 0, right := 1, up := 0, down := 0, validCells := 2,
              cells := [some (toy 0 0 3), some (toy (9 / 8) (1 / 4) 4)] },
    means := [![0, 0, 0], ![9 / 8, 1 / 4, 0]] }

theorem exN_wf : WF exN.grid := by unfold WF; rfl

/-! ### C14 -/

/-- C14.  `move(T)` of a grid that is not rotated: residual and new origin add up to the old origin moved by
`T`, the residual is below one cell in each axis, the extent stays, and the whole number of squares
`(mx, my)` by which the origin moved determines the new contents: square `q` shows what was in
`q + (mx, my)`; a Gaussian there keeps its position in the world; what has no square in the extent any
more is discarded.  A rotated grid is left as it is and `T` is returned. -/
theorem C14_move {I : CellI K γ} (hI : Lawful I) {n : NGrid K γ} (hwf : WF n.grid)
    (hcs : 0 < n.grid.cellSize) (tx ty : K) :
    (|n.th| ≤ 1 / 10000000 → ∃ r n', move I n tx ty = .ok (r, n') ∧
      (n'.ox + r.1, n'.oy + r.2, n'.th) = (n.ox + tx, n.oy + ty, n.th) ∧
      |r.1| < n.grid.cellSize ∧ |r.2| < n.grid.cellSize ∧
      WF n'.grid ∧ n'.grid.cellSize = n.grid.cellSize ∧
      (∀ q, InExtent n'.grid q ↔ InExtent n.grid q) ∧
      ∃ mx my : ℤ, n'.ox = n.ox + mx * n.grid.cellSize ∧ n'.oy = n.oy + my * n.grid.cellSize ∧
        ∀ q, InExtent n.grid q →
          (content n'.grid q = none ↔ content n.grid (q.1 + mx, q.2 + my) = none) ∧
          ∀ c, content n.grid (q.1 + mx, q.2 + my) = some c →
            ∃ c', content n'.grid q = some c' ∧ I.gaussian c' = I.gaussian c ∧
              (I.gaussian c = true → worldMean I n' c' = worldMean I n c) ∧
              (I.gaussian c = false → c' = c)) ∧
    (|n.th| > 1 / 10000000 → move I n tx ty = .ok ((tx, ty), n)) := by
  constructor
  · intro hth
    obtain ⟨r, n', mx, my, moved, h, hr, h1, h2, hox, hoy, hth', -, -, hwf', hbox, hno, hyes⟩ :=
      move_spec I hwf hcs hth tx ty
    refine ⟨r, n', h, ?_, h1, h2, hwf', hbox.cs, hbox.inExtent, mx, my, hox, hoy, ?_⟩
    · rw [hox, hoy, hth', hr]
      simp only [Prod.mk.injEq, and_true]
      constructor <;> ring
    · intro q hq
      by_cases hm : moved
      · obtain ⟨-, hcont⟩ := hyes hm
        have hc := hcont q hq
        constructor
        · rw [hc]; simp
        · intro c hcq
          rw [hcq] at hc
          refine ⟨_, hc, shiftCell_gaussian hI _ c, ?_, ?_⟩
          · intro hg
            unfold worldMean
            rw [shiftCell_mean hI _ hg, hox, hoy]
            simp only [Pi.add_apply, Matrix.cons_val_zero, Matrix.cons_val_one, Matrix.cons_val,
              add_zero, Prod.mk.injEq, and_true]
            constructor <;> ring
          · intro hg
            unfold shiftCell
            rw [if_neg (by rw [hg]; simp)]
      · obtain ⟨e1, e2, e3⟩ := hno hm
        subst e1 e2 e3
        simp only [add_zero]
        exact ⟨trivial, fun c hc => ⟨c, hc, rfl, fun _ => rfl, fun _ => rfl⟩⟩
  · intro hth
    unfold move
    rw [if_pos hth]

/-- C14, no overshoot: what `move` returns is the rest of `T`, in each axis in the direction of `T` and not longer
than `T`; the origin moves in the direction of `T`. -/
theorem C14_no_overshoot (I : CellI K γ) {n n' : NGrid K γ} (hcs : 0 < n.grid.cellSize) {tx ty : K} {r : K × K}
    (h : move I n tx ty = .ok (r, n')) :
    0 ≤ r.1 * tx ∧ |r.1| ≤ |tx| ∧ 0 ≤ r.2 * ty ∧ |r.2| ≤ |ty| ∧
    0 ≤ (n'.ox - n.ox) * tx ∧ 0 ≤ (n'.oy - n.oy) * ty := by
  have hid : 0 ≤ tx * tx ∧ |tx| ≤ |tx| ∧ 0 ≤ ty * ty ∧ |ty| ≤ |ty| ∧
      0 ≤ (n.ox - n.ox) * tx ∧ 0 ≤ (n.oy - n.oy) * ty :=
    ⟨mul_self_nonneg _, le_rfl, mul_self_nonneg _, le_rfl, by simp, by simp⟩
  have hdir : ∀ x m : K, 0 ≤ (x - m) * x → |x - m| ≤ |x| → 0 ≤ m * x := by
    intro x m h1 h2
    rcases le_total 0 x with hx | hx
    · rw [abs_of_nonneg hx] at h2
      exact mul_nonneg (by linarith [le_abs_self (x - m)]) hx
    · rw [abs_of_nonpos hx] at h2
      exact mul_nonneg_of_nonpos_of_nonpos (by linarith [neg_abs_le (x - m)]) hx
  unfold move at h
  split_ifs at h
  · cases h; exact hid
  · simp only at h
    split_ifs at h
    · obtain ⟨g, -, h⟩ := Res.bind_eq_ok.1 h
      cases h
      obtain ⟨a1, a2⟩ := axisSteps_rest hcs tx
      obtain ⟨b1, b2⟩ := axisSteps_rest hcs ty
      refine ⟨a1, a2, b1, b2, ?_, ?_⟩
      · change 0 ≤ (n.ox + axisSteps n.grid.cellSize tx * n.grid.cellSize - n.ox) * tx
        rw [add_sub_cancel_left]
        exact hdir _ _ a1 a2
      · change 0 ≤ (n.oy + axisSteps n.grid.cellSize ty * n.grid.cellSize - n.oy) * ty
        rw [add_sub_cancel_left]
        exact hdir _ _ b1 b2
    · cases h; exact hid

/-- Moving by `(-1.5, 0)`: the residual is `-0.5`; the Gaussian at world x = 9/8 leaves the extent. -/
example : |exN.th| ≤ 1 / 10000000 ∧
    (move toyI exN (-3 / 2) 0).map (fun x => (x.1, x.2.ox, x.2.grid.cells)) =
      .ok ((-1 / 2, 0), -1, [none, some (toy 1 0 3)]) := by
  constructor <;> decide +kernel

/-! ### C15 -/

/-- Where merging can be done at all: no Gaussian input has its mean exactly on a right or bottom border
line at or beyond the border of the grid. -/
def NoneOnBorder (I : CellI K γ) (g : Grid K γ) (cells : List γ) : Prop :=
  ∀ c ∈ cells, I.gaussian c = true → ¬ OnOpenBorder g (head (I.mean c))

/-- C15 except on border lines: merging with resizing (or into a grid that was never merged into) leaves
in every square the last Gaussian input with its mean there, and leaves every other square as it was. -/
theorem C15_merge_resize_partial (I : CellI K γ) {n : NGrid K γ} (hwf : WF n.grid)
    (hcs : 0 < n.grid.cellSize) (cells : List γ) (resize : Bool)
    (hres : resize = true ∨ n.initialized = false) (hb : NoneOnBorder I n.grid cells) :
    ∃ n', mergeCells I n cells resize = .ok n' ∧ WF n'.grid ∧
      n'.grid.cellSize = n.grid.cellSize ∧
      (∀ q, (∀ c ∈ cells, I.gaussian c = true → squareOf n.grid.cellSize (head (I.mean c)) ≠ q) →
        content n'.grid q = content n.grid q) ∧
      (∀ pre c post, cells = pre ++ c :: post → I.gaussian c = true →
        (∀ d ∈ post, I.gaussian d = true →
          squareOf n.grid.cellSize (head (I.mean d)) ≠ squareOf n.grid.cellSize (head (I.mean c))) →
        content n'.grid (squareOf n.grid.cellSize (head (I.mean c))) = some c) := by
  obtain ⟨g', h, hwf', hcs', -, -, -, -, hcont, -⟩ := mergeCells_resize I hwf hcs cells resize hres hb
  refine ⟨_, h, hwf', hcs', ?_, ?_⟩
  · intro q hq
    show content g' q = _
    rw [hcont]
    have : inSquare I n.grid.cellSize cells q = [] := by
      rw [List.eq_nil_iff_forall_not_mem]
      intro c hc
      obtain ⟨h1, h2, h3⟩ := mem_inSquare.1 hc
      exact hq c h1 h2 h3
    rw [this]
    rfl
  · intro pre c post he hg hlast
    show content g' _ = _
    rw [hcont]
    have : inSquare I n.grid.cellSize post (squareOf n.grid.cellSize (head (I.mean c))) = [] := by
      rw [List.eq_nil_iff_forall_not_mem]
      intro d hd
      obtain ⟨h1, h2, h3⟩ := mem_inSquare.1 hd
      exact hlast d h1 h2 h3
    have e : inSquare I n.grid.cellSize cells (squareOf n.grid.cellSize (head (I.mean c)))
        = inSquare I n.grid.cellSize pre (squareOf n.grid.cellSize (head (I.mean c))) ++ [c] := by
      subst he
      unfold inSquare at this ⊢
      rw [List.filter_append, List.filter_cons_of_pos (by simp [hg, squareOfMean]), this]
    rw [e, List.getLast?_append]
    rfl

/-- Negation of C15: one Gaussian with its mean exactly on the right border of a new grid makes the merge
write out of bounds. -/
theorem C15_false_on_border :
    (mergeCells toyI (init toyI 0 0 0 1) [toy (1 / 2) 0 3] true).map (fun n => n.grid.cells)
      = .ub .outOfBounds := by decide +kernel

/-- Non-trivial case: two inputs in one square (the later stays), one outside the extent. -/
example : NoneOnBorder toyI exN.grid [toy 0 0 5, toy (1 / 4) 0 6, toy 3 0 7] ∧
    (mergeCells toyI exN [toy 0 0 5, toy (1 / 4) 0 6, toy 3 0 7] true).map (fun n => n.grid.cells)
      = .ok [some (toy (1 / 4) 0 6), some (toy (9 / 8) (1 / 4) 4), none, some (toy 3 0 7)] := by
  refine ⟨?_, by decide +kernel⟩
  intro c hc _
  have hx : ∀ k : ℕ, (0 : ℚ) ≠ (1 + k + 1 / 2) * 1 ∧ (1 / 4 : ℚ) ≠ (1 + k + 1 / 2) * 1 ∧
      (3 : ℚ) ≠ (1 + k + 1 / 2) * 1 ∧ (0 : ℚ) ≠ -((0 + k + 1 / 2) * 1) := by
    intro k
    have hk : (0 : ℚ) ≤ k := Nat.cast_nonneg k
    refine ⟨by intro h; linarith, by intro h; linarith, ?_, by intro h; linarith⟩
    intro h
    have h2 : (2 * k : ℚ) = 3 := by linarith
    have h3 : 2 * k = 3 := by exact_mod_cast h2
    omega
  simp only [List.mem_cons, List.not_mem_nil, or_false] at hc
  rintro (⟨k, hk⟩ | ⟨k, hk⟩) <;> rcases hc with rfl | rfl | rfl <;>
    simp only [exN, toyI, toy, head, Matrix.cons_val_zero, Matrix.cons_val_one, Nat.cast_one,
      Nat.cast_zero] at hk
  · exact (hx k).1 hk
  · exact (hx k).2.1 hk
  · exact (hx k).2.2.1 hk
  all_goals exact (hx k).2.2.2 hk

/-! ### C16 -/

/-- C16.  One value per square of the extent, in row-major order; −1 exactly for squares without a cell, 99
exactly for occupancy above 0.8 (NaN is not above), 0 otherwise; the published corner lies in the first
square of the list. -/
theorem C16_occupancy (I : CellI K γ) {n : NGrid K γ} (hwf : WF n.grid) (hcs : 0 < n.grid.cellSize) :
    (occupancyGrid I n).cells.length = (occupancyGrid I n).width * (occupancyGrid I n).height ∧
    (∀ q, InExtent n.grid q → ∃ v, (occupancyGrid I n).cells[slotNo n.grid q]? = some v ∧
      (v = -1 ∨ v = 0 ∨ v = 99) ∧
      (v = -1 ↔ content n.grid q = none) ∧
      (v = 99 ↔ ∃ c o, content n.grid q = some c ∧ I.occ c = some o ∧ o > 4 / 5)) ∧
    InExtent n.grid (squareOf n.grid.cellSize (occupancyGrid I n).corner) ∧
    slotNo n.grid (squareOf n.grid.cellSize (occupancyGrid I n).corner) = 0 := by
  have hq0 : squareOf n.grid.cellSize (occupancyGrid I n).corner = (-(n.grid.left : ℤ), (n.grid.up : ℤ)) := by
    rw [squareOf_iff hcs]
    simp only [occupancyGrid]
    push_cast
    refine ⟨by linarith, by linarith, by linarith, by linarith⟩
  refine ⟨?_, ?_, ?_, ?_⟩
  · simp only [occupancyGrid, List.length_map]
    exact hwf
  · intro q hq
    have hlt : slotNo n.grid q < n.grid.cells.length := by
      have := slotNo_lt hq
      unfold WF at hwf
      omega
    refine ⟨occValue I (content n.grid q), ?_, ?_, ?_, ?_⟩
    · simp only [occupancyGrid]
      rw [List.getElem?_map, List.getElem?_eq_getElem hlt, content_of_in hq, slot_eq_getElem hlt]
      rfl
    all_goals
      cases hc : content n.grid q with
      | none => simp [occValue]
      | some c =>
        cases ho : I.occ c with
        | none => simp [occValue, ho]
        | some o =>
          by_cases h : o > 4 / 5
          · simp [occValue, ho, h]
          · simp [occValue, ho, h]
  · rw [hq0]
    unfold InExtent
    simp only
    omega
  · rw [hq0]
    unfold slotNo
    simp

example : (occupancyGrid toyI { exN with grid := { exN.grid with cells :=
    [none, some (toy 1 0 3)] } }).cells = [-1, 99] := by decide +kernel

/-! ### C17 -/

theorem square_diff {cs : K} (hcs : 0 < cs) {a b : K × K} {r : K} (h : dist2 a b ≤ r ^ 2) (hr : 0 < r) :
    |(squareOf cs a).1 - (squareOf cs b).1| ≤ ⌈r / cs⌉ ∧
    |(squareOf cs a).2 - (squareOf cs b).2| ≤ ⌈r / cs⌉ := by
  have hd : |a.1 - b.1| ≤ r ∧ |a.2 - b.2| ≤ r := by
    unfold dist2 at h
    constructor
    · exact abs_le_of_sq_le_sq (by nlinarith [sq_nonneg (a.2 - b.2)]) hr.le
    · exact abs_le_of_sq_le_sq (by nlinarith [sq_nonneg (a.1 - b.1)]) hr.le
  have hc : r / cs ≤ ⌈r / cs⌉ := Int.le_ceil _
  have key : ∀ x y : K, |x - y| ≤ r → x / cs - ⌈r / cs⌉ ≤ y / cs ∧ y / cs ≤ x / cs + ⌈r / cs⌉ := by
    intro x y hxy
    rw [abs_le] at hxy
    have h1 : (x - y) / cs ≤ r / cs := div_le_div_of_nonneg_right hxy.2 hcs.le
    have h2 : (y - x) / cs ≤ r / cs := div_le_div_of_nonneg_right (by linarith [hxy.1]) hcs.le
    rw [sub_div] at h1 h2
    constructor <;> linarith
  obtain ⟨h1, h2⟩ := key _ _ hd.1
  obtain ⟨h3, h4⟩ := key _ _ hd.2
  unfold squareOf
  simp only
  rw [abs_le, abs_le]
  have f1 : ⌊a.1 / cs + 1 / 2⌋ - ⌈r / cs⌉ ≤ ⌊b.1 / cs + 1 / 2⌋ := by
    rw [← Int.floor_sub_intCast]
    exact Int.floor_le_floor (by linarith)
  have f2 : ⌊b.1 / cs + 1 / 2⌋ - ⌈r / cs⌉ ≤ ⌊a.1 / cs + 1 / 2⌋ := by
    rw [← Int.floor_sub_intCast]
    exact Int.floor_le_floor (by linarith)
  have f3 : ⌈a.2 / cs - 1 / 2⌉ - ⌈r / cs⌉ ≤ ⌈b.2 / cs - 1 / 2⌉ := by
    rw [← Int.ceil_sub_intCast]
    exact Int.ceil_le_ceil (by linarith)
  have f4 : ⌈b.2 / cs - 1 / 2⌉ - ⌈r / cs⌉ ≤ ⌈a.2 / cs - 1 / 2⌉ := by
    rw [← Int.ceil_sub_intCast]
    exact Int.ceil_le_ceil (by linarith)
  omega

theorem toSizeT_pos {r cs : K} (hr : 0 < r) (hcs : 0 < cs) :
    ∃ w : ℕ, toSizeT ⌈r / cs⌉ = .ok w ∧ (w : ℤ) = ⌈r / cs⌉ ∧ 0 < w := by
  have h : 0 < ⌈r / cs⌉ := Int.ceil_pos.2 (div_pos hr hcs)
  refine ⟨⌈r / cs⌉.toNat, ?_, by omega, by omega⟩
  unfold toSizeT
  rw [if_neg (not_lt.2 h.le)]

/-- C17 for a positive radius and a point inside the grid: exactly the Gaussians with their mean within the
radius, each once, in storage order (`Placed` is C71). -/
theorem C17_radius_search_partial (I : CellI K γ) {n : NGrid K γ} (hwf : WF n.grid)
    (hcs : 0 < n.grid.cellSize) (hp : Placed I n.grid) {p : K × K}
    (hin : isInside n.grid p = true) {r : K} (hr : 0 < r) :
    ∃ res, neighbours I n p r = .ok res ∧
      (∀ i c, (i, c) ∈ res ↔ ∃ q, content n.grid q = some c ∧ i = slotNo n.grid q ∧
        I.gaussian c = true ∧ dist2 (head (I.mean c)) p ≤ r ^ 2) ∧
      (res.map Prod.fst).Pairwise (· < ·) := by
  unfold neighbours
  rw [if_neg (not_le.2 hr), if_neg (ne_of_gt hcs)]
  obtain ⟨w, hw, hwc, hw0⟩ := toSizeT_pos hr hcs
  rw [hw, Res.bind_ok]
  obtain ⟨l, hl, -, hmem, hs⟩ := C07_neighbours_exact_partial hwf hcs p w (Or.inl hw0)
  rw [hl]
  refine ⟨_, rfl, ?_, ?_⟩
  · intro i c
    simp only [List.mem_filter, Bool.and_eq_true, decide_eq_true_eq, hmem hin]
    constructor
    · rintro ⟨⟨q, -, -, -, hc, hi⟩, hg, hd⟩
      exact ⟨q, hc, hi, hg, hd⟩
    · rintro ⟨q, hc, hi, hg, hd⟩
      refine ⟨⟨q, ?_, ?_, ?_, hc, hi⟩, hg, hd⟩
      · by_contra hn
        rw [content_of_not_in hn] at hc
        cases hc
      all_goals
        have h2 := square_diff hcs hd hr
        have h3 : squareOf n.grid.cellSize (head (I.mean c)) = q := hp q c hc hg
        rw [h3] at h2
        omega
  · exact hs.sublist (List.Sublist.map _ List.filter_sublist)

/-- For a radius of zero or less the search returns the Gaussian of the point's own square, whatever its
distance. -/
theorem C17_zero_radius_partial (I : CellI K γ) {n : NGrid K γ} (hwf : WF n.grid)
    (hcs : 0 < n.grid.cellSize) {p : K × K} (hin : isInside n.grid p = true)
    (he : ¬ OnEdge n.grid p) {r : K} (hr : r ≤ 0) :
    ∃ res, neighbours I n p r = .ok res ∧
      ∀ i c, (i, c) ∈ res ↔ content n.grid (squareOf n.grid.cellSize p) = some c ∧
        i = slotNo n.grid (squareOf n.grid.cellSize p) ∧ I.gaussian c = true := by
  unfold neighbours
  rw [if_pos hr]
  obtain ⟨l, hl, -, hmem, -⟩ := C07_neighbours_exact_partial hwf hcs p 0 (Or.inr he)
  rw [hl]
  refine ⟨_, rfl, ?_⟩
  intro i c
  simp only [List.mem_filter, hmem hin]
  constructor
  · rintro ⟨⟨q, -, h1, h2, hc, hi⟩, hg⟩
    have e : q = squareOf n.grid.cellSize p := by
      rw [abs_le] at h1 h2
      ext <;> omega
    rw [← e]
    exact ⟨hc, hi, hg⟩
  · rintro ⟨hc, hi, hg⟩
    refine ⟨⟨_, ?_, by simp, by simp, hc, hi⟩, hg⟩
    by_contra hn
    rw [content_of_not_in hn] at hc
    cases hc

/-- A point outside the grid has no neighbours at all. -/
theorem C17_outside_partial (I : CellI K γ) {n : NGrid K γ} (hcs : 0 < n.grid.cellSize)
    {p : K × K} (hout : isInside n.grid p = false) (r : K) : neighbours I n p r = .ok [] := by
  have hg : ∀ w, getNeighbors n.grid p w = .ok [] := by
    intro w
    unfold getNeighbors
    simp [hout]
  unfold neighbours
  by_cases hr : r ≤ 0
  · rw [if_pos hr, hg]; rfl
  · rw [if_neg hr, if_neg (ne_of_gt hcs)]
    obtain ⟨w, hw, -, -⟩ := toSizeT_pos (not_le.1 hr) hcs
    rw [hw, Res.bind_ok, hg]; rfl

/-- Negation of C17: with radius zero a Gaussian at distance 1/8 is returned, and the Gaussian at `(0, 0)` is
not found from `(-5/8, 0)`, which is outside the grid, although it is within the radius 1. -/
theorem C17_false : neighbours toyI exN (1, 1 / 4) 0 = .ok [(1, toy (9 / 8) (1 / 4) 4)] ∧
    dist2 (head (toyI.mean (toy (9 / 8) (1 / 4) 4))) (1, 1 / 4) > 0 ^ 2 ∧
    neighbours toyI exN (-5 / 8, 0) 1 = .ok [] ∧
    content exN.grid (0, 0) = some (toy 0 0 3) ∧
    dist2 (head (toyI.mean (toy 0 0 3))) (-5 / 8, 0) ≤ 1 ^ 2 := by
  refine ⟨?_, ?_, ?_, ?_, ?_⟩ <;> decide +kernel

theorem exN_placed : Placed toyI exN.grid := by
  intro q c hc _
  have hin : InExtent exN.grid q := by
    by_contra h
    rw [content_of_not_in h] at hc
    cases hc
  obtain ⟨x, y⟩ := q
  have hx : (x = 0 ∨ x = 1) ∧ y = 0 := by
    unfold InExtent at hin
    simp only [exN] at hin
    omega
  obtain ⟨rfl | rfl, rfl⟩ := hx
  · have : content exN.grid (0, 0) = some (toy 0 0 3) := by decide +kernel
    rw [this] at hc
    cases hc
    decide +kernel
  · have : content exN.grid (1, 0) = some (toy (9 / 8) (1 / 4) 4) := by decide +kernel
    rw [this] at hc
    cases hc
    decide +kernel

example : isInside exN.grid (1 / 2, 0) = true ∧
    neighbours toyI exN (1 / 2, 0) (3 / 5) = .ok [(0, toy 0 0 3)] := by
  constructor <;> decide +kernel

/-! ### C18 -/

/-- C18 exactly where it holds: the serialised corner is "minus the extent to the left and down" only if the
grid has grown neither to the left nor up nor down. -/
theorem C18_origin_iff_partial (g : Grid K γ) (hcs : 0 < g.cellSize) (hl : g.left < 2 ^ 64) :
    serializeCorner g = (-(g.left : K) * g.cellSize, -(g.down : K) * g.cellSize) ↔
      g.left = 0 ∧ g.up = 0 ∧ g.down = 0 := by
  unfold serializeCorner
  have hne : g.cellSize ≠ 0 := ne_of_gt hcs
  rw [Prod.mk.injEq, mul_left_inj' hne, mul_left_inj' hne]
  have h1 : (((2 ^ 64 - g.left) % 2 ^ 64 : ℕ) : K) = -(g.left : K) ↔ g.left = 0 := by
    constructor
    · intro h
      have : (((2 ^ 64 - g.left) % 2 ^ 64 : ℕ) : K) + (g.left : K) = 0 := by rw [h]; ring
      have h0 : (2 ^ 64 - g.left) % 2 ^ 64 + g.left = 0 := by exact_mod_cast this
      omega
    · intro h
      rw [h]
      norm_num
  have h2 : (g.up : K) = -(g.down : K) ↔ g.up = 0 ∧ g.down = 0 := by
    constructor
    · intro h
      have : (g.up : K) + (g.down : K) = 0 := by rw [h]; ring
      have h0 : g.up + g.down = 0 := by exact_mod_cast this
      omega
    · rintro ⟨h, h'⟩
      rw [h, h']
      norm_num
  rw [h1, h2]

/-- Negation of C18: one column to the left and cells of size 1 put the published corner at
x = 2^64 − 1. -/
theorem C18_false : serializeCorner { exN.grid with left := 1 } = (2 ^ 64 - 1, 0) := by decide +kernel

/-! ### C19 -/

/-- C19 when no two Gaussians fall into one coarse square (and none has its mean on a border line of the
coarse grid): the coarser grid has exactly the points of the Gaussians; in general it never has more. -/
theorem C19_coarser_partial {I : CellI K γ} (hd : I.points I.default = 0) {n : NGrid K γ}
    (hcs : 0 < n.grid.cellSize) (cs : K)
    (hoff : CellsOffLines I (max cs n.grid.cellSize) (getValidCells n.grid)) :
    ∃ n', coarser I n cs = .ok n' ∧ n'.grid.cellSize = max cs n.grid.cellSize ∧
      totalPoints I (getValidCells n'.grid) ≤ totalPoints I (gaussianCells I n.grid) ∧
      (((gaussianCells I n.grid).map (squareOfMean I (max cs n.grid.cellSize))).Nodup →
        totalPoints I (getValidCells n'.grid) = totalPoints I (gaussianCells I n.grid)) := by
  have hmax : (if cs < n.grid.cellSize then n.grid.cellSize else cs) = max cs n.grid.cellSize := by
    split_ifs with h
    · exact (max_eq_right h.le).symm
    · exact (max_eq_left (not_lt.1 h)).symm
  unfold coarser
  rw [hmax]
  simp only
  have hpos : 0 < max cs n.grid.cellSize := lt_of_lt_of_le hcs (le_max_right _ _)
  generalize max cs n.grid.cellSize = s at *
  obtain ⟨g', h, hwf', hcs', -, -, -, -, hcont, -⟩ := mergeCells_resize I (init_wf I 0 0 0 s)
    (show 0 < (init I 0 0 0 s).grid.cellSize from hpos) (getValidCells n.grid) true (Or.inl rfl)
    (fun c hc hg => (show OffLines (init I 0 0 0 s).grid.cellSize _ from hoff c hc hg).notOpen)
  have hsum : totalPoints I (getValidCells g') = ∑ᶠ q, lastPoints I s (getValidCells n.grid) q := by
    unfold totalPoints
    rw [sum_validCells I.points hwf']
    apply finsum_congr
    intro q
    rw [hcont, init_content]
    show weight I.points ((inSquare I s _ q).getLast?.or _) = weight I.points (inSquare I s _ q).getLast?
    cases (inSquare I s (getValidCells n.grid) q).getLast? with
    | some c => rfl
    | none =>
      rw [Option.none_or]
      split_ifs
      · exact hd
      · rfl
  have hlast := lastPoints_sum I s (getValidCells n.grid)
  rw [← hsum] at hlast
  exact ⟨_, h, hcs', hlast.1, hlast.2⟩

/-- Negation of C19: the Gaussians at `(0, 0)` (3 points) and `(9/8, 1/4)` (4 points) share a square of size 3;
the coarser grid has 4 points of 7. -/
theorem C19_false : totalPoints toyI (gaussianCells toyI exN.grid) = 7 ∧
    (coarser toyI exN 3).map (fun n => totalPoints toyI (getValidCells n.grid)) = .ok 4 := by
  constructor <;> decide +kernel

/-- The hypotheses of `C19_coarser_partial`, and its conclusion, for a coarser size where no points are
lost. -/
example : ((gaussianCells toyI exN.grid).map (squareOfMean toyI (max (3 / 2) exN.grid.cellSize))).Nodup ∧
    (coarser toyI exN (3 / 2)).map (fun n => totalPoints toyI (getValidCells n.grid)) = .ok 7 := by
  constructor <;> decide +kernel

/-! ### C56 -/

/-- C56.  Insert the same frames (identified by their timestamps) in two orders, then recalculate, possibly
after their poses have changed (`view₁`): both maps are the same in everything that can be observed, and so
are the stored frame lists. -/
theorem C56_order_independent {I : CellI K γ} (hI : Lawful I) (view₀ view₁ : K → Frame K γ)
    {ks₁ ks₂ : List K} (hperm : ks₁.Perm ks₂) {m₁ m₂ : Mapper K γ}
    (h₁ : addFrames I view₀ (Mapper.init I) ks₁ = .ok m₁)
    (h₂ : addFrames I view₀ (Mapper.init I) ks₂ = .ok m₂) :
    (recalc I view₁ m₁).map (fun m => (visible m.map, m.frames)) =
      (recalc I view₁ m₂).map (fun m => (visible m.map, m.frames)) := by
  have hq : (0 : K) < (Mapper.init I).map.grid.cellSize := by
    show (0 : K) < 1 / 4
    norm_num
  have hw : WF (Mapper.init I).map.grid := init_wf I 0 0 0 (1 / 4)
  obtain ⟨w1, c1, e1, a1, b1, d1, t1, f1⟩ := addFrames_ext hI view₀ hw hq h₁
  obtain ⟨w2, c2, e2, a2, b2, d2, t2, f2⟩ := addFrames_ext hI view₀ hw hq h₂
  have hf1 : m₁.frames = ks₁ := by rw [f1]; rfl
  have hf2 : m₂.frames = ks₂ := by rw [f2]; rfl
  have hsort := mergeSort_perm_eq hperm
  have hext : extOf m₂.map.grid = extOf m₁.map.grid := by
    rw [e1, e2]
    refine (hperm.foldl_eq' ?_ _).symm
    intro x _ y _ z
    rw [sup_assoc, sup_assoc, sup_comm (frameExt _ _ _)]
  have hclear := clear_eq w1 w2 (c2.trans c1.symm) hext
  unfold recalc
  simp only
  rw [hf1, hf2, ← hsort]
  generalize hs : ks₁.mergeSort (fun a b => decide (a ≤ b)) = s
  have key : (addAll I (clear m₂.map) (s.map view₁)).map visible
      = (addAll I (clear m₁.map) (s.map view₁)).map visible := by
    by_cases hnil : s = []
    · have hk1 : ks₁ = [] := by
        have := (List.mergeSort_perm ks₁ (fun a b => decide (a ≤ b)))
        rw [hs, hnil] at this
        exact this.symm.eq_nil
      have hk2 : ks₂ = [] := by
        rw [hk1] at hperm
        exact hperm.symm.eq_nil
      subst hk1 hk2
      cases h₁
      cases h₂
      rfl
    · have e : clear m₂.map = { setVN (clear m₁.map) m₂.map.grid.validCells with
          means := m₂.map.means } := by
        unfold clear setVN
        simp only
        rw [hclear, a2.trans a1.symm, b2.trans b1.symm, d2.trans d1.symm, t2.trans t1.symm]
      rw [e, addAll_means I _ _ (by simpa using hnil), addAll_blind]
  have last : ∀ x y : Res (NGrid K γ), x.map visible = y.map visible →
      (x.bind fun map => Res.ok (Mapper.mk map s)).map (fun m => (visible m.map, m.frames))
        = (y.bind fun map => Res.ok (Mapper.mk map s)).map (fun m => (visible m.map, m.frames)) := by
    intro x y h
    cases x <;> cases y <;> simp_all [Res.map, Res.bind]
  exact last _ _ key.symm

/-- Two frames in two orders: before `recalc` the maps differ. -/
def exView (k : ℚ) : Frame ℚ Toy := ⟨0, 0, [toy (1 / 16) 0 (k.num.toNat)]⟩

example : (addFrames toyI exView (Mapper.init toyI) [1, 2]).map (fun m => m.map.grid.cells)
      = .ok [some (toy (1 / 16) 0 2)] ∧
    (addFrames toyI exView (Mapper.init toyI) [2, 1]).map (fun m => m.map.grid.cells)
      = .ok [some (toy (1 / 16) 0 1)] ∧
    [2, 1].Perm [1, (2 : ℚ)] := by
  refine ⟨?_, ?_, ?_⟩
  · decide +kernel
  · decide +kernel
  · exact List.Perm.swap _ _ _

/-! ### C71, C72 -/

/-- C71 except on border lines: in every state reached from a new grid by merges, moves, enlargements and
clears, every Gaussian is stored in the square that contains its mean. -/
theorem C71_gaussians_in_their_square_partial {I : CellI K γ} (hI : Lawful I) (ox oy th : K) {cs : K}
    (hcs : 0 < cs) (hist : List (Op K γ)) (hoff : ∀ o ∈ hist, CellsOffLines I cs o.input)
    {n : NGrid K γ} (h : execAll I (init I ox oy th cs) hist = .ok n) :
    WF n.grid ∧ n.grid.cellSize = cs ∧
      ∀ q c, content n.grid q = some c → I.gaussian c = true →
        squareOf cs (head (I.mean c)) = q := by
  obtain ⟨⟨h1, h2, h3⟩, -⟩ := execAll_invariant hI hcs hist false (init_wf I ox oy th cs) rfl
    (init_placed hI ox oy th cs).1 hoff h (by simp)
  refine ⟨h1, h2, fun q c hq hg => ?_⟩
  have := h3 q c hq hg
  unfold squareOfMean at this
  rw [h2] at this
  exact this

/-- Negation of C71 on border lines: a Gaussian with its mean on the right border of the first row lands in
the first slot of the next row. -/
theorem C71_false_on_border :
    (execAll toyI (init toyI 0 0 0 1) [.enlarge 0 (-1) 0 0, .mergeCells [toy (1 / 2) 0 3] true]).map
      (fun n => (n.grid.up, n.grid.cells)) = .ok (0, [some toyI.default, some (toy (1 / 2) 0 3)]) ∧
    squareOf 1 (head (toyI.mean (toy (1 / 2) 0 3))) = (1, 0) := by
  constructor <;> decide +kernel

theorem kNearest_spec {I : CellI K γ} {n : NGrid K γ} (hwf : WF n.grid) (hcs : 0 < n.grid.cellSize)
    (hp : Placed I n.grid) (hs : Synced I n) : ∀ ids : List ℕ, (∀ i ∈ ids, i < n.means.length) →
    ∃ l, kNearest n ids = .ok l ∧ List.Forall₂ (fun i x => ∃ c q, x = some c ∧
      content n.grid q = some c ∧ I.gaussian c = true ∧ n.means[i]? = some (I.mean c)) ids l := by
  intro ids
  induction ids with
  | nil => intro _; exact ⟨[], rfl, .nil⟩
  | cons i is ih =>
    intro hlt
    obtain ⟨l, hl, hall⟩ := ih (fun j hj => hlt j (List.mem_cons_of_mem _ hj))
    have hi := hlt i List.mem_cons_self
    unfold kNearest
    rw [List.getElem?_eq_getElem hi]
    obtain ⟨q, c, hc, hg, hm⟩ := (hs n.means[i]).1 (List.getElem_mem hi)
    have hq : squareOf n.grid.cellSize (head (I.mean c)) = q := hp q c hc hg
    have hin : InExtent n.grid (squareOf n.grid.cellSize (head (I.mean c))) := by
      rw [hq]
      by_contra hn
      rw [content_of_not_in hn] at hc
      cases hc
    simp only
    rw [← hm, getCellPtr_inExtent hwf hcs hin, Res.bind_ok, hl, Res.bind_ok, hq, hc]
    refine ⟨_, rfl, .cons ⟨c, q, rfl, hc, hg, ?_⟩ hall⟩
    rw [List.getElem?_eq_getElem hi, hm]

/-- C72 except on border lines and between a `clear` and the next merge: the points handed to the nearest
neighbour search are exactly the means of the stored Gaussians, and every answer of the search tree is
translated to the Gaussian it stands for (never a null pointer). -/
theorem C72_nearest_partial {I : CellI K γ} (hI : Lawful I) (ox oy th : K) {cs : K} (hcs : 0 < cs)
    (hist : List (Op K γ)) (hoff : ∀ o ∈ hist, CellsOffLines I cs o.input) (hfresh : fresh hist = true)
    {n : NGrid K γ} (h : execAll I (init I ox oy th cs) hist = .ok n) :
    (∀ m, m ∈ n.means ↔ ∃ q c, content n.grid q = some c ∧ I.gaussian c = true ∧ I.mean c = m) ∧
    ∀ ids : List ℕ, (∀ i ∈ ids, i < n.means.length) →
      ∃ l, kNearest n ids = .ok l ∧ List.Forall₂ (fun i x => ∃ c q, x = some c ∧
        content n.grid q = some c ∧ I.gaussian c = true ∧ n.means[i]? = some (I.mean c)) ids l := by
  obtain ⟨⟨h1, h2, h3⟩, h4⟩ := execAll_invariant hI hcs hist true (init_wf I ox oy th cs) rfl
    (init_placed hI ox oy th cs).1 hoff h (fun _ => (init_placed hI ox oy th cs).2)
  exact ⟨h4 hfresh, kNearest_spec h1 (by rw [h2]; exact hcs) h3 (h4 hfresh)⟩

/-- Negation of C72 after `clear`: the cloud still lists the old mean, and the lookup gives a null
pointer. -/
theorem C72_false_after_clear :
    (execAll toyI (init toyI 0 0 0 1) [.mergeCells [toy (1 / 4) 0 3] true, .clear]).bind
      (fun n => (kNearest n [0]).map fun l => (n.means.map head, n.grid.cells, l))
        = .ok ([(1 / 4, 0)], [none], [none]) := by decide +kernel

/-- A history with two merges and a move. -/
def exHist : List (Op ℚ Toy) :=
  [.mergeCells [toy (1 / 4) 0 3, toy 2 0 5] true, .move 1 0, .mergeTraced 0 0 [toy (1 / 8) 0 4] false]

example : (∀ o ∈ exHist, CellsOffLines toyI 1 o.input) ∧ fresh exHist = true ∧
    (execAll toyI (init toyI 0 0 0 1) exHist).map (fun n => (n.ox, n.means.map head)) =
      .ok (1, [(1 / 8, 0), (1, 0)]) := by
  refine ⟨?_, rfl, by decide +kernel⟩
  have key : ∀ (a b : ℤ) (k : ℤ), b ≠ 0 → (a * 2 ≠ (2 * k + 1) * b) →
      (a / b : ℚ) ≠ (k + 1 / 2) * 1 := by
    intro a b k hb h e
    apply h
    have hb' : (b : ℚ) ≠ 0 := by exact_mod_cast hb
    field_simp at e
    have : (a * 2 : ℚ) = (2 * k + 1) * b := by linarith
    exact_mod_cast this
  have h0 : ∀ k : ℤ, (0 : ℚ) ≠ (k + 1 / 2) * 1 := fun k => by
    have := key 0 1 k (by norm_num) (by omega); norm_num at this ⊢; exact this
  have h1 : ∀ k : ℤ, (1 / 4 : ℚ) ≠ (k + 1 / 2) * 1 := fun k => by
    have := key 1 4 k (by norm_num) (by omega); norm_num at this ⊢; exact this
  have h2 : ∀ k : ℤ, (2 : ℚ) ≠ (k + 1 / 2) * 1 := fun k => by
    have := key 2 1 k (by norm_num) (by omega); norm_num at this ⊢; exact this
  have h3 : ∀ k : ℤ, (1 / 8 : ℚ) ≠ (k + 1 / 2) * 1 := fun k => by
    have := key 1 8 k (by norm_num) (by omega); norm_num at this ⊢; exact this
  intro o ho c hc _
  simp only [exHist, List.mem_cons, List.not_mem_nil, or_false] at ho
  rcases ho with rfl | rfl | rfl
  · simp only [Op.input, List.mem_cons, List.not_mem_nil, or_false] at hc
    rcases hc with rfl | rfl
    · exact ⟨h1, h0⟩
    · exact ⟨h2, h0⟩
  · simp [Op.input] at hc
  · simp only [Op.input, List.mem_cons, List.not_mem_nil, or_false] at hc
    rcases hc with rfl
    exact ⟨h3, h0⟩

/-! ### C73 -/

/-- C73 except on border lines: merging without resizing keeps the extent; an input outside is dropped; in
each square of the extent the Gaussian inputs of that square are merged into the old cell in order (the
first one is taken over if there was none). -/
theorem C73_merge_inside_partial (I : CellI K γ) {n : NGrid K γ} (hwf : WF n.grid)
    (hcs : 0 < n.grid.cellSize) (cells : List γ) (hinit : n.initialized = true)
    (hb : NoneOnBorder I n.grid cells) :
    ∃ n', mergeCells I n cells false = .ok n' ∧ WF n'.grid ∧
      (∀ q, InExtent n'.grid q ↔ InExtent n.grid q) ∧ n'.grid.cellSize = n.grid.cellSize ∧
      (∀ q, ¬ InExtent n.grid q → content n'.grid q = none) ∧
      ∀ q, InExtent n.grid q →
        content n'.grid q = (inSquare I n.grid.cellSize cells q).foldl
          (fun old c => some (match old with | none => c | some o => I.merge o c))
          (content n.grid q) := by
  obtain ⟨g', h, hwf', hbox, hcont⟩ := mergeCells_noresize I hwf hcs cells hinit
    (fun c hc hg _ => hb c hc hg)
  refine ⟨_, h, hwf', hbox.inExtent, hbox.cs, ?_, ?_⟩
  · intro q hq
    show content g' q = none
    rw [hcont, if_neg hq]
  · intro q hq
    show content g' q = _
    rw [hcont, if_pos hq]
    rfl

/-- One input merges with the old cell, one is outside. -/
example : (mergeCells toyI exN [toy (1 / 4) 0 6, toy 3 0 7] false).map (fun n => n.grid.cells)
      = .ok [some (toy (1 / 8) 0 9), some (toy (9 / 8) (1 / 4) 4)] := by
  decide +kernel

/-- One column, two rows, a Gaussian in the upper one. -/
def exRows : NGrid ℚ Toy :=
  { exN with
    grid := { cellSize := 1, left := 0, right := 0, up := 0, down := 1, validCells := 1,
              cells := [some (toy 0 0 3), none] },
    means := [![0, 0, 0]] }

/-- Negation of C73 on border lines: an input outside the extent, with its mean on the right border of the upper row,
is not dropped but fills the (empty) square of the lower row. -/
theorem C73_false_on_border :
    (mergeCells toyI exRows [toy (1 / 2) 0 6] false).map (fun n => content n.grid (0, -1))
      = .ok (some (toy (1 / 2) 0 6)) ∧
    content exRows.grid (0, -1) = none ∧ squareOf 1 (head (toyI.mean (toy (1 / 2) 0 6))) = (1, 0) := by
  refine ⟨?_, ?_, ?_⟩ <;> decide +kernel

/-! ### C74 -/

/-- C74 except on border lines.  A grid initialised from a scan holds a Gaussian in a square exactly if the
points of the scan in that square make one, and then it is the Gaussian of precisely these points; with
and without tracing. -/
theorem C74_scan_binning_partial {I : CellI K γ} (hI : Lawful I) (hS : LawfulScan I) {n n' : NGrid K γ}
    (hwf : WF n.grid) (hcs : 0 < n.grid.cellSize) {ps : List (Fin 3 → K)}
    (hp : ∀ p ∈ ps, OffLines n.grid.cellSize (head p)) (traced : Bool)
    (h : initScan I n ps traced = .ok n') :
    WF n'.grid ∧ n'.grid.cellSize = n.grid.cellSize ∧
    ∀ q c, content n'.grid q = some c ∧ I.gaussian c = true ↔
      c = cellOf I (ps.filter fun p => squareOf n.grid.cellSize (head p) = q) ∧ I.gaussian c = true := by
  unfold initScan at h
  obtain ⟨scan, hscan, h⟩ := Res.bind_eq_ok.1 h
  obtain ⟨hwfs, hcss, hpl, hoff, hcont⟩ := createGrid_placed hS hcs hp hscan
  -- the grid into which the cells of the scan are merged has no Gaussian
  have main : ∀ n0 : NGrid K γ, WF n0.grid → n0.grid.cellSize = n.grid.cellSize →
      (∀ q c, content n0.grid q = some c → I.gaussian c = false) →
      mergeCells I n0 (getValidCells scan.grid) true = .ok n' →
      WF n'.grid ∧ n'.grid.cellSize = n.grid.cellSize ∧
      ∀ q c, content n'.grid q = some c ∧ I.gaussian c = true ↔
        c = cellOf I (pointsIn n.grid.cellSize ps q) ∧ I.gaussian c = true := by
    intro n0 hwf0 hcs0 hempty hm
    obtain ⟨g', h', hwf', hcs', -, -, -, -, hc', -⟩ := mergeCells_resize I hwf0 (by rw [hcs0]; exact hcs)
      (getValidCells scan.grid) true (Or.inl rfl) (by
        intro c hc hg
        apply OffLines.notOpen
        rw [hcs0]
        exact hoff c hc hg)
    rw [hm] at h'
    cases h'
    refine ⟨hwf', hcs'.trans hcs0, fun q c => ?_⟩
    have hlast : (inSquare I n0.grid.cellSize (getValidCells scan.grid) q).getLast?
        = (some (cellOf I (pointsIn n.grid.cellSize ps q))).filter I.gaussian := by
      rw [hcs0, ← hcont q, ← hcss]
      exact validCells_square hwfs hpl q
    have e : content (updateMeans I { n0 with initialized := true, grid := g' }).grid q
        = ((some (cellOf I (pointsIn n.grid.cellSize ps q))).filter I.gaussian).or
            (content n0.grid q) := by
      rw [← hlast]
      exact hc' q
    rw [e, Option.filter_some]
    by_cases hg : I.gaussian (cellOf I (pointsIn n.grid.cellSize ps q)) = true
    · rw [if_pos hg, Option.some_or, Option.some.injEq]
      constructor
      · rintro ⟨rfl, h⟩; exact ⟨rfl, h⟩
      · rintro ⟨rfl, h⟩; exact ⟨rfl, h⟩
    · rw [if_neg hg, Option.none_or]
      constructor
      · rintro ⟨h1, h2⟩
        rw [hempty q c h1] at h2
        cases h2
      · rintro ⟨rfl, h2⟩
        exact absurd h2 hg
  have hclear : ∀ q c, content (Voxel.clear n.grid) q = some c → I.gaussian c = false := by
    intro q c hq
    rw [clear_content] at hq
    cases hq
  cases traced with
  | false => exact main { n with grid := Voxel.clear n.grid } (clear_wf hwf) rfl hclear h
  | true =>
    simp only [if_true] at h
    unfold mergeTraced at h
    obtain ⟨g, hg, h⟩ := Res.bind_eq_ok.1 h
    obtain ⟨hbox, -, ht⟩ := traceAll_traced hI hg
    refine main { n with grid := g } (hbox.wf ht (clear_wf hwf)) hbox.cs ?_ h
    intro q c hq
    by_contra hng
    rw [Bool.not_eq_false] at hng
    obtain ⟨c0, h0, hg0, -⟩ := (ht.content hbox q).2 c hq hng
    rw [hclear q c0 h0] at hg0
    cases hg0

/-- Initialising without tracing never fails off the border lines. -/
theorem C74_scan_total_partial {I : CellI K γ} (hS : LawfulScan I) {n : NGrid K γ}
    (hwf : WF n.grid) (hcs : 0 < n.grid.cellSize) {ps : List (Fin 3 → K)}
    (hp : ∀ p ∈ ps, OffLines n.grid.cellSize (head p)) : ∃ n', initScan I n ps false = .ok n' := by
  obtain ⟨scan, hscan, -⟩ := createGrid_spec I n.ox n.oy n.th hcs ps hp
  obtain ⟨-, -, -, hoff, -⟩ := createGrid_placed hS hcs hp hscan
  unfold initScan
  rw [hscan, Res.bind_ok]
  obtain ⟨g', h', -⟩ := mergeCells_resize I (n := { n with grid := Voxel.clear n.grid }) (clear_wf hwf)
    hcs (getValidCells scan.grid) true (Or.inl rfl)
    (fun c hc hg => (show OffLines (Voxel.clear n.grid).cellSize _ from hoff c hc hg).notOpen)
  exact ⟨_, h'⟩

/-- Two points make the Gaussian at `(0, 0)`, a single point at `(1, 0)` makes none (the cell there is one
that a ray created). -/
example : (initScan toyI exN [![1 / 8, 0, 0], ![1, 0, 0], ![3 / 8, 0, 0]] true).map
    (fun n => n.grid.cells) = .ok [some ⟨1 / 4, 0, 0, true, 2, some (1 / 2)⟩, some toyI.default] := by
  decide +kernel

/-- Negation of C74 on border lines: a scan of two points on the right border of the first square makes the
initialisation write out of bounds. -/
theorem C74_false_on_border :
    (initScan toyI exN [![1 / 2, 0, 0], ![1 / 2, 0, 0]] false).map (fun n => n.grid.cells) = .ub .outOfBounds := by
  decide +kernel

/-! ### C75 -/

/-- Negation of C75 on border lines: a Gaussian appears in a square that receives none from the frame and had none. -/
theorem C75_false_on_border (resize : Bool) :
    (mergeTraced toyI exRows 0 0 [toy (1 / 2) 0 6] resize).map (fun n => content n.grid (0, -1))
      = .ok (some (toy (1 / 2) 0 6)) ∧
    content exRows.grid (0, -1) = none ∧ squareOf 1 (head (toyI.mean (toy (1 / 2) 0 6))) = (1, 0) := by
  refine ⟨?_, ?_, ?_⟩
  · cases resize <;> decide +kernel
  all_goals decide +kernel

/-- C75 except on border lines: merging a frame with tracing never removes a cell, and a square that
receives no Gaussian from the frame shows afterwards a Gaussian only if it had one before, with the same
mean (rays never create or move Gaussians). -/
theorem C75_tracing_keeps_cells_partial {I : CellI K γ} (hI : Lawful I) {n n' : NGrid K γ}
    (hwf : WF n.grid) (hcs : 0 < n.grid.cellSize) {sx sy : K} {cells : List γ} {resize : Bool}
    (hoff : CellsOffLines I n.grid.cellSize cells)
    (h : mergeTraced I n sx sy cells resize = .ok n') :
    (∀ q, content n.grid q ≠ none → content n'.grid q ≠ none) ∧
    ∀ q, (∀ c ∈ cells, I.gaussian c = true → squareOf n.grid.cellSize (head (I.mean c)) ≠ q) →
      ∀ c', content n'.grid q = some c' → I.gaussian c' = true →
        ∃ c, content n.grid q = some c ∧ I.gaussian c = true ∧ I.mean c' = I.mean c := by
  unfold mergeTraced at h
  obtain ⟨g, hg, h⟩ := Res.bind_eq_ok.1 h
  obtain ⟨hbox, -, ht⟩ := traceAll_traced hI hg
  have hwfg : WF g := hbox.wf ht hwf
  have hcsg : 0 < g.cellSize := by rw [hbox.cs]; exact hcs
  have hoff' : CellsOffLines I g.cellSize cells := by rw [hbox.cs]; exact hoff
  have hnil : ∀ q, (∀ c ∈ cells, I.gaussian c = true →
      squareOf n.grid.cellSize (head (I.mean c)) ≠ q) → inSquare I g.cellSize cells q = [] := by
    intro q hq
    rw [List.eq_nil_iff_forall_not_mem]
    intro c hc
    obtain ⟨h1, h2, h3⟩ := mem_inSquare.1 hc
    unfold squareOfMean at h3
    rw [hbox.cs] at h3
    exact hq c h1 h2 h3
  have hstep : (∀ q, content g q ≠ none → content n'.grid q ≠ none) ∧
      ∀ q, inSquare I g.cellSize cells q = [] → content n'.grid q = content g q := by
    by_cases hres : resize = true ∨ n.initialized = false
    · obtain ⟨g', h', -, -, -, -, -, -, hcont, -⟩ := mergeCells_resize I (n := { n with grid := g }) hwfg
        hcsg cells resize hres (fun c hc hg => (hoff' c hc hg).notOpen)
      rw [h] at h'
      cases h'
      constructor
      · intro q hq
        show content g' q ≠ none
        rw [hcont]
        intro hn
        exact hq (Option.or_eq_none_iff.1 hn).2
      · intro q hq
        show content g' q = _
        rw [hcont]
        show (inSquare I g.cellSize cells q).getLast?.or _ = _
        rw [hq]
        rfl
    · push Not at hres
      obtain ⟨hr, hi⟩ := hres
      have hr : resize = false := by simpa using hr
      subst hr
      obtain ⟨g', h', -, -, hcont⟩ := mergeCells_noresize I (n := { n with grid := g }) hwfg hcsg cells
        (by simpa using hi) (fun c hc hg _ => (hoff' c hc hg).notOpen)
      rw [h] at h'
      cases h'
      have hin : ∀ q, content g q ≠ none → InExtent g q := by
        intro q hq
        by_contra hn
        exact hq (content_of_not_in hn)
      constructor
      · intro q hq
        show content g' q ≠ none
        rw [hcont, if_pos (hin q hq)]
        show (inSquare I g.cellSize cells q).foldl (mergeStep I) (content g q) ≠ none
        generalize content g q = o at hq
        generalize inSquare I g.cellSize cells q = l
        induction l generalizing o with
        | nil => exact hq
        | cons a l ih =>
          rw [List.foldl_cons]
          apply ih
          simp [mergeStep]
      · intro q hq
        show content g' q = _
        rw [hcont]
        show (if InExtent g q then (inSquare I g.cellSize cells q).foldl (mergeStep I) (content g q)
          else none) = _
        rw [hq]
        split_ifs with hi
        · rfl
        · exact (content_of_not_in hi).symm
  constructor
  · intro q hq
    apply hstep.1
    have := (ht.content hbox q).1 (Option.isSome_iff_ne_none.2 hq)
    exact Option.isSome_iff_ne_none.1 this
  · intro q hq c' hc' hg'
    rw [hstep.2 q (hnil q hq)] at hc'
    exact (ht.content hbox q).2 c' hc' hg'

example : (mergeTraced toyI exN 0 0 [toy 3 0 7] true).map (fun n => n.grid.cells)
    = .ok [some (toy 0 0 3), some (toy (9 / 8) (1 / 4) 4), none, some (toy 3 0 7)] := by
  decide +kernel

end Verif.NDTGrid
