import Verif.Grid.Query

/-
Properties C01-C13 of the voxel grid.
-/
namespace Verif.Voxel

set_option linter.unusedSectionVars false

variable {K : Type v} [Field K] [LinearOrder K] [IsStrictOrderedRing K] [FloorRing K] {α : Type u}

/-- Cell operations used in the examples: numbers, merged by addition. -/
def natOps : CellOps ℕ := ⟨0, (· + ·)⟩

/-- A 3x2 grid used in the examples: columns -1..1, rows 0..-1 (downwards), cell size 1. -/
def exGrid : Grid ℚ ℕ :=
  { cellSize := 1, left := 1, right := 1, up := 0, down := 1, validCells := 3,
    cells := [some 1, none, some 2, none, none, some 3] }

theorem exGrid_wf : WF exGrid := by unfold WF; rfl

/-! ### C01 -/

theorem exec_wf {ops : CellOps α} {g g' : Grid K α} (hwf : WF g) (o : Op K α)
    (h : o.exec ops g = .ok g') : WF g' := by
  cases o with
  | addCell p c m => exact addCell_wf hwf h
  | removeCell p =>
    simp only [Op.exec, removeCell] at h
    split_ifs at h
    · obtain ⟨x, hx, -⟩ := Res.map_eq_ok.1 h
      obtain ⟨y, -, hy⟩ := Res.bind_eq_ok.1 hx
      cases hy
    · cases h; exact hwf
  | enlarge a b c d => exact enlarge_wf hwf h
  | translate tx ty dis =>
    obtain ⟨g1, h1, hw, -⟩ := translate_spec hwf tx ty dis
    simp only [Op.exec] at h
    rw [h1] at h
    cases h; exact hw
  | clear =>
    cases h
    unfold WF clear; simp only [List.length_map]; exact hwf
  | setCellSize cs => cases h; exact hwf
  | rayTrace s e =>
    simp only [Op.exec] at h
    obtain ⟨⟨v, x⟩, hx, rfl⟩ := Res.map_eq_ok.1 h
    unfold rayTrace at hx
    split_ifs at hx
    · cases hx; exact hwf
    · simp only at hx
      obtain ⟨idx, -, hx⟩ := Res.bind_eq_ok.1 hx
      obtain ⟨s1, h1, hx⟩ := Res.bind_eq_ok.1 hx
      split_ifs at hx
      obtain ⟨n, -, hx⟩ := Res.bind_eq_ok.1 hx
      obtain ⟨s2, h2, hx⟩ := Res.bind_eq_ok.1 hx
      cases hx
      have r := (rayVisit_rel h1).1.trans (rayLoop_rel h2)
      unfold WF; simp only; rw [r.len]; exact hwf

theorem execAll_wf {ops : CellOps α} (hist : List (Op K α)) : ∀ {g g' : Grid K α}, WF g →
    execAll ops g hist = .ok g' → WF g' := by
  induction hist with
  | nil => intro g g' hwf h; cases h; exact hwf
  | cons o os ih =>
    intro g g' hwf h
    obtain ⟨g1, h1, h⟩ := Res.bind_eq_ok.1 h
    exact ih (exec_wf hwf o h1) h

/-- C01: after every history of calls on a new grid, the grid has exactly `width * height` slots, and
the slots correspond one to one to the squares of the extent. -/
theorem C01_storage_matches_extent (ops : CellOps α) (hist : List (Op K α)) (g : Grid K α)
    (h : execAll ops (init ops) hist = .ok g) :
    g.cells.length = g.width * g.height ∧
      ∀ i < g.cells.length, ∃! q : ℤ × ℤ, InExtent g q ∧ slotNo g q = i := by
  have hwf : WF g := execAll_wf hist (by unfold WF; rfl) h
  refine ⟨hwf, fun i hi => ⟨squareNo g i, ⟨squareNo_inExtent (hwf ▸ hi), slotNo_squareNo g i⟩, ?_⟩⟩
  rintro q ⟨hq, rfl⟩
  exact (squareNo_slotNo hq).symm

/-- A history that meets the hypothesis: insertions, growth, a shift and a ray. -/
example : (execAll natOps (init (K := ℚ) natOps)
    [.setCellSize 1, .addCell (2, 1) 5 true, .translate (-1) 2 false, .clear,
      .rayTrace (0, 0) (2, 2)]).map (fun g => (g.cells.length, g.width)) = .ok (16, 4) := by
  decide +kernel

/-! ### C02 -/

/-- Outcome claimed by C02: the square of `p` holds the new (or merged) cell, and every other square
of the plane is as before. -/
def AddedExactly (ops : CellOps α) (g : Grid K α) (p : K × K) (c : α) (merging : Bool) (g' : Grid K α) :
    Prop :=
  content g' (squareOf g.cellSize p) =
    some (match content g (squareOf g.cellSize p) with
      | none => c
      | some old => if merging then ops.merge old c else c) ∧
  ∀ q, q ≠ squareOf g.cellSize p → content g' q = content g q

/-- C02 for every point that is not exactly on a right or bottom border line at or beyond the border
of the grid: the call succeeds, lookups (at this and every other point of the grid) see the new
cell in the square of the point and all else unchanged. -/
theorem C02_add_read_back_partial (ops : CellOps α) {g : Grid K α} (hwf : WF g) (hcs : 0 < g.cellSize)
    {p : K × K} (hp : ¬ OnOpenBorder g p) (c : α) (merging : Bool) :
    ∃ g', addCell ops g p c merging = .ok g' ∧ WF g' ∧ g'.cellSize = g.cellSize ∧
      AddedExactly ops g p c merging g' ∧ InExtent g' (squareOf g.cellSize p) ∧
      ∀ p', InExtent g' (squareOf g.cellSize p') →
        getCellPtr g' p' = .ok (content g' (squareOf g.cellSize p')) := by
  obtain ⟨g', h, hwf', hcs', -, -, -, -, hin, -, hcont⟩ := addCell_spec ops hwf hcs hp c merging
  refine ⟨g', h, hwf', hcs', ⟨?_, ?_⟩, hin, ?_⟩
  · rw [hcont, Function.update_self]
    unfold added
    cases content g (squareOf g.cellSize p) <;> rfl
  · intro q hq; rw [hcont, Function.update_of_ne hq]
  · intro p' hp'
    rw [← hcs']; rw [← hcs'] at hp'
    exact getCellPtr_inExtent hwf' (by rw [hcs']; exact hcs) hp'

/-- The excluded points are exactly the ones where C02 fails. -/
theorem C02_false_exactly_on_border (ops : CellOps α) {g : Grid K α} (hwf : WF g)
    (hcs : 0 < g.cellSize) (p : K × K) (c : α) (merging : Bool) :
    (∃ g', addCell ops g p c merging = .ok g' ∧ AddedExactly ops g p c merging g') ↔
      ¬ OnOpenBorder g p := by
  constructor
  · rintro ⟨g', h, ha, -⟩ hp
    rw [addCell_border ops hwf hcs hp c merging h] at ha
    cases ha
  · intro hp
    obtain ⟨g', h, -, -, ha, -⟩ := C02_add_read_back_partial ops hwf hcs hp c merging
    exact ⟨g', h, ha⟩

/-- Negation of C02 on a new grid: adding at `(1/8, 0)` (the right border of the first cell) writes
past the end of the storage. -/
theorem C02_false_oob : addCell natOps (init (K := ℚ) natOps) (1 / 8, 0) 5 true = .ub .outOfBounds := by
  decide +kernel

/-- Negation of C02 by aliasing: adding on the right border of the first row of `exGrid` changes the
cell of a different square, `(-1, -1)`. -/
theorem C02_false_alias : ∃ g', addCell natOps exGrid (3 / 2, 0) 5 true = .ok g' ∧
    content exGrid (-1, -1) = none ∧ content g' (-1, -1) = some 5 ∧
    squareOf exGrid.cellSize (3 / 2, 0) ≠ (-1, -1) :=
  ⟨{ exGrid with cells := [some 1, none, some 2, some 5, none, some 3], validCells := 4 },
    by decide +kernel, by decide +kernel, by decide +kernel, by decide +kernel⟩

/-- The hypotheses of `C02_add_read_back_partial` are met by a point outside the grid. -/
example : WF exGrid ∧ 0 < exGrid.cellSize ∧ ¬ OnOpenBorder exGrid (5, 7 / 3) := by
  refine ⟨exGrid_wf, by decide +kernel, ?_⟩
  rintro (⟨k, hk⟩ | ⟨k, hk⟩)
  · simp only [exGrid] at hk
    have h2 : (2 * k + 3 : ℚ) = 10 := by push_cast at hk; linarith
    have h3 : 2 * k + 3 = 10 := by exact_mod_cast h2
    omega
  · simp only [exGrid] at hk
    have : (0 : K) ≤ k := Nat.cast_nonneg k
    push_cast at hk
    linarith

/-! ### C03 -/

/-- C03: `enlarge` always succeeds, never shrinks the grid, covers the box, keeps every square's cell
and creates none, and does nothing if the corners already lie inside. -/
theorem C03_enlarge_preserves {g : Grid K α} (hwf : WF g) (hcs : 0 < g.cellSize)
    (minx miny maxx maxy : K) :
    ∃ g', enlarge g minx miny maxx maxy = .ok g' ∧ WF g' ∧ g'.cellSize = g.cellSize ∧
      g.left ≤ g'.left ∧ g.right ≤ g'.right ∧ g.up ≤ g'.up ∧ g.down ≤ g'.down ∧
      (∀ x y, minx ≤ x → x ≤ maxx → miny ≤ y → y ≤ maxy → isInside g' (x, y) = true) ∧
      (∀ q, content g' q = content g q) ∧
      (isInside g (minx, miny) = true → isInside g (maxx, maxy) = true → g' = g) := by
  obtain ⟨g', h, gr, hx, hy, hid⟩ := enlarge_spec hwf hcs minx miny maxx maxy
  refine ⟨g', h, gr.wf, gr.cs, gr.left, gr.right, gr.up, gr.down, ?_, gr.content, ?_⟩
  · intro x y h1 h2 h3 h4
    rw [isInside_iff (by rw [gr.cs]; exact hcs), gr.cs]
    have e : ∀ {a b : K}, a ≤ b → a / g.cellSize ≤ b / g.cellSize :=
      fun h => div_le_div_of_nonneg_right h hcs.le
    exact ⟨⟨hx.1.trans (e h1), (e h2).trans hx.2⟩, hy.1.trans (e h3), (e h4).trans hy.2⟩
  · intro h1 h2
    rw [isInside_iff hcs] at h1 h2
    exact hid ⟨h1.1.1, h2.1.2, h1.2.1, h2.2.2⟩

example : WF exGrid ∧ 0 < exGrid.cellSize := ⟨exGrid_wf, by decide +kernel⟩
/-- The concrete call grows the grid on all four sides and keeps the cells. -/
example : (enlarge exGrid (-3) (-4) 3 2).map (fun g => [g.left, g.right, g.up, g.down])
      = .ok [3, 3, 2, 4] ∧
    (enlarge exGrid (-3) (-4) 3 2).map (fun g =>
      [content g (-1, 0), content g (1, 0), content g (1, -1), content g (2, 2)])
      = .ok [some 1, some 2, some 3, none] := by constructor <;> decide +kernel

/-! ### C04, C05 -/

/-- C04: without discarding, the cell of square `q` after the translation is the cell that was `t`
behind it, for every square of the plane: nothing is lost, duplicated or created. -/
theorem C04_translate_keeps_all {g : Grid K α} (hwf : WF g) (tx ty : ℤ) :
    ∃ g', translate g tx ty false = .ok g' ∧ WF g' ∧ g'.cellSize = g.cellSize ∧
      (∀ X Y : ℤ, content g' (X + tx, Y + ty) = content g (X, Y)) ∧ stored g' = stored g := by
  obtain ⟨g', h, hwf', hL, hR, hU, hD, hcs, -, hcont⟩ := translate_spec hwf tx ty false
  simp only [Bool.false_eq_true, if_false] at hL hR hU hD
  have hmain : ∀ X Y : ℤ, content g' (X + tx, Y + ty) = content g (X, Y) := by
    intro X Y
    by_cases hin : InExtent g' (X + tx, Y + ty)
    · rw [hcont _ hin]; simp
    · rw [content_of_not_in hin, content_of_not_in]
      intro hg
      apply hin
      unfold InExtent at hg ⊢
      simp only at hg ⊢
      omega
  refine ⟨g', h, hwf', hcs, hmain, ?_⟩
  unfold stored
  rw [stored_eq_ncard hwf', stored_eq_ncard hwf]
  symm
  refine Set.ncard_congr (fun q _ => (q.1 + tx, q.2 + ty)) ?_ ?_ ?_
  · intro q hq
    simp only [Set.mem_ofPred_eq] at hq ⊢
    rw [hmain]; exact hq
  · rintro ⟨a, b⟩ ⟨c, d⟩ _ _ he
    simp only [Prod.mk.injEq] at he ⊢
    omega
  · intro q hq
    simp only [Set.mem_ofPred_eq] at hq
    refine ⟨(q.1 - tx, q.2 - ty), ?_, by simp⟩
    simp only [Set.mem_ofPred_eq]
    rw [← hmain]
    simpa using hq

/-- C05: with discarding the extent stays, and inside the extent each square holds exactly what was
`t` behind it, provided that place was inside the extent; otherwise it is empty. -/
theorem C05_translate_discards {g : Grid K α} (hwf : WF g) (tx ty : ℤ) :
    ∃ g', translate g tx ty true = .ok g' ∧ WF g' ∧ g'.cellSize = g.cellSize ∧
      g'.left = g.left ∧ g'.right = g.right ∧ g'.up = g.up ∧ g'.down = g.down ∧
      (∀ q : ℤ × ℤ, InExtent g q → content g' q =
        if InExtent g (q.1 - tx, q.2 - ty) then content g (q.1 - tx, q.2 - ty) else none) ∧
      (∀ q : ℤ × ℤ, ¬ InExtent g q → content g' q = none) := by
  obtain ⟨g', h, hwf', hL, hR, hU, hD, hcs, hv, hcont⟩ := translate_spec hwf tx ty true
  simp only [if_true, Nat.add_zero] at hL hR hU hD
  have f : SameFrame g g' := ⟨hL, hR, hU, hD, hcs, hv⟩
  refine ⟨g', h, hwf', hcs, hL, hR, hU, hD, ?_, ?_⟩
  · intro q hq
    rw [hcont q ((f.inExtent q).2 hq)]
    split_ifs with hin
    · rfl
    · exact content_of_not_in hin
  · intro q hq
    exact content_of_not_in fun h => hq ((f.inExtent q).1 h)

example : (translate exGrid (-1) 1 false).map Grid.cells = .ok
    [some 1, none, some 2, none, none, none, some 3, none, none, none, none, none] ∧
    (translate exGrid (-1) 1 true).map Grid.cells = .ok [none, some 3, none, none, none, none] := by
  constructor <;> decide +kernel

/-! ### C06 -/

/-- The point lies on the right or bottom edge of the whole grid. -/
def OnEdge (g : Grid K α) (p : K × K) : Prop :=
  p.1 = (g.right + 1 / 2) * g.cellSize ∨ p.2 = -((g.down + 1 / 2) * g.cellSize)

/-- C06 for inside points not on the right or bottom edge: the slot exists and belongs to the square
that contains the point. -/
theorem C06_inside_addresses_own_slot_partial {g : Grid K α} (hwf : WF g) (hcs : 0 < g.cellSize)
    {p : K × K} (hin : isInside g p = true) (hedge : ¬ OnEdge g p) :
    InExtent g (squareOf g.cellSize p) ∧
      ∃ idx, calcIndex g p = .ok idx ∧ idx < g.cells.length ∧
        idx = slotNo g (squareOf g.cellSize p) := by
  have hext : InExtent g (squareOf g.cellSize p) := by
    rw [inExtent_iff hcs]
    rw [isInside_iff hcs] at hin
    unfold OnEdge at hedge
    push Not at hedge
    refine ⟨⟨hin.1.1, lt_of_le_of_ne hin.1.2 ?_⟩, lt_of_le_of_ne hin.2.1 ?_, hin.2.2⟩
    · rw [ne_eq, div_eq_iff (ne_of_gt hcs)]; exact hedge.1
    · intro h
      have h' := h.symm
      rw [div_eq_iff (ne_of_gt hcs)] at h'
      apply hedge.2
      rw [h']; ring
  have hlt := slotNo_lt hext
  exact ⟨hext, _, calcIndex_inExtent hcs hext, by rw [show g.cells.length = _ from hwf]; exact hlt, rfl⟩

/-- Negation of C06 for every grid: every grid has a point that is reported as inside but whose
square is not part of the grid, so whatever slot is addressed belongs to another square. -/
theorem C06_false (g : Grid K α) (hcs : 0 < g.cellSize) :
    ∃ p, isInside g p = true ∧ ¬ InExtent g (squareOf g.cellSize p) := by
  refine ⟨((g.right + 1 / 2) * g.cellSize, 0), ?_, ?_⟩
  · rw [isInside_iff hcs]
    simp only [zero_div]
    rw [mul_div_cancel_right₀ _ (ne_of_gt hcs)]
    have h1 : (0 : K) ≤ g.left := Nat.cast_nonneg _
    have h2 : (0 : K) ≤ g.right := Nat.cast_nonneg _
    have h3 : (0 : K) ≤ g.down := Nat.cast_nonneg _
    have h4 : (0 : K) ≤ g.up := Nat.cast_nonneg _
    exact ⟨⟨by linarith, by linarith⟩, by linarith, by linarith⟩
  · rw [inExtent_iff hcs]
    simp only
    rw [mul_div_cancel_right₀ _ (ne_of_gt hcs)]
    intro h
    exact lt_irrefl _ h.1.2

/-- Concrete effect: a lookup at an inside point of the one-cell grid reads past the end. -/
theorem C06_false_oob : isInside (init (K := ℚ) natOps) (1 / 8, 0) = true ∧
    cellExists (init (K := ℚ) natOps) (1 / 8, 0) = .ub .outOfBounds := by
  constructor <;> decide +kernel

/-- C06, lookup: off the right and bottom edge a cell is reported exactly if the square that contains the point
has one; in particular never outside the grid. -/
theorem C06_lookup_partial {g : Grid K α} (hwf : WF g) (hcs : 0 < g.cellSize) {p : K × K} (hedge : ¬ OnEdge g p) :
    cellExists g p = .ok (content g (squareOf g.cellSize p)).isSome := by
  unfold cellExists
  by_cases hin : isInside g p = true
  · obtain ⟨hext, idx, h1, h2, rfl⟩ := C06_inside_addresses_own_slot_partial hwf hcs hin hedge
    rw [if_pos hin, h1, Res.bind_ok, readSlot_lt h2, Res.map_ok]
    unfold content
    rw [if_pos hext]
  · have hext : ¬ InExtent g (squareOf g.cellSize p) := by
      intro h
      rw [inExtent_iff hcs] at h
      exact hin ((isInside_iff hcs p).2 ⟨⟨h.1.1, h.1.2.le⟩, h.2.1.le, h.2.2⟩)
    rw [if_neg hin]
    unfold content
    rw [if_neg hext]
    rfl

example : isInside exGrid (1, -1) = true ∧ ¬ OnEdge exGrid (1, -1) := by
  refine ⟨by decide +kernel, ?_⟩
  rintro (h | h) <;> simp [exGrid] at h

/-! ### C07 -/

/-- C07 for all points outside, for all inside points with positive radius, and for radius zero at
inside points off the right and bottom edge. -/
theorem C07_neighbours_exact_partial {g : Grid K α} (hwf : WF g) (hcs : 0 < g.cellSize) (p : K × K)
    (r : ℕ) (hr : 0 < r ∨ ¬ OnEdge g p) :
    ∃ res, getNeighbors g p r = .ok res ∧
      (isInside g p = false → res = []) ∧
      (isInside g p = true → ∀ i c, (i, c) ∈ res ↔ ∃ q, InExtent g q ∧
        |q.1 - (squareOf g.cellSize p).1| ≤ r ∧ |q.2 - (squareOf g.cellSize p).2| ≤ r ∧
        content g q = some c ∧ i = slotNo g q) ∧
      (res.map Prod.fst).Pairwise (· < ·) := by
  by_cases hin : isInside g p = true
  · have hr' : 0 < r ∨ InExtent g (squareOf g.cellSize p) :=
      hr.imp id fun h => (C06_inside_addresses_own_slot_partial hwf hcs hin h).1
    obtain ⟨is, h, hs, hm⟩ := getNeighbors_window hwf hcs hin hr'
    refine ⟨_, h, fun h' => absurd (hin.symm.trans h') (by simp), ?_,
      hs.sublist (filterMap_slot_fst is)⟩
    intro _ i c
    simp only [List.mem_filterMap, Option.map_eq_some_iff, Prod.mk.injEq]
    constructor
    · rintro ⟨j, hj, a, ha, rfl, rfl⟩
      obtain ⟨q, hq, h1, h2, rfl⟩ := (hm j).1 hj
      exact ⟨q, hq, h1, h2, by rw [content_of_in hq]; exact ha, rfl⟩
    · rintro ⟨q, hq, h1, h2, hc, rfl⟩
      exact ⟨slotNo g q, (hm _).2 ⟨q, hq, h1, h2, rfl⟩, c, by rw [← content_of_in hq]; exact hc,
        rfl, rfl⟩
  · refine ⟨[], ?_, fun _ => rfl, fun h => absurd h hin, by simp⟩
    unfold getNeighbors
    simp [hin]

/-- Negation of C07 for radius zero on the edge: the query reads past the end, or returns the cell of
another square. -/
theorem C07_false_edge : getNeighbors (init (K := ℚ) natOps) (1 / 8, 0) 0 = .ub .outOfBounds ∧
    getNeighbors { exGrid with cells := [none, none, none, some 7, none, none] } (3 / 2, 0) 0
      = .ok [(3, 7)] := by
  constructor <;> decide +kernel

example : getNeighbors exGrid (1, 0) 1 = .ok [(2, 2), (5, 3)] := by decide +kernel

/-! ### C08 -/

/-- Calls that maintain the counter. -/
def Op.Counted : Op K α → Prop
  | .addCell .. => True
  | .removeCell _ => True
  | .enlarge .. => True
  | .translate _ _ discard => discard = false
  | .clear => False
  | .setCellSize _ => True
  | .rayTrace .. => False

theorem stored_of_content {g g' : Grid K α} (hwf : WF g) (hwf' : WF g')
    (h : ∀ q, content g' q = content g q) : stored g' = stored g := by
  unfold stored
  rw [stored_eq_ncard hwf, stored_eq_ncard hwf']
  simp only [h]

theorem countP_set (l : List (Option α)) (i : ℕ) (hi : i < l.length) (c : α) :
    (l.set i (some c)).countP Option.isSome
      = l.countP Option.isSome + (if (slot l i).isSome then 0 else 1) := by
  induction l generalizing i with
  | nil => simp at hi
  | cons a l ih =>
    cases i with
    | zero => cases a <;> simp [slot]
    | succ i =>
      have := ih i (by simpa using hi)
      have hs : slot (a :: l) (i + 1) = slot l i := by simp [slot]
      simp only [List.set_cons_succ, List.countP_cons, this, hs]
      omega

theorem enlargeGrid_counted {g g' : Grid K α} (hwf : WF g) (hv : g.validCells = stored g)
    {l r u d : ℕ} (h : enlargeGrid g l r u d = .ok g') : g'.validCells = stored g' := by
  obtain ⟨g1, h1, hw, -, -, -, -, -, hval, hc⟩ := enlargeGrid_spec hwf l r u d
  rw [h1] at h; cases h
  rw [hval, hv, stored_of_content hwf hw hc]

theorem exec_counted {ops : CellOps α} {g g' : Grid K α} (hwf : WF g) (hv : g.validCells = stored g)
    (o : Op K α) (ho : o.Counted) (h : o.exec ops g = .ok g') : g'.validCells = stored g' := by
  cases o with
  | addCell p c m =>
    simp only [Op.exec, addCell] at h
    obtain ⟨g1, h1, h⟩ := Res.bind_eq_ok.1 h
    have hv1 : g1.validCells = stored g1 := by
      unfold enlargeToFit at h1
      split_ifs at h1 with hin
      · cases h1; exact hv
      · obtain ⟨l, -, h1⟩ := Res.bind_eq_ok.1 h1
        obtain ⟨r, -, h1⟩ := Res.bind_eq_ok.1 h1
        obtain ⟨u, -, h1⟩ := Res.bind_eq_ok.1 h1
        obtain ⟨d, -, h1⟩ := Res.bind_eq_ok.1 h1
        exact enlargeGrid_counted hwf hv h1
    obtain ⟨idx, -, h⟩ := Res.bind_eq_ok.1 h
    obtain ⟨old, ho, h⟩ := Res.bind_eq_ok.1 h
    unfold readSlot at ho
    split_ifs at ho with hlt
    cases hs : slot g1.cells idx with
    | none =>
      rw [hs] at ho
      cases ho
      rw [writeSlot_lt hlt] at h
      cases h
      unfold stored at *
      simp only
      rw [countP_set _ _ hlt, hs, hv1]; simp
    | some x =>
      rw [hs] at ho
      cases ho
      simp only at h
      rw [writeSlot_lt hlt] at h
      cases h
      unfold stored at *
      simp only
      rw [countP_set _ _ hlt, hs, hv1]; simp
  | removeCell p =>
    simp only [Op.exec, removeCell] at h
    split_ifs at h
    · obtain ⟨x, hx, -⟩ := Res.map_eq_ok.1 h
      obtain ⟨y, -, hy⟩ := Res.bind_eq_ok.1 hx
      cases hy
    · cases h; exact hv
  | enlarge a b c d =>
    simp only [Op.exec, enlarge] at h
    obtain ⟨l, -, h⟩ := Res.bind_eq_ok.1 h
    obtain ⟨r, -, h⟩ := Res.bind_eq_ok.1 h
    obtain ⟨u, -, h⟩ := Res.bind_eq_ok.1 h
    obtain ⟨d, -, h⟩ := Res.bind_eq_ok.1 h
    exact enlargeGrid_counted hwf hv h
  | translate tx ty dis =>
    unfold Op.Counted at ho
    subst ho
    obtain ⟨g1, h1, -, -, -, hst⟩ := C04_translate_keeps_all hwf tx ty
    obtain ⟨g2, h2, -, -, -, -, -, -, hval, -⟩ := translate_spec hwf tx ty false
    simp only [Op.exec] at h
    rw [h] at h1 h2
    cases h1
    cases h2
    rw [hst, hval, hv]
  | clear => exact absurd ho id
  | setCellSize cs => cases h; exact hv
  | rayTrace s e => exact absurd ho id

/-- C08 for every history without `clear`, `rayTrace` and discarding translations, with arbitrary
arguments. -/
theorem C08_counter_partial (ops : CellOps α) (hist : List (Op K α)) (hc : ∀ o ∈ hist, o.Counted)
    (g : Grid K α) (h : execAll ops (init ops) hist = .ok g) : g.validCells = stored g := by
  have key : ∀ (hist : List (Op K α)) (g0 : Grid K α), (∀ o ∈ hist, o.Counted) → WF g0 →
      g0.validCells = stored g0 → ∀ g, execAll ops g0 hist = .ok g → g.validCells = stored g := by
    intro hist
    induction hist with
    | nil => intro g0 _ _ hv g h; cases h; exact hv
    | cons o os ih =>
      intro g0 hc hwf hv g h
      obtain ⟨g1, h1, h⟩ := Res.bind_eq_ok.1 h
      exact ih g1 (fun o ho => hc o (by simp [ho])) (exec_wf hwf o h1)
        (exec_counted hwf hv o (hc o (by simp)) h1) g h
  exact key hist (init ops) hc (by unfold WF; rfl) rfl g h

/-- Negation of C08 for `clear`: whenever the counter was right and the grid was not empty, it is
wrong afterwards. -/
theorem C08_false_clear (g : Grid K α) (hv : g.validCells = stored g) (hne : 0 < stored g) :
    (clear g).validCells ≠ stored (clear g) := by
  have h0 : stored (clear g) = 0 := by
    unfold stored clear
    simp [List.countP_eq_zero]
  rw [h0]
  show g.validCells ≠ 0
  omega

/-- Negation of C08 for a discarding translation and for a ray, on a new grid. -/
theorem C08_false_translate_ray :
    (translate (init (K := ℚ) natOps) 1 0 true).map (fun g => (g.validCells, stored g)) = .ok (1, 0) ∧
    ((enlarge (init (K := ℚ) natOps) 0 0 (5 / 8) 0).bind fun g => rayTrace natOps g (0, 0) (1 / 2, 0)).map
      (fun r => (r.2.validCells, stored r.2)) = .ok (1, 2) := by
  constructor <;> decide +kernel

example : (execAll natOps (init (K := ℚ) natOps)
    [.setCellSize 1, .addCell (2, 1) 5 true, .addCell (2, 1) 6 true, .translate (-1) 2 false]).map
      (fun g => (g.validCells, g.width)) = .ok (2, 4) := by decide +kernel

/-! ### C09 -/

/-- Negation of C09 for every grid: the copy either has undefined behaviour (some slot is empty) or
shows no cell at all, although the original holds at least one, and has twice the slots. -/
theorem C09_false (g : Grid K α) (hwf : WF g) :
    copy g = .ub .nullDeref ∨
    ∃ g', copy g = .ok g' ∧ (∀ q, content g' q = none) ∧ (∃ q, (content g q).isSome) ∧
      g'.cells.length = 2 * (g'.width * g'.height) := by
  have hlen : g.cells.length = g.width * g.height := hwf
  unfold copy
  split_ifs with hall
  · refine Or.inr ⟨_, rfl, ?_, ?_, ?_⟩
    · intro q
      unfold content
      split_ifs with hq
      · have hlt := slotNo_lt hq
        have e : slotNo { g with cells := List.replicate g.cells.length none ++ g.cells } q
            = slotNo g q := rfl
        rw [e]
        have hlt' : slotNo g q < g.cells.length := by rw [hlen]; exact hlt
        simp only [slot]
        rw [List.getElem?_append_left (by simpa using hlt'), List.getElem?_replicate]
        split_ifs
        rfl
      · rfl
    · have hpos : 0 < g.width * g.height := Nat.mul_pos (width_pos g) (height_pos g)
      refine ⟨squareNo g 0, ?_⟩
      rw [content_squareNo hpos, slot_eq_getElem (by omega)]
      exact List.all_eq_true.1 hall _ (List.getElem_mem _)
    · simp only [List.length_append, List.length_replicate]
      rw [hlen]
      simp only [Grid.width, Grid.height]
      ring
  · exact Or.inl rfl

/-- What survives of C09: if the copy succeeds, extents, cell size and counter agree. -/
theorem C09_copy_partial (g g' : Grid K α) (h : copy g = .ok g') :
    g'.left = g.left ∧ g'.right = g.right ∧ g'.up = g.up ∧ g'.down = g.down ∧
      g'.cellSize = g.cellSize ∧ g'.validCells = g.validCells := by
  unfold copy at h
  split_ifs at h
  cases h
  exact ⟨rfl, rfl, rfl, rfl, rfl, rfl⟩

example : ∃ g', copy (init (K := ℚ) natOps) = .ok g' := ⟨_, rfl⟩
example : copy exGrid = .ub .nullDeref := by decide +kernel

/-! ### C10, C11 -/

/-- C10 for rays at least one cell long (and shorter than 2^63 cells) that start inside and off the
right and bottom edge: no undefined behaviour, the first visited slot is the one of the start, and
each visited slot is the slot of a point of the segment inside the grid.  A start outside yields
nothing (for every grid and ray). -/
theorem C10_ray_confined_partial (ops : CellOps α) {g : Grid K α} (hwf : WF g) (hcs : 0 < g.cellSize)
    (start stop : K × K) :
    (isInside g start = false → rayTrace ops g start stop = .ok ([], g)) ∧
    (isInside g start = true → ¬ OnEdge g start →
      g.cellSize ≤ max |stop.1 - start.1| |stop.2 - start.2| →
      max |stop.1 - start.1| |stop.2 - start.2| < 2 ^ 63 * g.cellSize →
      ∃ visited g', rayTrace ops g start stop = .ok (visited, g') ∧
        visited.head? = some (slotNo g (squareOf g.cellSize start)) ∧
        ∀ i ∈ visited, ∃ t : K, 0 ≤ t ∧ t ≤ 1 ∧
          InExtent g (squareOf g.cellSize (start.1 + t * (stop.1 - start.1),
            start.2 + t * (stop.2 - start.2))) ∧
          i = slotNo g (squareOf g.cellSize (start.1 + t * (stop.1 - start.1),
            start.2 + t * (stop.2 - start.2)))) := by
  constructor
  · intro h
    unfold rayTrace
    rw [h]; rfl
  · intro hin hedge hlong hshort
    obtain ⟨hext, -⟩ := C06_inside_addresses_own_slot_partial hwf hcs hin hedge
    unfold rayTrace
    rw [hin]
    simp only [Bool.not_true, Bool.false_eq_true, if_false]
    rw [if_neg (ne_of_gt hcs), calcIndex_inExtent hcs hext, Res.bind_ok]
    set len := max (|stop.1 - start.1| / g.cellSize) (|stop.2 - start.2| / g.cellSize) with hlen
    have hlen' : len = max |stop.1 - start.1| |stop.2 - start.2| / g.cellSize := by
      rw [hlen, max_div_div_right hcs.le]
    have h1 : 1 ≤ len := by rw [hlen', le_div_iff₀ hcs]; linarith
    have h2 : len < 2 ^ 63 := by rw [hlen', div_lt_iff₀ hcs]; exact hshort
    have hslot : slotNo g (squareOf g.cellSize start) < g.cells.length := by
      rw [show g.cells.length = _ from hwf]; exact slotNo_lt hext
    obtain ⟨s1, hs1⟩ := rayVisit_ok ops (s := ⟨g.cells, []⟩) hslot
    have r1 := rayVisit_rel hs1
    rw [hs1, Res.bind_ok, if_neg (by linarith)]
    -- the loop bound
    have hfl1 : (1 : ℤ) ≤ ⌊len⌋ := Int.le_floor.2 (by exact_mod_cast h1)
    have hfl2 : ⌊len⌋ < 2 ^ 63 := Int.floor_lt.2 (by exact_mod_cast h2)
    obtain ⟨n, hn⟩ : ∃ n : ℕ, ⌊len⌋ = n := ⟨⌊len⌋.toNat, by omega⟩
    have hbound : rayBound len = .ok (2 * n - 1) := by
      unfold rayBound
      rw [hn, toSizeT_of_nonneg (by omega), Res.bind_ok]
      simp only [Int.toNat_natCast]
      exact rayBound_nat (by omega) (by omega)
    rw [hbound, Res.bind_ok]
    set delta : K × K := ((stop.1 - start.1) / len * (1 / 2), (stop.2 - start.2) / len * (1 / 2))
      with hdelta
    have hp0 : rayPoint start delta 0 = start := by unfold rayPoint; ext <;> simp
    obtain ⟨s2, hs2, hv2⟩ := rayLoop_ok ops hwf hcs start delta (2 * n - 1) 0
      (slotNo g (squareOf g.cellSize start)) s1 r1.1.len (by rw [hp0]; exact hext)
    rw [hp0] at hs2
    rw [hs2, Res.bind_ok]
    refine ⟨_, _, rfl, ?_, ?_⟩
    · obtain ⟨l, hl, -⟩ := (rayLoop_rel hs2).sub
      rw [hl, r1.2]; simp
    · intro i hi
      have hlenpos : 0 < len := by linarith
      have hpt : ∀ j : ℕ, rayPoint start delta j = (start.1 + j / (2 * len) * (stop.1 - start.1),
          start.2 + j / (2 * len) * (stop.2 - start.2)) := by
        intro j
        unfold rayPoint
        rw [hdelta]
        ext
        · simp only; field_simp
        · simp only; field_simp
      rcases hv2 i hi with h | ⟨j, -, hj, hj1, hj2⟩
      · rw [r1.2] at h
        simp only [List.nil_append, List.mem_singleton] at h
        refine ⟨0, le_rfl, by norm_num, ?_, ?_⟩
        · simpa using hext
        · simpa using h
      · refine ⟨j / (2 * len), by positivity, ?_, ?_, ?_⟩
        · rw [div_le_one (by positivity)]
          have hjn : (j : K) ≤ 2 * n := by
            have : j ≤ 2 * n := by omega
            exact_mod_cast this
          have hnl : (n : K) ≤ len := by
            have := Int.floor_le len
            rw [hn] at this
            exact_mod_cast this
          linarith
        · rw [← hpt]; exact hj1
        · rw [← hpt]; exact hj2

/-- Negation of C10 for a short ray: from `(0,0)` to `(1/4,0)` in a row of three unit cells, the ray
runs on to the border of the grid, although the segment lies in the first cell. -/
theorem C10_false_short_ray :
    (rayTrace natOps ⟨(1 : ℚ), 0, 2, 0, 0, 3, [some 0, some 0, some 0]⟩ (0, 0) (1 / 4, 0)).map Prod.fst
      = .ok [0, 1, 2] := by
  decide +kernel

/-- No point of that segment is in the third cell. -/
theorem C10_false_short_ray_segment (t : K) (_h0 : 0 ≤ t) (h1 : t ≤ 1) :
    squareOf 1 ((0 : K) + t * (1 / 4 - 0), (0 : K) + t * (0 - 0)) = (0, 0) := by
  rw [squareOf_iff (by norm_num)]
  norm_num
  constructor <;> linarith

/-- Negation of C10 for a ray of length zero: undefined behaviour on every grid and at every start
point that can be addressed. -/
theorem C10_false_zero_ray (ops : CellOps α) {g : Grid K α} (hwf : WF g) (hcs : 0 < g.cellSize)
    {p : K × K} (hin : isInside g p = true) (hedge : ¬ OnEdge g p) :
    rayTrace ops g p p = .ub .badCast := by
  obtain ⟨hext, -⟩ := C06_inside_addresses_own_slot_partial hwf hcs hin hedge
  unfold rayTrace
  rw [hin]
  simp only [Bool.not_true, Bool.false_eq_true, if_false]
  rw [if_neg (ne_of_gt hcs), calcIndex_inExtent hcs hext, Res.bind_ok]
  have hslot : slotNo g (squareOf g.cellSize p) < g.cells.length := by
    rw [show g.cells.length = _ from hwf]; exact slotNo_lt hext
  obtain ⟨s1, hs1⟩ := rayVisit_ok ops (s := ⟨g.cells, []⟩) hslot
  rw [hs1, Res.bind_ok]
  simp

example : (rayTrace natOps exGrid (-1, 0) (1, -1)).map Prod.fst = .ok [0, 1, 4] := by decide +kernel

/-- C11: a ray that executes without undefined behaviour leaves the extent and all existing cells
unchanged; each cell it creates is a default cell in a returned slot; returned slots hold cells. -/
theorem C11_ray_preserves (ops : CellOps α) (g : Grid K α) (start stop : K × K) (visited : List ℕ)
    (g' : Grid K α) (h : rayTrace ops g start stop = .ok (visited, g')) :
    g'.left = g.left ∧ g'.right = g.right ∧ g'.up = g.up ∧ g'.down = g.down ∧
    g'.cellSize = g.cellSize ∧
    (∀ q c, content g q = some c → content g' q = some c) ∧
    (∀ q c, content g q = none → content g' q = some c → c = ops.default ∧ slotNo g q ∈ visited) ∧
    (∀ i ∈ visited, (slot g'.cells i).isSome) := by
  unfold rayTrace at h
  split_ifs at h with hin h0
  · cases h
    exact ⟨rfl, rfl, rfl, rfl, rfl, fun _ _ h => h,
      fun q c h h' => absurd (h.symm.trans h') (by simp), by simp⟩
  · simp only at h
    obtain ⟨idx, -, h⟩ := Res.bind_eq_ok.1 h
    obtain ⟨s1, h1, h⟩ := Res.bind_eq_ok.1 h
    split_ifs at h with hl
    obtain ⟨n, -, h⟩ := Res.bind_eq_ok.1 h
    obtain ⟨s2, h2, h⟩ := Res.bind_eq_ok.1 h
    cases h
    have r := (rayVisit_rel h1).1.trans (rayLoop_rel h2)
    refine ⟨rfl, rfl, rfl, rfl, rfl, ?_, ?_, ?_⟩
    · intro q c hq
      by_cases hq' : InExtent g q
      · rw [content_withCells hq']
        rw [content_of_in hq'] at hq
        exact r.keep _ _ hq
      · rw [content_of_not_in hq'] at hq; cases hq
    · intro q c hq hq2
      by_cases hq' : InExtent g q
      · rw [content_withCells hq'] at hq2
        rw [content_of_in hq'] at hq
        exact r.fresh _ _ hq hq2
      · exact absurd (hq2.symm.trans (if_neg hq')) (by simp)
    · obtain ⟨l, hl, hp⟩ := r.sub
      simp only [List.nil_append] at hl
      intro i hi
      exact hp i (hl ▸ hi)

example : (rayTrace natOps exGrid (-1, 0) (1, -1)).map (fun r => r.2.cells)
    = .ok [some 1, some 0, some 2, none, some 0, some 3] := by decide +kernel

/-! ### C12 -/

/-- C12: the enumeration is the list of the contents of all squares of the extent, row by row from
the top, each row from the left, with the empty squares left out. -/
theorem C12_enumeration {g : Grid K α} (hwf : WF g) :
    getValidCells g = (List.range g.height).flatMap fun row : ℕ =>
      (List.range g.width).filterMap fun col : ℕ => content g ((col : ℤ) - g.left, (g.up : ℤ) - row) := by
  unfold getValidCells
  conv_lhs => rw [cells_eq_rows hwf]
  rw [List.filterMap_flatMap]
  simp only [List.filterMap_map]
  rfl

example : getValidCells exGrid = [1, 2, 3] := by decide +kernel

/-! ### C13 -/

/-- Negation of C13: whenever the point is inside, the call has undefined behaviour. -/
theorem C13_false (g : Grid K α) (p : K × K) (hcs : 0 < g.cellSize)
    (hin : isInside g p = true) : (removeCell g p).IsUB := by
  unfold removeCell removeCellEffect
  rw [if_pos hin, calcIndex_inside hcs hin, Res.bind_ok]
  unfold readSlot writeSlot
  split_ifs with h
  · exact ⟨_, rfl⟩
  · exact ⟨_, rfl⟩

/-- What holds of C13: outside points are rejected without any change; and the state change of the
success path (before the missing `return`) empties exactly the square of the point and keeps the
counter right. -/
theorem C13_remove_partial (g : Grid K α) (p : K × K) :
    (isInside g p = false → removeCell g p = .ok (false, g)) ∧
    (WF g → 0 < g.cellSize → isInside g p = true → ¬ OnEdge g p →
      ∃ g', removeCellEffect g p = .ok g' ∧ WF g' ∧
        content g' (squareOf g.cellSize p) = none ∧
        (∀ q, q ≠ squareOf g.cellSize p → content g' q = content g q) ∧
        (g.validCells = stored g → stored g < 2 ^ 64 → g'.validCells = stored g')) := by
  constructor
  · intro h; unfold removeCell; rw [h]; rfl
  · intro hwf hcs hin hedge
    obtain ⟨hext, idx, hidx, hlt, rfl⟩ := C06_inside_addresses_own_slot_partial hwf hcs hin hedge
    unfold removeCellEffect
    rw [hidx, Res.bind_ok, readSlot_lt hlt, Res.bind_ok]
    simp only
    rw [writeSlot_lt hlt]
    have hset := content_set hwf hext (none : Option α)
    have hcont : ∀ n : ℕ, content { g with
        cells := g.cells.set (slotNo g (squareOf g.cellSize p)) none
        validCells := n } = Function.update (content g) (squareOf g.cellSize p) none := by
      intro n; rw [← hset]; rfl
    refine ⟨_, rfl, ?_, ?_, ?_, ?_⟩
    · unfold WF; simp only [List.length_set]; exact hwf
    · rw [hcont]; simp
    · intro q hq; rw [hcont, Function.update_of_ne hq]
    · intro hv hmax
      have hcount : stored g = stored { g with
            cells := g.cells.set (slotNo g (squareOf g.cellSize p)) none } +
          (if (slot g.cells (slotNo g (squareOf g.cellSize p))).isSome then 1 else 0) := by
        unfold stored
        simp only
        cases hs : slot g.cells (slotNo g (squareOf g.cellSize p)) with
        | none =>
          have : g.cells.set (slotNo g (squareOf g.cellSize p)) none = g.cells := by
            rw [slot_eq_getElem hlt] at hs
            conv_rhs => rw [← List.set_getElem_self (as := g.cells) hlt, hs]
          rw [this]; simp
        | some x =>
          have h1 := countP_set (g.cells.set (slotNo g (squareOf g.cellSize p)) none)
            (slotNo g (squareOf g.cellSize p)) (by simpa using hlt) x
          rw [List.set_set] at h1
          have h2 : g.cells.set (slotNo g (squareOf g.cellSize p)) (some x) = g.cells := by
            rw [slot_eq_getElem hlt] at hs
            conv_rhs => rw [← List.set_getElem_self (as := g.cells) hlt, hs]
          rw [h2] at h1
          rw [h1]
          simp [hlt]
      simp only
      show _ = stored { g with cells := g.cells.set (slotNo g (squareOf g.cellSize p)) none }
      split_ifs at hcount ⊢ with hs <;> omega

example : isInside exGrid (1, 0) = true ∧ isInside exGrid (5, 0) = false := by
  constructor <;> decide +kernel

end Verif.Voxel
