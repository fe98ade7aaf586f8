import Verif.Grid.Ray

/-
Queries: window enumeration of `getNeighbors`, `getValidCells`.
-/
namespace Verif.Voxel

set_option linter.unusedSectionVars false

variable {K : Type v} [Field K] [LinearOrder K] [IsStrictOrderedRing K] [FloorRing K] {α : Type u}

theorem collect_eq {g : Grid K α} : ∀ {is : List ℕ}, (∀ i ∈ is, i < g.cells.length) →
    collect g is = .ok (is.filterMap fun i => (slot g.cells i).map fun a => (i, a))
  | [], _ => rfl
  | i :: is, h => by
    unfold collect
    rw [readSlot_lt (h i (by simp)), Res.bind_ok, collect_eq fun j hj => h j (by simp [hj]),
      Res.bind_ok]
    cases hs : slot g.cells i <;> simp [hs]

/-- Slots of a rectangular window in row-major order. -/
def window (w up down left right : ℕ) : List ℕ :=
  (List.range' up (down - up)).flatMap fun row =>
    (List.range' left (right - left)).map fun col => row * w + col

theorem mem_window {w up down left right i : ℕ} :
    i ∈ window w up down left right ↔
      ∃ row col, up ≤ row ∧ row < down ∧ left ≤ col ∧ col < right ∧ i = row * w + col := by
  unfold window
  simp only [List.mem_flatMap, List.mem_map, List.mem_range'_1]
  constructor
  · rintro ⟨row, hr, col, hc, rfl⟩
    exact ⟨row, col, by omega, by omega, by omega, by omega, rfl⟩
  · rintro ⟨row, col, h1, h2, h3, h4, rfl⟩
    exact ⟨row, by omega, col, by omega, rfl⟩

theorem window_sorted {w up down left right : ℕ} (h : right ≤ w) :
    (window w up down left right).Pairwise (· < ·) := by
  unfold window
  rw [List.pairwise_flatMap]
  constructor
  · intro row _
    rw [List.pairwise_map]
    exact (List.pairwise_lt_range' (s := left) (n := right - left)).imp (by omega)
  · apply (List.pairwise_lt_range' (s := up) (n := down - up)).imp
    intro a b hab x hx y hy
    simp only [List.mem_map, List.mem_range'_1] at hx hy
    obtain ⟨c, hc, rfl⟩ := hx
    obtain ⟨d, hd, rfl⟩ := hy
    have : (a + 1) * w ≤ b * w := Nat.mul_le_mul_right _ hab
    rw [Nat.succ_mul] at this
    omega

theorem filterMap_slot_fst {g : Grid K α} (is : List ℕ) :
    List.Sublist ((is.filterMap fun i => (slot g.cells i).map fun a => (i, a)).map Prod.fst) is := by
  induction is with
  | nil => simp
  | cons i is ih =>
    rw [List.filterMap_cons]
    cases slot g.cells i with
    | none => simp only [Option.map_none]; exact ih.trans (List.sublist_cons_self _ _)
    | some a => simpa using ih

theorem getNeighbors_window {g : Grid K α} (hwf : WF g) (hcs : 0 < g.cellSize) {p : K × K} {r : ℕ}
    (hin : isInside g p = true) (hr : 0 < r ∨ InExtent g (squareOf g.cellSize p)) :
    ∃ is : List ℕ, getNeighbors g p r = .ok (is.filterMap fun i => (slot g.cells i).map fun a => (i, a)) ∧
      is.Pairwise (· < ·) ∧
      ∀ i, i ∈ is ↔ ∃ q, InExtent g q ∧ |q.1 - (squareOf g.cellSize p).1| ≤ r ∧
        |q.2 - (squareOf g.cellSize p).2| ≤ r ∧ i = slotNo g q := by
  have hwf' : g.cells.length = g.width * g.height := hwf
  have hsq := isInside_square hcs hin
  unfold getNeighbors
  rw [hin]
  simp only [Bool.not_true, Bool.false_eq_true, if_false]
  by_cases h0 : r = 0
  · subst h0
    rw [if_pos rfl]
    have hext : InExtent g (squareOf g.cellSize p) := by
      rcases hr with h | h
      · omega
      · exact h
    have hlt := slotNo_lt hext
    have hidx := calcIndex_inExtent hcs hext
    refine ⟨[slotNo g (squareOf g.cellSize p)], ?_, by simp, ?_⟩
    · unfold cellExists
      rw [if_pos hin, hidx, Res.bind_ok, readSlot_lt (by omega), Res.map_ok, Res.bind_ok,
        Res.bind_ok]
      cases hc : slot g.cells (slotNo g (squareOf g.cellSize p)) with
      | none => simp [hc]
      | some a =>
        rw [Option.isSome_some, if_pos rfl, collect_eq (by simp; omega)]
    · intro i
      simp only [List.mem_singleton]
      constructor
      · rintro rfl
        exact ⟨_, hext, by simp, by simp, rfl⟩
      · rintro ⟨q, _, h1, h2, rfl⟩
        congr 1
        rw [abs_le] at h1 h2
        ext
        · omega
        · omega
  · rw [if_neg h0, calcCoordinates_inside hcs hin, Res.bind_ok]
    simp only
    generalize squareOf g.cellSize p = sq at *
    refine ⟨window g.width ((g.up - sq.2).toNat - r) (min ((g.up - sq.2).toNat + r + 1) g.height)
      ((sq.1 + g.left).toNat - r) (min ((sq.1 + g.left).toNat + r + 1) g.width), ?_, ?_, ?_⟩
    · apply collect_eq
      intro i hi
      have hi' := mem_window.1 hi
      obtain ⟨row, col, h1, h2, h3, h4, rfl⟩ := hi'
      rw [hwf']
      exact idx_lt (by omega) (by omega)
    · exact window_sorted (by omega)
    · intro i
      rw [mem_window]
      simp only [abs_le]
      constructor
      · rintro ⟨row, col, h1, h2, h3, h4, rfl⟩
        refine ⟨((col : ℤ) - g.left, (g.up : ℤ) - row), ?_, ?_, ?_, ?_⟩
        · unfold InExtent Grid.width Grid.height at *; simp only; omega
        · simp only; omega
        · simp only; omega
        · unfold slotNo
          simp only [sub_add_cancel, Int.toNat_natCast, sub_sub_cancel]
      · rintro ⟨q, hq, h1, h2, rfl⟩
        refine ⟨(g.up - q.2).toNat, (q.1 + g.left).toNat, ?_, ?_, ?_, ?_, rfl⟩
        · omega
        · have := hq.row_lt; unfold InExtent at hq; omega
        · omega
        · have := hq.col_lt; unfold InExtent at hq; omega

/-- Slots in row-major order of a well-formed grid. -/
theorem cells_eq_rows {g : Grid K α} (hwf : WF g) :
    g.cells = (List.range g.height).flatMap fun row : ℕ => (List.range g.width).map fun col : ℕ =>
      content g ((col : ℤ) - g.left, (g.up : ℤ) - row) := by
  have hw : window g.width 0 g.height 0 g.width = List.range (g.width * g.height) := by
    apply List.Pairwise.eq_of_mem_iff (r := (· < ·)) (window_sorted le_rfl) List.pairwise_lt_range
    intro i
    rw [mem_window, List.mem_range]
    constructor
    · rintro ⟨row, col, -, h1, -, h2, rfl⟩
      exact idx_lt h2 h1
    · intro h
      exact ⟨i / g.width, i % g.width, Nat.zero_le _, Nat.div_lt_of_lt_mul h, Nat.zero_le _,
        Nat.mod_lt _ (width_pos g), idx_eq _ _⟩
  have h1 : g.cells = (List.range (g.width * g.height)).map (slot g.cells) := by
    apply List.ext_getElem
    · rw [List.length_map, List.length_range]; exact hwf
    · intro i h1 h2
      simp [slot_eq_getElem h1]
  refine h1.trans ?_
  rw [← hw]
  unfold window
  rw [List.map_flatMap]
  simp only [Nat.sub_zero, List.map_map, ← List.range_eq_range']
  apply List.flatMap_congr
  intro row hrow
  apply List.map_congr_left
  intro col hcol
  rw [List.mem_range] at hrow hcol
  have hq : InExtent g ((col : ℤ) - g.left, (g.up : ℤ) - row) := by
    unfold InExtent Grid.width Grid.height at *; simp only; omega
  rw [content_of_in hq]
  unfold slotNo
  simp only [sub_add_cancel, Int.toNat_natCast, sub_sub_cancel, Function.comp]

end Verif.Voxel
