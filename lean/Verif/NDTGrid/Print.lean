import Verif.NDTGrid.Props

/-
Text of a grid: `operator<<` of `NDTGrid2D` (ndt_grid2d.h:876-896) and of `VoxelGrid2D` (voxel_grid2d.h:608-624).
A text is a list of characters; `endl` is a line feed.
-/
namespace Verif.NDTGrid

open Verif Verif.Voxel

variable {K : Type v} [Field K] [LinearOrder K] [IsStrictOrderedRing K] [FloorRing K] {γ : Type u} {α : Type u}

/-- What is written for a cell, ndt_grid2d.h:883-889: the empty string is padded to one blank by `setw(1)`. -/
def symbol (I : CellI K γ) : Option γ → Char
  | none => ' '
  | some c => if I.gaussian c then 'W' else '.'

/-- The loop, ndt_grid2d.h:880-894, with the counter `i`. -/
def printLoop (I : CellI K γ) (width : ℕ) : ℕ → List (Option γ) → List Char
  | _, [] => []
  | i, c :: cs =>
    let i := i + 1
    symbol I c :: (if i = width then '\n' :: printLoop I width 0 cs else printLoop I width i cs)

/-- `operator<<` of `NDTGrid2D`, ndt_grid2d.h:876-896. -/
def text (I : CellI K γ) (n : NGrid K γ) : List Char := printLoop I n.grid.width 0 n.grid.cells

/-- `std::setw(5) << s`: blanks on the left up to five characters. -/
def setw5 (s : List Char) : List Char := List.replicate (5 - s.length) ' ' ++ s

/-- What is written for a cell, voxel_grid2d.h:619-622; `pr` writes the cell itself. -/
def entry (pr : α → List Char) : Option α → List Char
  | none => setw5 "NULL".toList
  | some a => setw5 (pr a)

/-- The loop, voxel_grid2d.h:613-622. -/
def voxelLoop (pr : α → List Char) (width : ℕ) : ℕ → List (Option α) → List Char
  | _, [] => []
  | i, c :: cs =>
    (if i = width then ['\n'] else []) ++ entry pr c ++
    voxelLoop pr width ((if i = width then 0 else i) + 1) cs

/-- `operator<<` of `VoxelGrid2D`, voxel_grid2d.h:608-624. -/
def voxelText (pr : α → List Char) (g : Grid K α) : List Char := voxelLoop pr g.width 0 g.cells

/-! ### Specification -/

/-- The square in row `r` from the top and column `c` from the left. -/
def squareAt (g : Grid K γ) (r c : ℕ) : ℤ × ℤ := ((c : ℤ) - g.left, (g.up : ℤ) - r)

/-! ### Lemmas -/

theorem printLoop_row (I : CellI K γ) (w : ℕ) (row rest : List (Option γ)) (i : ℕ) (hr : row ≠ [])
    (h : i + row.length = w) :
    printLoop I w i (row ++ rest) = row.map (symbol I) ++ '\n' :: printLoop I w 0 rest := by
  induction row generalizing i with
  | nil => exact absurd rfl hr
  | cons a row ih =>
    rw [List.cons_append, printLoop]
    simp only [List.length_cons] at h
    by_cases hw : i + 1 = w
    · have : row = [] := List.length_eq_zero_iff.1 (by omega)
      subst this
      simp [hw]
    · have hne : row ≠ [] := by rintro rfl; simp at h; omega
      rw [if_neg hw, ih (i + 1) hne (by omega)]
      rfl

theorem slot_drop (l : List (Option α)) (w i : ℕ) : slot (l.drop w) i = slot l (w + i) := by
  unfold slot
  rw [List.getElem?_drop]

theorem printLoop_rows (I : CellI K γ) (w h : ℕ) (hw : 0 < w) (l : List (Option γ)) (hl : l.length = w * h) :
    printLoop I w 0 l = (List.range h).flatMap fun r =>
      (List.range w).map (fun c => symbol I (slot l (r * w + c))) ++ ['\n'] := by
  induction h generalizing l with
  | zero =>
    have : l = [] := List.length_eq_zero_iff.1 (by simpa using hl)
    subst this
    rfl
  | succ h ih =>
    have hlen : w ≤ l.length := by rw [hl]; exact Nat.le_mul_of_pos_right _ (by omega)
    have e : printLoop I w 0 l = printLoop I w 0 (l.take w ++ l.drop w) := by rw [List.take_append_drop]
    have ht : (l.take w).length = w := by rw [List.length_take]; omega
    rw [e, printLoop_row I w _ _ 0 (by intro h0; rw [h0] at ht; simp at ht; omega) (by omega),
      ih (l.drop w) (by rw [List.length_drop, hl, Nat.mul_succ]; omega), List.range_succ_eq_map, List.flatMap_cons]
    have r0 : (l.take w).map (symbol I) = (List.range w).map fun c => symbol I (slot l (0 * w + c)) := by
      apply List.ext_getElem
      · rw [List.length_map, ht, List.length_map, List.length_range]
      · intro k h1 h2
        simp only [List.length_map, ht] at h1
        simp only [List.getElem_map, List.getElem_take, List.getElem_range, zero_mul, zero_add]
        rw [slot_eq_getElem (by omega)]
    rw [r0, List.append_assoc, List.flatMap_map, List.singleton_append]
    congr 2
    refine congrArg (List.flatMap · (List.range h)) (funext fun r => ?_)
    congr 1
    refine List.map_congr_left fun c _ => ?_
    rw [slot_drop]
    congr 2
    rw [Nat.succ_mul]; omega

theorem voxelLoop_row (pr : α → List Char) (w : ℕ) (row rest : List (Option α)) (i : ℕ)
    (h : i + row.length ≤ w) :
    voxelLoop pr w i (row ++ rest) = row.flatMap (entry pr) ++ voxelLoop pr w (i + row.length) rest := by
  induction row generalizing i with
  | nil => rfl
  | cons a row ih =>
    simp only [List.length_cons] at h
    rw [List.cons_append, voxelLoop, if_neg (by omega), if_neg (by omega), ih (i + 1) (by omega),
      List.flatMap_cons, List.length_cons, List.nil_append, List.append_assoc, Nat.add_assoc,
      Nat.add_comm 1 row.length]

/-- A full line before the next cell. -/
theorem voxelLoop_full (pr : α → List Char) (w : ℕ) (hw : 0 < w) (l : List (Option α)) (hl : l ≠ []) :
    voxelLoop pr w w l = '\n' :: voxelLoop pr w 0 l := by
  cases l with
  | nil => exact absurd rfl hl
  | cons a l => rw [voxelLoop, voxelLoop, if_pos rfl, if_pos rfl, if_neg (by omega), if_neg (by omega)]; rfl

theorem voxelLoop_rows (pr : α → List Char) (w h : ℕ) (hw : 0 < w) (l : List (Option α)) (hl : l.length = w * h) :
    voxelLoop pr w 0 l = (List.range h).flatMap fun r =>
      (if r = 0 then [] else ['\n']) ++ (List.range w).flatMap fun c => entry pr (slot l (r * w + c)) := by
  induction h generalizing l with
  | zero =>
    have : l = [] := List.length_eq_zero_iff.1 (by simpa using hl)
    subst this
    rfl
  | succ h ih =>
    have hlen : w ≤ l.length := by rw [hl]; exact Nat.le_mul_of_pos_right _ (by omega)
    have e : voxelLoop pr w 0 l = voxelLoop pr w 0 (l.take w ++ l.drop w) := by rw [List.take_append_drop]
    have ht : (l.take w).length = w := by rw [List.length_take]; omega
    have hd : (l.drop w).length = w * h := by rw [List.length_drop, hl, Nat.mul_succ]; omega
    have r0 : (l.take w).flatMap (entry pr) = (List.range w).flatMap fun c => entry pr (slot l (0 * w + c)) := by
      have : l.take w = (List.range w).map fun c => slot l (0 * w + c) := by
        apply List.ext_getElem
        · rw [ht, List.length_map, List.length_range]
        · intro k h1 h2
          rw [ht] at h1
          simp only [List.getElem_map, List.getElem_take, List.getElem_range, zero_mul, zero_add]
          rw [slot_eq_getElem (by omega)]
      rw [this, List.flatMap_map]
    rw [e, voxelLoop_row pr w _ _ 0 (by omega), zero_add, ht, r0, List.range_succ_eq_map, List.flatMap_cons,
      if_pos rfl, List.nil_append, List.flatMap_map]
    congr 1
    rcases Nat.eq_zero_or_pos h with rfl | hh
    · have : l.drop w = [] := List.length_eq_zero_iff.1 (by simpa using hd)
      rw [this]
      rfl
    · rw [voxelLoop_full pr w hw _ (by
        intro h0; rw [h0] at hd; simp only [List.length_nil] at hd
        rcases Nat.mul_eq_zero.1 hd.symm with h | h <;> omega), ih _ hd]
      obtain ⟨h', rfl⟩ : ∃ h', h = h' + 1 := ⟨h - 1, by omega⟩
      have tail : ∀ r, ((List.range w).flatMap fun c => entry pr (slot (l.drop w) (r * w + c))) =
          (List.range w).flatMap fun c => entry pr (slot l ((r + 1) * w + c)) := by
        intro r
        refine congrArg (List.flatMap · (List.range w)) (funext fun c => ?_)
        rw [slot_drop]
        congr 2
        rw [Nat.succ_mul]; omega
      simp only [tail]
      rw [List.range_succ_eq_map, List.flatMap_cons, List.flatMap_cons, if_pos rfl, List.nil_append]
      simp only [Nat.succ_eq_add_one, Nat.add_eq_zero_iff, one_ne_zero, and_false, if_false, List.cons_append,
        List.nil_append, List.flatMap_map]

end Verif.NDTGrid
