import Verif.Grid.Spec
import Mathlib.Tactic.Ring
import Mathlib.Tactic.Linarith
import Mathlib.Tactic.FieldSimp
import Mathlib.Tactic.Positivity
import Mathlib.Tactic.NormNum

/-
Basic lemmas: slots, index arithmetic.
-/
namespace Verif.Voxel

set_option linter.unusedSectionVars false

variable {K : Type v} [Field K] [LinearOrder K] [IsStrictOrderedRing K] [FloorRing K] {α : Type u}

theorem width_pos (g : Grid K α) : 0 < g.width := by unfold Grid.width; omega
theorem height_pos (g : Grid K α) : 0 < g.height := by unfold Grid.height; omega

@[simp] theorem slot_set (l : List (Option α)) (i j : ℕ) (c : Option α) :
    slot (l.set i c) j = if i = j ∧ j < l.length then c else slot l j := by
  unfold slot
  rw [List.getElem?_set]
  by_cases h1 : i = j
  · subst h1
    by_cases h2 : i < l.length
    · simp [h2]
    · simp [h2]
  · simp [h1]

theorem slot_of_length_le {l : List (Option α)} {i : ℕ} (h : l.length ≤ i) : slot l i = none := by
  unfold slot; rw [List.getElem?_eq_none h]; rfl

theorem slot_eq_getElem {l : List (Option α)} {i : ℕ} (h : i < l.length) : slot l i = l[i] := by
  unfold slot; rw [List.getElem?_eq_getElem h]; rfl

@[simp] theorem slot_replicate (n i : ℕ) : slot (List.replicate n (none : Option α)) i = none := by
  unfold slot; rw [List.getElem?_replicate]; split_ifs <;> rfl

theorem cells_ext {l l' : List (Option α)} (hlen : l.length = l'.length)
    (h : ∀ i < l.length, slot l i = slot l' i) : l = l' := by
  apply List.ext_getElem hlen
  intro i h1 h2
  rw [← slot_eq_getElem h1, ← slot_eq_getElem h2]; exact h i h1

/-- Decomposition of a row-major index. -/
theorem idx_div {w r c : ℕ} (hc : c < w) : (r * w + c) / w = r := by
  rw [Nat.mul_comm, Nat.mul_add_div (by omega), Nat.div_eq_of_lt hc]; rfl

theorem idx_mod {w r c : ℕ} (hc : c < w) : (r * w + c) % w = c := by
  rw [Nat.mul_comm, Nat.mul_add_mod, Nat.mod_eq_of_lt hc]

theorem idx_lt {w h r c : ℕ} (hc : c < w) (hr : r < h) : r * w + c < w * h := by
  have : (r + 1) * w ≤ h * w := Nat.mul_le_mul_right _ hr
  rw [Nat.mul_comm w h]; linarith [Nat.succ_mul r w]

theorem idx_inj {w r c r' c' : ℕ} (hc : c < w) (hc' : c' < w) (h : r * w + c = r' * w + c') :
    r = r' ∧ c = c' := by
  constructor
  · rw [← idx_div (r := r) hc, h, idx_div hc']
  · rw [← idx_mod (r := r) hc, h, idx_mod hc']

theorem idx_eq (w i : ℕ) : i = i / w * w + i % w := by
  rw [Nat.mul_comm]; exact (Nat.div_add_mod i w).symm

/-! ### Squares and slots -/

theorem InExtent.col_lt {g : Grid K α} {q : ℤ × ℤ} (h : InExtent g q) :
    (q.1 + g.left).toNat < g.width := by
  unfold InExtent at h; unfold Grid.width; omega

theorem InExtent.row_lt {g : Grid K α} {q : ℤ × ℤ} (h : InExtent g q) :
    (g.up - q.2).toNat < g.height := by
  unfold InExtent at h; unfold Grid.height; omega

theorem slotNo_lt {g : Grid K α} {q : ℤ × ℤ} (h : InExtent g q) :
    slotNo g q < g.width * g.height := idx_lt h.col_lt h.row_lt

theorem slotNo_inj {g : Grid K α} {q q' : ℤ × ℤ} (h : InExtent g q) (h' : InExtent g q')
    (he : slotNo g q = slotNo g q') : q = q' := by
  obtain ⟨h1, h2⟩ := idx_inj h.col_lt h'.col_lt he
  unfold InExtent at h h'
  ext <;> omega

/-- The square of a slot. -/
def squareNo (g : Grid K α) (i : ℕ) : ℤ × ℤ := ((i % g.width : ℕ) - g.left, g.up - (i / g.width : ℕ))

theorem squareNo_inExtent {g : Grid K α} {i : ℕ} (h : i < g.width * g.height) :
    InExtent g (squareNo g i) := by
  have h1 := Nat.mod_lt i (width_pos g)
  have h2 : i / g.width < g.height := Nat.div_lt_of_lt_mul h
  unfold InExtent squareNo
  generalize i % g.width = a at *
  generalize i / g.width = b at *
  simp only [Grid.width, Grid.height] at *
  omega

theorem slotNo_squareNo (g : Grid K α) (i : ℕ) : slotNo g (squareNo g i) = i := by
  unfold slotNo squareNo
  simp only [sub_add_cancel, Int.toNat_natCast, sub_sub_cancel]
  rw [← idx_eq]

theorem squareNo_slotNo {g : Grid K α} {q : ℤ × ℤ} (h : InExtent g q) :
    squareNo g (slotNo g q) = q := by
  unfold squareNo slotNo
  rw [idx_mod h.col_lt, idx_div h.col_lt]
  unfold InExtent at h
  ext <;> simp only [] <;> omega

theorem content_squareNo {g : Grid K α} {i : ℕ} (h : i < g.width * g.height) :
    content g (squareNo g i) = slot g.cells i := by
  unfold content; rw [if_pos (squareNo_inExtent h), slotNo_squareNo]

theorem content_of_in {g : Grid K α} {q : ℤ × ℤ} (h : InExtent g q) :
    content g q = slot g.cells (slotNo g q) := if_pos h

theorem content_of_not_in {g : Grid K α} {q : ℤ × ℤ} (h : ¬ InExtent g q) : content g q = none :=
  if_neg h

end Verif.Voxel
