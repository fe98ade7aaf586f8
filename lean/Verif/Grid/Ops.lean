import Verif.Grid.Geometry
import Mathlib.Data.Set.Card
import Mathlib.Order.Interval.Set.Defs
import Mathlib.Data.Int.Interval

/-
Effect of the single operations on the abstract content; number of stored cells; histories.
-/
namespace Verif.Voxel

set_option linter.unusedSectionVars false

variable {K : Type v} [Field K] [LinearOrder K] [IsStrictOrderedRing K] [FloorRing K] {α : Type u}

/-! ### Counting -/

theorem countP_eq_card (l : List (Option α)) :
    l.countP Option.isSome = ((Finset.range l.length).filter fun i => (slot l i).isSome).card := by
  induction l using List.reverseRecOn with
  | nil => simp
  | append_singleton l a ih =>
    rw [List.countP_append, ih, List.length_append, List.length_singleton, Finset.range_add_one,
      Finset.filter_insert]
    have h1 : slot (l ++ [a]) l.length = a := by simp [slot]
    have h2 : (Finset.range l.length).filter (fun i => (slot (l ++ [a]) i).isSome = true)
        = (Finset.range l.length).filter (fun i => (slot l i).isSome = true) := by
      apply Finset.filter_congr
      intro i hi
      rw [Finset.mem_range] at hi
      unfold slot
      rw [List.getElem?_append_left hi]
    rw [h1, h2]
    cases a with
    | none => simp
    | some a =>
      rw [if_pos (by rfl), Finset.card_insert_of_notMem (by simp)]
      simp

/-- Number of stored cells = number of squares of the plane that hold a cell. -/
theorem stored_eq_ncard {g : Grid K α} (hwf : WF g) :
    g.cells.countP Option.isSome = Set.ncard {q : ℤ × ℤ | (content g q).isSome} := by
  rw [countP_eq_card, ← Set.ncard_coe_finset]
  unfold WF at hwf
  refine Set.ncard_congr (fun i _ => squareNo g i) ?_ ?_ ?_
  · intro i hi
    simp only [Finset.coe_filter, Finset.mem_range, Set.mem_ofPred_eq] at hi ⊢
    rw [content_squareNo (by omega)]
    exact hi.2
  · intro i j hi hj h
    rw [← slotNo_squareNo g i, h, slotNo_squareNo]
  · intro q hq
    simp only [Set.mem_ofPred_eq] at hq
    have hin : InExtent g q := by
      by_contra hn
      rw [content_of_not_in hn] at hq
      simp at hq
    refine ⟨slotNo g q, ?_, squareNo_slotNo hin⟩
    simp only [Finset.coe_filter, Finset.mem_range, Set.mem_ofPred_eq]
    have := slotNo_lt hin
    rw [content_of_in hin] at hq
    exact ⟨by omega, hq⟩

theorem finite_content {g : Grid K α} : Set.Finite {q : ℤ × ℤ | (content g q).isSome} := by
  apply Set.Finite.subset (Finset.finite_toSet
    (Finset.Icc (-(g.left : ℤ)) g.right ×ˢ Finset.Icc (-(g.down : ℤ)) g.up))
  intro q hq
  simp only [Set.mem_ofPred_eq] at hq
  have hin : InExtent g q := by
    by_contra hn
    rw [content_of_not_in hn] at hq
    simp at hq
  unfold InExtent at hin
  simp only [Finset.coe_product, Set.mem_prod, Finset.mem_coe, Finset.mem_Icc]
  tauto

/-! ### Writing one slot -/

theorem readSlot_lt {l : List (Option α)} {i : ℕ} (h : i < l.length) :
    readSlot l i = .ok (slot l i) := if_pos h

theorem writeSlot_lt {l : List (Option α)} {i : ℕ} (h : i < l.length) (c : Option α) :
    writeSlot l i c = .ok (l.set i c) := if_pos h

theorem content_set {g : Grid K α} (hwf : WF g) {q : ℤ × ℤ} (hq : InExtent g q) (c : Option α) :
    content { g with cells := g.cells.set (slotNo g q) c } = Function.update (content g) q c := by
  funext q'
  by_cases hq' : InExtent g q'
  · rw [content_withCells hq', slot_set]
    have h1 := slotNo_lt hq'
    unfold WF at hwf
    by_cases e : q' = q
    · subst e
      rw [Function.update_self, if_pos ⟨rfl, by omega⟩]
    · rw [Function.update_of_ne e, if_neg, content_of_in hq']
      rintro ⟨h, -⟩
      exact e (slotNo_inj hq hq' h).symm
  · have e : q' ≠ q := fun h => hq' (h ▸ hq)
    rw [Function.update_of_ne e, content_of_not_in hq']
    exact if_neg hq'

/-- What a square holds after adding `c`: the cell itself, or the merged cell. -/
def added (ops : CellOps α) (merging : Bool) (old : Option α) (c : α) : α :=
  match old with
  | none => c
  | some o => if merging then ops.merge o c else c

theorem addCell_spec (ops : CellOps α) {g : Grid K α} (hwf : WF g) (hcs : 0 < g.cellSize)
    {p : K × K} (hp : ¬ OnOpenBorder g p) (c : α) (merging : Bool) :
    ∃ g', addCell ops g p c merging = .ok g' ∧ WF g' ∧ g'.cellSize = g.cellSize ∧
      g.left ≤ g'.left ∧ g.right ≤ g'.right ∧ g.up ≤ g'.up ∧ g.down ≤ g'.down ∧
      InExtent g' (squareOf g.cellSize p) ∧
      g'.validCells = g.validCells + (if (content g (squareOf g.cellSize p)).isSome then 0 else 1) ∧
      content g' = Function.update (content g) (squareOf g.cellSize p)
        (some (added ops merging (content g (squareOf g.cellSize p)) c)) := by
  obtain ⟨g1, h1, gr, hin, hiff⟩ := enlargeToFit_spec hwf hcs p
  have hext := hiff.2 hp
  have hcs1 : 0 < g1.cellSize := by rw [gr.cs]; exact hcs
  have hlt := slotNo_lt hext
  have hwf1 := gr.wf
  have hcont : content g = content g1 := (funext gr.content).symm
  unfold WF at hwf1
  have hidx : calcIndex g1 p = .ok (slotNo g1 (squareOf g.cellSize p)) := by
    rw [← gr.cs]; exact calcIndex_inside hcs1 hin
  unfold addCell
  rw [h1, Res.bind_ok, hidx, Res.bind_ok, readSlot_lt (by omega), Res.bind_ok, hcont,
    ← content_of_in hext]
  cases hc : content g1 (squareOf g.cellSize p) with
  | none =>
    simp only
    rw [writeSlot_lt (by omega)]
    refine ⟨_, rfl, ?_, gr.cs, gr.left, gr.right, gr.up, gr.down, hext, ?_, ?_⟩
    · unfold WF; simp only [List.length_set]; exact hwf1
    · simp [gr.valid]
    · exact content_set gr.wf hext _
  | some o =>
    simp only
    rw [writeSlot_lt (by omega)]
    refine ⟨_, rfl, ?_, gr.cs, gr.left, gr.right, gr.up, gr.down, hext, ?_, ?_⟩
    · unfold WF; simp only [List.length_set]; exact hwf1
    · simp [gr.valid]
    · exact content_set gr.wf hext _

/-- On an open border line the new cell does not end up in the square of the point. -/
theorem addCell_border (ops : CellOps α) {g : Grid K α} (hwf : WF g) (hcs : 0 < g.cellSize)
    {p : K × K} (hp : OnOpenBorder g p) (c : α) (merging : Bool) {g' : Grid K α}
    (h : addCell ops g p c merging = .ok g') : content g' (squareOf g.cellSize p) = none := by
  obtain ⟨g1, h1, gr, hin, hiff⟩ := enlargeToFit_spec hwf hcs p
  have hnot : ¬ InExtent g1 (squareOf g.cellSize p) := fun hh => hiff.1 hh hp
  unfold addCell at h
  rw [h1, Res.bind_ok] at h
  obtain ⟨idx, -, h⟩ := Res.bind_eq_ok.1 h
  obtain ⟨old, -, h⟩ := Res.bind_eq_ok.1 h
  cases old with
  | none =>
    obtain ⟨cells, -, h⟩ := Res.bind_eq_ok.1 h
    cases h
    exact content_of_not_in hnot
  | some o =>
    obtain ⟨cells, -, h⟩ := Res.bind_eq_ok.1 h
    cases h
    exact content_of_not_in hnot

/-! ### Well-formedness under every operation, for arbitrary arguments and cell sizes -/

theorem enlargeGrid_wf {g g' : Grid K α} (hwf : WF g) {l r u d : ℕ}
    (h : enlargeGrid g l r u d = .ok g') : WF g' := by
  obtain ⟨g1, h1, hw, -⟩ := enlargeGrid_spec hwf l r u d
  rw [h1] at h; cases h; exact hw

theorem enlarge_wf {g g' : Grid K α} (hwf : WF g) {a b c d : K}
    (h : enlarge g a b c d = .ok g') : WF g' := by
  unfold enlarge at h
  obtain ⟨l, -, h⟩ := Res.bind_eq_ok.1 h
  obtain ⟨r, -, h⟩ := Res.bind_eq_ok.1 h
  obtain ⟨u, -, h⟩ := Res.bind_eq_ok.1 h
  obtain ⟨d, -, h⟩ := Res.bind_eq_ok.1 h
  exact enlargeGrid_wf hwf h

theorem enlargeToFit_wf {g g' : Grid K α} (hwf : WF g) {p : K × K}
    (h : enlargeToFit g p = .ok g') : WF g' := by
  unfold enlargeToFit at h
  split_ifs at h with hin
  · cases h; exact hwf
  · obtain ⟨l, -, h⟩ := Res.bind_eq_ok.1 h
    obtain ⟨r, -, h⟩ := Res.bind_eq_ok.1 h
    obtain ⟨u, -, h⟩ := Res.bind_eq_ok.1 h
    obtain ⟨d, -, h⟩ := Res.bind_eq_ok.1 h
    exact enlargeGrid_wf hwf h

theorem writeSlot_length {l l' : List (Option α)} {i : ℕ} {c : Option α}
    (h : writeSlot l i c = .ok l') : l'.length = l.length := by
  unfold writeSlot at h
  split_ifs at h
  cases h; simp

theorem addCell_wf {ops : CellOps α} {g g' : Grid K α} (hwf : WF g) {p : K × K} {c : α} {m : Bool}
    (h : addCell ops g p c m = .ok g') : WF g' := by
  unfold addCell at h
  obtain ⟨g1, h1, h⟩ := Res.bind_eq_ok.1 h
  have hw1 := enlargeToFit_wf hwf h1
  obtain ⟨idx, -, h⟩ := Res.bind_eq_ok.1 h
  obtain ⟨old, -, h⟩ := Res.bind_eq_ok.1 h
  cases old with
  | none =>
    obtain ⟨cells, hc, h⟩ := Res.bind_eq_ok.1 h
    cases h
    unfold WF; simp only; rw [writeSlot_length hc]; exact hw1
  | some o =>
    obtain ⟨cells, hc, h⟩ := Res.bind_eq_ok.1 h
    cases h
    unfold WF; simp only; rw [writeSlot_length hc]; exact hw1

theorem rayVisit_length {ops : CellOps α} {s s' : RayState α} {i : ℕ}
    (h : rayVisit ops s i = .ok s') : s'.cells.length = s.cells.length := by
  unfold rayVisit at h
  obtain ⟨c, -, h⟩ := Res.bind_eq_ok.1 h
  cases c with
  | some a => cases h; rfl
  | none =>
    obtain ⟨cells, hc, h⟩ := Res.bind_eq_ok.1 h
    cases h
    exact writeSlot_length hc

end Verif.Voxel
