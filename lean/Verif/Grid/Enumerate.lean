import Verif.Grid.Props

/-
C158: the memory needed to list the cells of a grid.

`getValidCells` and `getValidCellsPtr` (voxel_grid2d.h:480-508) reserve `valid_cells_` elements before they collect the
cells, and so does `getGaussianCells` (ndt_grid2d.h:754-765).  `Grid/Model.lean` leaves the reservation out; here it is
a request for memory that can fail.

Simplification: a container can hold `mem` elements; `push_back` needs room for the elements only (the policy by which
a container grows is not modelled).
-/
namespace Verif.Voxel

open Verif

variable {K : Type v} [Field K] [LinearOrder K] [IsStrictOrderedRing K] [FloorRing K] {α : Type u}

/-- `getValidCells` / `getValidCellsPtr` with at most `mem` elements in a container, voxel_grid2d.h:480-508. -/
def listCells (mem : ℕ) (g : Grid K α) : Res (List α) :=
  if mem < g.validCells then .throw .badAlloc
  else if mem < (getValidCells g).length then .throw .badAlloc
  else .ok (getValidCells g)

/-! ### Specification -/

/-- The number of calls of `addCell` in a history. -/
def adds : List (Op K α) → ℕ
  | [] => 0
  | .addCell .. :: os => adds os + 1
  | _ :: os => adds os

/-! ### Lemmas -/

theorem length_getValidCells (g : Grid K α) : (getValidCells g).length = stored g := by
  unfold getValidCells stored
  induction g.cells with
  | nil => rfl
  | cons a l ih => cases a <;> simp only [List.filterMap_cons, id, List.length_cons, List.countP_cons] <;> simp [← ih]

theorem enlargeGrid_valid {g g' : Grid K α} (hwf : WF g) {l r u d : ℕ} (h : enlargeGrid g l r u d = .ok g') :
    WF g' ∧ g'.validCells = g.validCells := by
  obtain ⟨g1, h1, hw, -, -, -, -, -, hval, -⟩ := enlargeGrid_spec hwf l r u d
  rw [h1] at h; cases h
  exact ⟨hw, hval⟩

/-- `addCell` counts what it stores, whatever the counter was before. -/
theorem addCell_excess {ops : CellOps α} {g g' : Grid K α} (hwf : WF g) {p : K × K} {c : α} {m : Bool}
    (h : addCell ops g p c m = .ok g') : WF g' ∧ g'.validCells + stored g = g.validCells + stored g' := by
  refine ⟨exec_wf (o := .addCell p c m) hwf h, ?_⟩
  unfold addCell at h
  obtain ⟨g1, h1, h⟩ := Res.bind_eq_ok.1 h
  have hv1 : g1.validCells = g.validCells ∧ stored g1 = stored g := by
    unfold enlargeToFit at h1
    split_ifs at h1 with hin
    · cases h1; exact ⟨rfl, rfl⟩
    · obtain ⟨l, -, h1⟩ := Res.bind_eq_ok.1 h1
      obtain ⟨r, -, h1⟩ := Res.bind_eq_ok.1 h1
      obtain ⟨u, -, h1⟩ := Res.bind_eq_ok.1 h1
      obtain ⟨d, -, h1⟩ := Res.bind_eq_ok.1 h1
      obtain ⟨g2, h2, hw, -, -, -, -, -, hval, hc⟩ := enlargeGrid_spec hwf l r u d
      rw [h2] at h1; cases h1
      exact ⟨hval, stored_of_content hwf hw hc⟩
  rw [← hv1.1, ← hv1.2]
  obtain ⟨idx, -, h⟩ := Res.bind_eq_ok.1 h
  obtain ⟨old, ho, h⟩ := Res.bind_eq_ok.1 h
  unfold readSlot at ho
  split_ifs at ho with hlt
  cases hs : slot g1.cells idx with
  | none =>
    rw [hs] at ho
    cases ho
    rw [writeSlot_lt hlt] at h
    cases h
    unfold stored
    simp only
    rw [countP_set _ _ hlt, hs]
    simp only [Option.isSome_none, Bool.false_eq_true, if_false]
    omega
  | some x =>
    rw [hs] at ho
    cases ho
    simp only at h
    rw [writeSlot_lt hlt] at h
    cases h
    unfold stored
    simp only
    rw [countP_set _ _ hlt, hs]
    simp

theorem rayTrace_valid {ops : CellOps α} {g g' : Grid K α} {s e : K × K} {v : List ℕ}
    (h : rayTrace ops g s e = .ok (v, g')) : g'.validCells = g.validCells := by
  unfold rayTrace at h
  split_ifs at h
  · cases h; rfl
  · simp only at h
    obtain ⟨_, -, h⟩ := Res.bind_eq_ok.1 h
    obtain ⟨_, -, h⟩ := Res.bind_eq_ok.1 h
    split_ifs at h
    obtain ⟨_, -, h⟩ := Res.bind_eq_ok.1 h
    obtain ⟨_, -, h⟩ := Res.bind_eq_ok.1 h
    cases h
    rfl

/-- A call raises the counter by one at most, and only `addCell` does. -/
theorem exec_valid {ops : CellOps α} {g g' : Grid K α} (hwf : WF g) (o : Op K α) (h : o.exec ops g = .ok g') :
    g'.validCells ≤ g.validCells + adds [o] := by
  cases o with
  | addCell p c m =>
    simp only [Op.exec, addCell] at h
    obtain ⟨g1, h1, h⟩ := Res.bind_eq_ok.1 h
    have hv1 : g1.validCells = g.validCells := by
      unfold enlargeToFit at h1
      split_ifs at h1 with hin
      · cases h1; rfl
      · obtain ⟨l, -, h1⟩ := Res.bind_eq_ok.1 h1
        obtain ⟨r, -, h1⟩ := Res.bind_eq_ok.1 h1
        obtain ⟨u, -, h1⟩ := Res.bind_eq_ok.1 h1
        obtain ⟨d, -, h1⟩ := Res.bind_eq_ok.1 h1
        exact (enlargeGrid_valid hwf h1).2
    obtain ⟨idx, -, h⟩ := Res.bind_eq_ok.1 h
    obtain ⟨old, ho, h⟩ := Res.bind_eq_ok.1 h
    cases old with
    | none =>
      simp only at h
      obtain ⟨_, -, h⟩ := Res.bind_eq_ok.1 h
      cases h
      simp only [adds, hv1]; omega
    | some x =>
      simp only at h
      obtain ⟨_, -, h⟩ := Res.bind_eq_ok.1 h
      cases h
      simp only [adds, hv1]; omega
  | removeCell p =>
    simp only [Op.exec, removeCell] at h
    split_ifs at h
    · obtain ⟨x, hx, -⟩ := Res.map_eq_ok.1 h
      obtain ⟨y, -, hy⟩ := Res.bind_eq_ok.1 hx
      cases hy
    · cases h; exact le_rfl
  | enlarge a b c d =>
    simp only [Op.exec, enlarge] at h
    obtain ⟨l, -, h⟩ := Res.bind_eq_ok.1 h
    obtain ⟨r, -, h⟩ := Res.bind_eq_ok.1 h
    obtain ⟨u, -, h⟩ := Res.bind_eq_ok.1 h
    obtain ⟨d, -, h⟩ := Res.bind_eq_ok.1 h
    exact (enlargeGrid_valid hwf h).2.le
  | translate tx ty dis =>
    obtain ⟨g2, h2, -, -, -, -, -, -, hval, -⟩ := translate_spec hwf tx ty dis
    simp only [Op.exec] at h
    rw [h] at h2
    cases h2
    exact hval.le
  | clear => cases h; exact le_rfl
  | setCellSize cs => cases h; exact le_rfl
  | rayTrace s e =>
    simp only [Op.exec] at h
    obtain ⟨⟨v, x⟩, hx, rfl⟩ := Res.map_eq_ok.1 h
    exact (rayTrace_valid hx).le

theorem adds_cons (o : Op K α) (os : List (Op K α)) : adds (o :: os) = adds [o] + adds os := by
  cases o <;> simp [adds] <;> omega

theorem execAll_valid {ops : CellOps α} (hist : List (Op K α)) : ∀ {g g' : Grid K α}, WF g →
    execAll ops g hist = .ok g' → g'.validCells ≤ g.validCells + adds hist := by
  induction hist with
  | nil => intro g g' _ h; cases h; exact le_rfl
  | cons o os ih =>
    intro g g' hwf h
    obtain ⟨g1, h1, h⟩ := Res.bind_eq_ok.1 h
    have := ih (exec_wf hwf o h1) h
    have := exec_valid hwf o h1
    rw [adds_cons]
    omega

theorem listCells_eq (mem : ℕ) (g : Grid K α) :
    listCells mem g = if g.validCells ≤ mem ∧ stored g ≤ mem then .ok (getValidCells g) else .throw .badAlloc := by
  unfold listCells
  rw [length_getValidCells]
  split_ifs <;> first | rfl | omega

end Verif.Voxel
