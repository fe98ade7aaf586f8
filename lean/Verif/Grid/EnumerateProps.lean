import Verif.Grid.Enumerate
import Verif.NDTGrid.Props

/- C158: the memory needed to list the cells of a grid. -/
namespace Verif.Voxel

open Verif

variable {K : Type v} [Field K] [LinearOrder K] [IsStrictOrderedRing K] [FloorRing K] {α : Type u}

/-- **C158** for histories without `clear`, `rayTrace` and discarding translations: the cells are listed if there is
memory for them. -/
theorem C158_partial (ops : CellOps α) (mem : ℕ) (hist : List (Op K α)) (hc : ∀ o ∈ hist, o.Counted) (g : Grid K α)
    (h : execAll ops (init ops) hist = .ok g) :
    listCells mem g = if stored g ≤ mem then .ok (getValidCells g) else .throw .badAlloc := by
  rw [listCells_eq, C08_counter_partial ops hist hc g h]
  simp only [and_self]

/-- **C158** for all histories: memory for all cells that were ever added, and for those present, suffices. -/
theorem C158_added_partial (ops : CellOps α) (mem : ℕ) (hist : List (Op K α)) (g : Grid K α)
    (h : execAll ops (init ops) hist = .ok g) (h1 : adds hist + 1 ≤ mem) (h2 : stored g ≤ mem) :
    listCells mem g = .ok (getValidCells g) := by
  have e : (init ops : Grid K α).validCells = 1 := rfl
  have := execAll_valid hist (by unfold WF; rfl) h
  rw [listCells_eq, if_pos ⟨by omega, h2⟩]

example : ∃ g, execAll natOps (init (K := ℚ) natOps) [.addCell (1, 0) 3 true, .translate 2 1 false] = .ok g ∧
    stored g = 2 ∧ listCells 2 g = .ok [0, 3] ∧ listCells 1 g = .throw .badAlloc := by
  have h : (execAll natOps (init (K := ℚ) natOps) [.addCell (1, 0) 3 true, .translate 2 1 false]).map
      (fun g => (stored g, listCells 2 g, listCells 1 g)) = .ok (2, .ok [0, 3], .throw .badAlloc) := by decide +kernel
  obtain ⟨g, h1, h2⟩ := Res.map_eq_ok.1 h
  simp only [Prod.mk.injEq] at h2
  exact ⟨g, h1, h2⟩

/-- A history with rays and a discarding move: four cells are present, one was added. -/
example : ∃ g, execAll natOps (init (K := ℚ) natOps)
      [.addCell (1, 0) 3 true, .rayTrace (0, 0) (1, 0), .translate 1 0 true] = .ok g ∧ adds (K := ℚ) (α := ℕ)
      [.addCell (1, 0) 3 true, .rayTrace (0, 0) (1, 0), .translate 1 0 true] + 1 ≤ 4 ∧ stored g = 4 ∧
      listCells 4 g = .ok [0, 0, 0, 0] := by
  have h : (execAll natOps (init (K := ℚ) natOps)
      [.addCell (1, 0) 3 true, .rayTrace (0, 0) (1, 0), .translate 1 0 true]).map
      (fun g => (stored g, listCells 4 g)) = .ok (4, .ok [0, 0, 0, 0]) := by decide +kernel
  obtain ⟨g, h1, h2⟩ := Res.map_eq_ok.1 h
  simp only [Prod.mk.injEq] at h2
  exact ⟨g, h1, by decide, h2⟩

/-- A grid of one cell that is cleared and filled again `n` times. -/
def refilled : ℕ → List (Op ℚ ℕ)
  | 0 => []
  | n + 1 => refilled n ++ [.clear, .addCell (0, 0) 5 true]

theorem execAll_append {ops : CellOps α} (a b : List (Op K α)) (g : Grid K α) :
    execAll ops g (a ++ b) = (execAll ops g a).bind fun g => execAll ops g b := by
  induction a generalizing g with
  | nil => rfl
  | cons o os ih =>
    simp only [List.cons_append, execAll]
    cases o.exec ops g <;> simp [ih]

theorem refilled_step {g : Grid ℚ ℕ} (hg : g = ⟨1 / 4, 0, 0, 0, 0, g.validCells, g.cells⟩) (hl : g.cells.length = 1) :
    ∃ g', execAll natOps g [.clear, .addCell (0, 0) 5 true] = .ok g' ∧
      g' = ⟨1 / 4, 0, 0, 0, 0, g'.validCells, g'.cells⟩ ∧ g'.cells.length = 1 ∧ stored g' = 1 ∧
      g'.validCells = g.validCells + 1 := by
  obtain ⟨cs, l, r, u, d, v, cells⟩ := g
  obtain ⟨c, rfl⟩ := List.length_eq_one_iff.1 hl
  simp only [Grid.mk.injEq, and_true] at hg
  obtain ⟨rfl, rfl, rfl, rfl, rfl⟩ := hg
  have hc : clear (⟨1 / 4, 0, 0, 0, 0, v, [c]⟩ : Grid ℚ ℕ) = ⟨1 / 4, 0, 0, 0, 0, v, [none]⟩ := rfl
  have hin : isInside (⟨1 / 4, 0, 0, 0, 0, v, [none]⟩ : Grid ℚ ℕ) (0, 0) = true := by
    simp [isInside, Grid.half]; norm_num
  have hi : calcIndex (⟨1 / 4, 0, 0, 0, 0, v, [none]⟩ : Grid ℚ ℕ) (0, 0) = .ok 0 := by
    have : calcIndex (⟨1 / 4, 0, 0, 0, 0, 0, [none]⟩ : Grid ℚ ℕ) (0, 0) = .ok 0 := by decide +kernel
    exact this
  refine ⟨⟨1 / 4, 0, 0, 0, 0, v + 1, [some 5]⟩, ?_, rfl, rfl, rfl, rfl⟩
  simp only [execAll, Op.exec, Res.bind_ok, hc, addCell, enlargeToFit, hin, if_true, hi]
  rfl

/-- Negation of C158: a grid of one cell that was cleared and filled again `n` times needs memory for `n + 1` cells to
list its cell. -/
theorem C158_false (n : ℕ) : ∃ g, execAll natOps (init natOps) (refilled n) = .ok g ∧ stored g = 1 ∧
    listCells n g = .throw .badAlloc := by
  have key : ∀ n, ∃ g, execAll natOps (init natOps) (refilled n) = .ok g ∧
      g = ⟨1 / 4, 0, 0, 0, 0, g.validCells, g.cells⟩ ∧ g.cells.length = 1 ∧ stored g = 1 ∧ g.validCells = n + 1 := by
    intro n
    induction n with
    | zero => exact ⟨_, rfl, rfl, rfl, rfl, rfl⟩
    | succ n ih =>
      obtain ⟨g, h1, h2, h3, -, h4⟩ := ih
      obtain ⟨g', k1, k2, k3, k4, k5⟩ := refilled_step h2 h3
      refine ⟨g', ?_, k2, k3, k4, by rw [k5, h4]⟩
      rw [refilled, execAll_append, h1]
      exact k1
  obtain ⟨g, h1, -, -, h2, h3⟩ := key n
  refine ⟨g, h1, h2, ?_⟩
  rw [listCells_eq, if_neg]
  omega

/-- What was in a grid when it was cleared is still reserved for, whatever is stored afterwards. -/
theorem C158_false_clear (ops : CellOps α) {g : Grid K α} (hwf : WF g) (p : K × K) (c : α) (m : Bool) (g' : Grid K α)
    (h : addCell ops (clear g) p c m = .ok g') (mem : ℕ) (hm : mem < g.validCells + stored g') :
    listCells mem g' = .throw .badAlloc := by
  have hw : WF (clear g) := exec_wf (ops := ops) (o := .clear) hwf rfl
  have h0 : stored (clear g) = 0 := by
    simp [stored, clear, List.countP_eq_zero]
  have e : (clear g).validCells = g.validCells := rfl
  have := (addCell_excess hw h).2
  rw [listCells_eq, if_neg]
  omega

end Verif.Voxel

namespace Verif.NDTGrid

open Verif Verif.Voxel

variable {K : Type v} [Field K] [LinearOrder K] [IsStrictOrderedRing K] [FloorRing K] {γ : Type u}

/-! ### The map -/

theorem overwriteAll_excess (I : CellI K γ) : ∀ (cells : List γ) {g g' : Grid K γ}, WF g →
    overwriteAll I g cells = .ok g' → WF g' ∧ g'.validCells + stored g = g.validCells + stored g' := by
  intro cells
  induction cells with
  | nil => intro g g' hwf h; cases h; exact ⟨hwf, rfl⟩
  | cons c cells ih =>
    intro g g' hwf h
    unfold overwriteAll at h
    split_ifs at h
    · obtain ⟨g1, h1, h⟩ := Res.bind_eq_ok.1 h
      obtain ⟨w1, e1⟩ := addCell_excess hwf h1
      obtain ⟨w2, e2⟩ := ih w1 h
      exact ⟨w2, by omega⟩
    · exact ih hwf h

/-- Adding a frame to the map raises the counter by the number of cells that neither were there nor were created by a
ray. -/
theorem addToMap_excess {I : CellI K γ} (hI : Lawful I) {n n' : NGrid K γ} {f : Frame K γ} (hwf : WF n.grid)
    (h : addToMap I n f = .ok n') :
    ∃ g, traceAll I ![f.sx, f.sy, 0] n.grid f.cells = .ok g ∧ WF n'.grid ∧
      n'.grid.validCells + stored g = n.grid.validCells + stored n'.grid := by
  unfold addToMap mergeTraced at h
  obtain ⟨g, h1, h⟩ := Res.bind_eq_ok.1 h
  refine ⟨g, h1, ?_⟩
  obtain ⟨box, hv, tr⟩ := traceAll_traced hI h1
  unfold mergeCells at h
  simp only [Bool.true_or, if_true] at h
  obtain ⟨g2, h2, h⟩ := Res.bind_eq_ok.1 h
  obtain ⟨g3, h3, h⟩ := Res.bind_eq_ok.1 h
  cases h
  have hwg : WF g := by
    unfold WF Grid.width Grid.height at *
    rw [tr.len, box.left, box.right, box.up, box.down]
    exact hwf
  have hge : WF g2 ∧ g2.validCells = g.validCells ∧ stored g2 = stored g := by
    unfold enlarge at h2
    obtain ⟨l, -, h2⟩ := Res.bind_eq_ok.1 h2
    obtain ⟨r, -, h2⟩ := Res.bind_eq_ok.1 h2
    obtain ⟨u, -, h2⟩ := Res.bind_eq_ok.1 h2
    obtain ⟨d, -, h2⟩ := Res.bind_eq_ok.1 h2
    obtain ⟨g4, h4, hw, -, -, -, -, -, hval, hc⟩ := enlargeGrid_spec hwg l r u d
    rw [h4] at h2; cases h2
    exact ⟨hw, hval, stored_of_content hwg hw hc⟩
  obtain ⟨w, e⟩ := overwriteAll_excess I f.cells hge.1 h3
  refine ⟨w, ?_⟩
  simp only [updateMeans] at e ⊢
  omega

/-- A frame with one Gaussian, a metre from its origin. -/
def farView (_ : ℚ) : Frame ℚ Toy := ⟨0, 0, [toy 1 0 7]⟩

/-- `n` calls of `recalc`. -/
def recalcs (n : ℕ) (m : Mapper ℚ Toy) : Res (Mapper ℚ Toy) :=
  match n with
  | 0 => .ok m
  | n + 1 => (recalcs n m).bind (recalc toyI farView)

/-- The map of that frame: four cells made by the ray and the Gaussian. -/
def farMap : NGrid ℚ Toy :=
  ⟨0, 0, 0, true, 0, ⟨1 / 4, 0, 4, 0, 0, 0,
    [some toyI.default, some toyI.default, some toyI.default, some toyI.default, some (toy 1 0 7)]⟩, [![1, 0, 0]]⟩

deriving instance DecidableEq for Grid, NGrid

theorem far_first : ((addFrames toyI farView (Mapper.init toyI) [1]).bind (recalc toyI farView)).map
    (fun m => (visible m.map, m.map.grid.validCells, m.frames)) = .ok (farMap, 3, [1]) := by
  decide +kernel

theorem far_visible : (addToMap toyI (clear farMap) (farView 1)).map visible = .ok farMap := by decide +kernel

theorem far_traced : (traceAll toyI ![0, 0, 0] (clear farMap).grid (farView 1).cells).map stored = .ok 4 := by
  decide +kernel

/-- One more `recalc`. -/
theorem far_step {m : Mapper ℚ Toy} (hv : visible m.map = farMap) (hf : m.frames = [1]) :
    ∃ m', recalc toyI farView m = .ok m' ∧ visible m'.map = farMap ∧ m'.frames = [1] ∧
      m'.map.grid.validCells = m.map.grid.validCells + 1 := by
  obtain ⟨map, frames⟩ := m
  simp only at hv hf
  subst hf
  have hm : clear map = setVN (clear farMap) map.grid.validCells := by
    rw [← hv]; rfl
  have hb := addToMap_blind toyI (farView 1) (clear farMap) map.grid.validCells
  rw [far_visible, ← hm] at hb
  obtain ⟨n', hn, hvis⟩ := Res.map_eq_ok.1 hb
  have hwf : WF (clear map).grid := by
    rw [hm]; rfl
  obtain ⟨g, hg, -, he⟩ := addToMap_excess toy_lawful hwf hn
  have hg4 : stored g = 4 := by
    have h1 := traceAll_blind toyI ![0, 0, 0] (farView 1).cells (clear farMap).grid map.grid.validCells
    have h2 : setV (clear farMap).grid map.grid.validCells = (clear map).grid := by rw [hm]; rfl
    simp only [h2] at h1
    obtain ⟨g0, h3, h4⟩ := Res.map_eq_ok.1 far_traced
    have h5 : traceAll toyI ![0, 0, 0] (clear map).grid (farView 1).cells = .ok g := hg
    rw [h5, h3] at h1
    simp only [Res.map_ok, Res.ok.injEq] at h1
    have h6 : stored (setV g 0) = stored (setV g0 0) := congrArg stored h1
    exact h6.trans h4
  have h5 : stored n'.grid = 5 := by
    have : stored n'.grid = stored (visible n').grid := rfl
    rw [this, hvis]
    decide +kernel
  have hs : [(1 : ℚ)].mergeSort (fun a b => decide (a ≤ b)) = [1] := by simp
  refine ⟨⟨n', [1]⟩, ?_, hvis, rfl, ?_⟩
  · unfold recalc
    simp only [hs, List.map_cons, List.map_nil, addAll, hn, Res.bind_ok]
  · have : (clear map).grid.validCells = map.grid.validCells := rfl
    simp only
    omega

/-- Negation of C158 for the map: every recalculation of the same frame adds to the memory that listing its five cells
needs. -/
theorem C158_false_map (n : ℕ) :
    ∃ m, (addFrames toyI farView (Mapper.init toyI) [1]).bind (recalcs n) = .ok m ∧ stored m.map.grid ≤ 5 ∧
      listCells (n + 1) m.map.grid = .throw .badAlloc := by
  have start : ∃ m, addFrames toyI farView (Mapper.init toyI) [1] = .ok m ∧ m.map.grid.validCells = 2 ∧
      stored m.map.grid = 2 ∧ ∃ m', recalc toyI farView m = .ok m' ∧ visible m'.map = farMap ∧ m'.frames = [1] ∧
        m'.map.grid.validCells = 3 := by
    obtain ⟨m', h, e⟩ := Res.map_eq_ok.1 far_first
    obtain ⟨m, h1, h2⟩ := Res.bind_eq_ok.1 h
    have h3 : (addFrames toyI farView (Mapper.init toyI) [1]).map
        (fun m => (m.map.grid.validCells, stored m.map.grid)) = .ok (2, 2) := by decide +kernel
    rw [h1] at h3
    simp only [Res.map_ok, Res.ok.injEq, Prod.mk.injEq] at h3 e
    exact ⟨m, h1, h3.1, h3.2, m', h2, e.1, e.2.2, e.2.1⟩
  obtain ⟨m, h1, h2, h3, m1, k1, k2, k3, k4⟩ := start
  have key : ∀ n, ∃ m', recalcs (n + 1) m = .ok m' ∧ visible m'.map = farMap ∧ m'.frames = [1] ∧
      m'.map.grid.validCells = n + 3 := by
    intro n
    induction n with
    | zero => exact ⟨m1, by rw [recalcs, recalcs, Res.bind_ok, k1], k2, k3, k4⟩
    | succ n ih =>
      obtain ⟨m', a, b, c, d⟩ := ih
      obtain ⟨m2, a2, b2, c2, d2⟩ := far_step b c
      exact ⟨m2, by rw [recalcs, a, Res.bind_ok, a2], b2, c2, by omega⟩
  rw [h1]
  simp only [Res.bind_ok]
  cases n with
  | zero =>
    refine ⟨m, rfl, by omega, ?_⟩
    rw [listCells_eq, if_neg]
    omega
  | succ n =>
    obtain ⟨m', a, b, -, d⟩ := key n
    refine ⟨m', a, ?_, ?_⟩
    · have : stored m'.map.grid = stored (visible m'.map).grid := rfl
      rw [this, b]
      decide +kernel
    · rw [listCells_eq, if_neg]
      omega

end Verif.NDTGrid
