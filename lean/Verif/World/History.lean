import Verif.World.Lemmas

/-
Every cell stored in a map has a history as a single cell: lemmas for C168.
-/
namespace Verif.World

open Verif Verif.Voxel Verif.NDTGrid Verif.Geo Matrix

section Rays

variable {K : Type*} [Field K] [LinearOrder K] [IsStrictOrderedRing K] [FloorRing K] {γ : Type*}

/-- A ray without length passes no cell, or is undefined. -/
theorem rayTrace_point {ops : CellOps γ} {g : Grid K γ} {p : K × K} {r : List ℕ × Grid K γ}
    (h : rayTrace ops g p p = .ok r) : r.1 = [] := by
  unfold rayTrace at h
  split_ifs at h with h1 h2
  · cases h; rfl
  · simp only at h
    obtain ⟨idx, -, h⟩ := Res.bind_eq_ok.1 h
    obtain ⟨s, -, h⟩ := Res.bind_eq_ok.1 h
    rw [if_pos (by simp)] at h
    cases h

/-- What holds of every cell before tracing, of new cells, and is kept by rays of positive length, holds of every cell
after tracing. -/
theorem traceAll_proper {I : CellI K γ} {Q : γ → Prop} (hd : Q I.default)
    (hr : ∀ c s e k c', s ≠ e → Q c → I.ray c s e k = .ok c' → Q c')
    {s : Fin 3 → K} : ∀ {cells : List γ} {g g' : Grid K γ}, traceAll I s g cells = .ok g' →
    (∀ c ∈ getValidCells g, Q c) → ∀ c ∈ getValidCells g', Q c := by
  intro cells
  induction cells with
  | nil => intro g g' h hq; cases h; exact hq
  | cons c cells ih =>
    intro g g' h hq
    unfold traceAll at h
    split_ifs at h with hg
    · obtain ⟨r, h1, h⟩ := Res.bind_eq_ok.1 h
      obtain ⟨l, hl, h⟩ := Res.bind_eq_ok.1 h
      obtain ⟨cells1, e1, e2, e3, e4⟩ := rayTrace_rel h1
      have hq1 : ∀ d ∈ cells1.filterMap id, Q d := by
        intro d hd'
        obtain ⟨i, hi⟩ := mem_valid_slot.1 hd'
        cases hs : slot g.cells i with
        | none => rw [e4 i d hs hi]; exact hd
        | some y =>
          have := e3 i y hs
          rw [show slot cells1 i = some d from hi] at this
          cases this
          exact hq d (mem_valid_slot.2 ⟨i, hs⟩)
      by_cases hse : s = I.mean c
      · have hn : r.1 = [] := by rw [hse] at h1; exact rayTrace_point h1
        rw [hn] at hl
        rw [e1] at hl h
        cases hl
        exact ih h hq1
      · rw [e1] at hl h
        refine ih h ?_
        have key : ∀ {is : List ℕ} {l l' : List (Option γ)}, updateRay I s (I.mean c) (I.points c) is l = .ok l' →
            (∀ c ∈ l.filterMap id, Q c) → ∀ c ∈ l'.filterMap id, Q c := by
          intro is
          induction is with
          | nil => intro l l' h hq; cases h; exact hq
          | cons i is ih =>
            intro l l' h hq
            unfold updateRay at h
            obtain ⟨c, hc, h⟩ := Res.bind_eq_ok.1 h
            unfold readSlot at hc
            split_ifs at hc with hi
            cases hc
            cases hs : slot l i with
            | none => rw [hs] at h; cases h
            | some c =>
              rw [hs] at h
              simp only at h
              obtain ⟨c', hc', h⟩ := Res.bind_eq_ok.1 h
              obtain ⟨l1, hl1, h⟩ := Res.bind_eq_ok.1 h
              rw [writeSlot_lt hi] at hl1
              cases hl1
              refine ih h ?_
              obtain ⟨a, -, -, hm⟩ := set_some hi hs c'
              intro d hd
              rcases hm d hd with h | rfl
              · exact hq d h
              · exact hr _ _ _ _ _ hse (hq c a) hc'
        exact key hl hq1
    · exact ih h hq

end Rays

/-! ### Cells of maps have histories -/

/-- A history of calls on one cell, all rays of positive length. -/
abbrev Hist (eig : NDT.Eig) : NDT.Cell → Prop := NDT.Reach eig NDT.properRay

/-- All cells of the map have histories. -/
structure HistInv (eig : NDT.Eig) (n : Map) : Prop where
  wf : WF n.grid
  cs : 0 < n.grid.cellSize
  hist : ∀ c ∈ getValidCells n.grid, Hist eig c

theorem hist_transformCell {eig : NDT.Eig} (t : Trans) {c : NDT.Cell} (h : Hist eig c) :
    Hist eig (transformCell eig t c) := by
  unfold transformCell
  simp only
  rw [linear4_convert, translation4_convert]
  exact .transform _ _ _ h (rotZ_orth _)

theorem hist_cells {eig : NDT.Eig} {l : List NDT.Cell} (h : ∀ c ∈ l, Hist eig c) (b : Bool)
    (t : Trans) : ∀ c ∈ (if b then transformCells eig t l else l), Hist eig c := by
  intro c hc
  cases b with
  | false => exact h c (by simpa using hc)
  | true =>
    simp only [if_true] at hc
    obtain ⟨d, hd, rfl⟩ := List.mem_map.1 hc
    exact hist_transformCell t (h d hd)

theorem rescale_good {eig : NDT.Eig} (he : NDT.EigOk eig) {c : NDT.Cell} (hg : c.gaussian = true)
    (h1 : c.cov.transpose = c.cov) (h2 : c.icov = c.cov⁻¹) (h3 : NDT.Conditioned c.cov) : NDT.rescale eig c = c := by
  have hc := NDT.rescale_id he h1 h3
  have hi : (NDT.rescale eig c).icov = (NDT.rescale eig c).cov⁻¹ := rfl
  rw [hc, ← h2] at hi
  have hm : (NDT.rescale eig c).gaussian = c.gaussian := hg.symm
  show NDT.Cell.mk (NDT.rescale eig c).mean (NDT.rescale eig c).cov (NDT.rescale eig c).icov (NDT.rescale eig c).occ
    (NDT.rescale eig c).points (NDT.rescale eig c).gaussian (NDT.rescale eig c).centroid (NDT.rescale eig c).pending = c
  rw [hc, hi, hm]
  rfl

/-- Shifting the mean is a motion of the cell. -/
theorem hist_shift {eig : NDT.Eig} (he : NDT.EigOk eig) {c : NDT.Cell} (h : Hist eig c) (d : NDT.Vec) :
    Hist eig (shiftCell (cellI eig) d c) := by
  unfold shiftCell
  split_ifs with hg
  · have ht := NDT.Reach.transform (eig := eig) (allowed := NDT.properRay) 1 1 d h (by simp)
    change c.gaussian = true at hg
    obtain ⟨h1, h2, -, h4⟩ := h.ginv he hg
    have hs := h1.isHermitian
    rw [Matrix.IsHermitian, Matrix.conjTranspose_eq_transpose_of_trivial] at hs
    unfold NDT.transform at ht
    rw [if_pos hg] at ht
    simp only [Matrix.one_mulVec, Matrix.transpose_one, Matrix.one_mul, Matrix.mul_one] at ht
    rw [rescale_good he (c := { c with mean := c.mean + d }) hg hs h2 h4] at ht
    exact ht
  · exact h

theorem mergeCells_hist {eig : NDT.Eig} {n n' : Map} (hn : HistInv eig n) {l : List NDT.Cell}
    (hl : ∀ c ∈ l, Hist eig c) {resize : Bool} (h : mergeCells (cellI eig) n l resize = .ok n') : HistInv eig n' := by
  obtain ⟨w, c, q⟩ := mergeCells_all (I := cellI eig) (Q := Hist eig)
    (fun o c ho hc => .merge ho hc) hn.wf hn.cs h (fun c hc _ => hl c hc) hn.hist
  exact ⟨w, by rw [c]; exact hn.cs, q⟩

theorem traceAll_hist {eig : NDT.Eig} {n : Map} (hn : HistInv eig n) {s : NDT.Vec} {l : List NDT.Cell}
    {g : Grid ℝ NDT.Cell} (h : traceAll (cellI eig) s n.grid l = .ok g) : HistInv eig { n with grid := g } := by
  obtain ⟨hb, -, ht⟩ := traceAll_traced (cell_lawful eig) h
  refine ⟨hb.wf ht hn.wf, by show 0 < g.cellSize; rw [hb.cs]; exact hn.cs, ?_⟩
  exact traceAll_proper (I := cellI eig) (Q := Hist eig) .init
    (fun c s e k c' hse hc hr => .ray s e k hc hse hr) h hn.hist

theorem mergeGrid_hist {eig : NDT.Eig} {n g n' : Map} (hn : HistInv eig n) (hg : HistInv eig g)
    {tr rs : Bool} (h : mergeGrid eig n g tr rs = .ok n') : HistInv eig n' :=
  mergeCells_hist hn (hist_cells hg.hist _ _) h

theorem mergeGridTraced_hist {eig : NDT.Eig} {n g n' : Map} (hn : HistInv eig n) (hg : HistInv eig g)
    {tr rs : Bool} (h : mergeGridTraced eig n g tr rs = .ok n') : HistInv eig n' := by
  unfold mergeGridTraced at h
  obtain ⟨g1, h1, -, -, h⟩ := mergeTraced_split (cell_lawful eig) hn.wf h
  exact mergeCells_hist (traceAll_hist hn h1) (hist_cells hg.hist _ _) h

theorem createGrid_hist {eig : NDT.Eig} {ox oy th cs : ℝ} (hcs : 0 < cs)
    {ps : List NDT.Vec} {n : Map} (h : createGrid (cellI eig) ox oy th cs ps = .ok n) : HistInv eig n := by
  obtain ⟨w, c, -, -, -, -, q⟩ := createGrid_all (I := cellI eig) (Q := Hist eig) (Q' := Hist eig)
    .init ps (fun c p _ hc => .addPoint p hc) (fun c hc => .computeGaussian hc) hcs h
  exact ⟨w, by rw [c]; exact hcs, q⟩

theorem setOrigin_hist {eig : NDT.Eig} {n : Map} (h : HistInv eig n) (p : Pose) : HistInv eig (setOrigin n p) :=
  ⟨h.wf, h.cs, h.hist⟩

theorem mergeCloud_hist {eig : NDT.Eig} {n n' : Map} (hn : HistInv eig n) {ps : List NDT.Vec}
    {p : Pose} {rs : Bool} (h : mergeCloud eig n ps p rs = .ok n') : HistInv eig n' := by
  unfold mergeCloud at h
  simp only at h
  obtain ⟨g, h1, h⟩ := Res.bind_eq_ok.1 h
  exact mergeGrid_hist hn (createGrid_hist hn.cs h1) h

theorem mergeCloudTraced_hist {eig : NDT.Eig} {n n' : Map} (hn : HistInv eig n)
    {ps : List NDT.Vec} {p : Pose} {rs : Bool} (h : mergeCloudTraced eig n ps p rs = .ok n') : HistInv eig n' := by
  unfold mergeCloudTraced at h
  simp only at h
  obtain ⟨g, h1, h⟩ := Res.bind_eq_ok.1 h
  exact mergeGridTraced_hist hn (setOrigin_hist (createGrid_hist hn.cs h1) _) h

theorem clearGrid_hist {eig : NDT.Eig} {n : Map} (h : HistInv eig n) :
    HistInv eig { n with grid := Voxel.clear n.grid } := by
  obtain ⟨w, c, e⟩ := clear_stored h.wf
  exact ⟨w, by show 0 < (Voxel.clear n.grid).cellSize; rw [c]; exact h.cs,
    fun c hc => by rw [show getValidCells _ = [] from e] at hc; cases hc⟩

theorem transform_hist {eig : NDT.Eig} {n n' : Map} (hn : HistInv eig n) {t : Trans}
    (h : transform eig n t = .ok n') : HistInv eig n' := by
  obtain ⟨g, h1, rfl⟩ := transform_split h
  have hc := clearGrid_hist hn
  obtain ⟨w, c, q⟩ := readd_all (Q := Hist eig) (fun o c ho hc => .merge ho hc) hc.wf hc.cs h1
    (fun c hc' _ => hist_cells hn.hist true _ c hc') hc.hist
  exact ⟨w, by show 0 < g.cellSize; rw [c]; exact hc.cs, q⟩

theorem move_hist {eig : NDT.Eig} (he : NDT.EigOk eig) {n n' : Map} (hn : HistInv eig n) {tx ty : ℝ} {r : ℝ × ℝ}
    (h : move (cellI eig) n tx ty = .ok (r, n')) : HistInv eig n' := by
  obtain ⟨w, c, -, -, -, -, q⟩ := move_all (I := cellI eig) (Q := Hist eig) (Q' := Hist eig) hn.wf hn.cs h
    (fun c hc => hist_shift he hc _) (fun _ c hc => hc) hn.hist
  exact ⟨w, by rw [c]; exact hn.cs, q⟩

theorem init_hist (eig : NDT.Eig) (ox oy th : ℝ) {cs : ℝ} (hcs : 0 < cs) :
    HistInv eig (NDTGrid.init (cellI eig) ox oy th cs) := by
  refine ⟨init_wf _ ox oy th cs, hcs, fun c hc => ?_⟩
  rw [init_valid, List.mem_singleton] at hc
  rw [hc]; exact .init

theorem Built.hist {eig : NDT.Eig} (he : NDT.EigOk eig) {b : Bool} {n : Map} (h : Built eig b n) : HistInv eig n := by
  induction h with
  | init ox oy th hcs => exact init_hist eig ox oy th hcs
  | setOrigin p _ ih => exact setOrigin_hist ih p
  | setTimestamp t _ ih => exact ⟨ih.wf, ih.cs, ih.hist⟩
  | clear _ ih =>
    have := clearGrid_hist ih
    exact ⟨this.wf, this.cs, this.hist⟩
  | enlarge a b c d _ h ih =>
    obtain ⟨w, c, -, m⟩ := enlarge_stored ih.wf ih.cs h
    exact ⟨w, by show 0 < _; rw [c]; exact ih.cs, fun x hx => ih.hist x ((m x).1 hx)⟩
  | mergeGrid tr rs _ _ h ih1 ih2 => exact mergeGrid_hist ih1 ih2 h
  | mergeGridTraced tr rs _ _ h ih1 ih2 => exact mergeGridTraced_hist ih1 ih2 h
  | mergeCloud ps p rs _ h ih => exact mergeCloud_hist ih h
  | mergeCloudTraced ps p rs _ h ih => exact mergeCloudTraced_hist ih h
  | «initialize» ps _ h ih => exact mergeCloudTraced_hist (clearGrid_hist ih) h
  | initializeSimple ps _ h ih => exact mergeCloud_hist (clearGrid_hist ih) h
  | transform t _ h ih => exact transform_hist ih h
  | move tx ty _ h ih => exact move_hist he ih h
  | coarser cs _ h ih =>
    unfold NDTGrid.coarser at h
    simp only at h
    refine mergeCells_hist (init_hist eig 0 0 0 ?_) ih.hist h
    have := ih.cs
    split_ifs with hc
    · exact this
    · linarith

end Verif.World
