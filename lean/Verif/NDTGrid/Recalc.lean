import Verif.NDTGrid.RayProps

/-
Vocabulary and helper lemmas for C167: what a recalculation of the map depends on, and how large the map is.
-/
namespace Verif.NDTGrid

open Verif Verif.Voxel

set_option linter.unusedSectionVars false

variable {K : Type v} [Field K] [LinearOrder K] [IsStrictOrderedRing K] [FloorRing K] {γ : Type u}

/-! ### Specification vocabulary -/

/-- A call of the mapper, with the frames as they are at the time of the call (the poses of frames change between
calls). -/
inductive MapCall (K : Type v) (γ : Type u)
  | add (view : K → Frame K γ) (k : K)
  | recalc (view : K → Frame K γ)

/-- The calls as the code makes them, ndt_mapper.h:132-154 and 182-196. -/
def MapCall.exec (I : CellI K γ) (m : Mapper K γ) : MapCall K γ → Res (Mapper K γ)
  | .add view k => addFrame I view m k
  | .recalc view => NDTGrid.recalc I view m

/-- Calls one after the other. -/
def MapCall.run (I : CellI K γ) (m : Mapper K γ) : List (MapCall K γ) → Res (Mapper K γ)
  | [] => .ok m
  | c :: cs => (c.exec I m).bind fun m => MapCall.run I m cs

/-- Every frame that was ever put into the map, at the pose it had then: a new frame once, and all frames so far at
each recalculation (`old` are the frames so far). -/
def placements (old : List K) : List (MapCall K γ) → List (Frame K γ)
  | [] => []
  | .add view k :: cs => view k :: placements (old ++ [k]) cs
  | .recalc view :: cs => old.map view ++ placements old cs

/-- The rectangle of `left` to `right` columns and `down` to `up` rows around the square of the origin, with its
border lines, contains the point. -/
def CoveredBy (cs : K) (e : Ext) (p : K × K) : Prop :=
  -((e.1 + 1 / 2) * cs) ≤ p.1 ∧ p.1 ≤ (e.2.1 + 1 / 2) * cs ∧
  p.2 ≤ (e.2.2.1 + 1 / 2) * cs ∧ -((e.2.2.2 + 1 / 2) * cs) ≤ p.2

/-! ### Lemmas -/

theorem ceil_toNat_le {cs : K} (hcs : 0 < cs) (y : K) (n : ℕ) :
    ⌈y / cs - 1 / 2⌉.toNat ≤ n ↔ y ≤ (n + 1 / 2) * cs := by
  rw [Int.toNat_le, Int.ceil_le, sub_le_iff_le_add, div_le_iff₀ hcs]
  push_cast
  rfl

theorem needed_le {cs : K} (hcs : 0 < cs) (b : Bounds K) (e : Ext) :
    needed cs b ≤ e ↔ -b.minx ≤ (e.1 + 1 / 2) * cs ∧ b.maxx ≤ (e.2.1 + 1 / 2) * cs ∧
      b.maxy ≤ (e.2.2.1 + 1 / 2) * cs ∧ -b.miny ≤ (e.2.2.2 + 1 / 2) * cs := by
  obtain ⟨l, r, u, d⟩ := e
  unfold needed
  simp only [Prod.mk_le_mk, ceil_toNat_le hcs]

theorem foldl_bounds_iff {lx ux ly uy : K} : ∀ (ps : List (K × K)) (b : Bounds K),
    (lx ≤ (ps.foldl boundsStep b).minx ∧ (ps.foldl boundsStep b).maxx ≤ ux ∧
      ly ≤ (ps.foldl boundsStep b).miny ∧ (ps.foldl boundsStep b).maxy ≤ uy) ↔
    (lx ≤ b.minx ∧ b.maxx ≤ ux ∧ ly ≤ b.miny ∧ b.maxy ≤ uy) ∧
      ∀ p ∈ ps, lx ≤ p.1 ∧ p.1 ≤ ux ∧ ly ≤ p.2 ∧ p.2 ≤ uy := by
  intro ps
  induction ps with
  | nil => intro b; simp
  | cons p ps ih =>
    intro b
    rw [List.foldl_cons, ih]
    unfold boundsStep
    simp only [gt_iff_lt, ← min_def_lt, ← max_def_lt, List.forall_mem_cons, le_min_iff, max_le_iff]
    tauto

/-- A frame fits exactly if all its means are covered. -/
theorem frameExt_le (I : CellI K γ) {cs : K} (hcs : 0 < cs) (f : Frame K γ) (e : Ext) :
    frameExt I cs f ≤ e ↔ ∀ c ∈ f.cells, CoveredBy cs e (head (I.mean c)) := by
  unfold frameExt
  rw [needed_le hcs]
  have h := foldl_bounds_iff (lx := -((e.1 + 1 / 2) * cs)) (ux := (e.2.1 + 1 / 2) * cs)
    (ly := -((e.2.2.2 + 1 / 2) * cs)) (uy := (e.2.2.1 + 1 / 2) * cs)
    (f.cells.map fun c => head (I.mean c)) ⟨0, 0, 0, 0⟩
  have e1 : (0 : K) ≤ (e.1 + 1 / 2) * cs := by positivity
  have e2 : (0 : K) ≤ (e.2.1 + 1 / 2) * cs := by positivity
  have e3 : (0 : K) ≤ (e.2.2.1 + 1 / 2) * cs := by positivity
  have e4 : (0 : K) ≤ (e.2.2.2 + 1 / 2) * cs := by positivity
  constructor
  · rintro ⟨h1, h2, h3, h4⟩ c hc
    obtain ⟨k1, k2, k3, k4⟩ := (h.1 ⟨by show _ ≤ (minMax _).minx; linarith, h2, by show _ ≤ (minMax _).miny; linarith, h3⟩).2 _
      (List.mem_map.2 ⟨c, hc, rfl⟩)
    exact ⟨k1, k2, k4, k3⟩
  · intro hc
    obtain ⟨k1, k2, k3, k4⟩ := h.2 ⟨⟨by simpa using e1, e2, by simpa using e4, e3⟩, by
      intro p hp
      obtain ⟨c, hm, rfl⟩ := List.mem_map.1 hp
      obtain ⟨k1, k2, k3, k4⟩ := hc c hm
      exact ⟨k1, k2, k4, k3⟩⟩
    refine ⟨?_, k2, k4, ?_⟩
    · have : -((e.1 + 1 / 2) * cs) ≤ (minMax (f.cells.map fun c => head (I.mean c))).minx := k1
      linarith
    · have : -((e.2.2.2 + 1 / 2) * cs) ≤ (minMax (f.cells.map fun c => head (I.mean c))).miny := k3
      linarith

theorem addAll_ext {I : CellI K γ} (hI : Lawful I) : ∀ {fs : List (Frame K γ)} {m m' : NGrid K γ},
    WF m.grid → 0 < m.grid.cellSize → addAll I m fs = .ok m' →
    WF m'.grid ∧ m'.grid.cellSize = m.grid.cellSize ∧
      (∀ e, extOf m'.grid ≤ e ↔ extOf m.grid ≤ e ∧ ∀ f ∈ fs, frameExt I m.grid.cellSize f ≤ e) ∧
      m'.ox = m.ox ∧ m'.oy = m.oy ∧ m'.th = m.th ∧ m'.timestamp = m.timestamp := by
  intro fs
  induction fs with
  | nil => intro m m' hwf hcs h; cases h; exact ⟨hwf, rfl, by simp, rfl, rfl, rfl, rfl⟩
  | cons f fs ih =>
    intro m m' hwf hcs h
    unfold addAll at h
    obtain ⟨m1, h1, h⟩ := Res.bind_eq_ok.1 h
    obtain ⟨w, c, e, o1, o2, o3, o4, -⟩ := addToMap_ext hI hwf hcs h1
    obtain ⟨w', c', e', p1, p2, p3, p4⟩ := ih w (by rw [c]; exact hcs) h
    refine ⟨w', c'.trans c, ?_, p1.trans o1, p2.trans o2, p3.trans o3, p4.trans o4⟩
    intro x
    rw [e' x, e, c, sup_le_iff, List.forall_mem_cons, and_assoc]

theorem clear_ext (g : Grid K γ) : extOf (Voxel.clear g) = extOf g := rfl

/-- The frames stored after a call. -/
def MapCall.after (old : List K) : MapCall K γ → List K
  | .add _ k => old ++ [k]
  | .recalc _ => old

theorem exec_ext {I : CellI K γ} (hI : Lawful I) {m m' : Mapper K γ} (hwf : WF m.map.grid)
    (hcs : 0 < m.map.grid.cellSize) {c : MapCall K γ} (h : c.exec I m = .ok m') :
    WF m'.map.grid ∧ m'.map.grid.cellSize = m.map.grid.cellSize ∧
      (∀ e, extOf m'.map.grid ≤ e ↔ extOf m.map.grid ≤ e ∧
        ∀ f ∈ placements m.frames [c], frameExt I m.map.grid.cellSize f ≤ e) ∧
      m'.map.ox = m.map.ox ∧ m'.map.oy = m.map.oy ∧ m'.map.th = m.map.th ∧
      m'.map.timestamp = m.map.timestamp ∧
      (∀ cs, placements m.frames (c :: cs) = placements m.frames [c] ++ (placements
        (c.after m.frames) cs)) ∧
      m'.frames.Perm (c.after m.frames) := by
  cases c with
  | add view k =>
    unfold MapCall.exec addFrame at h
    obtain ⟨map, hm, h⟩ := Res.bind_eq_ok.1 h
    cases h
    obtain ⟨w, c, e, o1, o2, o3, o4, -⟩ := addToMap_ext hI hwf hcs hm
    refine ⟨w, c, ?_, o1, o2, o3, o4, fun cs => by simp [placements, MapCall.after], List.Perm.refl _⟩
    intro x
    simp only
    rw [e, sup_le_iff]
    simp [placements]
  | recalc view =>
    unfold MapCall.exec NDTGrid.recalc at h
    simp only at h
    obtain ⟨map, hm, h⟩ := Res.bind_eq_ok.1 h
    cases h
    obtain ⟨w, c, e, o1, o2, o3, o4⟩ := addAll_ext hI (m := clear m.map) (clear_wf hwf) hcs hm
    have hp := List.mergeSort_perm m.frames (fun a b => decide (a ≤ b))
    refine ⟨w, c, ?_, o1, o2, o3, o4, fun cs => by simp [placements, MapCall.after], hp⟩
    intro x
    simp only
    rw [e]
    show extOf (Voxel.clear m.map.grid) ≤ x ∧ _ ↔ _
    rw [clear_ext]
    refine and_congr_right fun _ => ?_
    simp only [placements, List.append_nil, List.mem_map, forall_exists_index, and_imp,
      forall_apply_eq_imp_iff₂, hp.mem_iff]
    rfl

theorem placements_perm {a b : List K} (h : a.Perm b) : ∀ cs : List (MapCall K γ),
    ∀ f, f ∈ placements a cs ↔ f ∈ placements b cs := by
  intro cs
  induction cs generalizing a b with
  | nil => intro f; exact Iff.rfl
  | cons c cs ih =>
    intro f
    cases c with
    | add view k =>
      simp only [placements, List.mem_cons]
      rw [ih (h.append_right [k])]
    | recalc view =>
      simp only [placements, List.mem_append, List.mem_map, h.mem_iff]
      rw [ih h]

theorem run_ext {I : CellI K γ} (hI : Lawful I) : ∀ {cs : List (MapCall K γ)} {m m' : Mapper K γ},
    WF m.map.grid → 0 < m.map.grid.cellSize → MapCall.run I m cs = .ok m' →
    WF m'.map.grid ∧ m'.map.grid.cellSize = m.map.grid.cellSize ∧
      (∀ e, extOf m'.map.grid ≤ e ↔ extOf m.map.grid ≤ e ∧
        ∀ f ∈ placements m.frames cs, frameExt I m.map.grid.cellSize f ≤ e) ∧
      m'.map.ox = m.map.ox ∧ m'.map.oy = m.map.oy ∧ m'.map.th = m.map.th ∧
      m'.map.timestamp = m.map.timestamp := by
  intro cs
  induction cs with
  | nil =>
    intro m m' hwf hcs h
    cases h
    exact ⟨hwf, rfl, by simp [placements], rfl, rfl, rfl, rfl⟩
  | cons c cs ih =>
    intro m m' hwf hcs h
    unfold MapCall.run at h
    obtain ⟨m1, h1, h⟩ := Res.bind_eq_ok.1 h
    obtain ⟨w, e0, e, o1, o2, o3, o4, hpl, hp⟩ := exec_ext hI hwf hcs h1
    obtain ⟨w', c', e', p1, p2, p3, p4⟩ := ih w (by rw [e0]; exact hcs) h
    refine ⟨w', c'.trans e0, ?_, p1.trans o1, p2.trans o2, p3.trans o3, p4.trans o4⟩
    intro x
    rw [e' x, e x, e0, hpl cs, List.forall_mem_append, and_assoc]
    refine and_congr_right fun _ => and_congr_right fun _ => ?_
    constructor
    · intro h f hf; exact h f ((placements_perm hp cs f).2 hf)
    · intro h f hf; exact h f ((placements_perm hp cs f).1 hf)

/-- Two maps with the same extent are recalculated to the same map. -/
theorem recalc_congr {I : CellI K γ} (view : K → Frame K γ) {m₁ m₂ : Mapper K γ}
    (w1 : WF m₁.map.grid) (w2 : WF m₂.map.grid) (hc : m₂.map.grid.cellSize = m₁.map.grid.cellSize)
    (hext : extOf m₂.map.grid = extOf m₁.map.grid) (ho : m₂.map.ox = m₁.map.ox ∧ m₂.map.oy = m₁.map.oy ∧
      m₂.map.th = m₁.map.th ∧ m₂.map.timestamp = m₁.map.timestamp)
    (hperm : m₁.frames.Perm m₂.frames) (hne : m₁.frames ≠ []) :
    (recalc I view m₁).map (fun m => (visible m.map, m.frames)) =
      (recalc I view m₂).map (fun m => (visible m.map, m.frames)) := by
  have hclear := clear_eq w1 w2 hc hext
  have hsort := mergeSort_perm_eq hperm
  unfold recalc
  simp only
  rw [← hsort]
  have hnil : m₁.frames.mergeSort (fun a b => decide (a ≤ b)) ≠ [] := by
    intro h0
    have := List.mergeSort_perm m₁.frames (fun a b => decide (a ≤ b))
    rw [h0] at this
    exact hne this.symm.eq_nil
  generalize m₁.frames.mergeSort (fun a b => decide (a ≤ b)) = s at *
  have key : (addAll I (clear m₂.map) (s.map view)).map visible
      = (addAll I (clear m₁.map) (s.map view)).map visible := by
    have e : clear m₂.map = { setVN (clear m₁.map) m₂.map.grid.validCells with
        means := m₂.map.means } := by
      unfold clear setVN
      simp only
      rw [hclear, ho.1, ho.2.1, ho.2.2.1, ho.2.2.2]
    rw [e, addAll_means I _ _ (by simpa using hnil), addAll_blind]
  have last : ∀ x y : Res (NGrid K γ), x.map visible = y.map visible →
      (x.bind fun map => Res.ok (Mapper.mk map s)).map (fun m => (visible m.map, m.frames))
        = (y.bind fun map => Res.ok (Mapper.mk map s)).map (fun m => (visible m.map, m.frames)) := by
    intro x y h
    cases x <;> cases y <;> simp_all [Res.map, Res.bind]
  exact last _ _ key.symm

end Verif.NDTGrid
