import Verif.Grid.MachineProps
import Verif.Grid.Enumerate
import Verif.World.Stored
import Verif.NDTGrid.Trace

/-
`NDTGrid2D` (include/ndt_gslam/ndt/ndt_grid2d.h) on the voxel grid with the integers of the machine
(`Grid/Machine.lean`): the functions of `NDTGrid/Model.lean` with `size_t` modulo 2^64, `int` of 32 bits, and containers
of at most `mem` elements (also where cells are listed, `Grid/Enumerate.lean`).  Coordinates remain exact.
-/
namespace Verif.NDTGrid.Machine

open Verif Verif.Voxel Verif.NDTGrid

set_option linter.unusedSectionVars false

variable {K : Type v} [Field K] [LinearOrder K] [IsStrictOrderedRing K] [FloorRing K] {γ : Type u}

/-- `updateMeansCloud`, ndt_grid2d.h:981-994: lists the cells (754-765). -/
def updateMeans (I : CellI K γ) (mem : ℕ) (n : NGrid K γ) : Res (NGrid K γ) :=
  (listCells mem n.grid).bind fun cells => .ok { n with means := (cells.filter I.gaussian).map I.mean }

/-- Loop of the resizing branch of `mergeIn`, ndt_grid2d.h:504-508. -/
def overwriteAll (I : CellI K γ) (mem : ℕ) (g : Grid K γ) : List γ → Res (Grid K γ)
  | [] => .ok g
  | c :: cs =>
    if I.gaussian c then
      (Voxel.Machine.addCell I.toCellOps mem g (head (I.mean c)) c false).bind fun g => overwriteAll I mem g cs
    else overwriteAll I mem g cs

/-- Loop of the other branch of `mergeIn`, ndt_grid2d.h:510-515. -/
def mergeInside (I : CellI K γ) (mem : ℕ) (g : Grid K γ) : List γ → Res (Grid K γ)
  | [] => .ok g
  | c :: cs =>
    if I.gaussian c then
      if isInside g (head (I.mean c)) then
        (Voxel.Machine.addCell I.toCellOps mem g (head (I.mean c)) c true).bind fun g => mergeInside I mem g cs
      else mergeInside I mem g cs
    else mergeInside I mem g cs

/-- `mergeIn(const std::vector<CellType>&, resize)`, ndt_grid2d.h:492-519. -/
def mergeCells (I : CellI K γ) (mem : ℕ) (n : NGrid K γ) (cells : List γ) (resize : Bool) : Res (NGrid K γ) :=
  if resize || !n.initialized then
    let b := minMax (cells.map fun c => head (I.mean c))
    (Voxel.Machine.enlarge mem n.grid b.minx b.miny b.maxx b.maxy).bind fun g =>
    (overwriteAll I mem g cells).bind fun g =>
    updateMeans I mem { n with initialized := true, grid := g }
  else
    (mergeInside I mem n.grid cells).bind fun g => updateMeans I mem { n with grid := g }

/-- Loop of `mergeInTraced`, ndt_grid2d.h:578-590.  The update of the visited cells (`updateRay`) has no integer
arithmetic. -/
def traceAll (I : CellI K γ) (start : Fin 3 → K) (g : Grid K γ) : List γ → Res (Grid K γ)
  | [] => .ok g
  | c :: cs =>
    if I.gaussian c then
      (Voxel.Machine.rayTrace I.toCellOps g (head start) (head (I.mean c))).bind fun r =>
      (updateRay I start (I.mean c) (I.points c) r.1 r.2.cells).bind fun cells =>
      traceAll I start { r.2 with cells := cells } cs
    else traceAll I start g cs

/-- `mergeInTraced(grid, transform, resize)`, ndt_grid2d.h:561-595. -/
def mergeTraced (I : CellI K γ) (mem : ℕ) (n : NGrid K γ) (sx sy : K) (cells : List γ) (resize : Bool) :
    Res (NGrid K γ) :=
  (traceAll I ![sx, sy, 0] n.grid cells).bind fun g =>
  mergeCells I mem { n with grid := g } cells resize

/-- `grid_[p].f(..)`, voxel_grid2d.h:454-458. -/
def modifyCell (g : Grid K γ) (p : K × K) (f : γ → γ) : Res (Grid K γ) :=
  (Voxel.Machine.calcIndex g p).bind fun idx =>
  (readSlot g.cells idx).bind fun c =>
  match c with
  | none => .ub .nullDeref
  | some c => (writeSlot g.cells idx (some (f c))).bind fun cells => .ok { g with cells := cells }

/-- `addPoint`, ndt_grid2d.h:611-623. -/
def addPoint (I : CellI K γ) (mem : ℕ) (g : Grid K γ) (p : Fin 3 → K) : Res (Grid K γ) :=
  (Voxel.Machine.cellExists g (head p)).bind fun e =>
  if !e then
    (Voxel.Machine.addCell I.toCellOps mem g (head p) I.default false).bind fun g =>
    modifyCell g (head p) fun c => I.addPoint c p
  else modifyCell g (head p) fun c => I.addPoint c p

/-- The loop over the points in `createGrid`, ndt_grid2d.h:909-913. -/
def addPoints (I : CellI K γ) (mem : ℕ) (g : Grid K γ) : List (Fin 3 → K) → Res (Grid K γ)
  | [] => .ok g
  | p :: ps => (addPoint I mem g p).bind fun g => addPoints I mem g ps

/-- `createGrid`, ndt_grid2d.h:899-920; `computeNDTCells` (625-631) and line 915 list the cells. -/
def createGrid (I : CellI K γ) (mem : ℕ) (ox oy th cs : K) (ps : List (Fin 3 → K)) : Res (NGrid K γ) :=
  let n := init I ox oy th cs
  let b := minMax (ps.map head)
  (Voxel.Machine.enlarge mem n.grid b.minx b.miny b.maxx b.maxy).bind fun g =>
  (addPoints I mem g ps).bind fun g =>
  (listCells mem g).bind fun _ =>
  .ok { n with grid := computeCells I g }

/-- `initialize` (ndt_grid2d.h:597-602) and, with `traced = false`, `initializeSimple` (604-609), for a scan in the frame
of the grid (see `NDTGrid.initScan`); the cells of the scan are listed (565, 482). -/
def initScan (I : CellI K γ) (mem : ℕ) (n : NGrid K γ) (ps : List (Fin 3 → K)) (traced : Bool) :
    Res (NGrid K γ) :=
  (createGrid I mem n.ox n.oy n.th n.grid.cellSize ps).bind fun scan =>
  let n := { n with grid := Voxel.clear n.grid }
  (listCells mem scan.grid).bind fun cells =>
  if traced then mergeTraced I mem n 0 0 cells true
  else mergeCells I mem n cells true

/-- `move(i) = std::ceil(res)` / `std::floor(res)`, ndt_grid2d.h:807-812, 818-823: conversion to `int`. -/
def toInt (z : ℤ) : Res ℤ := if -2 ^ 31 ≤ z ∧ z < 2 ^ 31 then .ok z else .ub .badCast

/-- `move`, ndt_grid2d.h:789-857. -/
def move (I : CellI K γ) (mem : ℕ) (n : NGrid K γ) (tx ty : K) : Res ((K × K) × NGrid K γ) :=
  if |n.th| > 1 / 10000000 then .ok ((tx, ty), n)
  else if n.grid.cellSize = 0 ∧ (tx ≠ 0 ∨ ty ≠ 0) then .ub .badCast
  else
    let cs := n.grid.cellSize
    (toInt (axisSteps cs tx)).bind fun mx =>
    (toInt (axisSteps cs ty)).bind fun my =>
    if 0 < ⌊|tx| / cs⌋ ∨ 0 < ⌊|ty| / cs⌋ then
      (Voxel.Machine.int (-mx)).bind fun nx =>
      (Voxel.Machine.int (-my)).bind fun ny =>
      (Voxel.Machine.translate mem n.grid nx ny true).bind fun g =>
      (listCells mem g).bind fun _ =>
      let g := { g with cells := g.cells.map (Option.map (shiftCell I ![-(mx * cs), -(my * cs), 0])) }
      (updateMeans I mem { n with grid := g, ox := n.ox + mx * cs, oy := n.oy + my * cs }).bind fun n =>
      .ok ((tx - mx * cs, ty - my * cs), n)
    else .ok ((tx, ty), n)

/-! ### Calls -/

/-- A call on an NDT grid: one of `Op`, or an initialisation from a scan. -/
inductive Call (K : Type v) (γ : Type u)
  | op (o : Op K γ)
  | scan (ps : List (Fin 3 → K)) (traced : Bool)

/-- A call with unbounded integers and memory. -/
def Call.run (I : CellI K γ) (n : NGrid K γ) : Call K γ → Res (NGrid K γ)
  | .op o => o.exec I n
  | .scan ps traced => NDTGrid.initScan I n ps traced

/-- A call with the integers of the machine and at most `mem` elements in a container. -/
def exec (I : CellI K γ) (mem : ℕ) (n : NGrid K γ) : Call K γ → Res (NGrid K γ)
  | .op (.mergeCells cells resize) => mergeCells I mem n cells resize
  | .op (.mergeTraced sx sy cells resize) => mergeTraced I mem n sx sy cells resize
  | .op (.move tx ty) => (move I mem n tx ty).map Prod.snd
  | .op (.enlarge a b c d) => (Voxel.Machine.enlarge mem n.grid a b c d).map fun g => { n with grid := g }
  | .op .clear => .ok (NDTGrid.clear n)
  | .scan ps traced => initScan I mem n ps traced

/-- A history of calls with unbounded integers and memory. -/
def runAll (I : CellI K γ) (n : NGrid K γ) : List (Call K γ) → Res (NGrid K γ)
  | [] => .ok n
  | c :: cs => (c.run I n).bind fun n => runAll I n cs

/-- A history of calls with the integers of the machine. -/
def execAll (I : CellI K γ) (mem : ℕ) (n : NGrid K γ) : List (Call K γ) → Res (NGrid K γ)
  | [] => .ok n
  | c :: cs => (exec I mem n c).bind fun n => execAll I mem n cs

/-! ### Specification -/

/-- The point is at most 2^30 cells from the origin of the grid, along each axis. -/
def Within (cs : K) (p : K × K) : Prop := |p.1| ≤ 2 ^ 30 * cs ∧ |p.2| ≤ 2 ^ 30 * cs

/-- What is handed to the call lies at most 2^30 cells away; a move is shorter than 2^31 cells. -/
def Moderate (I : CellI K γ) (cs : K) : Call K γ → Prop
  | .op (.mergeCells cells _) => ∀ c ∈ cells, Within cs (head (I.mean c))
  | .op (.mergeTraced _ _ cells _) => ∀ c ∈ cells, Within cs (head (I.mean c))
  | .op (.move tx ty) => |tx| < 2 ^ 31 * cs ∧ |ty| < 2 ^ 31 * cs
  | .op (.enlarge a b c d) => Within cs (a, b) ∧ Within cs (c, d)
  | .op .clear => True
  | .scan ps _ => ∀ p ∈ ps, Within cs (head p)

/-- Number of cells or points handed to a call (a scan has at least the cell at the origin). -/
def Call.size : Call K γ → ℕ
  | .op (.mergeCells cells _) => cells.length
  | .op (.mergeTraced _ _ cells _) => cells.length
  | .op (.move _ _) => 0
  | .op (.enlarge ..) => 0
  | .op .clear => 0
  | .scan ps _ => ps.length + 1

/-- The mean of a cell computed from points does not lie further out than the points (`cell_meansWithin` for
`NDTCell`). -/
def MeansWithin (I : CellI K γ) : Prop :=
  ∀ (ps : List (Fin 3 → K)) (r : K), 0 ≤ r → (∀ p ∈ ps, |p 0| ≤ r ∧ |p 1| ≤ r) →
    |I.mean (cellOf I ps) 0| ≤ r ∧ |I.mean (cellOf I ps) 1| ≤ r

/-! ### Lemmas: agreement of two computations -/

/-- The first computation gives the result of the second or runs out of memory; results of the second satisfy `P`. -/
def Same {σ : Type w} (P : σ → Prop) (m e : Res σ) : Prop :=
  (m = e ∨ m = .throw .badAlloc) ∧ ∀ s, e = .ok s → P s

theorem Same.bind {σ : Type w} {τ : Type w'} {P : σ → Prop} {Q : τ → Prop} {m e : Res σ} {f f' : σ → Res τ}
    (h : Same P m e) (hf : ∀ s, P s → Same Q (f s) (f' s)) : Same Q (m.bind f) (e.bind f') := by
  obtain ⟨h1, h2⟩ := h
  cases e with
  | ok s =>
    obtain ⟨a, b⟩ := hf s (h2 s rfl)
    refine ⟨?_, b⟩
    rcases h1 with rfl | rfl
    · exact a
    · exact .inr rfl
  | throw x =>
    refine ⟨?_, fun s hs => by cases hs⟩
    rcases h1 with rfl | rfl
    · exact .inl rfl
    · exact .inr rfl
  | ub x =>
    refine ⟨?_, fun s hs => by cases hs⟩
    rcases h1 with rfl | rfl
    · exact .inl rfl
    · exact .inr rfl

theorem Same.ok {σ : Type w} {P : σ → Prop} {s : σ} (h : P s) : Same P (.ok s) (.ok s) :=
  ⟨.inl rfl, fun _ e => by cases e; exact h⟩

theorem Same.eq {σ : Type w} {P : σ → Prop} {m e : Res σ} (h : m = e) (hp : ∀ s, e = .ok s → P s) : Same P m e :=
  ⟨.inl h, hp⟩

theorem Same.mono {σ : Type w} {P Q : σ → Prop} {m e : Res σ} (h : Same P m e) (hq : ∀ s, P s → Q s) : Same Q m e :=
  ⟨h.1, fun s e => hq s (h.2 s e)⟩

/-- Adding what is known of the results of the second computation. -/
theorem Same.and {σ : Type w} {P Q : σ → Prop} {m e : Res σ} (h : Same P m e) (hq : ∀ s, e = .ok s → Q s) :
    Same (fun s => P s ∧ Q s) m e :=
  ⟨h.1, fun s e => ⟨h.2 s e, hq s e⟩⟩

/-- A listing that the model leaves out. -/
theorem Same.list {σ : Type w} {P : σ → Prop} {e : Res σ} {mem : ℕ} {g : Grid K γ} {f : List γ → Res σ}
    (h : Same P (f (getValidCells g)) e) : Same P ((listCells mem g).bind f) e := by
  refine ⟨?_, h.2⟩
  unfold listCells
  split_ifs
  · exact .inr rfl
  · exact .inr rfl
  · exact h.1

/-! ### Lemmas: the voxel grid -/

/-- What holds of the voxel grid along a history. -/
structure Good (cs : K) (N : ℕ) (g : Grid K γ) : Prop where
  fine : Voxel.Machine.Fine g
  size : g.cellSize = cs
  count : g.validCells ≤ N

theorem Good.wf {cs : K} {N : ℕ} {g : Grid K γ} (h : Good cs N g) : WF g := h.fine.wf
theorem Good.pos {cs : K} {N : ℕ} {g : Grid K γ} (h : Good cs N g) : 0 < cs := h.size ▸ h.fine.pos

theorem Good.mono {cs : K} {N M : ℕ} {g : Grid K γ} (h : Good cs N g) (hn : N ≤ M) : Good cs M g :=
  ⟨h.fine, h.size, h.count.trans hn⟩

theorem Good.cells {cs : K} {N : ℕ} {g : Grid K γ} (h : Good cs N g) {l : List (Option γ)}
    (hl : l.length = g.cells.length) : Good cs N { g with cells := l } :=
  ⟨⟨⟨h.fine.small.1, h.fine.small.2, h.fine.small.3, h.fine.small.4⟩, by
    have := h.wf
    unfold WF at *
    simp only [hl]
    exact this, h.fine.pos⟩, h.size, h.count⟩

theorem addCell_same (I : CellI K γ) (mem : ℕ) {cs : K} {N : ℕ} {g : Grid K γ} (hg : Good cs N g)
    (hn : N + 1 < 2 ^ 64) {p : K × K} (hp : Within cs p) (c : γ) (m : Bool) :
    Same (Good cs (N + 1)) (Voxel.Machine.addCell I.toCellOps mem g p c m) (addCell I.toCellOps g p c m) := by
  obtain ⟨hp1, hp2⟩ := hp
  rw [← hg.size] at hp1 hp2
  have hc := hg.count
  obtain ⟨h1, h2⟩ := Voxel.Machine.addCell_eq I.toCellOps hg.fine mem p c m hp1 hp2 (by omega)
  refine ⟨h1, fun g' h => ?_⟩
  obtain ⟨f, v⟩ := h2 g' h
  exact ⟨f, (World.addCell_stored hg.wf hg.fine.pos h).2.1.trans hg.size, by omega⟩

theorem enlarge_same (mem : ℕ) {cs : K} {N : ℕ} {g : Grid K γ} (hg : Good cs N g) {a b c d : K}
    (h1 : Within cs (a, b)) (h2 : Within cs (c, d)) :
    Same (Good cs N) (Voxel.Machine.enlarge mem g a b c d) (enlarge g a b c d) := by
  obtain ⟨ha, hb⟩ := h1
  obtain ⟨hc, hd⟩ := h2
  have hs := hg.size
  rw [← hs] at ha hb hc hd
  obtain ⟨e1, e2⟩ := Voxel.Machine.enlarge_eq hg.fine.small hg.wf hg.fine.pos mem ha hb hc hd
  refine ⟨e1, fun g' h => ?_⟩
  obtain ⟨g2, hg2, gr, -⟩ := enlarge_spec hg.wf hg.fine.pos a b c d
  have h2 := e2 g' h
  rw [hg2] at h
  cases h
  exact ⟨⟨h2, gr.wf, by rw [gr.cs]; exact hg.fine.pos⟩, gr.cs.trans hg.size, by rw [gr.valid]; exact hg.count⟩

theorem minMax_within {cs : K} (hcs : 0 < cs) {ps : List (K × K)} (h : ∀ p ∈ ps, Within cs p) :
    Within cs ((minMax ps).minx, (minMax ps).miny) ∧ Within cs ((minMax ps).maxx, (minMax ps).maxy) := by
  have h0 : Within cs ((0 : K), (0 : K)) := by
    unfold Within
    simp only [abs_zero]
    exact ⟨by positivity, by positivity⟩
  have key : ∀ (ps : List (K × K)) (b : Bounds K), (∀ p ∈ ps, Within cs p) →
      Within cs (b.minx, b.miny) → Within cs (b.maxx, b.maxy) →
      Within cs ((ps.foldl boundsStep b).minx, (ps.foldl boundsStep b).miny) ∧
      Within cs ((ps.foldl boundsStep b).maxx, (ps.foldl boundsStep b).maxy) := by
    intro ps
    induction ps with
    | nil => exact fun b _ h1 h2 => ⟨h1, h2⟩
    | cons p ps ih =>
      intro b hp h1 h2
      have h3 := hp p List.mem_cons_self
      refine ih _ (fun q hq => hp q (List.mem_cons_of_mem _ hq)) ?_ ?_
      · unfold boundsStep Within
        refine ⟨?_, ?_⟩ <;> dsimp only <;> split_ifs
        exacts [h3.1, h1.1, h3.2, h1.2]
      · unfold boundsStep Within
        refine ⟨?_, ?_⟩ <;> dsimp only <;> split_ifs
        exacts [h3.1, h2.1, h3.2, h2.2]
  exact key ps _ h h0 h0

theorem overwriteAll_same (I : CellI K γ) (mem : ℕ) {cs : K} : ∀ (cells : List γ) {N : ℕ} {g : Grid K γ}, Good cs N g →
    N + cells.length < 2 ^ 64 → (∀ c ∈ cells, Within cs (head (I.mean c))) →
    Same (Good cs (N + cells.length)) (overwriteAll I mem g cells) (NDTGrid.overwriteAll I g cells)
  | [], _, _, hg, _, _ => Same.ok hg
  | c :: cells, N, g, hg, hn, hw => by
    rw [List.length_cons] at hn
    have hw' : ∀ c ∈ cells, Within cs (head (I.mean c)) := fun d hd => hw d (List.mem_cons_of_mem _ hd)
    unfold overwriteAll NDTGrid.overwriteAll
    split_ifs
    · refine (addCell_same I mem hg (by omega) (hw c List.mem_cons_self) c false).bind fun g1 h1 => ?_
      refine (overwriteAll_same I mem cells h1 (by omega) hw').mono fun s hs => hs.mono ?_
      rw [List.length_cons]; omega
    · refine (overwriteAll_same I mem cells hg (by omega) hw').mono fun s hs => hs.mono ?_
      rw [List.length_cons]; omega

theorem mergeInside_same (I : CellI K γ) (mem : ℕ) {cs : K} : ∀ (cells : List γ) {N : ℕ} {g : Grid K γ}, Good cs N g →
    N + cells.length < 2 ^ 64 → (∀ c ∈ cells, Within cs (head (I.mean c))) →
    Same (Good cs (N + cells.length)) (mergeInside I mem g cells) (NDTGrid.mergeInside I g cells)
  | [], _, _, hg, _, _ => Same.ok hg
  | c :: cells, N, g, hg, hn, hw => by
    rw [List.length_cons] at hn
    have hw' : ∀ c ∈ cells, Within cs (head (I.mean c)) := fun d hd => hw d (List.mem_cons_of_mem _ hd)
    have skip := (mergeInside_same I mem cells hg (by omega) hw').mono
      (Q := Good cs (N + (c :: cells).length)) fun s hs => hs.mono (by rw [List.length_cons]; omega)
    unfold mergeInside NDTGrid.mergeInside
    split_ifs
    · refine (addCell_same I mem hg (by omega) (hw c List.mem_cons_self) c true).bind fun g1 h1 => ?_
      refine (mergeInside_same I mem cells h1 (by omega) hw').mono fun s hs => hs.mono ?_
      rw [List.length_cons]; omega
    · exact skip
    · exact skip

theorem updateMeans_same (I : CellI K γ) (mem : ℕ) {P : NGrid K γ → Prop} {n : NGrid K γ}
    (h : P (NDTGrid.updateMeans I n)) : Same P (updateMeans I mem n) (.ok (NDTGrid.updateMeans I n)) := by
  unfold updateMeans
  exact Same.list (Same.ok h)

theorem mergeCells_same (I : CellI K γ) (mem : ℕ) {cs : K} {N : ℕ} {n : NGrid K γ} (hg : Good cs N n.grid)
    {cells : List γ} (hn : N + cells.length < 2 ^ 64) (hw : ∀ c ∈ cells, Within cs (head (I.mean c))) (resize : Bool) :
    Same (fun n => Good cs (N + cells.length) n.grid) (mergeCells I mem n cells resize)
      (NDTGrid.mergeCells I n cells resize) := by
  unfold mergeCells NDTGrid.mergeCells
  split_ifs
  · simp only
    obtain ⟨b1, b2⟩ := minMax_within (hg.size ▸ hg.fine.pos) (ps := cells.map fun c => head (I.mean c)) (by
      intro p hp
      obtain ⟨c, hc, rfl⟩ := List.mem_map.1 hp
      exact hw c hc)
    refine (enlarge_same mem hg b1 b2).bind fun g1 h1 => ?_
    exact (overwriteAll_same I mem cells h1 hn hw).bind fun g2 h2 => updateMeans_same I mem h2
  · exact (mergeInside_same I mem cells hg hn hw).bind fun g2 h2 => updateMeans_same I mem h2

theorem updateRay_length {I : CellI K γ} {s e : Fin 3 → K} {k : ℕ} : ∀ {is : List ℕ} {l l' : List (Option γ)},
    updateRay I s e k is l = .ok l' → l'.length = l.length := by
  intro is
  induction is with
  | nil => intro l l' h; cases h; rfl
  | cons i is ih =>
    intro l l' h
    unfold updateRay at h
    obtain ⟨c, hc, h⟩ := Res.bind_eq_ok.1 h
    cases c with
    | none => cases h
    | some c =>
      simp only at h
      obtain ⟨c', -, h⟩ := Res.bind_eq_ok.1 h
      obtain ⟨l1, h1, h⟩ := Res.bind_eq_ok.1 h
      rw [ih h]
      unfold writeSlot at h1
      split_ifs at h1
      cases h1
      simp

theorem traceAll_same (I : CellI K γ) {cs : K} (start : Fin 3 → K) : ∀ (cells : List γ) {N : ℕ} {g : Grid K γ},
    Good cs N g → Same (Good cs N) (traceAll I start g cells) (NDTGrid.traceAll I start g cells)
  | [], _, _, hg => Same.ok hg
  | c :: cells, N, g, hg => by
    unfold traceAll NDTGrid.traceAll
    split_ifs
    · have h1 : Same (fun r : List ℕ × Grid K γ => Good cs N r.2)
          (Voxel.Machine.rayTrace I.toCellOps g (head start) (head (I.mean c)))
          (rayTrace I.toCellOps g (head start) (head (I.mean c))) := by
        refine Same.eq (Voxel.Machine.rayTrace_eq I.toCellOps hg.fine _ _) fun r hr => ?_
        obtain ⟨cells1, e1, e2, -⟩ := rayTrace_rel hr
        rw [e1]
        exact hg.cells e2
      refine h1.bind fun r hr => ?_
      have h2 : Same (fun l : List (Option γ) => l.length = r.2.cells.length)
          (updateRay I start (I.mean c) (I.points c) r.1 r.2.cells)
          (updateRay I start (I.mean c) (I.points c) r.1 r.2.cells) := Same.eq rfl fun l hl => updateRay_length hl
      exact h2.bind fun l hl => traceAll_same I start cells (hr.cells hl)
    · exact traceAll_same I start cells hg

theorem mergeTraced_same (I : CellI K γ) (mem : ℕ) {cs : K} {N : ℕ} {n : NGrid K γ} (hg : Good cs N n.grid) (sx sy : K)
    {cells : List γ} (hn : N + cells.length < 2 ^ 64) (hw : ∀ c ∈ cells, Within cs (head (I.mean c))) (resize : Bool) :
    Same (fun n => Good cs (N + cells.length) n.grid) (mergeTraced I mem n sx sy cells resize)
      (NDTGrid.mergeTraced I n sx sy cells resize) := by
  unfold mergeTraced NDTGrid.mergeTraced
  exact (traceAll_same I _ cells hg).bind fun g hg' => mergeCells_same I mem hg' hn hw resize

/-! ### Lemmas: scans -/

theorem near_of_within {cs : K} (hcs : 0 < cs) {p : K × K} (h : Within cs p) : Voxel.Machine.Near cs p := by
  unfold Voxel.Machine.Near
  unfold Within at h
  rw [abs_div, abs_div, abs_of_pos hcs, div_le_iff₀ hcs, div_le_iff₀ hcs]
  constructor <;> nlinarith [h.1, h.2]

theorem modifyCell_same {cs : K} {N : ℕ} {g : Grid K γ} (hg : Good cs N g) {p : K × K} (hp : Within cs p) (f : γ → γ) :
    Same (Good cs N) (modifyCell g p f) (NDTGrid.modifyCell g p f) := by
  unfold modifyCell NDTGrid.modifyCell
  rw [Voxel.Machine.calcIndex_eq hg.fine.small hg.fine.pos (by rw [hg.size]; exact near_of_within hg.pos hp)]
  refine Same.eq rfl fun g' h => ?_
  obtain ⟨idx, -, h⟩ := Res.bind_eq_ok.1 h
  obtain ⟨c, -, h⟩ := Res.bind_eq_ok.1 h
  cases c with
  | none => cases h
  | some c =>
    obtain ⟨l, hl, h⟩ := Res.bind_eq_ok.1 h
    cases h
    unfold writeSlot at hl
    split_ifs at hl
    cases hl
    exact hg.cells (by simp)

theorem addPoint_same (I : CellI K γ) (mem : ℕ) {cs : K} {N : ℕ} {g : Grid K γ} (hg : Good cs N g)
    (hn : N + 1 < 2 ^ 64) {p : Fin 3 → K} (hp : Within cs (head p)) :
    Same (Good cs (N + 1)) (addPoint I mem g p) (NDTGrid.addPoint I g p) := by
  unfold addPoint NDTGrid.addPoint
  rw [Voxel.Machine.cellExists_eq hg.fine]
  refine (Same.eq (P := fun _ => True) rfl fun _ _ => trivial).bind fun e _ => ?_
  split_ifs
  · exact (addCell_same I mem hg hn hp _ _).bind fun g1 h1 => modifyCell_same h1 hp _
  · exact (modifyCell_same hg hp _).mono fun s hs => hs.mono (by omega)

theorem addPoints_same (I : CellI K γ) (mem : ℕ) {cs : K} : ∀ (ps : List (Fin 3 → K)) {N : ℕ} {g : Grid K γ},
    Good cs N g → N + ps.length < 2 ^ 64 → (∀ p ∈ ps, Within cs (head p)) →
    Same (Good cs (N + ps.length)) (addPoints I mem g ps) (NDTGrid.addPoints I g ps)
  | [], _, _, hg, _, _ => Same.ok hg
  | p :: ps, N, g, hg, hn, hw => by
    rw [List.length_cons] at hn
    unfold addPoints NDTGrid.addPoints
    refine (addPoint_same I mem hg (by omega) (hw p List.mem_cons_self)).bind fun g1 h1 => ?_
    refine (addPoints_same I mem ps h1 (by omega) fun q hq => hw q (List.mem_cons_of_mem _ hq)).mono fun s hs =>
      hs.mono ?_
    rw [List.length_cons]; omega

theorem init_good (I : CellI K γ) (ox oy th : K) {cs : K} (hcs : 0 < cs) : Good cs 1 (init I ox oy th cs).grid :=
  ⟨⟨⟨Nat.zero_le _, Nat.zero_le _, Nat.zero_le _, Nat.zero_le _⟩, init_wf I ox oy th cs, hcs⟩, rfl, le_rfl⟩

theorem createGrid_same (I : CellI K γ) (mem : ℕ) (ox oy th : K) {cs : K} (hcs : 0 < cs) {ps : List (Fin 3 → K)}
    (hn : 1 + ps.length < 2 ^ 64) (hw : ∀ p ∈ ps, Within cs (head p)) :
    Same (fun n => Good cs (1 + ps.length) n.grid) (createGrid I mem ox oy th cs ps)
      (NDTGrid.createGrid I ox oy th cs ps) := by
  unfold createGrid NDTGrid.createGrid
  simp only
  obtain ⟨b1, b2⟩ := minMax_within hcs (ps := ps.map head) (by
    intro p hp
    obtain ⟨q, hq, rfl⟩ := List.mem_map.1 hp
    exact hw q hq)
  refine (enlarge_same mem (init_good I ox oy th hcs) b1 b2).bind fun g1 h1 => ?_
  refine (addPoints_same I mem ps h1 hn hw).bind fun g2 h2 => ?_
  exact Same.list (Same.ok (h2.cells (by simp)))

/-- The cells of a scan are computed from points of the scan. -/
theorem createGrid_means {I : CellI K γ} (hI : MeansWithin I) {ox oy th cs : K} (hcs : 0 < cs)
    {ps : List (Fin 3 → K)} (hw : ∀ p ∈ ps, Within cs (head p)) {n : NGrid K γ}
    (h : NDTGrid.createGrid I ox oy th cs ps = .ok n) : ∀ c ∈ getValidCells n.grid, Within cs (head (I.mean c)) := by
  refine (World.createGrid_all (Q := fun c => ∃ l : List (Fin 3 → K), (∀ p ∈ l, p ∈ ps) ∧ c = l.foldl I.addPoint I.default)
    (Q' := fun c => Within cs (head (I.mean c))) ⟨[], by simp, rfl⟩ ps ?_ ?_ hcs h).2.2.2.2.2.2
  · rintro c p hp ⟨l, hl, rfl⟩
    refine ⟨l ++ [p], ?_, by rw [List.foldl_append]; rfl⟩
    intro q hq
    rcases List.mem_append.1 hq with hq | hq
    · exact hl q hq
    · rw [List.mem_singleton.1 hq]; exact hp
  · rintro c ⟨l, hl, rfl⟩
    exact hI l (2 ^ 30 * cs) (by positivity) fun p hp => hw p (hl p hp)

/-- A grid made from a scan has at most one cell per point and the one at the origin. -/
theorem createGrid_count {I : CellI K γ} {ox oy th cs : K} (hcs : 0 < cs) {ps : List (Fin 3 → K)} {n : NGrid K γ}
    (h : NDTGrid.createGrid I ox oy th cs ps = .ok n) : (getValidCells n.grid).length ≤ ps.length + 1 := by
  have key : ∀ (ps : List (Fin 3 → K)) {g g' : Grid K γ}, WF g → 0 < g.cellSize → NDTGrid.addPoints I g ps = .ok g' →
      (getValidCells g').length ≤ (getValidCells g).length + ps.length := by
    intro ps
    induction ps with
    | nil => intro g g' _ _ h; cases h; simp
    | cons p ps ih =>
      intro g g' hwf hpos h
      unfold NDTGrid.addPoints at h
      obtain ⟨g1, h1, h⟩ := Res.bind_eq_ok.1 h
      obtain ⟨w1, c1, -⟩ := World.addPoint_one (Q := fun _ => True) trivial (fun _ _ => trivial) hwf hpos h1
        (fun _ _ => trivial)
      have h2 := ih w1 (by rw [c1]; exact hpos) h
      have hmod : ∀ {g g' : Grid K γ} {f : γ → γ}, NDTGrid.modifyCell g (head p) f = .ok g' →
          (getValidCells g').length = (getValidCells g).length := by
        intro g g' f h
        unfold NDTGrid.modifyCell at h
        obtain ⟨idx, -, h⟩ := Res.bind_eq_ok.1 h
        obtain ⟨c, hc, h⟩ := Res.bind_eq_ok.1 h
        unfold readSlot at hc
        split_ifs at hc with hi
        cases hc
        cases hs : slot g.cells idx with
        | none => rw [hs] at h; cases h
        | some c =>
          rw [hs] at h
          simp only at h
          rw [writeSlot_lt hi, Res.bind_ok] at h
          cases h
          exact (World.set_some hi hs (f c)).2.1
      have h3 : (getValidCells g1).length ≤ (getValidCells g).length + 1 := by
        unfold NDTGrid.addPoint at h1
        obtain ⟨e, -, h1⟩ := Res.bind_eq_ok.1 h1
        split_ifs at h1
        · obtain ⟨g2, h4, h1⟩ := Res.bind_eq_ok.1 h1
          rw [hmod h1]
          obtain ⟨-, -, hs⟩ := World.addCell_stored hwf hpos h4
          rcases hs with ⟨hs, -⟩ | ⟨o, -, hs, -⟩ <;> omega
        · rw [hmod h1]; omega
      rw [List.length_cons]
      omega
  unfold NDTGrid.createGrid at h
  simp only at h
  obtain ⟨g1, h1, h⟩ := Res.bind_eq_ok.1 h
  obtain ⟨g2, h2, h⟩ := Res.bind_eq_ok.1 h
  cases h
  obtain ⟨w1, c1, l1, -⟩ := World.enlarge_stored (init_wf I ox oy th cs) hcs h1
  have h3 := key ps w1 (by rw [c1]; exact hcs) h2
  have h4 : (getValidCells (init I ox oy th cs).grid).length = 1 := rfl
  have h5 : (getValidCells (computeCells I g2)).length = (getValidCells g2).length := by
    rw [length_getValidCells, length_getValidCells]
    unfold stored computeCells
    rw [List.countP_map]
    congr 1
    funext o
    cases o <;> rfl
  show (getValidCells (computeCells I g2)).length ≤ _
  omega

theorem clear_good {cs : K} {N : ℕ} {g : Grid K γ} (h : Good cs N g) : Good cs N (Voxel.clear g) := by
  unfold Voxel.clear
  exact h.cells (by simp)

theorem initScan_same {I : CellI K γ} (hI : MeansWithin I) (mem : ℕ) {cs : K} {N : ℕ} {n : NGrid K γ}
    (hg : Good cs N n.grid) {ps : List (Fin 3 → K)} (hn : N + (ps.length + 1) < 2 ^ 64)
    (hw : ∀ p ∈ ps, Within cs (head p)) (traced : Bool) :
    Same (fun n => Good cs (N + (ps.length + 1)) n.grid) (initScan I mem n ps traced)
      (NDTGrid.initScan I n ps traced) := by
  have hcs := hg.pos
  unfold initScan NDTGrid.initScan
  rw [hg.size]
  refine ((createGrid_same I mem n.ox n.oy n.th hcs (by omega) hw).and (Q := fun scan =>
    (∀ c ∈ getValidCells scan.grid, Within cs (head (I.mean c))) ∧ (getValidCells scan.grid).length ≤ ps.length + 1)
    fun scan hs => ⟨createGrid_means hI hcs hw hs, createGrid_count hcs hs⟩).bind fun scan hs => ?_
  obtain ⟨-, h1, h2⟩ := hs
  refine Same.list ?_
  have hg' := clear_good hg
  split_ifs
  · exact (mergeTraced_same I mem (n := { n with grid := Voxel.clear n.grid }) hg' 0 0 (by omega) h1 true).mono
      fun s hs => hs.mono (by omega)
  · exact (mergeCells_same I mem (n := { n with grid := Voxel.clear n.grid }) hg' (by omega) h1 true).mono
      fun s hs => hs.mono (by omega)

/-! ### Lemmas: moves -/

theorem axisSteps_bound {cs t : K} (hcs : 0 < cs) (h : |t| < 2 ^ 31 * cs) : |axisSteps cs t| < 2 ^ 31 := by
  have h1 : |t / cs| < 2 ^ 31 := by
    rw [abs_div, abs_of_pos hcs, div_lt_iff₀ hcs]; exact h
  rw [abs_lt] at h1
  unfold axisSteps
  split_ifs
  · rw [abs_lt]
    constructor
    · have : ((-2 ^ 31 : ℤ) : K) < t / cs := by push_cast; linarith [h1.1]
      exact this.trans_le (Int.le_ceil _) |> Int.cast_lt.1
    · have h3 : ⌈t / cs⌉ ≤ 0 := Int.ceil_le.2 (by push_cast; linarith)
      omega
  · rw [abs_lt]
    constructor
    · have h3 : 0 ≤ ⌊t / cs⌋ := Int.floor_nonneg.2 (by linarith)
      omega
    · have : (⌊t / cs⌋ : K) < ((2 ^ 31 : ℤ) : K) := (Int.floor_le _).trans_lt (by push_cast; linarith [h1.2])
      exact Int.cast_lt.1 this
  · norm_num

theorem toInt_eq {z : ℤ} (h : |z| < 2 ^ 31) : toInt z = .ok z := by
  rw [abs_lt] at h
  exact if_pos ⟨h.1.le, h.2⟩

theorem move_same (I : CellI K γ) (mem : ℕ) {cs : K} {N : ℕ} {n : NGrid K γ} (hg : Good cs N n.grid) {tx ty : K}
    (h1 : |tx| < 2 ^ 31 * cs) (h2 : |ty| < 2 ^ 31 * cs) :
    Same (fun r => Good cs N r.2.grid) (move I mem n tx ty) (NDTGrid.move I n tx ty) := by
  have hcs := hg.pos
  have hb1 := axisSteps_bound hcs h1
  have hb2 := axisSteps_bound hcs h2
  unfold move NDTGrid.move
  rw [hg.size]
  by_cases hth : |n.th| > 1 / 10000000
  · rw [if_pos hth, if_pos hth]
    exact Same.ok hg
  rw [if_neg hth, if_neg hth, if_neg (fun h => hcs.ne' h.1), if_neg (fun h => hcs.ne' h.1)]
  simp only
  by_cases hc : 0 < ⌊|tx| / cs⌋ ∨ 0 < ⌊|ty| / cs⌋
  · rw [toInt_eq hb1, toInt_eq hb2]
    simp only [Res.bind_ok]
    generalize axisSteps cs tx = mx at *
    generalize axisSteps cs ty = my at *
    rw [abs_lt] at hb1 hb2
    rw [if_pos hc, if_pos hc, Voxel.Machine.int_eq (by omega) (by omega), Voxel.Machine.int_eq (by omega) (by omega)]
    simp only [Res.bind_ok]
    obtain ⟨t1, t2⟩ := Voxel.Machine.translate_eq hg.fine mem (-mx) (-my) true
      ⟨by rw [abs_lt]; omega, by rw [abs_lt]; omega, fun h => by cases h⟩
    have ht : Same (Good cs N) (Voxel.Machine.translate mem n.grid (-mx) (-my) true) (translate n.grid (-mx) (-my) true) := by
      refine ⟨t1, fun g' h => ?_⟩
      obtain ⟨f, v⟩ := t2 g' h
      obtain ⟨g2, e, -, -, -, -, -, c, -⟩ := translate_spec hg.wf (-mx) (-my) true
      rw [h] at e
      cases e
      exact ⟨f, c.trans hg.size, by rw [v]; exact hg.count⟩
    refine ht.bind fun g hg' => Same.list ?_
    have hu := updateMeans_same I mem (P := fun m : NGrid K γ => m = NDTGrid.updateMeans I { n with
        grid := { g with cells := g.cells.map (Option.map (shiftCell I ![-(mx * cs), -(my * cs), 0])) },
        ox := n.ox + mx * cs, oy := n.oy + my * cs }) rfl
    have := hu.bind (f := fun n => Res.ok ((tx - mx * cs, ty - my * cs), n))
      (f' := fun n => Res.ok ((tx - mx * cs, ty - my * cs), n)) (Q := fun r : (K × K) × NGrid K γ => Good cs N r.2.grid)
      fun m hm => Same.ok (by
        rw [hm]
        exact hg'.cells (by simp))
    exact this
  · rw [toInt_eq hb1, toInt_eq hb2]
    simp only [Res.bind_ok]
    rw [if_neg hc, if_neg hc]
    exact Same.ok hg

/-! ### Lemmas: histories -/

theorem exec_same {I : CellI K γ} (hI : MeansWithin I) (mem : ℕ) {cs : K} {N : ℕ} {n : NGrid K γ}
    (hg : Good cs N n.grid) (c : Call K γ) (hn : N + c.size < 2 ^ 64) (hm : Moderate I cs c) :
    Same (fun n => Good cs (N + c.size) n.grid) (exec I mem n c) (c.run I n) := by
  cases c with
  | scan ps traced => exact initScan_same hI mem hg hn hm traced
  | op o =>
    cases o with
    | mergeCells cells resize => exact mergeCells_same I mem hg hn hm resize
    | mergeTraced sx sy cells resize => exact mergeTraced_same I mem hg sx sy hn hm resize
    | move tx ty =>
      have := (move_same I mem hg hm.1 hm.2).bind (f := fun r => Res.ok r.2) (f' := fun r => Res.ok r.2)
        (Q := fun n : NGrid K γ => Good cs N n.grid) fun r hr => Same.ok (P := fun n : NGrid K γ => Good cs N n.grid) hr
      have e : ∀ x : Res ((K × K) × NGrid K γ), x.map Prod.snd = x.bind fun r => Res.ok r.2 := by
        intro x; cases x <;> rfl
      show Same _ ((move I mem n tx ty).map Prod.snd) ((NDTGrid.move I n tx ty).map Prod.snd)
      rw [e, e]
      exact this
    | enlarge a b c d =>
      have := (enlarge_same mem hg hm.1 hm.2).bind (f := fun g => Res.ok { n with grid := g })
        (f' := fun g => Res.ok { n with grid := g }) (Q := fun n : NGrid K γ => Good cs N n.grid) fun g h =>
          Same.ok (P := fun n : NGrid K γ => Good cs N n.grid) h
      have e : ∀ x : Res (Grid K γ), (x.map fun g => { n with grid := g }) = x.bind fun g => Res.ok { n with grid := g } := by
        intro x; cases x <;> rfl
      show Same _ ((Voxel.Machine.enlarge mem n.grid a b c d).map _) ((Voxel.enlarge n.grid a b c d).map _)
      rw [e, e]
      exact this
    | clear => exact Same.ok (clear_good hg)

theorem execAll_same {I : CellI K γ} (hI : MeansWithin I) (mem : ℕ) {cs : K} : ∀ (hist : List (Call K γ)) {N : ℕ}
    {n : NGrid K γ}, Good cs N n.grid → N + (hist.map Call.size).sum < 2 ^ 64 → (∀ c ∈ hist, Moderate I cs c) →
    Same (fun n => Good cs (N + (hist.map Call.size).sum) n.grid) (execAll I mem n hist) (runAll I n hist)
  | [], _, _, hg, _, _ => Same.ok hg
  | c :: hist, N, n, hg, hn, hm => by
    rw [List.map_cons, List.sum_cons] at hn
    unfold execAll runAll
    refine (exec_same hI mem hg c (by omega) (hm c List.mem_cons_self)).bind fun n1 h1 => ?_
    refine (execAll_same hI mem hist h1 (by omega) fun d hd => hm d (List.mem_cons_of_mem _ hd)).mono fun s hs =>
      hs.mono ?_
    rw [List.map_cons, List.sum_cons]; omega

end Verif.NDTGrid.Machine
