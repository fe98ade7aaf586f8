import Verif.Grid.Model
import Mathlib.Data.Fin.VecNotation

/-
Model of `NDTGrid2D<CellType, PointType>` (include/ndt_gslam/ndt/ndt_grid2d.h), and of the parts of
`NDTMapper` (include/ndt_gslam/ndt/ndt_mapper.h) and `point_cloud_tools.h` it needs.

The class is a template in the cell type; the model is parametric in an interface `CellI` of the cell
(`Verif.NDTGrid.Real` instantiates it with the model of `NDTCell`).

Simplifications common to the file:
* exact arithmetic, as in `Verif.Grid.Model` (the code stores cell sizes, bounds and the means cloud in
  `float`);
* `cell_size_` of the NDT grid and of the voxel grid are always set together (ndt_grid2d.h:449, 461 and
  `setCellSize`), so only the latter is stored;
* `kdtree_` is not stored: the search tree is always rebuilt from `means_` (`updateKDTree`,
  ndt_grid2d.h:424-428); its answers are an arbitrary parameter of `kNearest`;
* rigid transforms between frames are applied by the caller (`Verif.Pose` models them): functions here
  receive the cells already expressed in the frame of the grid.
-/
namespace Verif.NDTGrid

open Verif Verif.Voxel

set_option linter.unusedSectionVars false

/-- What the grid needs from `CellType`. -/
structure CellI (K : Type v) (γ : Type u) extends CellOps γ where
  /-- `getMean()` -/
  mean : γ → Fin 3 → K
  /-- `setMean(m)` -/
  setMean : γ → (Fin 3 → K) → γ
  /-- `hasGaussian()` -/
  gaussian : γ → Bool
  /-- `points()` -/
  points : γ → ℕ
  /-- `getOccupancyRaw()`; `none` is NaN -/
  occ : γ → Option K
  /-- `updateOccupancy(start, end, points)` -/
  ray : γ → (Fin 3 → K) → (Fin 3 → K) → ℕ → Res γ
  /-- `addPoint(p)` -/
  addPoint : γ → (Fin 3 → K) → γ
  /-- `computeGaussian()` -/
  compute : γ → γ

variable {K : Type v} [Field K] [LinearOrder K] [IsStrictOrderedRing K] [FloorRing K] {γ : Type u}

/-- `NDTGrid2D`, members at ndt_grid2d.h:412-418.  `means_` is a null pointer after the second
constructor (452-462) until the first merge; that state is the empty list here. -/
structure NGrid (K : Type v) (γ : Type u) where
  ox : K
  oy : K
  th : K
  initialized : Bool
  timestamp : K
  grid : Grid K γ
  means : List (Fin 3 → K)

/-- `.head(2)` of a three-dimensional vector. -/
def head (v : Fin 3 → K) : K × K := (v 0, v 1)

/-- Constructors, ndt_grid2d.h:439-462, followed by `setCellSize`. -/
def init (I : CellI K γ) (ox oy th cs : K) : NGrid K γ :=
  { ox := ox, oy := oy, th := th, initialized := false, timestamp := 0,
    grid := Voxel.setCellSize (Voxel.init I.toCellOps) cs, means := [] }

/-- `getGaussianCells`, ndt_grid2d.h:754-765. -/
def gaussianCells (I : CellI K γ) (g : Grid K γ) : List γ := (getValidCells g).filter I.gaussian

/-- `updateMeansCloud`, ndt_grid2d.h:981-994 (and `updateKDTree`). -/
def updateMeans (I : CellI K γ) (n : NGrid K γ) : NGrid K γ :=
  { n with means := (gaussianCells I n.grid).map I.mean }

/-- Accumulated bounds: minx, miny, maxx, maxy. -/
structure Bounds (K : Type v) where
  minx : K
  miny : K
  maxx : K
  maxy : K

/-- One iteration of `getMinMax2D` / `getMinMaxNDT2D`, point_cloud_tools.h:37-46, 54-64. -/
def boundsStep (b : Bounds K) (p : K × K) : Bounds K :=
  { minx := if p.1 < b.minx then p.1 else b.minx
    maxx := if p.1 > b.maxx then p.1 else b.maxx
    miny := if p.2 < b.miny then p.2 else b.miny
    maxy := if p.2 > b.maxy then p.2 else b.maxy }

/-- `getMinMax2D` / `getMinMaxNDT2D`, point_cloud_tools.h:32-65: the bounds start at zero. -/
def minMax (ps : List (K × K)) : Bounds K := ps.foldl boundsStep ⟨0, 0, 0, 0⟩

/-- Loop of the resizing branch of `mergeIn`, ndt_grid2d.h:504-508: cells with a Gaussian replace
what is stored. -/
def overwriteAll (I : CellI K γ) (g : Grid K γ) : List γ → Res (Grid K γ)
  | [] => .ok g
  | c :: cs =>
    if I.gaussian c then
      (addCell I.toCellOps g (head (I.mean c)) c false).bind fun g => overwriteAll I g cs
    else overwriteAll I g cs

/-- Loop of the other branch of `mergeIn`, ndt_grid2d.h:510-515: cells with a Gaussian and inside the
grid are merged. -/
def mergeInside (I : CellI K γ) (g : Grid K γ) : List γ → Res (Grid K γ)
  | [] => .ok g
  | c :: cs =>
    if I.gaussian c then
      if isInside g (head (I.mean c)) then
        (addCell I.toCellOps g (head (I.mean c)) c true).bind fun g => mergeInside I g cs
      else mergeInside I g cs
    else mergeInside I g cs

/-- `mergeIn(const std::vector<CellType>&, resize)`, ndt_grid2d.h:492-519. -/
def mergeCells (I : CellI K γ) (n : NGrid K γ) (cells : List γ) (resize : Bool) : Res (NGrid K γ) :=
  if resize || !n.initialized then
    let b := minMax (cells.map fun c => head (I.mean c))
    (enlarge n.grid b.minx b.miny b.maxx b.maxy).bind fun g =>
    (overwriteAll I g cells).bind fun g =>
    .ok (updateMeans I { n with initialized := true, grid := g })
  else
    (mergeInside I n.grid cells).bind fun g => .ok (updateMeans I { n with grid := g })

/-- `ray_cell->updateOccupancy(..)` through the pointers returned by `rayTrace`, ndt_grid2d.h:585-588. -/
def updateRay (I : CellI K γ) (start stop : Fin 3 → K) (pts : ℕ) :
    List ℕ → List (Option γ) → Res (List (Option γ))
  | [], cells => .ok cells
  | i :: is, cells =>
    (readSlot cells i).bind fun c =>
    match c with
    | none => .ub .nullDeref
    | some c =>
      (I.ray c start stop pts).bind fun c' =>
      (writeSlot cells i (some c')).bind fun cells =>
      updateRay I start stop pts is cells

/-- Loop of `mergeInTraced`, ndt_grid2d.h:578-590. -/
def traceAll (I : CellI K γ) (start : Fin 3 → K) (g : Grid K γ) : List γ → Res (Grid K γ)
  | [] => .ok g
  | c :: cs =>
    if I.gaussian c then
      (rayTrace I.toCellOps g (head start) (head (I.mean c))).bind fun r =>
      (updateRay I start (I.mean c) (I.points c) r.1 r.2.cells).bind fun cells =>
      traceAll I start { r.2 with cells := cells } cs
    else traceAll I start g cs

/-- `mergeInTraced(grid, transform, resize)`, ndt_grid2d.h:561-595, for the cells of the incoming grid
in the frame of this grid; `(sx, sy)` is the origin of the incoming grid in this frame (line 569, 575). -/
def mergeTraced (I : CellI K γ) (n : NGrid K γ) (sx sy : K) (cells : List γ) (resize : Bool) :
    Res (NGrid K γ) :=
  (traceAll I ![sx, sy, 0] n.grid cells).bind fun g =>
  mergeCells I { n with grid := g } cells resize

/-- `grid_[p].f(..)`: `operator[]` dereferences without a check (voxel_grid2d.h:454-458). -/
def modifyCell (g : Grid K γ) (p : K × K) (f : γ → γ) : Res (Grid K γ) :=
  (calcIndex g p).bind fun idx =>
  (readSlot g.cells idx).bind fun c =>
  match c with
  | none => .ub .nullDeref
  | some c => (writeSlot g.cells idx (some (f c))).bind fun cells => .ok { g with cells := cells }

/-- `addPoint`, ndt_grid2d.h:611-623. -/
def addPoint (I : CellI K γ) (g : Grid K γ) (p : Fin 3 → K) : Res (Grid K γ) :=
  (cellExists g (head p)).bind fun e =>
  if !e then
    (addCell I.toCellOps g (head p) I.default false).bind fun g =>
    modifyCell g (head p) fun c => I.addPoint c p
  else modifyCell g (head p) fun c => I.addPoint c p

/-- The loop over the points in `createGrid`, ndt_grid2d.h:909-913. -/
def addPoints (I : CellI K γ) (g : Grid K γ) : List (Fin 3 → K) → Res (Grid K γ)
  | [] => .ok g
  | p :: ps => (addPoint I g p).bind fun g => addPoints I g ps

/-- `computeNDTCells`, ndt_grid2d.h:625-631. -/
def computeCells (I : CellI K γ) (g : Grid K γ) : Grid K γ :=
  { g with cells := g.cells.map (Option.map I.compute) }

/-- `createGrid`, ndt_grid2d.h:899-920, for the points that are not NaN (the others are skipped at
910-911; `createGridF` in NDTGrid/Nan.lean is the function on all clouds, including points of which only
some coordinates are NaN). -/
def createGrid (I : CellI K γ) (ox oy th cs : K) (ps : List (Fin 3 → K)) : Res (NGrid K γ) :=
  let n := init I ox oy th cs
  let b := minMax (ps.map head)
  (enlarge n.grid b.minx b.miny b.maxx b.maxy).bind fun g =>
  (addPoints I g ps).bind fun g =>
  .ok { n with grid := computeCells I g }

/-- `initialize` (ndt_grid2d.h:597-602) and, with `traced = false`, `initializeSimple` (604-609), for a
scan in the frame of the grid.  Both convert the points with `transBtwFrames(origin_, origin_)`, which is
the identity (`Verif.Pose`), so the origin of the scan is `(0, 0)`.  Only the voxel grid is cleared. -/
def initScan (I : CellI K γ) (n : NGrid K γ) (ps : List (Fin 3 → K)) (traced : Bool) :
    Res (NGrid K γ) :=
  (createGrid I n.ox n.oy n.th n.grid.cellSize ps).bind fun scan =>
  let n := { n with grid := Voxel.clear n.grid }
  if traced then mergeTraced I n 0 0 (getValidCells scan.grid) true
  else mergeCells I n (getValidCells scan.grid) true

/-- Squared planar distance (`norm() <= radius` is tested in squared form). -/
def dist2 (a b : K × K) : K := (a.1 - b.1) ^ 2 + (a.2 - b.2) ^ 2

/-- `getNeighbors`, ndt_grid2d.h:633-658. -/
def neighbours (I : CellI K γ) (n : NGrid K γ) (p : K × K) (radius : K) : Res (List (ℕ × γ)) :=
  if radius ≤ 0 then
    (getNeighbors n.grid p 0).map fun l => l.filter fun x => I.gaussian x.2
  else if n.grid.cellSize = 0 then .ub .badCast
  else
    (toSizeT ⌈radius / n.grid.cellSize⌉).bind fun w =>
    (getNeighbors n.grid p w).map fun l =>
      l.filter fun x => I.gaussian x.2 && decide (dist2 (head (I.mean x.2)) p ≤ radius ^ 2)

/-- Values pushed by `createOccupancyGrid` (comparison with NaN is false), ndt_grid2d.h:729-736. -/
def occValue (I : CellI K γ) : Option γ → ℤ
  | none => -1
  | some c => match I.occ c with
    | none => 0
    | some o => if o > 4 / 5 then 99 else 0

/-- `OccupancyGrid` as filled by `createOccupancyGrid`: width, height, resolution, corner in the grid
frame, cells. -/
structure OccMsg (K : Type v) where
  width : ℕ
  height : ℕ
  resolution : K
  corner : K × K
  cells : List ℤ

/-- `createOccupancyGrid`, ndt_grid2d.h:712-738; the corner is given in the frame of the grid (the code
then applies the pose of the grid, 718-721). -/
def occupancyGrid (I : CellI K γ) (n : NGrid K γ) : OccMsg K :=
  { width := n.grid.width, height := n.grid.height, resolution := n.grid.cellSize,
    corner := (-(n.grid.left : K) * n.grid.cellSize, n.grid.up * n.grid.cellSize),
    cells := n.grid.cells.map (occValue I) }

/-- Corner computed by `serialize`, ndt_grid2d.h:863-864, in the frame of the grid: `left()` is a
`size_t`, so its negation wraps modulo 2^64 before the multiplication. -/
def serializeCorner (g : Grid K γ) : K × K :=
  (((2 ^ 64 - g.left) % 2 ^ 64 : ℕ) * g.cellSize, g.up * g.cellSize)

/-- `createCoarserGrid`, ndt_grid2d.h:740-752. -/
def coarser (I : CellI K γ) (n : NGrid K γ) (cs : K) : Res (NGrid K γ) :=
  let cs := if cs < n.grid.cellSize then n.grid.cellSize else cs
  mergeCells I (init I 0 0 0 cs) (getValidCells n.grid) true

/-- Discrete steps of `move` along one axis, ndt_grid2d.h:807-812, 818-823. -/
def axisSteps (cs t : K) : ℤ :=
  if 0 < ⌊|t| / cs⌋ then (if t / cs < 0 then ⌈t / cs⌉ else ⌊t / cs⌋) else 0

/-- `cell->setMean(cell->getMean() + d)` for the cells with a Gaussian, ndt_grid2d.h:837-845. -/
def shiftCell (I : CellI K γ) (d : Fin 3 → K) (c : γ) : γ :=
  if I.gaussian c then I.setMean c (I.mean c + d) else c

/-- `move`, ndt_grid2d.h:789-857, for the translation part `(tx, ty)` of the argument (its rotation is
returned unchanged).  The steps are converted to `int`; their range is not modelled. -/
def move (I : CellI K γ) (n : NGrid K γ) (tx ty : K) : Res ((K × K) × NGrid K γ) :=
  if |n.th| > 1 / 10000000 then .ok ((tx, ty), n)
  else if n.grid.cellSize = 0 ∧ (tx ≠ 0 ∨ ty ≠ 0) then .ub .badCast
  else
    let cs := n.grid.cellSize
    let mx := axisSteps cs tx
    let my := axisSteps cs ty
    if 0 < ⌊|tx| / cs⌋ ∨ 0 < ⌊|ty| / cs⌋ then
      (translate n.grid (-mx) (-my) true).bind fun g =>
      let g := { g with cells := g.cells.map (Option.map (shiftCell I ![-(mx * cs), -(my * cs), 0])) }
      .ok ((tx - mx * cs, ty - my * cs),
        updateMeans I { n with grid := g, ox := n.ox + mx * cs, oy := n.oy + my * cs })
    else .ok ((tx, ty), n)

/-- `clear`, ndt_grid2d.h:392-396: the means cloud (and the search tree) stay. -/
def clear (n : NGrid K γ) : NGrid K γ :=
  { n with grid := Voxel.clear n.grid, initialized := false }

/-- Body of the loop of `getKNearestNeighborsKDTree`, ndt_grid2d.h:974-977, for the indices returned by
the search tree; `means_->at(id)` throws for a bad index.  A null pointer in the result is `none`. -/
def kNearest (n : NGrid K γ) : List ℕ → Res (List (Option γ))
  | [] => .ok []
  | i :: is =>
    match n.means[i]? with
    | none => .throw .outOfRange
    | some m =>
      (getCellPtr n.grid (head m)).bind fun c =>
      (kNearest n is).bind fun cs => .ok (c :: cs)

/-! ### The mapper -/

/-- A frame held by the mapper, as `addToMap` sees it: origin and cells in the frame of the map. -/
structure Frame (K : Type v) (γ : Type u) where
  sx : K
  sy : K
  cells : List γ

/-- `addToMap`, ndt_mapper.h:198-202. -/
def addToMap (I : CellI K γ) (m : NGrid K γ) (f : Frame K γ) : Res (NGrid K γ) :=
  mergeTraced I m f.sx f.sy f.cells true

/-- `addToMap` for a list of frames in order. -/
def addAll (I : CellI K γ) (m : NGrid K γ) : List (Frame K γ) → Res (NGrid K γ)
  | [] => .ok m
  | f :: fs => (addToMap I m f).bind fun m => addAll I m fs

/-- State of the mapper: map and stored frames (identified by their timestamps), ndt_mapper.h:104-111. -/
structure Mapper (K : Type v) (γ : Type u) where
  map : NGrid K γ
  frames : List K

/-- `addFrame`, ndt_mapper.h:132-154.  Frames are shared with the rest of the program, which may change
their poses later; the state keeps only the timestamp `k`, `view k` is the frame at the time of the
call. -/
def addFrame (I : CellI K γ) (view : K → Frame K γ) (m : Mapper K γ) (k : K) : Res (Mapper K γ) :=
  (addToMap I m.map (view k)).bind fun map => .ok ⟨map, m.frames ++ [k]⟩

/-- A sequence of `addFrame` calls. -/
def addFrames (I : CellI K γ) (view : K → Frame K γ) (m : Mapper K γ) : List K → Res (Mapper K γ)
  | [] => .ok m
  | k :: ks => (addFrame I view m k).bind fun m => addFrames I view m ks

/-- Constructor of the mapper, ndt_mapper.h:119-130. -/
def Mapper.init (I : CellI K γ) : Mapper K γ := ⟨NDTGrid.init I 0 0 0 (1 / 4), []⟩

/-- `recalc`, ndt_mapper.h:182-196: sort by timestamp (`operator<`, ndt_grid2d.h:232-235), clear, merge all
frames again.  `std::sort` need not be stable; the order of equal timestamps is not used. -/
def recalc (I : CellI K γ) (view : K → Frame K γ) (m : Mapper K γ) : Res (Mapper K γ) :=
  let sorted := m.frames.mergeSort (fun a b => decide (a ≤ b))
  (addAll I (clear m.map) (sorted.map view)).bind fun map => .ok ⟨map, sorted⟩

end Verif.NDTGrid
