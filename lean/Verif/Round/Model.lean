import Verif.NDTGrid.Model
import Mathlib.Data.Int.Log

/-
The addressing of `VoxelGrid2D` (include/ndt_gslam/ndt/voxel_grid2d.h) and the parts of `NDTGrid2D`
(include/ndt_gslam/ndt/ndt_grid2d.h) that depend on it, with the rounding of `float` and `double`.

`Verif.Grid.Model` and `Verif.NDTGrid.Model` compute in an exact field.  Here every arithmetic operation of
the source is followed by the rounding to the type in which C++ evaluates it: an operation on a `size_t` or
`float` and a `float` is evaluated in `float`, an operation with at least one `double` in `double`
(`FLT_EVAL_METHOD` 0).

Simplifications common to the file:
* rounding is an arbitrary pair of functions; overflow to infinity and NaN are not modelled;
* `cell_size_` is a `float` already; half of it is exact;
* what happens inside a cell (its mean, its merging) is an arbitrary parameter, as in `Verif.NDTGrid.Model`.
-/
namespace Verif.Round

open Verif Verif.Voxel Verif.NDTGrid

set_option linter.unusedSectionVars false

/-- Rounding to `float` (`s`) and to `double` (`d`). -/
structure Fmt (K : Type v) where
  s : K → K
  d : K → K

variable {K : Type v} [Field K] [LinearOrder K] [IsStrictOrderedRing K] [FloorRing K] {α γ : Type u}

/-- `static_cast<float>(n) * cell_size_ + cell_size_half_`, computed in `float`: right and upper bound at
voxel_grid2d.h:395, 399, 679, 688. -/
def boundS (F : Fmt K) (cs : K) (n : ℕ) : K := F.s (F.s (F.s n * cs) + cs / 2)

/-- `-static_cast<float>(n) * cell_size_ - cell_size_half_`: left and lower bound at voxel_grid2d.h:670,
697. -/
def lowS (F : Fmt K) (cs : K) (n : ℕ) : K := F.s (F.s (-F.s n * cs) - cs / 2)

/-- `-static_cast<double>(n) * cell_size_ - cell_size_half_`: left and lower bound at voxel_grid2d.h:394,
397-398. -/
def lowD (F : Fmt K) (cs : K) (n : ℕ) : K := F.d (F.d (-F.d n * cs) - cs / 2)

/-- `isInside`, voxel_grid2d.h:390-403. -/
def isInside (F : Fmt K) (g : Grid K α) (p : K × K) : Bool :=
  decide (p.1 ≥ lowD F g.cellSize g.left) && decide (p.1 ≤ boundS F g.cellSize g.right) &&
  decide (p.2 ≥ lowD F g.cellSize g.down) && decide (p.2 ≤ boundS F g.cellSize g.up)

/-- One coordinate of `calcCoordinates`, voxel_grid2d.h:648-653: the shift `cell_size_ * n` is a `float`, the
rest is computed in `double`. -/
def coordinate (F : Fmt K) (cs : K) (n : ℕ) (x : K) : ℤ :=
  ⌊F.d (F.d (F.d (x + F.s (cs * F.s n)) + cs / 2) / cs)⌋

/-- `calcCoordinates`, voxel_grid2d.h:643-655. -/
def calcCoordinates (F : Fmt K) (g : Grid K α) (p : K × K) : Res (ℕ × ℕ) :=
  if g.cellSize = 0 then .ub .badCast else
  (toSizeT (coordinate F g.cellSize g.left p.1)).bind fun col =>
  (toSizeT (coordinate F g.cellSize g.up (-p.2))).bind fun row =>
  .ok (col, row)

/-- `calcIndex(pt)`, voxel_grid2d.h:629-633. -/
def calcIndex (F : Fmt K) (g : Grid K α) (p : K × K) : Res ℕ := (calcCoordinates F g p).map (indexOf g)

/-- `calcIncRight`, `calcIncUp`, voxel_grid2d.h:677-693, for `n` squares on that side; `x` is a `float`. -/
def incAbove (F : Fmt K) (cs : K) (n : ℕ) (x : K) : Res ℕ :=
  if x > boundS F cs n then
    (if cs = 0 then .ub .badCast else toSizeT ⌈F.s (F.s (x - boundS F cs n) / cs)⌉)
  else .ok 0

/-- `calcIncLeft`, `calcIncDown`, voxel_grid2d.h:668-675, 695-702, for `n` squares on that side; `x` is a
`float`. -/
def incBelow (F : Fmt K) (cs : K) (n : ℕ) (x : K) : Res ℕ :=
  if x < lowS F cs n then
    (if cs = 0 then .ub .badCast else toSizeT ⌈F.s (F.s (lowS F cs n - x) / cs)⌉)
  else .ok 0

/-- `enlarge(float, float, float, float)`, voxel_grid2d.h:124-128. -/
def enlarge (F : Fmt K) (g : Grid K α) (minx miny maxx maxy : K) : Res (Grid K α) :=
  (incBelow F g.cellSize g.left minx).bind fun l =>
  (incAbove F g.cellSize g.right maxx).bind fun r =>
  (incAbove F g.cellSize g.up maxy).bind fun u =>
  (incBelow F g.cellSize g.down miny).bind fun d =>
  enlargeGrid g l r u d

/-- `enlargeToFit`, voxel_grid2d.h:657-666: the coordinates are converted to `float` at the calls. -/
def enlargeToFit (F : Fmt K) (g : Grid K α) (p : K × K) : Res (Grid K α) :=
  if isInside F g p then .ok g else enlarge F g (F.s p.1) (F.s p.2) (F.s p.1) (F.s p.2)

/-- `addCell`, voxel_grid2d.h:336-355. -/
def addCell (F : Fmt K) (ops : CellOps α) (g : Grid K α) (p : K × K) (c : α) (merging : Bool) :
    Res (Grid K α) :=
  (enlargeToFit F g p).bind fun g =>
  (calcIndex F g p).bind fun idx =>
  (readSlot g.cells idx).bind fun old =>
  match old with
  | none =>
    (writeSlot g.cells idx (some c)).bind fun cells =>
    .ok { g with cells := cells, validCells := g.validCells + 1 }
  | some o =>
    (writeSlot g.cells idx (some (if merging then ops.merge o c else c))).bind fun cells =>
    .ok { g with cells := cells }

/-- `cellExists`, voxel_grid2d.h:444-452. -/
def cellExists (F : Fmt K) (g : Grid K α) (p : K × K) : Res Bool :=
  if isInside F g p then
    (calcIndex F g p).bind fun idx => (readSlot g.cells idx).map Option.isSome
  else .ok false

/-- `getCellPtr`, voxel_grid2d.h:460-464. -/
def getCellPtr (F : Fmt K) (g : Grid K α) (p : K × K) : Res (Option α) :=
  (calcIndex F g p).bind fun idx => readSlot g.cells idx

/-- `getNeighbors`, voxel_grid2d.h:405-442. -/
def getNeighbors (F : Fmt K) (g : Grid K α) (p : K × K) (radius : ℕ) : Res (List (ℕ × α)) :=
  if !isInside F g p then .ok [] else
  if radius = 0 then
    (cellExists F g p).bind fun e =>
    if e then (calcIndex F g p).bind fun idx => collect g [idx] else .ok []
  else
    (calcCoordinates F g p).bind fun c =>
    let left := c.1 - radius
    let up := c.2 - radius
    let right := min (c.1 + radius + 1) g.width
    let down := min (c.2 + radius + 1) g.height
    collect g ((List.range' up (down - up)).flatMap fun row =>
      (List.range' left (right - left)).map fun col => indexOf g (col, row))

/-- The loop of `rayTrace`, voxel_grid2d.h:552-567; `minx` and `miny` are computed in `double`, `maxx` and
`maxy` in `float` (521-526). -/
def rayLoop (F : Fmt K) (ops : CellOps α) (g : Grid K α) (delta : K × K) :
    ℕ → (p : K × K) → (idxOld idxCur : ℕ) → RayState α → Res (RayState α)
  | 0, _, _, _, s => .ok s
  | n + 1, p, idxOld, idxCur, s =>
    (if idxCur ≠ idxOld then rayVisit ops s idxCur else .ok s).bind fun s =>
    let p' : K × K := (F.d (p.1 + delta.1), F.d (p.2 + delta.2))
    if p'.1 ≥ boundS F g.cellSize g.right ∨ p'.1 ≤ lowD F g.cellSize g.left ∨
       p'.2 ≥ boundS F g.cellSize g.up ∨ p'.2 ≤ lowD F g.cellSize g.down
    then .ok s
    else (calcIndex F g p').bind fun idx => rayLoop F ops g delta n p' idxCur idx s

/-- `length_x`, `length_y`, voxel_grid2d.h:537-538. -/
def rayLength (F : Fmt K) (cs a b : K) : K := F.d (|F.d (b - a)| / cs)

/-- A component of `delta`, voxel_grid2d.h:539-542. -/
def rayDelta (F : Fmt K) (length a b : K) : K := F.d (F.d (F.d (b - a) / length) * (1 / 2))

/-- `rayTrace(start, end)`, voxel_grid2d.h:512-570. -/
def rayTrace (F : Fmt K) (ops : CellOps α) (g : Grid K α) (start stop : K × K) :
    Res (List ℕ × Grid K α) :=
  if !isInside F g start then .ok ([], g) else
  if g.cellSize = 0 then .ub .badCast else
  let length := max (rayLength F g.cellSize start.1 stop.1) (rayLength F g.cellSize start.2 stop.2)
  (calcIndex F g start).bind fun idx =>
  (rayVisit ops ⟨g.cells, []⟩ idx).bind fun s =>
  if length = 0 then .ub .badCast else
  let delta : K × K := (rayDelta F length start.1 stop.1, rayDelta F length start.2 stop.2)
  (rayBound length).bind fun n =>
  (rayLoop F ops g delta n start idx idx s).bind fun s =>
  .ok (s.visited, { g with cells := s.cells })

/-! ### The NDT grid -/

/-- `updateMeansCloud`, ndt_grid2d.h:981-994: the points of the cloud have `float` coordinates. -/
def updateMeans (F : Fmt K) (I : CellI K γ) (n : NGrid K γ) : NGrid K γ :=
  { n with means := (gaussianCells I n.grid).map fun c i => F.s (I.mean c i) }

/-- One iteration of `getMinMaxNDT2D` with `float` bounds, point_cloud_tools.h:54-64: a `double` is compared
with a `float` and then converted. -/
def boundsStep (F : Fmt K) (b : Bounds K) (p : K × K) : Bounds K :=
  { minx := if p.1 < b.minx then F.s p.1 else b.minx
    maxx := if p.1 > b.maxx then F.s p.1 else b.maxx
    miny := if p.2 < b.miny then F.s p.2 else b.miny
    maxy := if p.2 > b.maxy then F.s p.2 else b.maxy }

/-- `getMinMaxNDT2D`, point_cloud_tools.h:49-65. -/
def minMax (F : Fmt K) (ps : List (K × K)) : Bounds K := ps.foldl (boundsStep F) ⟨0, 0, 0, 0⟩

/-- Loop of the resizing branch of `mergeIn`, ndt_grid2d.h:504-508. -/
def overwriteAll (F : Fmt K) (I : CellI K γ) (g : Grid K γ) : List γ → Res (Grid K γ)
  | [] => .ok g
  | c :: cs =>
    if I.gaussian c then
      (addCell F I.toCellOps g (head (I.mean c)) c false).bind fun g => overwriteAll F I g cs
    else overwriteAll F I g cs

/-- Loop of the other branch of `mergeIn`, ndt_grid2d.h:510-515. -/
def mergeInside (F : Fmt K) (I : CellI K γ) (g : Grid K γ) : List γ → Res (Grid K γ)
  | [] => .ok g
  | c :: cs =>
    if I.gaussian c then
      if isInside F g (head (I.mean c)) then
        (addCell F I.toCellOps g (head (I.mean c)) c true).bind fun g => mergeInside F I g cs
      else mergeInside F I g cs
    else mergeInside F I g cs

/-- `mergeIn(const std::vector<CellType>&, resize)`, ndt_grid2d.h:492-519. -/
def mergeCells (F : Fmt K) (I : CellI K γ) (n : NGrid K γ) (cells : List γ) (resize : Bool) :
    Res (NGrid K γ) :=
  if resize || !n.initialized then
    let b := minMax F (cells.map fun c => head (I.mean c))
    (enlarge F n.grid b.minx b.miny b.maxx b.maxy).bind fun g =>
    (overwriteAll F I g cells).bind fun g =>
    .ok (updateMeans F I { n with initialized := true, grid := g })
  else
    (mergeInside F I n.grid cells).bind fun g => .ok (updateMeans F I { n with grid := g })

/-- `grid_[p].f(..)`, voxel_grid2d.h:454-458. -/
def modifyCell (F : Fmt K) (g : Grid K γ) (p : K × K) (f : γ → γ) : Res (Grid K γ) :=
  (calcIndex F g p).bind fun idx =>
  (readSlot g.cells idx).bind fun c =>
  match c with
  | none => .ub .nullDeref
  | some c => (writeSlot g.cells idx (some (f c))).bind fun cells => .ok { g with cells := cells }

/-- `addPoint`, ndt_grid2d.h:611-623. -/
def addPoint (F : Fmt K) (I : CellI K γ) (g : Grid K γ) (p : Fin 3 → K) : Res (Grid K γ) :=
  (cellExists F g (head p)).bind fun e =>
  if !e then
    (addCell F I.toCellOps g (head p) I.default false).bind fun g =>
    modifyCell F g (head p) fun c => I.addPoint c p
  else modifyCell F g (head p) fun c => I.addPoint c p

/-- The loop over the points in `createGrid`, ndt_grid2d.h:909-913. -/
def addPoints (F : Fmt K) (I : CellI K γ) (g : Grid K γ) : List (Fin 3 → K) → Res (Grid K γ)
  | [] => .ok g
  | p :: ps => (addPoint F I g p).bind fun g => addPoints F I g ps

/-- `createGrid`, ndt_grid2d.h:899-920, for points with `float` coordinates that are not NaN: `getMinMax2D`
compares and copies `float`s, so its bounds are exact. -/
def createGrid (F : Fmt K) (I : CellI K γ) (ox oy th cs : K) (ps : List (Fin 3 → K)) : Res (NGrid K γ) :=
  let n := NDTGrid.init I ox oy th cs
  let b := NDTGrid.minMax (ps.map head)
  (enlarge F n.grid b.minx b.miny b.maxx b.maxy).bind fun g =>
  (addPoints F I g ps).bind fun g =>
  .ok { n with grid := computeCells I g }

/-- Body of the loop of `getKNearestNeighborsKDTree`, ndt_grid2d.h:974-977, for the indices returned by the
search tree: the cell is looked up at the position in the (rounded) means cloud. -/
def kNearest (F : Fmt K) (n : NGrid K γ) : List ℕ → Res (List (Option γ))
  | [] => .ok []
  | i :: is =>
    match n.means[i]? with
    | none => .throw .outOfRange
    | some m =>
      (getCellPtr F n.grid (head m)).bind fun c =>
      (kNearest F n is).bind fun cs => .ok (c :: cs)

/-- Is there a move along this axis?  ndt_grid2d.h:806, 817. -/
def moves (F : Fmt K) (cs t : K) : Prop := 0 < ⌊F.d (|t| / cs)⌋

instance (F : Fmt K) (cs t : K) : Decidable (moves F cs t) :=
  inferInstanceAs (Decidable (0 < ⌊F.d (|t| / cs)⌋))

/-- Discrete steps of `move` along one axis, ndt_grid2d.h:806-812, 817-823. -/
def axisSteps (F : Fmt K) (cs t : K) : ℤ :=
  if moves F cs t then (if F.d (t / cs) < 0 then ⌈F.d (t / cs)⌉ else ⌊F.d (t / cs)⌋) else 0

/-- `continuous_move(i) = move(i) * cell_size_`, a product of `int` and `float`, ndt_grid2d.h:813, 824. -/
def travelled (F : Fmt K) (cs t : K) : K :=
  if moves F cs t then F.s (F.s (axisSteps F cs t : K) * cs) else 0

/-- What is left of the motion along one axis, ndt_grid2d.h:815, 826. -/
def rest (F : Fmt K) (cs t : K) : K := if moves F cs t then F.d (t - travelled F cs t) else t

/-- `cell->setMean(cell->getMean() + Vector3d(-cx, -cy, 0))`, ndt_grid2d.h:837-845. -/
def shiftCell (F : Fmt K) (I : CellI K γ) (cx cy : K) (c : γ) : γ :=
  if I.gaussian c then I.setMean c ![F.d (I.mean c 0 + -cx), F.d (I.mean c 1 + -cy), F.d (I.mean c 2 + 0)]
  else c

/-- `move`, ndt_grid2d.h:789-857, for the translation part `(tx, ty)` of the argument. -/
def move (F : Fmt K) (I : CellI K γ) (n : NGrid K γ) (tx ty : K) : Res ((K × K) × NGrid K γ) :=
  if |n.th| > 1 / 10000000 then .ok ((tx, ty), n)
  else if n.grid.cellSize = 0 ∧ (tx ≠ 0 ∨ ty ≠ 0) then .ub .badCast
  else
    let cs := n.grid.cellSize
    if moves F cs tx ∨ moves F cs ty then
      (translate n.grid (-axisSteps F cs tx) (-axisSteps F cs ty) true).bind fun g =>
      let g := { g with cells := g.cells.map (Option.map (shiftCell F I (travelled F cs tx)
        (travelled F cs ty))) }
      .ok ((rest F cs tx, rest F cs ty), updateMeans F I { n with
        grid := g, ox := F.d (n.ox + travelled F cs tx), oy := F.d (n.oy + travelled F cs ty) })
    else .ok ((tx, ty), n)

/-- A sequence of moves. -/
def moveAll (F : Fmt K) (I : CellI K γ) (n : NGrid K γ) : List (K × K) → Res (NGrid K γ)
  | [] => .ok n
  | t :: ts => (move F I n t.1 t.2).bind fun x => moveAll F I x.2 ts

/-! ### Binary formats -/

/-- Rounding to `b` binary digits (24 for `float`, 53 for `double`); exponents are unbounded and ties go up
(the code rounds ties to even). -/
def binary (b : ℕ) (x : K) : K :=
  if x = 0 then 0 else
    let ulp : K := 2 ^ (Int.log 2 |x| + 1 - b)
    round (x / ulp) * ulp

/-- `float` and `double`. -/
def ieee : Fmt K := ⟨binary 24, binary 53⟩

end Verif.Round
