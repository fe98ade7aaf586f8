import Verif.Base
import Mathlib.Data.Rat.Floor
import Mathlib.Algebra.Order.Floor.Ring

/-
Model of `VoxelGrid2D` (include/ndt_gslam/ndt/voxel_grid2d.h).

Simplifications common to the file:
* coordinates and the cell size are exact elements of an ordered field `K` with a floor function (the
  rationals in the examples, the reals for the NDT grid); the code mixes `float` and `double`;
* `size_t` is `ℕ` (no overflow of extents, allocation never fails) except for the loop bound of
  `rayTrace`;
* `std::unique_ptr<CellType>` is `Option α`; the null pointer is `none`;
* `cell_size_half_` is always `cell_size_/2` (lines 288-291, 175-179) and is not stored.
-/
namespace Verif.Voxel

open Verif

/-- What the grid needs from `CellType`: its default constructor and `operator+=`
(voxel_grid2d.h:298, 350, 557). -/
structure CellOps (α : Type u) where
  default : α
  merge : α → α → α

/-- `VoxelGrid2D`, members at voxel_grid2d.h:258-263. -/
structure Grid (K : Type v) (α : Type u) where
  cellSize : K
  left : ℕ
  right : ℕ
  up : ℕ
  down : ℕ
  validCells : ℕ
  cells : List (Option α)
  deriving DecidableEq, Repr

set_option linter.unusedSectionVars false

variable {K : Type v} [Field K] [LinearOrder K] [IsStrictOrderedRing K] [FloorRing K] {α : Type u}

namespace Grid

/-- voxel_grid2d.h:191-194 `width()`. -/
def width (g : Grid K α) : ℕ := g.left + g.right + 1

/-- voxel_grid2d.h:195-198 `height()`. -/
def height (g : Grid K α) : ℕ := g.up + g.down + 1

/-- `cell_size_half_` (voxel_grid2d.h:178, 291). -/
def half (g : Grid K α) : K := g.cellSize / 2

end Grid

open Grid

/-- Default constructor, voxel_grid2d.h:288-300: one default cell, counter 1. -/
def init (ops : CellOps α) : Grid K α :=
  { cellSize := 1 / 4, left := 0, right := 0, up := 0, down := 0, validCells := 1,
    cells := [some ops.default] }

/-- `setCellSize`, voxel_grid2d.h:175-179. -/
def setCellSize (g : Grid K α) (cs : K) : Grid K α := { g with cellSize := cs }

/-- `static_cast<size_t>` of a floating value: undefined for a negative value. (The upper limit
2^64 is not modelled here.) -/
def toSizeT (z : ℤ) : Res ℕ := if z < 0 then .ub .badCast else .ok z.toNat

/-- Pointer stored in slot `i`; the callers check the bounds separately. -/
def slot (l : List (Option α)) (i : ℕ) : Option α := (l[i]?).join

/-- `cells_[i].get()`: access past the end is undefined behaviour. -/
def readSlot (l : List (Option α)) (i : ℕ) : Res (Option α) :=
  if i < l.length then .ok (slot l i) else .ub .outOfBounds

/-- `cells_[i].reset(..)` / assignment through the slot: past the end is undefined behaviour. -/
def writeSlot (l : List (Option α)) (i : ℕ) (c : Option α) : Res (List (Option α)) :=
  if i < l.length then .ok (l.set i c) else .ub .outOfBounds

/-- `isInside`, voxel_grid2d.h:391-403. -/
def isInside (g : Grid K α) (p : K × K) : Bool :=
  decide (p.1 ≥ -(g.left : K) * g.cellSize - g.half) &&
  decide (p.1 ≤ (g.right : K) * g.cellSize + g.half) &&
  decide (p.2 ≥ -(g.down : K) * g.cellSize - g.half) &&
  decide (p.2 ≤ (g.up : K) * g.cellSize + g.half)

/-- `calcCoordinates`, voxel_grid2d.h:643-655: (column, row).  A zero cell size makes the quotient
infinite or NaN, whose conversion is undefined. -/
def calcCoordinates (g : Grid K α) (p : K × K) : Res (ℕ × ℕ) :=
  if g.cellSize = 0 then .ub .badCast else
  (toSizeT ⌊(p.1 + g.cellSize * g.left + g.half) / g.cellSize⌋).bind fun col =>
  (toSizeT ⌊(-p.2 + g.cellSize * g.up + g.half) / g.cellSize⌋).bind fun row =>
  .ok (col, row)

/-- `calcIndex(coords)`, voxel_grid2d.h:635-641. -/
def indexOf (g : Grid K α) (c : ℕ × ℕ) : ℕ := c.2 * g.width + c.1

/-- `calcIndex(pt)`, voxel_grid2d.h:629-633. -/
def calcIndex (g : Grid K α) (p : K × K) : Res ℕ := (calcCoordinates g p).map (indexOf g)

/-- `calcIncLeft`, voxel_grid2d.h:668-675. -/
def calcIncLeft (g : Grid K α) (x : K) : Res ℕ :=
  let minx := -(g.left : K) * g.cellSize - g.half
  if x < minx then (if g.cellSize = 0 then .ub .badCast else toSizeT ⌈(minx - x) / g.cellSize⌉)
  else .ok 0

/-- `calcIncRight`, voxel_grid2d.h:677-684. -/
def calcIncRight (g : Grid K α) (x : K) : Res ℕ :=
  let maxx := (g.right : K) * g.cellSize + g.half
  if x > maxx then (if g.cellSize = 0 then .ub .badCast else toSizeT ⌈(x - maxx) / g.cellSize⌉)
  else .ok 0

/-- `calcIncUp`, voxel_grid2d.h:686-693. -/
def calcIncUp (g : Grid K α) (y : K) : Res ℕ :=
  let maxy := (g.up : K) * g.cellSize + g.half
  if y > maxy then (if g.cellSize = 0 then .ub .badCast else toSizeT ⌈(y - maxy) / g.cellSize⌉)
  else .ok 0

/-- `calcIncDown`, voxel_grid2d.h:695-702. -/
def calcIncDown (g : Grid K α) (y : K) : Res ℕ :=
  let miny := -(g.down : K) * g.cellSize - g.half
  if y < miny then (if g.cellSize = 0 then .ub .badCast else toSizeT ⌈(miny - y) / g.cellSize⌉)
  else .ok 0

/-- State of the copying loop of `enlargeGrid` (voxel_grid2d.h:716-735). -/
structure EnlargeState (α : Type u) where
  large : List (Option α)
  wUsed : ℕ
  offsetX : ℕ
  /-- some write went past the end of `large_grid` -/
  oob : Bool

/-- One iteration of the copying loop, voxel_grid2d.h:720-735. -/
def enlargeStep (cells : List (Option α)) (w newW left right up : ℕ) (s : EnlargeState α) (i : ℕ) :
    EnlargeState α :=
  let newIndex :=
    if 0 < up ∧ left = 0 then i + up * newW + s.offsetX
    else if up = 0 ∧ left = 0 then i + s.offsetX
    else i + up * newW + left + s.offsetX
  let large := s.large.set newIndex (slot cells i)
  let oob := s.oob || decide (s.large.length ≤ newIndex)
  if s.wUsed + 1 = w then ⟨large, 0, s.offsetX + (right + left), oob⟩
  else ⟨large, s.wUsed + 1, s.offsetX, oob⟩

/-- `enlargeGrid`, voxel_grid2d.h:704-741.  A write `large_grid[new_index]` past the end is undefined
behaviour (flag `oob`). -/
def enlargeGrid (g : Grid K α) (left right up down : ℕ) : Res (Grid K α) :=
  if left + right + up + down = 0 then .ok g else
  let newSize := (g.width + left + right) * (g.height + up + down)
  let newW := g.width + left + right
  let fin := (List.range g.cells.length).foldl
    (enlargeStep g.cells g.width newW left right up) ⟨List.replicate newSize none, 0, 0, false⟩
  if fin.oob then .ub .outOfBounds else
  .ok { g with
    cells := fin.large
    up := g.up + up
    down := g.down + down
    left := g.left + left
    right := g.right + right }

/-- `enlarge`, voxel_grid2d.h:124-128. -/
def enlarge (g : Grid K α) (minx miny maxx maxy : K) : Res (Grid K α) :=
  (calcIncLeft g minx).bind fun l =>
  (calcIncRight g maxx).bind fun r =>
  (calcIncUp g maxy).bind fun u =>
  (calcIncDown g miny).bind fun d =>
  enlargeGrid g l r u d

/-- `enlargeToFit`, voxel_grid2d.h:657-666. -/
def enlargeToFit (g : Grid K α) (p : K × K) : Res (Grid K α) :=
  if isInside g p then .ok g else
  (calcIncLeft g p.1).bind fun l =>
  (calcIncRight g p.1).bind fun r =>
  (calcIncUp g p.2).bind fun u =>
  (calcIncDown g p.2).bind fun d =>
  enlargeGrid g l r u d

/-- `addCell`, voxel_grid2d.h:336-355 (the rvalue overload 357-377 differs only in moving the
argument). -/
def addCell (ops : CellOps α) (g : Grid K α) (p : K × K) (c : α) (merging : Bool) : Res (Grid K α) :=
  (enlargeToFit g p).bind fun g =>
  (calcIndex g p).bind fun idx =>
  (readSlot g.cells idx).bind fun old =>
  match old with
  | none =>
    (writeSlot g.cells idx (some c)).bind fun cells =>
    .ok { g with cells := cells, validCells := g.validCells + 1 }
  | some o =>
    (writeSlot g.cells idx (some (if merging then ops.merge o c else c))).bind fun cells =>
    .ok { g with cells := cells }

/-- State change of the success path of `removeCell`, voxel_grid2d.h:384-388 (the decrement of the
`size_t` counter is modulo 2^64). -/
def removeCellEffect (g : Grid K α) (p : K × K) : Res (Grid K α) :=
  (calcIndex g p).bind fun idx =>
  (readSlot g.cells idx).bind fun old =>
  let n := if old.isSome then (g.validCells + (2 ^ 64 - 1)) % 2 ^ 64 else g.validCells
  (writeSlot g.cells idx none).bind fun cells =>
  .ok { g with cells := cells, validCells := n }

/-- `removeCell`, voxel_grid2d.h:379-389.  There is no `return` after line 388: on the success path
control flows off the end of a function returning `bool`. -/
def removeCell (g : Grid K α) (p : K × K) : Res (Bool × Grid K α) :=
  if isInside g p then (removeCellEffect g p).bind fun _ => .ub .missingReturn
  else .ok (false, g)

/-- `cellExists`, voxel_grid2d.h:444-452. -/
def cellExists (g : Grid K α) (p : K × K) : Res Bool :=
  if isInside g p then
    (calcIndex g p).bind fun idx => (readSlot g.cells idx).map Option.isSome
  else .ok false

/-- `getCellPtr`, voxel_grid2d.h:460-464. -/
def getCellPtr (g : Grid K α) (p : K × K) : Res (Option α) :=
  (calcIndex g p).bind fun idx => readSlot g.cells idx

/-- `operator[]`, voxel_grid2d.h:454-458: dereferences without a check. -/
def getCell (g : Grid K α) (p : K × K) : Res α :=
  (getCellPtr g p).bind fun
    | some c => .ok c
    | none => .ub .nullDeref

/-- `cells_[idx].get()` for a list of indices, keeping the non-null pointers with their slot number
(the pointer identity). -/
def collect (g : Grid K α) : List ℕ → Res (List (ℕ × α))
  | [] => .ok []
  | i :: is =>
    (readSlot g.cells i).bind fun c =>
    (collect g is).bind fun rest =>
    .ok (match c with
      | some a => (i, a) :: rest
      | none => rest)

/-- `getNeighbors`, voxel_grid2d.h:405-442.  A pointer in the result is represented by slot number
and cell value. -/
def getNeighbors (g : Grid K α) (p : K × K) (radius : ℕ) : Res (List (ℕ × α)) :=
  if !isInside g p then .ok [] else
  if radius = 0 then
    (cellExists g p).bind fun e =>
    if e then (calcIndex g p).bind fun idx => collect g [idx] else .ok []
  else
    (calcCoordinates g p).bind fun c =>
    let left := c.1 - radius            -- clamped at 0, lines 419-421
    let up := c.2 - radius              -- clamped at 0, lines 422-424
    let right := min (c.1 + radius + 1) g.width
    let down := min (c.2 + radius + 1) g.height
    collect g ((List.range' up (down - up)).flatMap fun row =>
      (List.range' left (right - left)).map fun col => indexOf g (col, row))

/-- `getValidCells` / `getValidCellsPtr`, voxel_grid2d.h:481-507. -/
def getValidCells (g : Grid K α) : List α := g.cells.filterMap id

/-- `clear`, voxel_grid2d.h:600-606: the counter is not touched. -/
def clear (g : Grid K α) : Grid K α := { g with cells := g.cells.map fun _ => none }

/-- State of the loops of `moveLeft`/`moveRight` (voxel_grid2d.h:751-753, 778-780). -/
structure MoveState (α : Type u) where
  cells : List (Option α)
  used : ℕ
  unused : ℕ

/-- `cells_[dst] = std::move(cells_[src])`: the source becomes null. -/
def moveSlot (l : List (Option α)) (dst src : ℕ) : List (Option α) :=
  (l.set src none).set dst (slot l src)

/-- One iteration of `moveLeft`, voxel_grid2d.h:754-767. -/
def moveLeftStep (move good : ℕ) (s : MoveState α) (i : ℕ) : MoveState α :=
  let idx := i + move
  if idx < s.cells.length ∧ s.used < good ∧ s.unused = 0 then
    ⟨moveSlot s.cells i idx, s.used + 1, 0⟩
  else
    ⟨s.cells.set i none, 0, if s.unused + 1 = move then 0 else s.unused + 1⟩

/-- `moveLeft`, voxel_grid2d.h:743-768. -/
def moveLeft (g : Grid K α) (move : ℕ) : Grid K α :=
  if move = 0 then g else
  let m := if move > g.width then g.width else move
  { g with cells := ((List.range g.cells.length).foldl (moveLeftStep m (g.width - m))
      ⟨g.cells, 0, 0⟩).cells }

/-- One iteration of `moveRight`, voxel_grid2d.h:781-794. -/
def moveRightStep (move good : ℕ) (s : MoveState α) (i : ℕ) : MoveState α :=
  if move ≤ i ∧ s.used < good ∧ s.unused = 0 then
    ⟨moveSlot s.cells i (i - move), s.used + 1, 0⟩
  else
    ⟨s.cells.set i none, 0, if s.unused + 1 = move then 0 else s.unused + 1⟩

/-- `moveRight`, voxel_grid2d.h:770-795 (the loop counts down). -/
def moveRight (g : Grid K α) (move : ℕ) : Grid K α :=
  if move = 0 then g else
  let m := if move > g.width then g.width else move
  { g with cells := ((List.range g.cells.length).reverse.foldl (moveRightStep m (g.width - m))
      ⟨g.cells, 0, 0⟩).cells }

/-- One iteration of `moveUp`, voxel_grid2d.h:806-813. -/
def moveUpStep (move width : ℕ) (cells : List (Option α)) (i : ℕ) : List (Option α) :=
  let idx := i + move * width
  if idx < cells.length then moveSlot cells i idx else cells.set i none

/-- `moveUp`, voxel_grid2d.h:797-814. -/
def moveUp (g : Grid K α) (move : ℕ) : Grid K α :=
  if move = 0 then g else
  let m := if move > g.height then g.height else move
  { g with cells := (List.range g.cells.length).foldl (moveUpStep m g.width) g.cells }

/-- One iteration of `moveDown`, voxel_grid2d.h:825-833. -/
def moveDownStep (move width : ℕ) (cells : List (Option α)) (i : ℕ) : List (Option α) :=
  if move * width ≤ i then moveSlot cells i (i - move * width) else cells.set i none

/-- `moveDown`, voxel_grid2d.h:816-834 (the loop counts down). -/
def moveDown (g : Grid K α) (move : ℕ) : Grid K α :=
  if move = 0 then g else
  let m := if move > g.height then g.height else move
  { g with cells := (List.range g.cells.length).reverse.foldl (moveDownStep m g.width) g.cells }

/-- `translate`, voxel_grid2d.h:576-598. -/
def translate (g : Grid K α) (tx ty : ℤ) (discard : Bool) : Res (Grid K α) :=
  let left := if tx < 0 then tx.natAbs else 0
  let right := if tx < 0 then 0 else tx.toNat
  let down := if ty < 0 then (ty * -1).toNat else 0
  let up := if ty < 0 then 0 else ty.toNat
  (if discard then .ok g else enlargeGrid g left right up down).map fun g =>
    moveDown (moveUp (moveRight (moveLeft g left) right) up) down

/-- Result of the walk of `rayTrace`: visited slots in order, and the cells (missing cells are
created). -/
structure RayState (α : Type u) where
  cells : List (Option α)
  visited : List ℕ

/-- voxel_grid2d.h:547-550, 556-559: create the missing cell and append the pointer. -/
def rayVisit (ops : CellOps α) (s : RayState α) (idx : ℕ) : Res (RayState α) :=
  (readSlot s.cells idx).bind fun c =>
  match c with
  | some _ => .ok ⟨s.cells, s.visited ++ [idx]⟩
  | none => (writeSlot s.cells idx (some ops.default)).bind fun cells =>
      .ok ⟨cells, s.visited ++ [idx]⟩

/-- The loop of `rayTrace`, voxel_grid2d.h:552-567, with `n` iterations left, at point `p`. -/
def rayLoop (ops : CellOps α) (g : Grid K α) (delta : K × K) :
    ℕ → (p : K × K) → (idxOld idxCur : ℕ) → RayState α → Res (RayState α)
  | 0, _, _, _, s => .ok s
  | n + 1, p, idxOld, idxCur, s =>
    (if idxCur ≠ idxOld then rayVisit ops s idxCur else .ok s).bind fun s =>
    let p' : K × K := (p.1 + delta.1, p.2 + delta.2)
    if p'.1 ≥ (g.right : K) * g.cellSize + g.half ∨ p'.1 ≤ -(g.left : K) * g.cellSize - g.half ∨
       p'.2 ≥ (g.up : K) * g.cellSize + g.half ∨ p'.2 ≤ -(g.down : K) * g.cellSize - g.half
    then .ok s
    else (calcIndex g p').bind fun idx => rayLoop ops g delta n p' idxCur idx s

/-- Number of loop iterations, voxel_grid2d.h:552: `2 * static_cast<size_t>(floor(length)) - 1` in
64-bit unsigned arithmetic; `length` beyond the range of `size_t` is undefined. -/
def rayBound (length : K) : Res ℕ :=
  (toSizeT ⌊length⌋).bind fun n =>
  if 2 ^ 64 ≤ n then .ub .badCast else .ok ((2 * n + (2 ^ 64 - 1)) % 2 ^ 64)

/-- `rayTrace(start, end)`, voxel_grid2d.h:512-570.  If start and end coincide, `delta` is `0/0`
(NaN): all comparisons of line 563 are false and line 566 converts NaN to `size_t`. -/
def rayTrace (ops : CellOps α) (g : Grid K α) (start stop : K × K) : Res (List ℕ × Grid K α) :=
  if !isInside g start then .ok ([], g) else
  if g.cellSize = 0 then .ub .badCast else
  let lengthX := |stop.1 - start.1| / g.cellSize
  let lengthY := |stop.2 - start.2| / g.cellSize
  let length := max lengthX lengthY
  (calcIndex g start).bind fun idx =>
  (rayVisit ops ⟨g.cells, []⟩ idx).bind fun s =>
  if length = 0 then .ub .badCast else
  let delta : K × K :=
    ((stop.1 - start.1) / length * (1 / 2), (stop.2 - start.2) / length * (1 / 2))
  (rayBound length).bind fun n =>
  (rayLoop ops g delta n start idx idx s).bind fun s =>
  .ok (s.visited, { g with cells := s.cells })

/-- Copy constructor, voxel_grid2d.h:302-318: `resize(n)` creates `n` null slots and then `n` copies
are appended; `*cell` is dereferenced without a check. -/
def copy (g : Grid K α) : Res (Grid K α) :=
  if g.cells.all Option.isSome then
    .ok { g with cells := List.replicate g.cells.length none ++ g.cells }
  else .ub .nullDeref

/-- `clone`, voxel_grid2d.h:328-334: a fresh grid of the same cell size. -/
def clone (ops : CellOps α) (g : Grid K α) : Grid K α := setCellSize (init ops) g.cellSize

end Verif.Voxel
