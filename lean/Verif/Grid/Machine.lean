import Verif.Grid.Model

/-
`VoxelGrid2D` (include/ndt_gslam/ndt/voxel_grid2d.h) with the integers of the machine: `size_t` is a number below 2^64
and its arithmetic is modulo 2^64, `long` has 64 bits and `int` 32 bits with overflow as undefined behaviour, and a
container cannot have more than `mem` elements (`resize` throws).  Coordinates and the cell size remain exact elements of
an ordered field.  The structure of the functions is that of `Grid/Model.lean`.
-/
namespace Verif.Voxel.Machine

open Verif Verif.Voxel

set_option linter.unusedSectionVars false

variable {K : Type v} [Field K] [LinearOrder K] [IsStrictOrderedRing K] [FloorRing K] {α : Type u}

/-! ### Integers -/

/-- `a + b` of `size_t`. -/
def add64 (a b : ℕ) : ℕ := (a + b) % 2 ^ 64

/-- `a * b` of `size_t`. -/
def mul64 (a b : ℕ) : ℕ := (a * b) % 2 ^ 64

/-- `a - b` of `size_t`. -/
def sub64 (a b : ℕ) : ℕ := (a + (2 ^ 64 - b)) % 2 ^ 64

/-- `static_cast<long>` of a `size_t` (two's complement). -/
def toLong (a : ℕ) : ℤ := if a < 2 ^ 63 then a else a - 2 ^ 64

/-- Conversion of a `long` to `size_t`. -/
def ofLong (z : ℤ) : ℕ := (z % 2 ^ 64).toNat

/-- Result of an operation on `long`. -/
def long (z : ℤ) : Res ℤ := if -2 ^ 63 ≤ z ∧ z < 2 ^ 63 then .ok z else .ub .overflow

/-- Result of an operation on `int`. -/
def int (z : ℤ) : Res ℤ := if -2 ^ 31 ≤ z ∧ z < 2 ^ 31 then .ok z else .ub .overflow

/-- `static_cast<size_t>` of a floating value. -/
def toSizeT64 (z : ℤ) : Res ℕ := if z < 0 ∨ 2 ^ 64 ≤ z then .ub .badCast else .ok z.toNat

/-- A `for` loop whose body can be undefined. -/
def loop {σ : Type w} (f : σ → ℕ → Res σ) : List ℕ → σ → Res σ
  | [], s => .ok s
  | i :: is, s => (f s i).bind fun s => loop f is s

/-- The values of `for (long i = n - 1; i >= 0; --i)` for a `size_t` `n`, voxel_grid2d.h:781, 825. -/
def downFrom (n : ℕ) : List ℕ := (List.range (toLong (sub64 n 1) + 1).toNat).reverse

/-! ### Addresses -/

/-- voxel_grid2d.h:191-194 `width()`. -/
def width (g : Grid K α) : ℕ := add64 (add64 g.left g.right) 1

/-- voxel_grid2d.h:195-198 `height()`. -/
def height (g : Grid K α) : ℕ := add64 (add64 g.up g.down) 1

/-- `calcCoordinates`, voxel_grid2d.h:643-655. -/
def calcCoordinates (g : Grid K α) (p : K × K) : Res (ℕ × ℕ) :=
  if g.cellSize = 0 then .ub .badCast else
  (toSizeT64 ⌊(p.1 + g.cellSize * g.left + g.half) / g.cellSize⌋).bind fun col =>
  (toSizeT64 ⌊(-p.2 + g.cellSize * g.up + g.half) / g.cellSize⌋).bind fun row =>
  .ok (col, row)

/-- `calcIndex(coords)`, voxel_grid2d.h:635-641. -/
def indexOf (g : Grid K α) (c : ℕ × ℕ) : ℕ := add64 (mul64 c.2 (width g)) c.1

/-- `calcIndex(pt)`, voxel_grid2d.h:629-633. -/
def calcIndex (g : Grid K α) (p : K × K) : Res ℕ := (calcCoordinates g p).map (indexOf g)

/-! ### Growing -/

/-- `calcIncLeft`, voxel_grid2d.h:668-675. -/
def calcIncLeft (g : Grid K α) (x : K) : Res ℕ :=
  let minx := -(g.left : K) * g.cellSize - g.half
  if x < minx then (if g.cellSize = 0 then .ub .badCast else toSizeT64 ⌈(minx - x) / g.cellSize⌉)
  else .ok 0

/-- `calcIncRight`, voxel_grid2d.h:677-684. -/
def calcIncRight (g : Grid K α) (x : K) : Res ℕ :=
  let maxx := (g.right : K) * g.cellSize + g.half
  if x > maxx then (if g.cellSize = 0 then .ub .badCast else toSizeT64 ⌈(x - maxx) / g.cellSize⌉)
  else .ok 0

/-- `calcIncUp`, voxel_grid2d.h:686-693. -/
def calcIncUp (g : Grid K α) (y : K) : Res ℕ :=
  let maxy := (g.up : K) * g.cellSize + g.half
  if y > maxy then (if g.cellSize = 0 then .ub .badCast else toSizeT64 ⌈(y - maxy) / g.cellSize⌉)
  else .ok 0

/-- `calcIncDown`, voxel_grid2d.h:695-702. -/
def calcIncDown (g : Grid K α) (y : K) : Res ℕ :=
  let miny := -(g.down : K) * g.cellSize - g.half
  if y < miny then (if g.cellSize = 0 then .ub .badCast else toSizeT64 ⌈(miny - y) / g.cellSize⌉)
  else .ok 0

/-- `new_index` of the copying loop, voxel_grid2d.h:721-728. -/
def newIndex (newW left up offsetX i : ℕ) : ℕ :=
  if 0 < up ∧ left = 0 then add64 (add64 i (mul64 up newW)) offsetX
  else if up = 0 ∧ left = 0 then add64 i offsetX
  else add64 (add64 (add64 i (mul64 up newW)) left) offsetX

/-- One iteration of the copying loop, voxel_grid2d.h:720-735.  A write past the end is undefined behaviour. -/
def enlargeStep (cells : List (Option α)) (w newW left right up : ℕ) (s : EnlargeState α) (i : ℕ) :
    Res (EnlargeState α) :=
  (writeSlot s.large (newIndex newW left up s.offsetX i) (slot cells i)).bind fun large =>
  .ok (if add64 s.wUsed 1 = w then ⟨large, 0, add64 s.offsetX (add64 right left), s.oob⟩
    else ⟨large, add64 s.wUsed 1, s.offsetX, s.oob⟩)

/-- `enlargeGrid`, voxel_grid2d.h:704-741.  `resize` throws if the container cannot have that many elements. -/
def enlargeGrid (mem : ℕ) (g : Grid K α) (left right up down : ℕ) : Res (Grid K α) :=
  if add64 (add64 (add64 left right) up) down = 0 then .ok g else
  let newW := add64 (add64 (width g) left) right
  let newSize := mul64 newW (add64 (add64 (height g) up) down)
  if mem < newSize then .throw .badAlloc else
  (loop (enlargeStep g.cells (width g) newW left right up) (List.range g.cells.length)
    ⟨List.replicate newSize none, 0, 0, false⟩).bind fun fin =>
  .ok { g with
    cells := fin.large
    up := add64 g.up up
    down := add64 g.down down
    left := add64 g.left left
    right := add64 g.right right }

/-- `enlarge`, voxel_grid2d.h:124-128. -/
def enlarge (mem : ℕ) (g : Grid K α) (minx miny maxx maxy : K) : Res (Grid K α) :=
  (calcIncLeft g minx).bind fun l =>
  (calcIncRight g maxx).bind fun r =>
  (calcIncUp g maxy).bind fun u =>
  (calcIncDown g miny).bind fun d =>
  enlargeGrid mem g l r u d

/-- `enlargeToFit`, voxel_grid2d.h:657-666. -/
def enlargeToFit (mem : ℕ) (g : Grid K α) (p : K × K) : Res (Grid K α) :=
  if isInside g p then .ok g else enlarge mem g p.1 p.2 p.1 p.2

/-- `addCell`, voxel_grid2d.h:336-355. -/
def addCell (ops : CellOps α) (mem : ℕ) (g : Grid K α) (p : K × K) (c : α) (merging : Bool) : Res (Grid K α) :=
  (enlargeToFit mem g p).bind fun g =>
  (calcIndex g p).bind fun idx =>
  (readSlot g.cells idx).bind fun old =>
  match old with
  | none =>
    (writeSlot g.cells idx (some c)).bind fun cells =>
    .ok { g with cells := cells, validCells := add64 g.validCells 1 }
  | some o =>
    (writeSlot g.cells idx (some (if merging then ops.merge o c else c))).bind fun cells =>
    .ok { g with cells := cells }

/-- `removeCell`, voxel_grid2d.h:379-389. -/
def removeCell (g : Grid K α) (p : K × K) : Res (Bool × Grid K α) :=
  if isInside g p then
    (calcIndex g p).bind fun idx =>
    (readSlot g.cells idx).bind fun _ =>
    (writeSlot g.cells idx none).bind fun _ => .ub .missingReturn
  else .ok (false, g)

/-! ### Moving -/

/-- One iteration of `moveLeft`, voxel_grid2d.h:754-767.  `idx < cells_.size()` compares in `size_t`. -/
def moveLeftStep (move good : ℕ) (s : MoveState α) (i : ℕ) : Res (MoveState α) :=
  (long (toLong i + toLong move)).bind fun idx =>
  .ok (if ofLong idx < s.cells.length ∧ s.used < good ∧ s.unused = 0 then
      ⟨moveSlot s.cells i (ofLong idx), add64 s.used 1, 0⟩
    else
      ⟨s.cells.set i none, 0, if add64 s.unused 1 = move then 0 else add64 s.unused 1⟩)

/-- `moveLeft`, voxel_grid2d.h:743-768. -/
def moveLeft (g : Grid K α) (move : ℕ) : Res (Grid K α) :=
  if move = 0 then .ok g else
  let m := if move > width g then width g else move
  (loop (moveLeftStep m (sub64 (width g) m)) (List.range g.cells.length) ⟨g.cells, 0, 0⟩).bind fun s =>
  .ok { g with cells := s.cells }

/-- One iteration of `moveRight`, voxel_grid2d.h:781-794. -/
def moveRightStep (move good : ℕ) (s : MoveState α) (i : ℕ) : Res (MoveState α) :=
  (long (i - toLong move)).bind fun idx =>
  .ok (if 0 ≤ idx ∧ s.used < good ∧ s.unused = 0 then
      ⟨moveSlot s.cells i (ofLong idx), add64 s.used 1, 0⟩
    else
      ⟨s.cells.set i none, 0, if add64 s.unused 1 = move then 0 else add64 s.unused 1⟩)

/-- `moveRight`, voxel_grid2d.h:770-795. -/
def moveRight (g : Grid K α) (move : ℕ) : Res (Grid K α) :=
  if move = 0 then .ok g else
  let m := if move > width g then width g else move
  (loop (moveRightStep m (sub64 (width g) m)) (downFrom g.cells.length) ⟨g.cells, 0, 0⟩).bind fun s =>
  .ok { g with cells := s.cells }

/-- One iteration of `moveUp`, voxel_grid2d.h:806-813. -/
def moveUpStep (move width : ℕ) (cells : List (Option α)) (i : ℕ) : Res (List (Option α)) :=
  let idx := add64 i (mul64 move width)
  .ok (if idx < cells.length then moveSlot cells i idx else cells.set i none)

/-- `moveUp`, voxel_grid2d.h:797-814. -/
def moveUp (g : Grid K α) (move : ℕ) : Res (Grid K α) :=
  if move = 0 then .ok g else
  let m := if move > height g then height g else move
  (loop (moveUpStep m (width g)) (List.range g.cells.length) g.cells).bind fun cells =>
  .ok { g with cells := cells }

/-- One iteration of `moveDown`, voxel_grid2d.h:825-833. -/
def moveDownStep (move width : ℕ) (cells : List (Option α)) (i : ℕ) : Res (List (Option α)) :=
  (long (toLong move * toLong width)).bind fun k =>
  (long (i - k)).bind fun idx =>
  .ok (if 0 ≤ idx then moveSlot cells i (ofLong idx) else cells.set i none)

/-- `moveDown`, voxel_grid2d.h:816-834. -/
def moveDown (g : Grid K α) (move : ℕ) : Res (Grid K α) :=
  if move = 0 then .ok g else
  let m := if move > height g then height g else move
  (loop (moveDownStep m (width g)) (downFrom g.cells.length) g.cells).bind fun cells =>
  .ok { g with cells := cells }

/-- `translate`, voxel_grid2d.h:576-598.  `tx` and `ty` are values of type `int`; `std::abs` and the product with -1 can
overflow. -/
def translate (mem : ℕ) (g : Grid K α) (tx ty : ℤ) (discard : Bool) : Res (Grid K α) :=
  (if tx < 0 then int (-tx) else .ok 0).bind fun left =>
  let right := if tx < 0 then 0 else tx
  (if ty < 0 then int (ty * -1) else .ok 0).bind fun down =>
  let up := if ty < 0 then 0 else ty
  (if discard then .ok g else enlargeGrid mem g (ofLong left) (ofLong right) (ofLong up) (ofLong down)).bind fun g =>
  (moveLeft g (ofLong left)).bind fun g =>
  (moveRight g (ofLong right)).bind fun g =>
  (moveUp g (ofLong up)).bind fun g =>
  moveDown g (ofLong down)

/-! ### Rays -/

/-- The loop of `rayTrace`, voxel_grid2d.h:552-567. -/
def rayLoop (ops : CellOps α) (g : Grid K α) (delta : K × K) :
    ℕ → (p : K × K) → (idxOld idxCur : ℕ) → RayState α → Res (RayState α)
  | 0, _, _, _, s => .ok s
  | n + 1, p, idxOld, idxCur, s =>
    (if idxCur ≠ idxOld then rayVisit ops s idxCur else .ok s).bind fun s =>
    let p' : K × K := (p.1 + delta.1, p.2 + delta.2)
    if p'.1 ≥ (g.right : K) * g.cellSize + g.half ∨ p'.1 ≤ -(g.left : K) * g.cellSize - g.half ∨
       p'.2 ≥ (g.up : K) * g.cellSize + g.half ∨ p'.2 ≤ -(g.down : K) * g.cellSize - g.half
    then .ok s
    else (calcIndex g p').bind fun idx => rayLoop ops g delta n p' idxCur idx s

/-- `rayTrace(start, end)`, voxel_grid2d.h:512-570; the number of passes (`rayBound`) is modulo 2^64 in both models. -/
def rayTrace (ops : CellOps α) (g : Grid K α) (start stop : K × K) : Res (List ℕ × Grid K α) :=
  if !isInside g start then .ok ([], g) else
  if g.cellSize = 0 then .ub .badCast else
  let lengthX := |stop.1 - start.1| / g.cellSize
  let lengthY := |stop.2 - start.2| / g.cellSize
  let length := max lengthX lengthY
  (calcIndex g start).bind fun idx =>
  (rayVisit ops ⟨g.cells, []⟩ idx).bind fun s =>
  if length = 0 then .ub .badCast else
  let delta : K × K :=
    ((stop.1 - start.1) / length * (1 / 2), (stop.2 - start.2) / length * (1 / 2))
  (rayBound length).bind fun n =>
  (rayLoop ops g delta n start idx idx s).bind fun s =>
  .ok (s.visited, { g with cells := s.cells })

/-! ### Queries -/

/-- `cellExists`, voxel_grid2d.h:444-452. -/
def cellExists (g : Grid K α) (p : K × K) : Res Bool :=
  if isInside g p then
    (calcIndex g p).bind fun idx => (readSlot g.cells idx).map Option.isSome
  else .ok false

/-- `getCellPtr`, voxel_grid2d.h:460-464. -/
def getCellPtr (g : Grid K α) (p : K × K) : Res (Option α) :=
  (calcIndex g p).bind fun idx => readSlot g.cells idx

/-- First row or column of the neighbourhood, voxel_grid2d.h:419-424, 431-432. -/
def windowStart (c radius : ℕ) : Res ℕ :=
  (long (toLong c - toLong radius)).bind fun z => .ok (ofLong (if z < 0 then 0 else z))

/-- Last row or column plus one, voxel_grid2d.h:425-430. -/
def windowEnd (c radius size : ℕ) : ℕ := min (add64 (add64 c radius) 1) size

/-- `getNeighbors`, voxel_grid2d.h:405-442. -/
def getNeighbors (g : Grid K α) (p : K × K) (radius : ℕ) : Res (List (ℕ × α)) :=
  if !isInside g p then .ok [] else
  if radius = 0 then
    (cellExists g p).bind fun e =>
    if e then (calcIndex g p).bind fun idx => collect g [idx] else .ok []
  else
    (calcCoordinates g p).bind fun c =>
    (windowStart c.1 radius).bind fun left =>
    (windowStart c.2 radius).bind fun up =>
    let right := windowEnd c.1 radius (width g)
    let down := windowEnd c.2 radius (height g)
    collect g ((List.range' up (down - up)).flatMap fun row =>
      (List.range' left (right - left)).map fun col => indexOf g (col, row))

end Verif.Voxel.Machine
