import Verif.Grid.Model

/-
Specification side of the voxel grid: a grid is a partial map from integer squares of the plane to
cells.  Square `(X, Y)` is centred at `(X * cellSize, Y * cellSize)`; columns grow to the right
(+x), rows grow downwards (-y).
-/
namespace Verif.Voxel

set_option linter.unusedSectionVars false

variable {K : Type v} [Field K] [LinearOrder K] [IsStrictOrderedRing K] [FloorRing K] {α : Type u}

/-- Index of the square of side `cs` (centred on multiples of `cs`) that contains `p`. Squares are
closed on the left and top side, open on the right and bottom side. -/
def squareOf (cs : K) (p : K × K) : ℤ × ℤ := (⌊p.1 / cs + 1 / 2⌋, ⌈p.2 / cs - 1 / 2⌉)

/-- The square lies in the extent of the grid. -/
def InExtent (g : Grid K α) (q : ℤ × ℤ) : Prop :=
  -(g.left : ℤ) ≤ q.1 ∧ q.1 ≤ g.right ∧ -(g.down : ℤ) ≤ q.2 ∧ q.2 ≤ g.up

instance (g : Grid K α) (q : ℤ × ℤ) : Decidable (InExtent g q) := by
  unfold InExtent; infer_instance

/-- Row-major slot number of a square of the extent. -/
def slotNo (g : Grid K α) (q : ℤ × ℤ) : ℕ :=
  (g.up - q.2).toNat * g.width + (q.1 + g.left).toNat

/-- Abstract content of a grid: the cell stored for a square of the plane. -/
def content (g : Grid K α) (q : ℤ × ℤ) : Option α :=
  if InExtent g q then slot g.cells (slotNo g q) else none

/-- The storage has exactly one slot per square of the extent. -/
def WF (g : Grid K α) : Prop := g.cells.length = g.width * g.height

/-- Number of stored cells: slots holding a cell. -/
def stored (g : Grid K α) : ℕ := g.cells.countP Option.isSome

/-- The calls on a grid that can change it. -/
inductive Op (K : Type v) (α : Type u)
  | addCell (p : K × K) (c : α) (merging : Bool)
  | removeCell (p : K × K)
  | enlarge (minx miny maxx maxy : K)
  | translate (tx ty : ℤ) (discard : Bool)
  | clear
  | setCellSize (cs : K)
  | rayTrace (start stop : K × K)

/-- Executing one call. -/
def Op.exec (ops : CellOps α) (g : Grid K α) : Op K α → Res (Grid K α)
  | .addCell p c merging => Voxel.addCell ops g p c merging
  | .removeCell p => (Voxel.removeCell g p).map Prod.snd
  | .enlarge a b c d => Voxel.enlarge g a b c d
  | .translate tx ty discard => Voxel.translate g tx ty discard
  | .clear => .ok (Voxel.clear g)
  | .setCellSize cs => .ok (Voxel.setCellSize g cs)
  | .rayTrace s e => (Voxel.rayTrace ops g s e).map Prod.snd

/-- Executing a history of calls; it stops at the first exception or undefined behaviour. -/
def execAll (ops : CellOps α) (g : Grid K α) : List (Op K α) → Res (Grid K α)
  | [] => .ok g
  | o :: os => (o.exec ops g).bind fun g => execAll ops g os

end Verif.Voxel
