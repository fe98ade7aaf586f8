import Verif.NDTGrid.Model
import Verif.Grid.Spec

/-
Specification side of the NDT grid.
-/
namespace Verif.NDTGrid

open Verif Verif.Voxel

set_option linter.unusedSectionVars false

variable {K : Type v} [Field K] [LinearOrder K] [IsStrictOrderedRing K] [FloorRing K] {γ : Type u}

/-- Facts about the cell type that some theorems use.  `Verif.NDTGrid.Real` proves them for `NDTCell`. -/
structure Lawful (I : CellI K γ) : Prop where
  default_gaussian : I.gaussian I.default = false
  mean_setMean : ∀ c m, I.mean (I.setMean c m) = m
  gaussian_setMean : ∀ c m, I.gaussian (I.setMean c m) = I.gaussian c
  /-- a ray never creates a Gaussian and never moves a mean -/
  ray : ∀ c s e k c', I.ray c s e k = .ok c' → I.gaussian c' = true →
    I.gaussian c = true ∧ I.mean c' = I.mean c
  /-- the mean of a merged cell lies between the means of the parts; a part without Gaussian does not
  count -/
  merge : ∀ o c, I.gaussian c = true → I.gaussian (I.merge o c) = true →
    ∃ t : K, 0 ≤ t ∧ t ≤ 1 ∧ (I.gaussian o = false → t = 1) ∧
      ∀ i, I.mean (I.merge o c) i = (1 - t) * I.mean o i + t * I.mean c i

/-- The cell computed from a list of points. -/
def cellOf (I : CellI K γ) (ps : List (Fin 3 → K)) : γ := I.compute (ps.foldl I.addPoint I.default)

/-- What computing a cell from points does, as far as the grid is concerned. -/
structure LawfulScan (I : CellI K γ) : Prop where
  empty : I.gaussian (cellOf I []) = false
  mean : ∀ ps, I.gaussian (cellOf I ps) = true → ∀ i,
    ps.length * I.mean (cellOf I ps) i = (ps.map fun p => p i).sum

/-- Square of the plane that contains the mean of the cell. -/
def squareOfMean (I : CellI K γ) (cs : K) (c : γ) : ℤ × ℤ := squareOf cs (head (I.mean c))

/-- The point is on no right and no bottom border line of a square. -/
def OffLines (cs : K) (p : K × K) : Prop :=
  (∀ k : ℤ, p.1 ≠ (k + 1 / 2) * cs) ∧ (∀ k : ℤ, p.2 ≠ (k + 1 / 2) * cs)

/-- All Gaussian cells of the list have means off the border lines. -/
def CellsOffLines (I : CellI K γ) (cs : K) (cells : List γ) : Prop :=
  ∀ c ∈ cells, I.gaussian c = true → OffLines cs (head (I.mean c))

/-- The Gaussian cells of the list whose mean lies in square `q`, in order. -/
def inSquare (I : CellI K γ) (cs : K) (cells : List γ) (q : ℤ × ℤ) : List γ :=
  cells.filter fun c => I.gaussian c && decide (squareOfMean I cs c = q)

/-- The points of the list in square `q`, in order. -/
def pointsIn (cs : K) (ps : List (Fin 3 → K)) (q : ℤ × ℤ) : List (Fin 3 → K) :=
  ps.filter fun p => decide (squareOf cs (head p) = q)

/-- Every Gaussian is stored in the square that contains its mean. -/
def Placed (I : CellI K γ) (g : Grid K γ) : Prop :=
  ∀ q c, content g q = some c → I.gaussian c = true → squareOfMean I g.cellSize c = q

/-- The means cloud lists exactly the means of the stored Gaussians. -/
def Synced (I : CellI K γ) (n : NGrid K γ) : Prop :=
  ∀ m, m ∈ n.means ↔ ∃ q c, content n.grid q = some c ∧ I.gaussian c = true ∧ I.mean c = m

/-- Position of the mean of a cell in the world, for an axis-parallel grid. -/
def worldMean (I : CellI K γ) (n : NGrid K γ) (c : γ) : K × K × K :=
  (n.ox + I.mean c 0, n.oy + I.mean c 1, I.mean c 2)

/-- Number of points of a list of cells. -/
def totalPoints (I : CellI K γ) (cells : List γ) : ℕ := (cells.map I.points).sum

/-- Everything an outside observer can see of a map: all of the state except the internal counter of the
voxel grid. -/
def visible (n : NGrid K γ) : NGrid K γ := { n with grid := { n.grid with validCells := 0 } }

/-- Calls that change an NDT grid (`setCellSize` and `setOrigin` are set-up calls). -/
inductive Op (K : Type v) (γ : Type u)
  | mergeCells (cells : List γ) (resize : Bool)
  | mergeTraced (sx sy : K) (cells : List γ) (resize : Bool)
  | move (tx ty : K)
  | enlarge (minx miny maxx maxy : K)
  | clear

/-- Executing one call. -/
def Op.exec (I : CellI K γ) (n : NGrid K γ) : Op K γ → Res (NGrid K γ)
  | .mergeCells cells resize => NDTGrid.mergeCells I n cells resize
  | .mergeTraced sx sy cells resize => NDTGrid.mergeTraced I n sx sy cells resize
  | .move tx ty => (NDTGrid.move I n tx ty).map Prod.snd
  | .enlarge a b c d => (Voxel.enlarge n.grid a b c d).map fun g => { n with grid := g }
  | .clear => .ok (NDTGrid.clear n)

/-- Executing a history of calls. -/
def execAll (I : CellI K γ) (n : NGrid K γ) : List (Op K γ) → Res (NGrid K γ)
  | [] => .ok n
  | o :: os => (o.exec I n).bind fun n => execAll I n os

/-- The cells handed to a call. -/
def Op.input : Op K γ → List γ
  | .mergeCells cells _ => cells
  | .mergeTraced _ _ cells _ => cells
  | _ => []

/-- Effect of one call on the means cloud: a merge brings it up to date, `clear` spoils it, the others
leave it as it was. -/
def freshStep (b : Bool) : Op K γ → Bool
  | .mergeCells .. => true
  | .mergeTraced .. => true
  | .clear => false
  | _ => b

/-- Whether the means cloud is up to date after a history that started with a fresh cloud. -/
def fresh (hist : List (Op K γ)) : Bool := hist.foldl freshStep true

end Verif.NDTGrid
