import Verif.World.Model
import Verif.Cell.Spec
import Verif.Pose.Props
import Mathlib.Analysis.Convex.Hull

/-
Specification side of maps with poses.
-/
namespace Verif.World

open Verif Verif.Voxel Verif.NDTGrid Verif.Geo

/-- The Gaussian cells stored in a map. -/
noncomputable def gaussians (n : Map) : List NDT.Cell := (getValidCells n.grid).filter fun c => c.gaussian

/-- Position of the mean of a cell in the world. -/
noncomputable def worldPos (n : Map) (c : NDT.Cell) : ℝ × ℝ := toWorld (origin n) (c.mean 0, c.mean 1)

/-- Rotation about the z axis. -/
noncomputable def rotZ (a : ℝ) : NDT.Mat :=
  !![Real.cos a, -Real.sin a, 0; Real.sin a, Real.cos a, 0; 0, 0, 1]

/-- Covariance of a cell with respect to the axes of the world. -/
noncomputable def worldCov (n : Map) (c : NDT.Cell) : NDT.Mat :=
  rotZ n.th * c.cov * (rotZ n.th).transpose

/-- The cell `c` of the map `n` and the cell `c'` of the map `n'` are the same Gaussian in the world. -/
structure SameInWorld (n : Map) (c : NDT.Cell) (n' : Map) (c' : NDT.Cell) : Prop where
  pos : worldPos n' c' = worldPos n c
  height : c'.mean 2 = c.mean 2
  cov : worldCov n' c' = worldCov n c
  points : c'.points = c.points

/-- What a user of a Gaussian relies on: a covariance that can be inverted (and was), computed from at least
three points, with a bounded condition number. -/
def Usable (c : NDT.Cell) : Prop :=
  c.gaussian = true → c.cov.PosDef ∧ c.icov = c.cov⁻¹ ∧ 3 ≤ c.points ∧
    ∀ x y : NDT.Vec, dotProduct x x = dotProduct y y →
      dotProduct x (c.cov.mulVec x) ≤ 100 * dotProduct y (c.cov.mulVec y)

/-- The maps a program can build with the interface of `NDTGrid2D`.  The flag tells whether the search
structures are up to date: `clear` spoils them, a merge repairs them. -/
inductive Built (eig : NDT.Eig) : Bool → Map → Prop
  | init {cs : ℝ} (ox oy th : ℝ) : 0 < cs → Built eig true (NDTGrid.init (cellI eig) ox oy th cs)
  | setOrigin {b n} (p : Pose) : Built eig b n → Built eig b (setOrigin n p)
  | setTimestamp {b n} (t : ℝ) : Built eig b n → Built eig b { n with timestamp := t }
  | clear {b n} : Built eig b n → Built eig false (NDTGrid.clear n)
  | enlarge {b n g} (x0 y0 x1 y1 : ℝ) : Built eig b n → Voxel.enlarge n.grid x0 y0 x1 y1 = .ok g →
      Built eig b { n with grid := g }
  | mergeGrid {b b' n g n'} (transform resize : Bool) : Built eig b n → Built eig b' g →
      mergeGrid eig n g transform resize = .ok n' → Built eig true n'
  | mergeGridTraced {b b' n g n'} (transform resize : Bool) : Built eig b n → Built eig b' g →
      mergeGridTraced eig n g transform resize = .ok n' → Built eig true n'
  | mergeCloud {b n n'} (ps : List NDT.Vec) (p : Pose) (resize : Bool) : Built eig b n →
      mergeCloud eig n ps p resize = .ok n' → Built eig true n'
  | mergeCloudTraced {b n n'} (ps : List NDT.Vec) (p : Pose) (resize : Bool) : Built eig b n →
      mergeCloudTraced eig n ps p resize = .ok n' → Built eig true n'
  | initialize {b n n'} (ps : List NDT.Vec) : Built eig b n → initializeMap eig n ps = .ok n' →
      Built eig true n'
  | initializeSimple {b n n'} (ps : List NDT.Vec) : Built eig b n → initializeSimple eig n ps = .ok n' →
      Built eig true n'
  | transform {b n n'} (t : Trans) : Built eig b n → transform eig n t = .ok n' → Built eig true n'
  | move {b n r n'} (tx ty : ℝ) : Built eig b n → move (cellI eig) n tx ty = .ok (r, n') → Built eig b n'
  | coarser {b n n'} (cs : ℝ) : Built eig b n → coarser (cellI eig) n cs = .ok n' → Built eig true n'

/-! ### Area of a map -/

/-- The point (in the frame of the map) lies in a square of the map. -/
def Covers (n : Map) (p : ℝ × ℝ) : Prop := InExtent n.grid (squareOf n.grid.cellSize p)

/-- `c` is the centre of the covered area: the smallest box around the area extends equally far from `c` to
both sides in both directions. -/
def IsCentre (n : Map) (c : ℝ × ℝ) : Prop :=
  ∃ a b : ℝ, IsLUB {x | ∃ y, Covers n (x, y)} (c.1 + a) ∧ IsGLB {x | ∃ y, Covers n (x, y)} (c.1 - a) ∧
    IsLUB {y | ∃ x, Covers n (x, y)} (c.2 + b) ∧ IsGLB {y | ∃ x, Covers n (x, y)} (c.2 - b)

/-! ### Messages -/

/-- World position of the point `(u, v)` of a map message, given in metres along the axes of the pose of the
message (rotation by a quaternion, then translation). -/
def OccupancyMsg.place (m : OccupancyMsg) (u v : ℝ) : ℝ × ℝ :=
  (m.px + ((1 - 2 * (m.qy ^ 2 + m.qz ^ 2)) * u + 2 * (m.qx * m.qy - m.qz * m.qw) * v),
   m.py + (2 * (m.qx * m.qy + m.qz * m.qw) * u + (1 - 2 * (m.qx ^ 2 + m.qz ^ 2)) * v))

/-- Where a consumer of `nav_msgs/OccupancyGrid` shows the value number `k`: the data are row-major, rows
follow each other in the direction of the y axis; the pose of the message is the corner of cell (0, 0). -/
noncomputable def OccupancyMsg.shownAt (m : OccupancyMsg) (k : ℕ) : ℝ × ℝ :=
  m.place (((k % m.width : ℕ) + 1 / 2) * m.resolution) (((k / m.width : ℕ) + 1 / 2) * m.resolution)

/-- The value a map message shows for a square: -1 for unknown, 99 for an occupied cell, 0 for a free one. -/
noncomputable def shownValue : Option NDT.Cell → ℤ
  | none => -1
  | some c => match c.occ with
    | none => 0
    | some o => if 4 / 5 < o then 99 else 0

/-- World position of the centre of a square of the map. -/
noncomputable def squareCentre (n : Map) (q : ℤ × ℤ) : ℝ × ℝ :=
  toWorld (origin n) (q.1 * n.grid.cellSize, q.2 * n.grid.cellSize)

/-! ### Mapper -/

/-- Calls that change what a mapper holds: a new frame, a new pose of a frame, a recalculation. -/
inductive MapOp
  | add (frame : Map) (time : ℝ)
  | setOrigin (i : ℕ) (p : Pose)
  | recalc

/-- Executing one call. -/
noncomputable def MapOp.exec (eig : NDT.Eig) (sort : List Map → List Map) (m : Mapper) : MapOp → Res Mapper
  | .add f t => m.addFrame eig f t
  | .setOrigin i p => .ok (m.setFrameOrigin i p)
  | .recalc => m.recalc eig sort

/-- Executing a history of calls. -/
noncomputable def MapOp.execAll (eig : NDT.Eig) (sort : List Map → List Map) (m : Mapper) :
    List MapOp → Res Mapper
  | [] => .ok m
  | o :: os => (o.exec eig sort m).bind fun m => MapOp.execAll eig sort m os

/-- All frames handed over were built with the interface. -/
def MapOp.Admissible (eig : NDT.Eig) : MapOp → Prop
  | .add f _ => ∃ b, Built eig b f
  | _ => True

end Verif.World
