import Verif.Pose.Model
import Verif.Pose.Spec
import Mathlib.Analysis.SpecialFunctions.Exp
import Mathlib.Algebra.Order.Round

/-
Model of the correlative matcher (include/ndt_gslam/registration/correlative_estimation_tools.h and
correlative_estimation2d.h).

Simplifications:
* `float` is exact; casts to `int` do not overflow; sizes fit in `size_t`;
* clouds are lists of planar points, the transforms of PCL are planar (`Trans`);
* log messages, the output cloud and `reserve` are left out.
-/
namespace Verif.Corr

open Verif Verif.Geo

abbrev Pt := ℝ × ℝ

/-! ### Smoothing kernel -/

/-- `SmoothingKernel`: `half_size_` and the contents of `kernel_`. -/
structure Kernel where
  half : ℕ
  vals : List ℤ

/-- `std_deviation_` after the limits, correlative_estimation_tools.h:98-102. -/
noncomputable def limitStd (resolution std : ℝ) : ℝ :=
  let s := std
  let s := if std < 0.5 * resolution then 0.5 * resolution else s
  if std > 10 * resolution then 10 * resolution else s

/-- The numbers `-half, …, half` in the order of the loops `for (int r = -half; r <= half; ++r)`. -/
def span (half : ℕ) : List ℤ := (List.range (2 * half + 1)).map fun (k : ℕ) => (k : ℤ) - half

/-- The pairs visited by two such loops, the second inside the first. -/
def offsets (half : ℕ) : List (ℤ × ℤ) := (span half).flatMap fun r => (span half).map fun c => (r, c)

/-- The value pushed for row `r` and column `c`, correlative_estimation_tools.h:111-117; `hypot` is written
out.  `std::lround` of a number that is not negative. -/
noncomputable def kernelValue (resolution s : ℝ) (occupancy : ℤ) (r c : ℤ) : ℤ :=
  let dist := Real.sqrt ((c * resolution) ^ 2 + (r * resolution) ^ 2)
  round (Real.exp (-0.5 * (dist / s) ^ 2) * occupancy)

/-- Constructor and `initKernel`, correlative_estimation_tools.h:44-48 and 95-120. -/
noncomputable def Kernel.init (resolution std : ℝ) (occupancy : ℤ) : Kernel :=
  let s := limitStd resolution std
  let half := (round (2 * s / resolution)).toNat
  ⟨half, (offsets half).map fun o => kernelValue resolution s occupancy o.1 o.2⟩

/-- Checked `std::vector::operator[]` with an index computed in `size_t` arithmetic. -/
def at? (l : List ℤ) (i : ℤ) : Res ℤ :=
  if 0 ≤ i then match l[i.toNat]? with
    | some v => .ok v
    | none => .ub .outOfBounds
  else .ub .outOfBounds

/-- `operator()`, correlative_estimation_tools.h:80-84. -/
def Kernel.get (k : Kernel) (row col : ℤ) : Res ℤ :=
  at? k.vals ((row + k.half) * (2 * k.half + 1) + col + k.half)

/-! ### Look-up table -/

/-- `LookUpTable`; `n` is `cell_count_row_` (the length of a row), `m` is `cell_count_col_` (the number of
rows). -/
structure Table where
  cs : ℝ
  minx : ℝ
  miny : ℝ
  maxx : ℝ
  maxy : ℝ
  n : ℕ
  m : ℕ
  border : ℕ
  targets : ℕ
  kernel : Kernel
  cells : List ℤ

/-- `OCCUPIED_CELL`, correlative_estimation_tools.h:232. -/
def OCCUPIED : ℤ := 100

/-- `getMinMax2D`, correlative_estimation_tools.h:455-471: minx, miny, maxx, maxy. -/
noncomputable def getMinMax2D (pcl : List Pt) : ℝ × ℝ × ℝ × ℝ :=
  pcl.foldl (fun b p =>
    (if p.1 < b.1 then p.1 else b.1, if p.2 < b.2.1 then p.2 else b.2.1,
      if p.1 > b.2.2.1 then p.1 else b.2.2.1, if p.2 > b.2.2.2 then p.2 else b.2.2.2)) (0, 0, 0, 0)

/-- The test in lines 385-386 and 439. -/
def Table.inside (t : Table) (p : Pt) : Prop := p.1 < t.maxx ∧ p.2 < t.maxy ∧ p.1 > t.minx ∧ p.2 > t.miny

open Classical in
noncomputable instance (t : Table) (p : Pt) : Decidable (t.inside p) := inferInstance

/-- `getCellIdx(pt)`, correlative_estimation_tools.h:403-413; casting a negative number to `size_t` is
undefined. -/
noncomputable def Table.cellIdx (t : Table) (p : Pt) : Res ℤ :=
  let x : ℤ := ⌊(p.1 - t.minx + t.cs / 2) / t.cs⌋ + t.border
  let y : ℤ := ⌊(-p.2 + t.maxy + t.cs / 2) / t.cs⌋ + t.border
  if x < 0 ∨ y < 0 then .ub .badCast else .ok (y * t.n + x)

/-- `table_[i] = v` with bounds check. -/
def put (l : List ℤ) (i : ℤ) (v : ℤ) : Res (List ℤ) :=
  if 0 ≤ i ∧ i.toNat < l.length then .ok (l.set i.toNat v) else .ub .outOfBounds

/-- One iteration of the loop in lines 384-391. -/
noncomputable def Table.mark (t : Table) (cells : List ℤ) (p : Pt) : Res (List ℤ) :=
  if t.inside p then (t.cellIdx p).bind fun i => put cells i OCCUPIED else .ok cells

/-- One iteration of the loops in `applyKernel`, correlative_estimation_tools.h:425-433; the index is computed
modulo 2^64 from an unsigned and a signed number and so correct whenever it is a valid index. -/
def Table.stamp (t : Table) (row col : ℤ) (cells : List ℤ) (o : ℤ × ℤ) : Res (List ℤ) :=
  let i := (row + o.1) * t.n + (col + o.2)
  (t.kernel.get o.1 o.2).bind fun k =>
  (at? cells i).bind fun v =>
  if v < k then put cells i k else .ok cells

/-- A loop whose body can fail. -/
def forEach {α σ : Type} (f : σ → α → Res σ) : σ → List α → Res σ
  | s, [] => .ok s
  | s, a :: l => (f s a).bind fun s' => forEach f s' l

/-- `applyKernel`, correlative_estimation_tools.h:421-434. -/
def Table.applyKernel (t : Table) (row col : ℤ) (cells : List ℤ) : Res (List ℤ) :=
  forEach (t.stamp row col) cells (offsets t.kernel.half)

/-- Body of the loops in lines 394-400. -/
def Table.smooth (t : Table) (cells : List ℤ) (p : ℕ × ℕ) : Res (List ℤ) :=
  (at? cells ((p.1 : ℤ) * t.n + p.2)).bind fun v =>
  if v = OCCUPIED then t.applyKernel p.1 p.2 cells else .ok cells

/-- The positions visited by the loops in lines 394-400, row by row.  The numbers of rows and columns are not
zero. -/
def Table.scan (t : Table) : List (ℕ × ℕ) :=
  (List.range' 1 (t.m - 1 - 1)).flatMap fun row => (List.range' 1 (t.n - 1 - 1)).map fun col => (row, col)

/-- `initGridWindowFce`, correlative_estimation_tools.h:371-401. -/
noncomputable def Table.initWindow (t : Table) (target : List Pt) : Res Table :=
  (forEach t.mark (List.replicate (t.n * t.m) 0) target).bind fun cells =>
  (forEach t.smooth cells t.scan).bind fun cells => .ok { t with cells := cells }

/-- The members set by `initGrid` before the table is filled, correlative_estimation_tools.h:250-268. -/
noncomputable def frame (target : List Pt) (step std : ℝ) : Table :=
  let kernel := Kernel.init (1 / step) std OCCUPIED
  let b := getMinMax2D target
  { cs := step
    minx := b.1
    miny := b.2.1
    maxx := b.2.2.1
    maxy := b.2.2.2
    n := (⌈(b.2.2.1 - b.1) / step⌉ + 1 + 2 * kernel.half).toNat
    m := (⌈(b.2.2.2 - b.2.1) / step⌉ + 1 + 2 * kernel.half).toNat
    border := kernel.half
    targets := target.length
    kernel := kernel
    cells := [] }

/-- `initGrid`, correlative_estimation_tools.h:250-270. -/
noncomputable def initGrid (target : List Pt) (step std : ℝ) : Res Table := (frame target step std).initWindow target

/-- `getPtScore(pt)`, correlative_estimation_tools.h:436-443. -/
noncomputable def Table.ptScore (t : Table) (p : Pt) : Res ℤ :=
  if t.inside p then (t.cellIdx p).bind fun i => at? t.cells i else .ok 0

/-- `getPtScore(index)`, correlative_estimation_tools.h:445-453. -/
def Table.idxScore (t : Table) (p : ℤ × ℤ) : Res ℤ :=
  if p.1 < 0 ∨ p.2 < 0 ∨ p.1 ≥ t.n ∨ p.2 ≥ t.m then .ok 0 else at? t.cells (p.2 * t.n + p.1)

/-- The accumulated score divided by the largest possible one; `none` is the NaN (or infinity) of a division by
zero. -/
noncomputable def Table.ratio (t : Table) (points : ℕ) (res : ℤ) : Option ℝ :=
  if points = 0 then some 0
  else if t.targets = 0 then none
  else some (res / (OCCUPIED * t.targets))

/-- `getScore(pcl)`, correlative_estimation_tools.h:272-288. -/
noncomputable def Table.getScore (t : Table) (pcl : List Pt) : Res (Option ℝ) :=
  (forEach (fun s p => (t.ptScore p).map fun v => s + v) (0 : ℤ) pcl).map fun res => t.ratio pcl.length res

/-- `getScore(indexes)`, correlative_estimation_tools.h:290-312. -/
noncomputable def Table.getScoreIdx (t : Table) (pcl : List (ℤ × ℤ)) : Res (Option ℝ) :=
  (forEach (fun s p => (t.idxScore p).map fun v => s + v) (0 : ℤ) pcl).map fun res => t.ratio pcl.length res

/-- `toIndexes`, correlative_estimation_tools.h:326-340. -/
noncomputable def Table.toIndexes (t : Table) (pcl : List Pt) : List (ℤ × ℤ) :=
  pcl.map fun p => (⌊(p.1 - t.minx + t.cs / 2) / t.cs⌋, ⌊(-p.2 + t.maxy + t.cs / 2) / t.cs⌋)

/-- `moveIndexes`, correlative_estimation_tools.h:342-350. -/
def moveIndexes (indexes : List (ℤ × ℤ)) (dx dy : ℤ) : List (ℤ × ℤ) := indexes.map fun i => (i.1 + dx, i.2 + dy)

/-- `transformIndexes`, correlative_estimation_tools.h:352-368. -/
noncomputable def Table.transformIndexes (t : Table) (source : List (ℤ × ℤ)) (dx dy : ℝ) : List (ℤ × ℤ) :=
  let ax := ⌊dx / t.cs⌋
  let ay := -⌊dy / t.cs⌋
  source.map fun i => (i.1 + ax, i.2 + ay)

/-- `rotatePointCloud`, correlative_estimation_tools.h:486-511. -/
noncomputable def rotatePointCloud (source : List Pt) (angle : ℝ) : List Pt :=
  let si := Real.sin angle
  let co := Real.cos angle
  source.map fun p => (co * p.1 + -si * p.2, si * p.1 + co * p.2)

/-! ### Search -/

/-- `SearchVoxel`; a score of `none` is NaN. -/
structure Voxel where
  transform : Pose
  score : Option ℝ

/-- The values of a loop `for (float v = start; v < range; v += step)`; for a step that is not positive the
loop does not end unless it does nothing. -/
noncomputable def loopValues (range step start : ℝ) : Option (List ℝ) :=
  if start < range then
    if 0 < step then some ((List.range ⌈(range - start) / step⌉₊).map fun (k : ℕ) => start + k * step) else none
  else some []

/-- `CorrelativeEstimation`: the parameters. -/
structure Params where
  step : ℝ
  rotStep : ℝ
  range : ℝ
  rotRange : ℝ

/-- Constructor, correlative_estimation2d.h:144-153. -/
noncomputable def Params.default : Params := ⟨0.5, 0.2, 4, 1.6⟩

/-- `vecToMat`, correlative_estimation2d.h:259-275, in the plane. -/
noncomputable def vecToMat (p : Pose) : Trans := getTransFromPose p

/-- Body of the loops in lines 226-230. -/
noncomputable def candidate (t : Table) (index : List (ℤ × ℤ)) (th dx dy : ℝ) : Res Voxel :=
  (t.getScoreIdx (t.transformIndexes index dx dy)).map fun s => ⟨⟨dx, dy, th⟩, s⟩

/-- Body of the parallel loop, correlative_estimation2d.h:213-236: the voxels of one rotation.  `axis` are the
values of the two inner loops. -/
noncomputable def rotation (t : Table) (cloud : List Pt) (axis : List ℝ) (th : ℝ) : Res (List Voxel) :=
  let index := t.toIndexes (rotatePointCloud cloud th)
  forEach (fun l d => (candidate t index th d.1 d.2).map fun v => l ++ [v]) []
    (axis.flatMap fun dx => axis.map fun dy => (dx, dy))

/-- The parallel loop, lines 210-236, and the merge of the results, 240-243.  `schedule` lists for every
thread the rotations it works on in their order. -/
noncomputable def gather (t : Table) (cloud : List Pt) (axis rotations : List ℝ) (schedule : List (List ℕ)) :
    Res (List Voxel) :=
  forEach (fun l th => (rotation t cloud axis th).map fun v => l ++ v) []
    (schedule.flatten.filterMap fun i => rotations[i]?)

/-- `computeTransformation`, correlative_estimation2d.h:155-257: `none` if it does not end.  The order in
which `std::sort` leaves elements of equal score is not specified: `sort`.  (The inner loops do not end for a
translation step that is not positive; if there is no rotation they are not entered, which is neglected.) -/
noncomputable def computeTransformation (par : Params) (sort : List Voxel → List Voxel) (schedule : List (List ℕ))
    (source target : List Pt) (guess : Trans) : Option (Res (Pose × Trans)) :=
  let cloud := source.map (act guess)
  match loopValues par.rotRange par.rotStep (-par.rotRange), loopValues par.range par.step (-par.range) with
  | some rotations, some axis =>
    some <| (initGrid target par.step 0.5).bind fun t =>
      (gather t cloud axis rotations schedule).bind fun voxels =>
      match (sort voxels).getLast? with
      | none => .ub .emptyContainer
      | some best => .ok (best.transform, vecToMat best.transform)
  | _, _ => none

end Verif.Corr
