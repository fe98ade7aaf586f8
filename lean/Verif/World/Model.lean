import Verif.NDTGrid.Real
import Verif.Pose.Spec

/-
`NDTGrid2D<NDTCell, PointType>` (include/ndt_gslam/ndt/ndt_grid2d.h) with the poses of the grids: the models
of the grid (`Verif.NDTGrid`), of the cell (`Verif.Cell`) and of the transforms (`Verif.Pose`) put together,
and on top of it `NDTMapper` (include/ndt_gslam/ndt/ndt_mapper.h), the running window of
include/ndt_gslam/ndt_slam_algorithm.h and the messages made from the grids.

Simplifications, besides those of the three models:
* `trans.rotation()` of a transform made by `convertFromTransform` is its linear part (such transforms are
  rotations about the z axis followed by a translation);
* the points of a cloud are finite and converted to `float` exactly.
-/
namespace Verif.World

open Verif Verif.Voxel Verif.NDTGrid Verif.Geo

/-- `NDTGrid2D<NDTCell, ..>`. -/
abbrev Map := NGrid ℝ NDT.Cell

/-- `origin_`. -/
def origin (n : Map) : Pose := ⟨n.ox, n.oy, n.th⟩

/-- `setOrigin`, ndt_grid2d.h:201-204. -/
def setOrigin (n : Map) (p : Pose) : Map := { n with ox := p.x, oy := p.y, th := p.th }

/-- `.linear()` of the 4x4 matrix of a transform in space. -/
def linear4 (m : Matrix (Fin 4) (Fin 4) ℝ) : NDT.Mat :=
  Matrix.of fun i j => m (Fin.castSucc i) (Fin.castSucc j)

/-- `.translation()` of the 4x4 matrix of a transform in space. -/
def translation4 (m : Matrix (Fin 4) (Fin 4) ℝ) : NDT.Vec := fun i => m (Fin.castSucc i) 3

/-- `NDTCell::transform` as called by `transformNDTCells`, ndt_grid2d.h:922-930. -/
noncomputable def transformCell (eig : NDT.Eig) (t : Trans) (c : NDT.Cell) : NDT.Cell :=
  let m := convertFromTransform t
  NDT.transform eig c (linear4 m) (linear4 m) (translation4 m)

/-- `transformNDTCells`, ndt_grid2d.h:922-930. -/
noncomputable def transformCells (eig : NDT.Eig) (t : Trans) (cells : List NDT.Cell) : List NDT.Cell :=
  cells.map (transformCell eig t)

/-- `pcl::transformPointCloud(in, out, convertFromTransform(t))`. -/
noncomputable def transformCloud (t : Trans) (ps : List NDT.Vec) : List NDT.Vec :=
  let m := convertFromTransform t
  ps.map fun p => (linear4 m).mulVec p + translation4 m

/-- `mergeIn(const SelfType&, transform, resize)`, ndt_grid2d.h:477-490. -/
noncomputable def mergeGrid (eig : NDT.Eig) (n g : Map) (transform resize : Bool) : Res Map :=
  let cells := getValidCells g.grid
  let cells := if transform then transformCells eig (transBtwFrames (origin g) (origin n)) cells else cells
  mergeCells (cellI eig) n cells resize

/-- `mergeInTraced(const SelfType&, transform, resize)`, ndt_grid2d.h:561-595. -/
noncomputable def mergeGridTraced (eig : NDT.Eig) (n g : Map) (transform resize : Bool) : Res Map :=
  let cells := getValidCells g.grid
  let trans := transBtwFrames (origin g) (origin n)
  let start := act trans (0, 0)
  let cells := if transform then transformCells eig trans cells else cells
  mergeTraced (cellI eig) n start.1 start.2 cells resize

/-- `mergeIn(const PointCloud&, origin, resize)`, ndt_grid2d.h:464-475. -/
noncomputable def mergeCloud (eig : NDT.Eig) (n : Map) (ps : List NDT.Vec) (from_ : Pose) (resize : Bool) :
    Res Map :=
  let trans := transBtwFrames from_ (origin n)
  (createGrid (cellI eig) n.ox n.oy n.th n.grid.cellSize (transformCloud trans ps)).bind fun g =>
  mergeGrid eig n g false resize

/-- `mergeInTraced(const PointCloud&, origin, resize)`, ndt_grid2d.h:546-559. -/
noncomputable def mergeCloudTraced (eig : NDT.Eig) (n : Map) (ps : List NDT.Vec) (from_ : Pose)
    (resize : Bool) : Res Map :=
  let trans := transBtwFrames from_ (origin n)
  (createGrid (cellI eig) n.ox n.oy n.th n.grid.cellSize (transformCloud trans ps)).bind fun g =>
  mergeGridTraced eig n (setOrigin g from_) false resize

/-- `initialize`, ndt_grid2d.h:597-602. -/
noncomputable def initializeMap (eig : NDT.Eig) (n : Map) (ps : List NDT.Vec) : Res Map :=
  mergeCloudTraced eig { n with grid := Voxel.clear n.grid } ps (origin n) true

/-- `initializeSimple`, ndt_grid2d.h:604-609. -/
noncomputable def initializeSimple (eig : NDT.Eig) (n : Map) (ps : List NDT.Vec) : Res Map :=
  mergeCloud eig { n with grid := Voxel.clear n.grid } ps (origin n) true

/-- The loop of `transform`, ndt_grid2d.h:777-780. -/
noncomputable def readd (eig : NDT.Eig) (g : Grid ℝ NDT.Cell) : List NDT.Cell → Res (Grid ℝ NDT.Cell)
  | [] => .ok g
  | c :: cs =>
    if c.gaussian then
      (addCell (cellI eig).toCellOps g (head c.mean) c true).bind fun g => readd eig g cs
    else readd eig g cs

/-- `transform`, ndt_grid2d.h:767-787. -/
noncomputable def transform (eig : NDT.Eig) (n : Map) (t : Trans) : Res Map :=
  let onlyRotate : Trans := !![t 0 0, t 0 1, 0; t 1 0, t 1 1, 0; t 2 0, t 2 1, t 2 2]
  let onlyTranslate : Trans := !![1, 0, t 0 2; 0, 1, t 1 2; t 2 0, t 2 1, t 2 2]
  (readd eig (Voxel.clear n.grid) (transformCells eig onlyRotate (getValidCells n.grid))).bind fun g =>
  let p := transformPose (origin n) onlyTranslate
  .ok (updateMeans (cellI eig) (setOrigin { n with grid := g } p))

/-- `getMeansTransformed`, ndt_grid2d.h:290-298. -/
noncomputable def meansTransformed (n : Map) : List NDT.Vec :=
  transformCloud (transBtwFrames (origin n) ⟨0, 0, 0⟩) n.means

/-- `getRadius`, ndt_grid2d.h:375-378. -/
noncomputable def getRadius (n : Map) : ℝ :=
  n.grid.width * n.grid.cellSize + n.grid.height * n.grid.cellSize / 4

/-- `getCentroid`, ndt_grid2d.h:384-389. -/
noncomputable def getCentroid (n : Map) : ℝ × ℝ :=
  (n.grid.right * n.grid.cellSize - n.grid.left * n.grid.cellSize,
   n.grid.up * n.grid.cellSize - n.grid.down * n.grid.cellSize)

/-! ### Running window -/

/-- What `NdtSlamAlgortihm::update` does with a scan and the answer `reg` of the matcher as far as the running
window is concerned: ndt_slam_algorithm.h:222-226 and 271-276.  The result is the new window and the value of
`position_cumul_`. -/
noncomputable def updateWindow (eig : NDT.Eig) (cs : ℝ) (w : Map) (ps : List NDT.Vec) (reg : Trans) :
    Res (Trans × Map) :=
  let empty := setOrigin (NDTGrid.init (cellI eig) 0 0 0 cs) (origin w)
  (initializeMap eig empty ps).bind fun scan =>
  (transform eig scan reg).bind fun scan =>
  (mergeGridTraced eig w scan true true).bind fun w =>
  (move (cellI eig) w (reg 0 2) (reg 1 2)).bind fun r =>
  .ok (!![reg 0 0, reg 0 1, r.1.1; reg 1 0, reg 1 1, r.1.2; reg 2 0, reg 2 1, reg 2 2], r.2)

/-! ### Mapper -/

/-- `NDTMapper`, members at ndt_mapper.h:104-111.  The frames are shared with the pose graph, which changes
their origins (`setFrameOrigin`). -/
structure Mapper where
  map : Map
  frames : List Map
  /-- `means_`: what `getPclMap` returns -/
  cloud : List NDT.Vec

/-- Constructor, ndt_mapper.h:119-130. -/
noncomputable def Mapper.init (eig : NDT.Eig) : Mapper := ⟨NDTGrid.init (cellI eig) 0 0 0 (1 / 4), [], []⟩

/-- `addToMap`, ndt_mapper.h:198-202. -/
noncomputable def addToMap (eig : NDT.Eig) (map frame : Map) : Res Map := mergeGridTraced eig map frame true true

/-- The loop of `recalc`, ndt_mapper.h:190-192. -/
noncomputable def addAll (eig : NDT.Eig) (map : Map) : List Map → Res Map
  | [] => .ok map
  | f :: fs => (addToMap eig map f).bind fun m => addAll eig m fs

/-- `addFrame`, ndt_mapper.h:132-154. -/
noncomputable def Mapper.addFrame (eig : NDT.Eig) (m : Mapper) (frame : Map) (time : ℝ) : Res Mapper :=
  (addToMap eig m.map frame).bind fun map =>
  .ok ⟨map, m.frames ++ [{ frame with timestamp := time }], meansTransformed map⟩

/-- `recalc`, ndt_mapper.h:182-196.  `sort` is what `std::sort` makes of the list.  The grid of the mapper is made
by the constructor with an origin (ndt_grid2d.h:452-462, ndt_mapper.h:125), which leaves `means_` null until the
first merge; as frames are never removed, it is null as long as there are none. -/
noncomputable def Mapper.recalc (eig : NDT.Eig) (sort : List Map → List Map) (m : Mapper) : Res Mapper :=
  let frames := sort m.frames
  (addAll eig (NDTGrid.clear m.map) frames).bind fun map =>
  if frames = [] then .ub .nullDeref
  else .ok ⟨map, frames, meansTransformed map⟩

/-- `NDTGrid2DHolder::updatePosition` of the `i`-th frame, ndt_grid2d_holder.h:50-53. -/
def Mapper.setFrameOrigin (m : Mapper) (i : ℕ) (p : Pose) : Mapper :=
  { m with frames := m.frames.modify i fun f => setOrigin f p }

/-! ### Messages -/

/-- `nav_msgs/OccupancyGrid`: `info` and `data`. -/
structure OccupancyMsg where
  width : ℕ
  height : ℕ
  resolution : ℝ
  px : ℝ
  py : ℝ
  pz : ℝ
  qx : ℝ
  qy : ℝ
  qz : ℝ
  qw : ℝ
  data : List ℤ

/-- `createOccupancyGrid` (ndt_grid2d.h:712-738), `calcOccupancyGridMsg` (ndt_mapper.h:204-216) and
`EigenToPoseMsg` (utils/msgs_conversions.h:10-22).  `Eigen::Quaterniond(AngleAxisd(a, UnitZ()))` is
`(0, 0, sin(a / 2), cos(a / 2))`. -/
noncomputable def occupancyMsg (eig : NDT.Eig) (n : Map) : OccupancyMsg :=
  let g := occupancyGrid (cellI eig) n
  let o := act (transBtwFrames (origin n) ⟨0, 0, 0⟩) g.corner
  { width := g.width, height := g.height, resolution := g.resolution
    px := o.1, py := o.2, pz := 0
    qx := Real.sin (n.th / 2) * 0, qy := Real.sin (n.th / 2) * 0
    qz := Real.sin (n.th / 2) * 1, qw := Real.cos (n.th / 2)
    data := g.cells }

/-- `NDTGridMsg`, output_msgs.h:39-45.  A coordinate that was never written is `none`. -/
structure GridMsg where
  origin : Option ℝ × Option ℝ × Option ℝ
  size : ℝ × ℝ × ℝ
  cellSizes : ℝ × ℝ × ℝ
  cells : List NDT.Msg

/-- `serialize`, ndt_grid2d.h:859-875: `msg.origin_` is not initialised and only its first two coordinates are
assigned. -/
noncomputable def serialize (n : Map) : GridMsg :=
  let o := act (transBtwFrames (origin n) ⟨0, 0, 0⟩) (serializeCorner n.grid)
  { origin := (some o.1, some o.2, none)
    size := (n.grid.width * n.grid.cellSize, n.grid.height * n.grid.cellSize, 0)
    cellSizes := (n.grid.cellSize, n.grid.cellSize, 0)
    cells := (getValidCells n.grid).map NDT.serialize }

/-- Reading a variable. -/
def readVar {α : Type} : Option α → Res α
  | some x => .ok x
  | none => .ub .uninitialised

/-- `NDTCellMsg` (msg/NDTCellMsg.msg). -/
structure CellMsg where
  mean : ℝ × ℝ × ℝ
  /-- row by row -/
  cov : List ℝ
  occupancy : Option ℝ
  n : ℕ

/-- `NDTMapMsg` (msg/NDTMapMsg.msg) without the header. -/
structure MapMsg where
  size : ℝ × ℝ × ℝ
  cen : ℝ × ℝ × ℝ
  cellSize : ℝ × ℝ × ℝ
  cells : List CellMsg

/-- Body of the loop of `toNdtMapMsg`, ndt_slam_algorithm.h:414-425. -/
def toCellMsg (c : NDT.Msg) : CellMsg :=
  { mean := (c.mean 0, c.mean 1, c.mean 2)
    cov := (List.finRange 3).flatMap fun i => (List.finRange 3).map fun j => c.cov i j
    occupancy := c.occ, n := c.points }

/-- `toNdtMapMsg`, ndt_slam_algorithm.h:398-428. -/
def toMapMsg (m : GridMsg) : Res MapMsg :=
  (readVar m.origin.1).bind fun x =>
  (readVar m.origin.2.1).bind fun y =>
  (readVar m.origin.2.2).bind fun z =>
  .ok { size := m.size, cen := (x, y, z), cellSize := m.cellSizes, cells := m.cells.map toCellMsg }

end Verif.World
