import Verif.Grid.Model

/-
The project's own unit tests of `VoxelGrid2D` (test/ndt/voxel_grid2d_test.cpp), run on the model.  They check that
the model behaves like the code on the cases the authors wrote down; they prove nothing else
(`#guard` evaluates a test and leaves no theorem).

The test file does not compile at the pinned commit (it includes the removed header ndt/cell_policy2d.h), and the
expected lengths of some rays are those of an earlier version that also visited the last cell; these are marked.
-/
namespace Verif.Tests.Grid

open Verif Verif.Voxel

/-- `GridSimple` of the tests. -/
abbrev G := Grid ℚ ℤ

/-- `int` as a cell. -/
def ops : CellOps ℤ := ⟨0, (· + ·)⟩

def empty : G := setCellSize (init ops) 1

def add (g : Res G) (x : ℚ × ℚ × ℤ) (merging : Bool := true) : Res G :=
  g.bind fun g => addCell ops g (x.1, x.2.1) x.2.2 merging

def dims (g : Res G) : Res (ℕ × ℕ) := g.map fun g => (g.width, g.height)

def at' (g : Res G) (x y : ℚ) : Res ℤ := g.bind fun g => getCell g (x, y)

def has (g : Res G) (x y : ℚ) : Res Bool := g.bind fun g => cellExists g (x, y)

def inside (g : Res G) (x y : ℚ) : Res Bool := g.map fun g => isInside g (x, y)

/-- `createGridSimple`, lines 15-27. -/
def simple : Res G :=
  (List.range (14 * 13)).foldl (fun g i => add g (((i % 13 : ℕ) : ℚ) - 5, 10 - ((i / 13 : ℕ) : ℚ), (i : ℤ))) (.ok empty)

/-! ### TEST(VoxelGrid2D, enlarge), lines 28-51 -/

def enlargeTo (g : Res G) (a b c d : ℚ) : Res G := g.bind fun g => enlarge g a b c d

def e1 := enlargeTo (.ok empty) 0 0 10 10
def e2 := enlargeTo e1 (-10) (-10) 5 5
def e3 := enlargeTo e2 (-10) (-10) 11 5

#guard dims e1 = .ok (11, 11)
#guard dims e2 = .ok (21, 21)
#guard dims e3 = .ok (22, 21)
#guard inside e3 10 10 = .ok true
#guard dims (enlargeTo e3 100 100 (-100) (-100)) = .ok (22, 21)
#guard at' simple 0 0 = at' (enlargeTo simple (-6) (-4) 8 11) 0 0

/-! ### TEST(VoxelGrid2D, cellGetSetValidate), lines 102-154 -/

def c1 := add (.ok empty) (0, 0, 10) false
def c2 := add c1 (0, 0, 2)
def c3 := add c2 (2, 2, 5) false
def c4 := add c3 (-2, -2, -5) false
def c5 := add (add c4 (-4, 2, 5) false) (-4, 4, 4) false

#guard at' c1 0 0 = .ok 10
#guard at' c2 0 0 = .ok 12
#guard dims c3 = .ok (3, 3) ∧ at' c3 2 2 = .ok 5
#guard dims c4 = .ok (5, 5) ∧ at' c4 (-2) (-2) = .ok (-5) ∧ at' c4 2 2 = .ok 5
#guard dims c5 = .ok (7, 7)
#guard has c5 (-19 / 5) (11 / 5) = .ok true ∧ inside c5 (-44999 / 10000) (249999 / 100000) = .ok true ∧
    has c5 (-17 / 5) (13 / 5) = .ok false ∧ inside c5 (-16999 / 10000) (249999 / 100000) = .ok true ∧
    inside c5 (-84999 / 10000) (249999 / 100000) = .ok false ∧
    has c5 (-84999 / 10000) (249999 / 100000) = .ok false
#guard (c5.map fun g => (getValidCells g, g.validCells)) = .ok ([4, 5, 5, 12, -5], 5)

/-! ### TEST(VoxelGrid2D, translation), lines 156-183 -/

def shift (y : ℤ) : Res G := simple.bind fun g => translate g 0 y true

#guard at' (shift 1) (-5) 10 = .ok 13
#guard at' (shift 13) (-5) 10 = .ok 169
#guard has (shift 20) (-5) 10 = .ok false
#guard at' (shift (-1)) (-5) (-3) = .ok 156
#guard at' (shift (-13)) (-5) (-3) = .ok 0
#guard has (shift (-20)) (-5) (-3) = .ok false

/-! ### TEST(VoxelGrid2D, getNeighbours), lines 196-266 -/

def cross : Res G :=
  [(0, 0, 0), (-1, -1, -111), (1, -1, 111), (-1, 1, -101), (1, 1, 101), (-2, -2, -222), (2, -2, 222), (-2, 2, -202),
    (2, 2, 202), (-3, -3, -333), (3, -3, 333), (-3, 3, -303), (3, 3, 303)].foldl (add · ·) (.ok empty)

def near (x y : ℚ) (radius : ℕ) : Res (List ℤ) :=
  cross.bind fun g => (getNeighbors g (x, y) radius).map (List.map Prod.snd)

#guard near 0 0 0 = .ok [0]
#guard near 0 0 1 = .ok [-101, 101, 0, -111, 111]
#guard near 0 0 2 = .ok [-202, 202, -101, 101, 0, -111, 111, -222, 222]
#guard near 0 0 10 = .ok [-303, 303, -202, 202, -101, 101, 0, -111, 111, -222, 222, -333, 333]
#guard near 3 3 1 = .ok [303, 202]
#guard near 3 3 2 = .ok [303, 202, 101]
#guard near 2 2 2 = .ok [303, 202, 101, 0]
#guard near (-2) (-2) 2 = .ok [0, -111, -222, -333]

/-! ### TEST(VoxelGrid2D, rayTracing), lines 268-342 -/

def ray (g : Res G) (start stop : ℚ × ℚ) : Res (List ℤ) :=
  g.bind fun g => (rayTrace ops g start stop).map fun r => r.1.map fun i => (slot r.2.cells i).getD 0

def rays : Res G := add simple (0, 0, 0) false

/-- The loops of the test compare the cells returned with the beginning of the expected list. -/
def begins (r : Res (List ℤ)) (l : List ℤ) : Bool :=
  match r with
  | .ok r => r.isPrefixOf l
  | _ => false

#guard begins (ray rays (0, 0) (3, 3)) [0, 136, 123, 124, 111, 112, 99]
#guard begins (ray rays (0, 0) (-16 / 5, 7 / 5)) [0, 134, 121, 120, 119]
#guard begins (ray rays (0, 0) (-90, -13 / 10)) [0, 134, 133, 132, 131, 130]
#guard begins (ray rays (0, 0) (0, 20)) [0, 122, 109, 96, 83, 70, 57, 44, 31, 18, 5]
#guard [((3, -50), (3, -30)), ((3, -30), (3, -50)), ((3, 20), (3, 30)), ((3, 30), (3, 20)), ((-200, 0), (-100, 0)),
    ((-100, 0), (-200, 0)), ((200, 0), (100, 0)), ((100, 0), (200, 0)), ((20, 0), (30, 30)), ((30, 30), (20, 0)),
    ((20, 30), (30, 0)), ((30, 0), (20, 30))].all fun x => ray rays x.1 x.2 = .ok []

/-- Number of cells on a ray through `cross`. -/
def count (start stop : ℚ × ℚ) : Res ℕ := (ray cross start stop).map List.length

#guard count (-3, 0) (-3, 10) = .ok 4
#guard count (-8, -3) (10, -3) = .ok 0
#guard count (-3, -3) (10, -3) = .ok 7
#guard count (0, 0) (0, 10) = .ok 4

/- Out of date (line 552 of voxel_grid2d.h stops before the end of the ray): the test expects 4, 9 and 5 cells. -/
#guard count (0, 0) (-3, 0) = .ok 3
#guard count (-3, -2) (3, 2) = .ok 8
#guard count (-2, -3) (2, -3) = .ok 4

end Verif.Tests.Grid
