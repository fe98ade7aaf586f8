import Verif.Base
import Mathlib.Analysis.Real.Sqrt
import Mathlib.Analysis.SpecialFunctions.Log.Basic
import Mathlib.LinearAlgebra.Matrix.PosDef
import Mathlib.LinearAlgebra.Matrix.Notation

/-
Model of `NDTCell` (include/ndt_gslam/ndt/ndt_cell.h, src/ndt/ndt_cell.cpp).

Simplifications:
* `double` and `float` arithmetic is exact real arithmetic.  The one NaN that the code can produce from
  finite input (ray of length zero) is kept: the occupancy is an `Option ℝ`, `none` is NaN;
* points have finite coordinates;
* `Eigen::SelfAdjointEigenSolver` is a parameter `eig` (eigenvectors, eigenvalues); what is assumed
  about it is written out in `EigOk` (Cell/Spec.lean) where it is needed;
* counts are natural numbers; the wrap-around of `points_ - 1` at 0 is kept (`pred64`), sums and
  products of counts are assumed to stay below 2^64.
-/
namespace Verif.NDT

open Verif

abbrev Vec := Fin 3 → ℝ
abbrev Mat := Matrix (Fin 3) (Fin 3) ℝ

/-- Outcome of the eigenvalue solver for a matrix: eigenvectors (columns) and eigenvalues. -/
abbrev Eig := Mat → Mat × Vec

/-- `NDTCell`, ndt_cell.h:202-209. -/
structure Cell where
  mean : Vec
  cov : Mat
  icov : Mat
  occ : Option ℝ
  points : ℕ
  gaussian : Bool
  centroid : Vec
  pending : List Vec

/-- ndt_cell.cpp:4-13.  (`Vector::Identity()` is the first unit vector.) -/
noncomputable def init : Cell := ⟨0, 1, 1, some 0, 0, false, ![1, 0, 0], []⟩

/-- ndt_cell.h:15. -/
noncomputable def logLike : ℝ := 0.405465108

/-- ndt_cell.h:17. -/
def maxPoints : ℕ := 1000000000

/-- ndt_cell.h:19. -/
noncomputable def noGaussianUpdate : ℝ := -0.2

/-- ndt_cell.h:16. -/
noncomputable def sensorNoise : ℝ := 0.01

/-- Lines 47-48 of ndt_cell.cpp. -/
def cap (n : ℕ) : ℕ := if n > maxPoints then maxPoints else n

/-- `n - 1` on `size_t`. -/
def pred64 (n : ℕ) : ℕ := if n = 0 then 2 ^ 64 - 1 else n - 1

/-- Lines 211-214 of ndt_cell.cpp. -/
noncomputable def clamp (x : ℝ) : ℝ :=
  let x := if x > 1 then 1 else x
  if x < -1 then -1 else x

/-- `updateOccupancy(float)`, ndt_cell.cpp:207-215.  All comparisons with NaN are false. -/
noncomputable def addOcc (o x : Option ℝ) : Option ℝ :=
  match o, x with
  | some o, some x => some (clamp (o + x))
  | _, _ => none

/-- `occup_ <= 0`. -/
def occLe (o : Option ℝ) : Prop := ∃ x, o = some x ∧ x ≤ 0

/-- `occup_ < 0`. -/
def occLt (o : Option ℝ) : Prop := ∃ x, o = some x ∧ x < 0

/-- The eigenvalues after lines 225-229 of ndt_cell.cpp. -/
noncomputable def clampEvals (d : Vec) : Vec :=
  let m := 0.01 * d 2
  ![if d 0 < m then m else d 0, if d 1 < m then m else d 1, d 2]

/-- `rescaleCovar`, ndt_cell.cpp:217-236.  The flag is set to true on every path (line 235 is
unconditional), which overrides lines 222-223 and 232-234. -/
noncomputable def rescale (eig : Eig) (c : Cell) : Cell :=
  let (v, d) := eig c.cov
  let cov := v * Matrix.diagonal (clampEvals d) * v.transpose
  { c with
    cov := cov
    icov := cov⁻¹
    gaussian := true }

open Classical in
/-- `operator+=`, ndt_cell.cpp:15-60. -/
noncomputable def merge (eig : Eig) (c other : Cell) : Cell :=
  if other.points ≤ 2 then c
  else if other.gaussian = false then c
  else if c.gaussian = true then
    let n1 := c.points
    let n2 := other.points
    let mSum1 := (n1 : ℝ) • c.mean
    let mSum2 := (n2 : ℝ) • other.mean
    let cSum1 := (pred64 n1 : ℝ) • c.cov
    let cSum2 := (pred64 n2 : ℝ) • other.cov
    let nSum := n2 + n1
    let w1 : ℝ := n1 / (n2 * nSum : ℕ)
    let w2 : ℝ := n2 / n1
    let cSum3 := cSum1 + cSum2 + w1 • Matrix.vecMulVec (w2 • mSum1 - mSum2) (w2 • mSum1 - mSum2)
    let c1 : Cell :=
      { c with
        mean := (1 / (nSum : ℝ)) • (mSum2 + mSum1)
        cov := (1 / (pred64 nSum : ℝ)) • cSum3
        occ := addOcc c.occ (some (n2 * logLike))
        points := cap nSum }
    if occLt c1.occ then { c1 with gaussian := false } else rescale eig c1
  else { other with gaussian := true }

/-- `addPoint`, ndt_cell.h:150-153. -/
def addPoint (c : Cell) (p : Vec) : Cell := { c with pending := c.pending ++ [p] }

/-- Mean of the pending points, ndt_cell.cpp:80-87. -/
noncomputable def batchMean (l : List Vec) : Vec := (1 / (l.length : ℝ)) • l.sum

/-- "Covariance" of the pending points, ndt_cell.cpp:81-94. -/
noncomputable def batchCov (l : List Vec) : Mat :=
  let meanAdd := l.sum
  let covAdd : Mat := 1 + (l.map fun p => Matrix.vecMulVec p p).sum
  let mean2 := batchMean l
  let covTemp := (1 / (l.length : ℝ)) • (covAdd - (2 : ℝ) • Matrix.vecMulVec meanAdd mean2) +
    Matrix.vecMulVec mean2 mean2
  ((pred64 l.length : ℝ) / l.length) • covTemp

/-- Lines 104-129 of ndt_cell.cpp: the Gaussian of the pending points is merged into the present one. -/
noncomputable def updateGaussian (eig : Eig) (c : Cell) : Cell :=
  let n := c.pending.length
  let mean2 := batchMean c.pending
  let cov2 := batchCov c.pending
  let mSum1 := (c.points : ℝ) • c.mean
  let cSum1 := (pred64 c.points : ℝ) • c.cov
  let mSum2 := (n : ℝ) • mean2
  let cSum2 := (pred64 n : ℝ) • cov2
  let w1 : ℝ := c.points / (n * (c.points + n))
  let w2 : ℝ := n / c.points
  let mComb := mSum1 + mSum2
  let cComb := cSum1 + cSum2 +
    w1 • Matrix.vecMulVec (w2 • mSum1 - mSum2) (w2 • mSum1 - mSum2)
  let pts := c.points + n
  if maxPoints < pts then
    rescale eig
      { c with
        mean := (1 / (maxPoints : ℝ)) • (((maxPoints : ℝ) / pts) • mComb)
        cov := (1 / (pred64 maxPoints : ℝ)) • (((pred64 maxPoints : ℝ) / (pred64 pts : ℝ)) • cComb)
        points := maxPoints }
  else
    rescale eig
      { c with
        mean := (1 / (pts : ℝ)) • mComb
        cov := (1 / (pred64 pts : ℝ)) • cComb
        points := pts }

/-- `points_vec_.clear()`, ndt_cell.cpp:131. -/
def clearPending (c : Cell) : Cell := { c with pending := [] }

open Classical in
/-- `computeGaussian`, ndt_cell.cpp:62-132. -/
noncomputable def computeGaussian (eig : Eig) (c : Cell) : Cell :=
  let n := c.pending.length
  let c := { c with occ := addOcc c.occ (some (n * logLike)) }
  if occLe c.occ then { c with gaussian := false, points := n }
  else if n < 6 then { c with gaussian := false, points := n }
  else clearPending <|
    if c.gaussian = false then
      rescale eig { c with mean := batchMean c.pending, cov := batchCov c.pending, points := n }
    else updateGaussian eig c

/-- Euclidean norm. -/
noncomputable def norm2 (v : Vec) : ℝ := Real.sqrt (v ⬝ᵥ v)

open Classical in
/-- `calcMaxLikelihoodOnLine`, ndt_cell.cpp:238-259: likelihood and point.  `ok none`: everything is NaN
because the direction is 0/0.  When `sigma == 0` the function returns without writing the point, which
the caller then reads. -/
noncomputable def lineLik (c : Cell) (s e : Vec) : Res (Option (ℝ × Vec)) :=
  if s = e then .ok none
  else
    let l := (1 / norm2 (e - s)) • (e - s)
    let a := c.icov.mulVec l
    let b := e - c.mean
    let sigma := a ⬝ᵥ l
    if sigma = 0 then .ub .uninitialised
    else
      let t := -(a ⬝ᵥ b) / sigma
      let pt := t • l + e
      let q := (pt - c.mean) ⬝ᵥ (c.icov.mulVec (pt - c.mean))
      .ok (some (Real.exp (-q / 2), pt))

open Classical in
/-- `log` of C++ for a finite argument; NaN for an argument that is not positive (for 0 the C++ result
is minus infinity; `C23` shows that this does not occur). -/
noncomputable def logC (x : ℝ) : Option ℝ := if 0 < x then some (Real.log x) else none

open Classical in
/-- `updateOccupancy(start, end, new_points)`, ndt_cell.cpp:134-183. -/
noncomputable def rayUpdate (c : Cell) (s e : Vec) (newPoints : ℕ) : Res Cell :=
  if c.gaussian = false then
    .ok { c with occ := addOcc c.occ (some (noGaussianUpdate * newPoints)) }
  else if (∑ i, |c.mean i - e i|) < 0.01 then
    .ok { c with occ := addOcc c.occ (some 1) }
  else
    (lineLik c s e).map fun r =>
      let upd : Option ℝ := r.bind fun (lik, pt) =>
        let l2 := norm2 (pt - e)
        let thr := Real.exp (-0.5 * (l2 * l2) / (sensorNoise * sensorNoise))
        let lik := lik * (1 - thr)
        let lik := 0.1 * lik + 0.5
        (logC ((1 - lik) / lik)).map fun x => newPoints * x
      let occ := addOcc c.occ upd
      { c with
        occ := occ
        gaussian := if occLe occ then false else c.gaussian }

open Classical in
/-- `transform`, ndt_cell.cpp:185-192.  `a` is the linear part, `r` what `trans.rotation()` returns
and `t` the translation. -/
noncomputable def transform (eig : Eig) (c : Cell) (a r : Mat) (t : Vec) : Cell :=
  if c.gaussian = true then
    rescale eig
      { c with
        mean := a.mulVec c.mean + t
        cov := r * c.cov * r.transpose }
  else c

open Classical in
/-- `getOccupancy`, ndt_cell.h:118-125: conversion of a NaN or of a value outside `int8_t` is
undefined. -/
noncomputable def getOccupancy (c : Cell) : Res ℤ :=
  match c.occ with
  | none => .ub .badCast
  | some x =>
    if x ≥ 1 then .ok 100
    else if x < -1 then .ok 0
    else
      let v := ⌊x * 100⌋
      if -128 ≤ v ∧ v ≤ 127 then .ok v else .ub .badCast

/-- `NDTCellMsg` (output_msgs.h) as filled by `serialize`, ndt_cell.cpp:194-203. -/
structure Msg where
  mean : Vec
  cov : Mat
  occ : Option ℝ
  points : ℕ

/-- `serialize`, ndt_cell.cpp:194-203. -/
def serialize (c : Cell) : Msg := ⟨c.mean, c.cov, c.occ, c.points⟩

end Verif.NDT
