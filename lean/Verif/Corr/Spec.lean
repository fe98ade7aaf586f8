import Verif.Corr.Model
import Mathlib.Order.Bounds.Basic

/-
Specification of the look-up table and the search of the correlative matcher.
-/
namespace Verif.Corr

open Verif Verif.Geo

/-- Deviation of the smoothing in cells, as far as the code has it: deviation times cell size, between 0.5 and
10. -/
noncomputable def sigma (step std : ℝ) : ℝ := max 0.5 (min 10 (std * step))

/-- Half the size of the smoothing window in cells. -/
noncomputable def reach (step std : ℝ) : ℕ := (round (2 * sigma step std)).toNat

/-- A Gaussian bell of height 100 rounded to whole numbers. -/
noncomputable def bell (σ : ℝ) (r c : ℤ) : ℤ := round (100 * Real.exp (-((r : ℝ) ^ 2 + (c : ℝ) ^ 2) / (2 * σ ^ 2)))

/-- The direct neighbour of the centre of the bell is rounded to less than 100. -/
def Sharp (σ : ℝ) : Prop := 100 * Real.exp (-1 / (2 * σ ^ 2)) < 99.5

/-- Column and row of the table a point belongs to. -/
noncomputable def Table.col (t : Table) (p : Pt) : ℤ := ⌊(p.1 - t.minx) / t.cs + 1 / 2⌋ + t.border

/-- see `Table.col` -/
noncomputable def Table.row (t : Table) (p : Pt) : ℤ := ⌊(t.maxy - p.2) / t.cs + 1 / 2⌋ + t.border

/-- The smallest axis parallel box that contains the cloud and the origin, without its border. -/
def InBox (pcl : List Pt) (p : Pt) : Prop :=
  (∃ q ∈ (0, 0) :: pcl, q.1 < p.1) ∧ (∃ q ∈ (0, 0) :: pcl, p.1 < q.1) ∧
  (∃ q ∈ (0, 0) :: pcl, q.2 < p.2) ∧ ∃ q ∈ (0, 0) :: pcl, p.2 < q.2

/-- `v` is the value of the smeared map of `target` in row `i` and column `j`: the largest of zero and the
bells of width `σ` around the occupied places at most `H` rows and columns away. -/
def IsSmeared (t : Table) (target : List Pt) (σ : ℝ) (H : ℕ) (i j : ℤ) (v : ℤ) : Prop :=
  IsGreatest {v | v = 0 ∨ ∃ p ∈ target, InBox target p ∧ |i - t.row p| ≤ H ∧ |j - t.col p| ≤ H ∧
    v = bell σ (i - t.row p) (j - t.col p)} v

/-- Comparison of scores; comparisons with NaN are false. -/
def Less (a b : Option ℝ) : Prop := ∃ x y, a = some x ∧ b = some y ∧ x < y

/-- What `std::sort` guarantees. -/
def IsSort (sort : List Voxel → List Voxel) : Prop :=
  ∀ l, (sort l).Perm l ∧ (sort l).Pairwise fun a b => ¬ Less b.score a.score

/-- A transform of the search window: start value plus a number of steps, below the end, for each parameter. -/
def Candidate (par : Params) (p : Pose) : Prop :=
  (∃ k : ℕ, p.x = -par.range + k * par.step) ∧ p.x < par.range ∧
  (∃ k : ℕ, p.y = -par.range + k * par.step) ∧ p.y < par.range ∧
  (∃ k : ℕ, p.th = -par.rotRange + k * par.rotStep) ∧ p.th < par.rotRange

/-- Number of rotations of the search window. -/
def RotationCount (par : Params) (n : ℕ) : Prop :=
  ∀ k : ℕ, k < n ↔ -par.rotRange + k * par.rotStep < par.rotRange

/-- The rotations are distributed in some way to the threads and done by each thread in some order. -/
def ValidSchedule (schedule : List (List ℕ)) (n : ℕ) : Prop := schedule.flatten.Perm (List.range n)

/-- Score of the source moved by a transform. -/
noncomputable def movedScore (t : Table) (source : List Pt) (trans : Trans) : Res (Option ℝ) :=
  t.getScoreIdx (t.toIndexes (source.map (act trans)))

end Verif.Corr
