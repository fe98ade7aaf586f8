import Verif.Round.Model
import Verif.Cell.Model

/-
Mean and covariance of `NDTCell` (src/ndt/ndt_cell.cpp) with the rounding of `double`: the first batch of
points in `computeGaussian` and the combination of two Gaussians in `operator+=`.

Simplifications:
* rounding is an arbitrary function, see `Verif.Round.Model`; it is applied after every operation, also after
  the multiplication by 2, which is exact in the binary formats;
* numbers of points are exact (they are below 2^53), the product of two of them is rounded on conversion;
* the second batch of a cell that has a Gaussian already (ndt_cell.cpp:104-129) and the eigenvalue solver in
  `rescaleCovar` are not part of it.
-/
namespace Verif.Round

open Verif Verif.NDT

/-- A sum that is accumulated from left to right. -/
def sumD (F : Fmt ℝ) (a : ℝ) (l : List ℝ) : ℝ := l.foldl (fun acc x => F.d (acc + x)) a

/-- `mean_add`, ndt_cell.cpp:79-85. -/
def meanAdd (F : Fmt ℝ) (l : List Vec) (i : Fin 3) : ℝ := sumD F 0 (l.map fun p => p i)

/-- `cov_add`, ndt_cell.cpp:80-85. -/
def covAdd (F : Fmt ℝ) (l : List Vec) (i j : Fin 3) : ℝ :=
  sumD F ((1 : Mat) i j) (l.map fun p => F.d (p i * p j))

/-- `mean2`, ndt_cell.cpp:86. -/
noncomputable def mean2 (F : Fmt ℝ) (l : List Vec) (i : Fin 3) : ℝ := F.d (meanAdd F l i / l.length)

/-- `cov_temp`, ndt_cell.cpp:88-90. -/
noncomputable def covTemp (F : Fmt ℝ) (l : List Vec) (i j : Fin 3) : ℝ :=
  F.d (F.d (F.d (covAdd F l i j - F.d (2 * F.d (meanAdd F l i * mean2 F l j))) / l.length) +
    F.d (mean2 F l i * mean2 F l j))

/-- `cov2`, ndt_cell.cpp:91-93. -/
noncomputable def cov2 (F : Fmt ℝ) (l : List Vec) : Mat :=
  Matrix.of fun i j => F.d (covTemp F l i j * F.d ((l.length - 1 : ℝ) / l.length))

/-- The mean after `operator+=`, ndt_cell.cpp:23-34. -/
noncomputable def pooledMean (F : Fmt ℝ) (n₁ n₂ : ℕ) (m₁ m₂ : Vec) : Vec := fun i =>
  F.d (F.d (F.d (m₂ i * n₂) + F.d (m₁ i * n₁)) / (n₂ + n₁ : ℕ))

/-- `w2 * m_sum1 - m_sum2`, ndt_cell.cpp:38-42. -/
noncomputable def gap (F : Fmt ℝ) (n₁ n₂ : ℕ) (m₁ m₂ : Vec) : Vec := fun i =>
  F.d (F.d (F.d (n₂ / n₁ : ℝ) * F.d (m₁ i * n₁)) - F.d (m₂ i * n₂))

/-- The covariance after `operator+=` before `rescaleCovar`, ndt_cell.cpp:29-45. -/
noncomputable def pooledCov (F : Fmt ℝ) (n₁ n₂ : ℕ) (m₁ m₂ : Vec) (c₁ c₂ : Mat) : Mat :=
  Matrix.of fun i j =>
    let w1 := F.d (n₁ / F.d (n₂ * (n₂ + n₁) : ℕ))
    F.d (F.d (1 / (n₂ + n₁ - 1 : ℝ)) *
      F.d (F.d (F.d (c₁ i j * (n₁ - 1)) + F.d (c₂ i j * (n₂ - 1))) +
        F.d (F.d (w1 * gap F n₁ n₂ m₁ m₂ i) * gap F n₁ n₂ m₁ m₂ j)))

/-- `SelfAdjointEigenSolver` (ndt_cell.cpp:219) reads the lower triangle only. -/
def lower (c : Mat) : Mat := Matrix.of fun i j => c (max i j) (min i j)

/-- Means after a number of `operator+=` with cells of `n` points and mean `m` that have a Gaussian and are
not too free; the number of points is limited (ndt_cell.cpp:47-48). -/
noncomputable def pooledMeans (F : Fmt ℝ) (s : ℕ × Vec) (l : List (ℕ × Vec)) : ℕ × Vec :=
  l.foldl (fun s c => (cap (c.1 + s.1), pooledMean F s.1 c.1 s.2 c.2)) s

end Verif.Round
