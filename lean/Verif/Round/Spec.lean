import Verif.Round.Model

/- Specification side of the rounded addressing: accuracy of the formats and distance from the border
lines. -/
namespace Verif.Round

open Verif Verif.Voxel Verif.NDTGrid

set_option linter.unusedSectionVars false

variable {K : Type v} [Field K] [LinearOrder K] [IsStrictOrderedRing K] [FloorRing K] {α γ : Type u}

/-- Both formats have relative error at most `u` (`2⁻²⁴` for `float`; `double` is better). -/
structure Accurate (F : Fmt K) (u : K) : Prop where
  nonneg : 0 ≤ u
  small : u ≤ 1 / 64
  single : ∀ x, |F.s x - x| ≤ u * |x|
  double : ∀ x, |F.d x - x| ≤ u * |x|

/-- The coordinate `x` is further than `η` from all border lines between squares of side `cs`. -/
def Off (η cs x : K) : Prop := ∀ k : ℤ, η < |x - (k + 1 / 2) * cs|

/-- A position further than `η` from all border lines, such that its whole square is within distance `R` of
the axes. -/
structure Safe (η R cs : K) (p : K × K) : Prop where
  offX : Off η cs p.1
  offY : Off η cs p.2
  x_le : |p.1| + cs ≤ R
  y_le : |p.2| + cs ≤ R

/-- The extent of the grid lies within distance `R` of its origin in all four directions. -/
structure InRange (R : K) (g : Grid K α) : Prop where
  left : (g.left + 1 / 2) * g.cellSize ≤ R
  right : (g.right + 1 / 2) * g.cellSize ≤ R
  up : (g.up + 1 / 2) * g.cellSize ≤ R
  down : (g.down + 1 / 2) * g.cellSize ≤ R

end Verif.Round
