import Verif.Match.Model
import Verif.Corr.Spec
import Verif.Newton.Spec

/-
Specification vocabulary for the loop matcher as a whole.
-/
namespace Verif.Match

open Verif Verif.Geo

/-- The matcher of the loop detector with the score threshold `limit`. -/
def Configured (limit : ℝ) (m : Matcher) : Prop := ∃ m0, scanmatcher = .ok m0 ∧ m0.setRejectionLimit limit = .ok m

/-- What is assumed about a match: the target has cells of a size up to about 20 m, `std::sort` sorts, and the threads
share the rotations of the search window among them. -/
structure Plausible (m : Matcher) (s : Scene) : Prop where
  pos : 0 < s.cell
  size : s.cell ≤ 19.94
  sort : Corr.IsSort s.sort
  schedule : ∃ n, Corr.RotationCount m.corr n ∧ Corr.ValidSchedule s.schedule n

/-- The two points are less than `r` apart in each direction. -/
def Near (r : ℝ) (p q : Pt) : Prop := |p.1 - q.1| < r ∧ |p.2 - q.2| < r

open Classical in
/-- Number of the source points which, moved by `t`, are near a target point. -/
noncomputable def overlap (r : ℝ) (source target : List Pt) (t : Trans) : ℕ :=
  (source.filter fun p => ∃ q ∈ target, Near r (act t p) q).length

/-- Length of the translation of a transform. -/
noncomputable def shift (t : Trans) : ℝ := Real.sqrt (t 0 2 ^ 2 + t 1 2 ^ 2)

end Verif.Match
