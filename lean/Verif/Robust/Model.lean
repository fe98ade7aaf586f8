import Verif.Base
import Mathlib.Data.Real.Basic
import Mathlib.Tactic.NormNum

/-
Model of the decision logic of the robust matcher (include/ndt_gslam/registration/d2d_ndt2d_robust.h) and of
its use by `NdtScanmatcher` (include/ndt_gslam/slam_optimizer/ndt_scanmatcher.h).

Simplifications:
* the two matchers it is built from and the verification score are arbitrary functions of their arguments
  (source and target do not change during a call);
* `float` is exact; scores are not NaN;
* log messages and files written to disk are left out; the output cloud is represented by the transform by which
  the source was moved to get it.
-/
namespace Verif.Robust

variable {T : Type}

/-- What can be asked from a `pcl::Registration` after `align`; `moved` is the transform by which its output
cloud was moved (after a success its final transform, d2d_ndt2d.h:429-430, correlative_estimation2d.h:255-256;
a D2D match that fails returns before that, d2d_ndt2d.h:412-426, and leaves the copy of the source which
`pcl::Registration::align` makes at the start). -/
structure Outcome (T : Type) where
  converged : Bool
  final : T
  moved : T

/-- The collaborators: the D2D matcher and the correlative matcher as functions of the initial guess, the
verification score of a transform (`proofTransform`, d2d_ndt2d_robust.h:381-394), and the identity matrix. -/
structure Env (T : Type) where
  d2d : T → Outcome T
  corr : T → Outcome T
  proof : T → ℝ
  one : T

/-- What can be asked from the robust matcher after `align`: `final` is `none` if it was copied from a
variable that was never written.  `moved` is the transform by which the output cloud was moved (`none`: the
variable that was never written). -/
structure Result (T : Type) where
  converged : Bool
  quality : ℝ
  final : Option T
  moved : Option T

/-- `setRejectionLimit`, d2d_ndt2d_robust.h:115-122. -/
noncomputable def setRejectionLimit (limit : ℝ) : Res ℝ :=
  if limit < 1 ∧ limit > 0 then .ok limit else .throw .invalidArgument

/-- Lines 349-378: verification of the current result `second` of the D2D matcher. -/
noncomputable def verify (env : Env T) (limit score : ℝ) (firstTrans : Option T) (second : Outcome T) : Result T :=
  let score2 := env.proof second.final
  if score2 < limit then
    if score > 0.6 then ⟨true, score, firstTrans, firstTrans⟩
    else ⟨false, score, some second.final, some second.final⟩
  else ⟨true, score2, some second.final, some second.final⟩

/-- `computeTransformation`, d2d_ndt2d_robust.h:320-379. -/
noncomputable def computeTransformation (env : Env T) (limit : ℝ) (guess : T) : Result T :=
  let first := env.d2d guess
  let score := env.proof first.final
  if ¬ (first.converged = true ∧ score > 0.7) then
    let corr := env.corr guess
    if corr.converged = false then ⟨false, 0, some env.one, some corr.moved⟩
    else
      let second := env.d2d corr.final
      if second.converged = false then ⟨false, 0, some corr.final, some second.moved⟩
      else verify env limit score (some first.final) second
  else verify env limit score none first

/-- `MatchResult` as far as it depends on the matcher. -/
structure Match (T : Type) where
  success : Bool
  score : ℝ
  transform : Option T

/-- `NdtScanmatcher::match`, ndt_scanmatcher.h:47-100; `convert` and `back` are the conversions of the
transforms. -/
noncomputable def scanMatch {S : Type} (env : Env T) (limit : ℝ) (convert : S → T) (back : T → S) (guess : S) : Match S :=
  let r := computeTransformation env limit (convert guess)
  ⟨r.converged, r.quality, r.final.map back⟩

end Verif.Robust
