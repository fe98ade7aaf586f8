import Verif.Corr.Model
import Verif.Newton.Model
import Verif.Robust.Model
import Verif.Loop.Model
import Verif.World.Model

/-
The loop matcher as a whole: `NdtScanmatcher` (include/ndt_gslam/slam_optimizer/ndt_scanmatcher.h) with the robust
matcher (registration/d2d_ndt2d_robust.h), whose registrations are those of `Verif.Newton` and `Verif.Corr` and whose
verification is the look-up table of `Verif.Corr`.

Simplifications, besides those of these models:
* the score functions of the layers (they depend on the coarser grids of the two frames) and the solver are arbitrary;
* the output cloud, log messages and the files written to disk are left out.
-/
namespace Verif.Match

open Verif Verif.Geo

abbrev Pt := Corr.Pt

/-- Members of the robust matcher and of its two registrations, d2d_ndt2d_robust.h:284-289. -/
structure Matcher where
  cell : ℝ
  limit : ℝ
  corr : Corr.Params
  newton : Newton.Config
  layers : Newton.Layers

/-- Constructor, d2d_ndt2d_robust.h:316-323; the members of the D2D matcher as in d2d_ndt2d.h:381-400. -/
noncomputable def Matcher.new : Matcher :=
  ⟨0.25, 0.4, Corr.Params.default, { (⟨0.22, 0.1, 35⟩ : Newton.Config) with maxIter := 10 },
    (Newton.Layers.new 0.55).setCellSize 0.25⟩

/-- `setStepSize`, d2d_ndt2d_robust.h:179-182. -/
def Matcher.setStepSize (m : Matcher) (s : ℝ) : Matcher := { m with newton := { m.newton with stepSize := s } }

/-- `setOulierRatio`, d2d_ndt2d_robust.h:199-202. -/
noncomputable def Matcher.setOutlierRatio (m : Matcher) (r : ℝ) : Matcher := { m with layers := m.layers.setOutlierRatio r }

/-- `setRejectionLimit`, d2d_ndt2d_robust.h:115-122. -/
noncomputable def Matcher.setRejectionLimit (m : Matcher) (limit : ℝ) : Res Matcher :=
  (Robust.setRejectionLimit limit).map fun l => { m with limit := l }

/-- `setRotationRange`, d2d_ndt2d_robust.h:257-260. -/
def Matcher.setRotationRange (m : Matcher) (r : ℝ) : Matcher := { m with corr := { m.corr with rotRange := r } }

/-- `NdtScanmatcher()`, ndt_scanmatcher.h:18-24. -/
noncomputable def scanmatcher : Res Matcher :=
  (((Matcher.new.setStepSize 0.1).setOutlierRatio 0.55).setRejectionLimit 0.6).map fun m => m.setRotationRange 3

/-- What one match is about: means of the Gaussian cells of source and target (`getMeans`), the cell size of the target,
for each layer (cell size and fitting parameters) the scores and the solver, the freedom of `std::sort` and of the
threads, and the report that the D2D matcher has left from its last use. -/
structure Scene where
  source : List Pt
  target : List Pt
  cell : ℝ
  layer : ℝ → Newton.FittingParams → Newton.Env
  sort : List Corr.Voxel → List Corr.Voxel
  schedule : List (List ℕ)
  report : Newton.Report

/-- `setInputTarget(grid)`, d2d_ndt2d_robust.h:100-108 (`setInputSource`, 87-93, changes no parameter). -/
def Matcher.setInputTarget (m : Matcher) (s : Scene) : Matcher :=
  { m with cell := s.cell, corr := { m.corr with step := s.cell } }

/-- Result of a computation that may not end, or go on with positions that are not numbers (`none`). -/
abbrev Run (α : Type) := Option (Res α)

/-- Sequence. -/
def Run.bind {α β : Type} (x : Run α) (f : α → Run β) : Run β :=
  match x with
  | none => none
  | some (.ok a) => f a
  | some (.throw e) => some (.throw e)
  | some (.ub u) => some (.ub u)

/-- `proofTransform`, d2d_ndt2d_robust.h:381-394. -/
noncomputable def proofTransform (m : Matcher) (s : Scene) (t : Trans) : Res (Option ℝ) :=
  (Corr.initGrid s.target m.cell 0.5).bind fun table => table.getScore (s.source.map (act t))

/-- What the layers depend on, `cell_sizes_[i]` and `params_[i]` for all layers, d2d_ndt2d.h:418-423. -/
def layersOf (m : Matcher) (s : Scene) : List Newton.Env :=
  (m.layers.sizes.zip m.layers.params).map fun l => s.layer l.1 l.2

/-- `d2d_.align`: the D2D matcher with the report `r` of its last use. -/
noncomputable def d2dAlign (m : Matcher) (s : Scene) (r : Newton.Report) (guess : Trans) : Run Newton.Report :=
  (Newton.d2dTransformation m.newton (layersOf m s) r guess).map .ok

/-- `score > b`; with NaN it is false. -/
def above (score : Option ℝ) (b : ℝ) : Prop := ∃ x, score = some x ∧ x > b

/-- `score < b`; with NaN it is false. -/
def below (score : Option ℝ) (b : ℝ) : Prop := ∃ x, score = some x ∧ x < b

/-- What can be asked from the robust matcher after `align`; `final` is `none` if it was copied from a variable that
was never written. -/
structure Result where
  converged : Bool
  quality : Option ℝ
  final : Option Trans

open Classical in
/-- Verification of the result `second` of the D2D matcher, d2d_ndt2d_robust.h:357-378. -/
noncomputable def verify (m : Matcher) (s : Scene) (score : Option ℝ) (firstTrans : Option Trans) (second : Trans) :
    Run Result :=
  Run.bind (some (proofTransform m s second)) fun score2 =>
  some <| .ok <|
    if below score2 m.limit then
      if above score 0.6 then ⟨true, score, firstTrans⟩ else ⟨false, score, some second⟩
    else ⟨true, score2, some second⟩

open Classical in
/-- `computeTransformation`, d2d_ndt2d_robust.h:325-379.  (The correlative matcher always reports success,
correlative_estimation2d.h:253.) -/
noncomputable def computeTransformation (m : Matcher) (s : Scene) (guess : Trans) : Run Result :=
  Run.bind (d2dAlign m s s.report guess) fun first =>
  Run.bind (some (proofTransform m s first.final)) fun score =>
  if ¬ (first.converged = true ∧ above score 0.7) then
    Run.bind (Corr.computeTransformation m.corr s.sort s.schedule s.source s.target guess) fun corr =>
    Run.bind (d2dAlign m s first corr.2) fun second =>
    if second.converged = false then some (.ok ⟨false, some 0, some corr.2⟩)
    else verify m s score (some first.final) second.final
  else verify m s score none first.final

/-- `NdtScanmatcher::match`, ndt_scanmatcher.h:47-100; `junk` is what a transform that was never written contains. -/
noncomputable def matchFrames (m : Matcher) (s : Scene) (junk guess : Trans) : Run Loop.MatchResult :=
  Run.bind (computeTransformation (m.setInputTarget s) s (convertToTransform (convertFromTransform guess))) fun r =>
  some <| .ok ⟨r.converged, !![5000, 0, 0; 0, 5000, 0; 0, 0, 10000],
    convertToTransform (convertFromTransform (r.final.getD junk))⟩

end Verif.Match
