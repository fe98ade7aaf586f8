import Verif.Newton.Float
import Verif.Pose.Model
import Mathlib.Analysis.SpecialFunctions.Log.Basic
import Mathlib.Analysis.SpecialFunctions.Pow.Real

/-
Model of the Newton iteration of the NDT matchers (include/ndt_gslam/registration/ndt_reg_tools.h, ndt2d.h and
d2d_ndt2d.h): fitting parameters, layers, line search, iteration on one grid, coarse to fine iteration.

Simplifications:
* no rounding; NaN and infinities only inside the line search (`Fp`);
* score functions (`calcScore`) and the solution of the Newton system by singular value decomposition are
  arbitrary functions; the scores themselves are modelled in `Verif/Score`;
* log messages, visualisation, output clouds and `trans_probability_` are left out.
-/
namespace Verif.Newton

open Verif Verif.Geo

/-! ### Fitting parameters -/

/-- `FittingParams`. -/
structure FittingParams where
  d1 : ℝ
  d2 : ℝ
  d2half : ℝ

/-- Constructor and `calcParams`, ndt_reg_tools.h:60-78. -/
noncomputable def FittingParams.mk' (outlier resolution : ℝ) : FittingParams :=
  let c1 := 10 * (1 - outlier)
  let c2 := outlier / resolution ^ 2
  let d3 := -Real.log c2
  let d1 := -Real.log (c1 + c2) - d3
  let d2 := -2 * Real.log ((-Real.log (c1 * Real.exp (-0.5) + c2) - d3) / d1)
  ⟨d1, d2, d2 / 2⟩

/-! ### Layers -/

/-- The members that describe the layers of a matcher. -/
structure Layers where
  count : ℕ
  sizes : List ℝ
  outlier : ℝ
  params : List FittingParams

/-- `initParams`, ndt2d.h:268-275 and d2d_ndt2d.h:298-305. -/
noncomputable def Layers.initParams (l : Layers) : Layers :=
  { l with params := l.sizes.map fun s => FittingParams.mk' l.outlier (1 / s) }

open Classical in
/-- `initCellSizes`, ndt2d.h:277-288 and d2d_ndt2d.h:317-328. -/
noncomputable def Layers.initCellSizes (l : Layers) (base : ℝ) : Bool × Layers :=
  if l.sizes.length > 0 ∧ l.sizes.getLast? = some base ∧ l.sizes.length = l.count then (false, l)
  else (true, { l with sizes := (List.range l.count).reverse.map fun i => base * 2 ^ i })

/-- `setCellSize`, ndt2d.h:86-91 and d2d_ndt2d.h:82-87. -/
noncomputable def Layers.setCellSize (l : Layers) (size : ℝ) : Layers :=
  let r := l.initCellSizes size
  if r.1 then r.2.initParams else r.2

/-- `getCellSize`, ndt2d.h:98-101 and d2d_ndt2d.h:94-97. -/
def Layers.getCellSize (l : Layers) : Res ℝ :=
  match l.sizes.getLast? with
  | some s => .ok s
  | none => .ub .emptyContainer

/-- `setNumLayers`, ndt2d.h:108-113 and d2d_ndt2d.h:65-70. -/
noncomputable def Layers.setNumLayers (l : Layers) (num : ℕ) : Res Layers :=
  let l := { l with count := num }
  l.getCellSize.map fun s => (l.initCellSizes s).2.initParams

/-- `setOulierRatio`, ndt2d.h:139-143 and d2d_ndt2d.h:133-137. -/
noncomputable def Layers.setOutlierRatio (l : Layers) (ratio : ℝ) : Layers :=
  Layers.initParams { l with outlier := ratio }

/-- Constructor, ndt2d.h:332-346 (ratio 0.3) and d2d_ndt2d.h:381-400 (ratio 0.55). -/
noncomputable def Layers.new (ratio : ℝ) : Layers :=
  (Layers.initCellSizes ⟨4, [], ratio, []⟩ 0.25).2.initParams

/-! ### Line search -/

/-- End points of the interval with values and derivatives, ndt2d.h:600-610 and d2d_ndt2d.h:726-737. -/
structure Interval where
  al : Fp
  fl : Fp
  gl : Fp
  au : Fp
  fu : Fp
  gu : Fp

/-- `updateIntervalMT`, ndt_reg_tools.h:106-144. -/
noncomputable def updateInterval (i : Interval) (at_ ft gt : Fp) : Bool × Interval :=
  if Fp.lt i.fl ft then (false, { i with au := at_, fu := ft, gu := gt })
  else if Fp.lt (.fin 0) (gt * (i.al - at_)) then (false, { i with al := at_, fl := ft, gl := gt })
  else if Fp.lt (gt * (i.al - at_)) (.fin 0) then (false, ⟨at_, ft, gt, i.al, i.fl, i.gl⟩)
  else (true, i)

/-- The minimiser of the cubic that interpolates at `a` and `at_`, ndt_reg_tools.h:156-159, 177-180, 197-199 and
225-228. -/
noncomputable def cubic (a f g at_ ft gt : Fp) : Fp :=
  let z := .fin 3 * (ft - f) / (at_ - a) - gt - g
  let w := Fp.sqrt (z * z - gt * g)
  a + (at_ - a) * (w - g - z) / (gt - g + .fin 2 * w)

/-- The minimiser of a quadratic, ndt_reg_tools.h:185 and 203. -/
noncomputable def secant (i : Interval) (at_ gt : Fp) : Fp := i.al - (i.al - at_) / (i.gl - gt) * i.gl

/-- `trialValueSelectionMT`, ndt_reg_tools.h:146-230. -/
noncomputable def trialValue (i : Interval) (at_ ft gt : Fp) : Fp :=
  if Fp.lt i.fl ft then
    let ac := cubic i.al i.fl i.gl at_ ft gt
    let aq := i.al - .fin 0.5 * (i.al - at_) * i.gl / (i.gl - (i.fl - ft) / (i.al - at_))
    if Fp.lt (Fp.abs (ac - i.al)) (Fp.abs (aq - i.al)) then ac else .fin 0.5 * (aq + ac)
  else if Fp.lt (gt * i.gl) (.fin 0) then
    let ac := cubic i.al i.fl i.gl at_ ft gt
    let as := secant i at_ gt
    if Fp.le (Fp.abs (as - at_)) (Fp.abs (ac - at_)) then ac else as
  else if Fp.le (Fp.abs gt) (Fp.abs i.gl) then
    let ac := cubic i.al i.fl i.gl at_ ft gt
    let as := secant i at_ gt
    let next := if Fp.lt (Fp.abs (ac - at_)) (Fp.abs (as - at_)) then ac else as
    if Fp.lt i.al at_ then Fp.min (at_ + .fin 0.66 * (i.au - at_)) next
    else Fp.max (at_ + .fin 0.66 * (i.au - at_)) next
  else cubic i.au i.fu i.gu at_ ft gt

/-- `auxilaryFunction_PsiMT`, ndt_reg_tools.h:245-249. -/
noncomputable def psi (a fa f0 g0 mu : Fp) : Fp := fa - f0 - mu * g0 * a

/-- `auxilaryFunction_dPsiMT`, ndt_reg_tools.h:263-266. -/
noncomputable def dPsi (ga g0 mu : Fp) : Fp := ga - mu * g0

/-- Sufficient decrease and curvature constants, ndt2d.h:595-598 and d2d_ndt2d.h:721-724. -/
noncomputable def mu : Fp := .fin 1e-4
/-- see `mu` -/
noncomputable def nu : Fp := .fin 0.9

/-- Limits of the step, ndt2d.h:616-617 and d2d_ndt2d.h:742-743. -/
noncomputable def clampStep (stepMax stepMin a : Fp) : Fp := Fp.max (Fp.min a stepMax) stepMin

/-- Value and derivative of the score along the direction. -/
abbrev Phi := Fp → Fp × Fp

/-- Variables of the loop of the line search; `evals` counts the evaluations of the score. -/
structure Search where
  i : Interval
  at_ : Fp
  phi : Fp
  dphi : Fp
  psi : Fp
  dpsi : Fp
  opened : Bool
  converged : Bool
  evals : ℕ

/-- Condition of the loop without the number of iterations, ndt2d.h:643-645 and d2d_ndt2d.h:770-772. -/
def Search.more (s : Search) (dphi0 : Fp) : Prop :=
  s.converged = false ∧ ¬ (Fp.le s.psi (.fin 0) ∧ Fp.le s.dphi (-nu * dphi0))

/-- Body of the loop, ndt2d.h:646-698 and d2d_ndt2d.h:773-825.  `phi` gives the negated value of the score and its
negated derivative along the direction for a step length. -/
noncomputable def Search.iterate (phi : Phi) (stepMax stepMin phi0 dphi0 : Fp) (s : Search) : Search :=
  let a := if s.opened then trialValue s.i s.at_ s.psi s.dpsi else trialValue s.i s.at_ s.phi s.dphi
  let a := clampStep stepMax stepMin a
  let ph := (phi a).1
  let dph := (phi a).2
  let ps := Newton.psi a ph phi0 dphi0 mu
  let dps := dPsi dph dphi0 mu
  let close := s.opened = true ∧ Fp.le ps (.fin 0) ∧ Fp.le (.fin 0) dps
  open Classical in
  let i := if close then
    { s.i with
      fl := s.i.fl + phi0 - mu * dphi0 * s.i.al
      gl := s.i.gl + mu * dphi0
      fu := s.i.fu + phi0 - mu * dphi0 * s.i.au
      gu := s.i.gu + mu * dphi0 } else s.i
  let op := if close then false else s.opened
  let r := if op then updateInterval i a ps dps else updateInterval i a ph dph
  ⟨r.2, a, ph, dph, ps, dps, op, r.1, s.evals + 1⟩

open Classical in
/-- The loop with at most `n` more iterations. -/
noncomputable def Search.run (phi : Phi) (stepMax stepMin phi0 dphi0 : Fp) : ℕ → Search → Search
  | 0, s => s
  | n + 1, s => if s.more dphi0 then Search.run phi stepMax stepMin phi0 dphi0 n (s.iterate phi stepMax stepMin phi0 dphi0) else s

/-- `computeStepLengthMT` from line 590 (ndt2d.h) or 716 (d2d_ndt2d.h) on: step length and number of evaluations
of the score. -/
noncomputable def searchStep (phi : Phi) (stepInit stepMax stepMin phi0 dphi0 : Fp) : Fp × ℕ :=
  let i : Interval := ⟨.fin 0, psi (.fin 0) phi0 phi0 dphi0 mu, dPsi dphi0 dphi0 mu,
    .fin 0, psi (.fin 0) phi0 phi0 dphi0 mu, dPsi dphi0 dphi0 mu⟩
  let a := clampStep stepMax stepMin stepInit
  let ph := (phi a).1
  let dph := (phi a).2
  open Classical in
  let s : Search := ⟨i, a, ph, dph, psi a ph phi0 dphi0 mu, dPsi dph dphi0 mu, true,
    decide (Fp.lt (.fin 0) (stepMax - stepMin)), 1⟩
  let s := Search.run phi stepMax stepMin phi0 dphi0 10 s
  (s.at_, s.evals)

/-- A vector (x, y, θ). -/
abbrev Vec := Fin 3 → ℝ

/-- Scalar product. -/
noncomputable def dot (a b : Vec) : ℝ := a 0 * b 0 + a 1 * b 1 + a 2 * b 2

/-- Value, gradient and Hessian, `ScoreAndDerivatives`, ndt_reg_tools.h:13-51. -/
@[ext] structure Score where
  value : ℝ
  gradient : Vec
  hessian : Matrix (Fin 3) (Fin 3) ℝ

/-- The score along a direction; at positions which are not numbers it is NaN. -/
noncomputable def along (calcScore : Vec → Score) (x dir : Vec) : Phi
  | .fin a => let s := calcScore fun k => x k + dir k * a
    (.fin (-s.value), .fin (-dot s.gradient dir))
  | _ => (.nan, .nan)

/-- `computeStepLengthMT`, ndt2d.h:557-709 and d2d_ndt2d.h:683-828: step length, direction and number of
evaluations.  `trial` is the score function used for the trial points: in ndt2d.h it is evaluated for the output cloud
(line 421) and not for the source. -/
noncomputable def computeStepLength (trial : Vec → Score) (x dir : Vec) (stepInit stepMax stepMin : ℝ) (score : Score) :
    Fp × Vec × ℕ :=
  let phi0 := -score.value
  let dphi0 := -dot score.gradient dir
  if dphi0 = 0 then (.fin 0, dir, 0)
  else
    let dphi := if dphi0 > 0 then dphi0 * -1 else dphi0
    let dir := if dphi0 > 0 then fun k => dir k * -1 else dir
    let r := searchStep (along trial x dir) (.fin stepInit) (.fin stepMax) (.fin stepMin) (.fin phi0) (.fin dphi)
    (r.1, dir, r.2)

/-! ### Iteration on one grid -/

/-- Parameters of the iteration. -/
structure Config where
  stepSize : ℝ
  eps : ℝ
  maxIter : ℕ

/-- The functions an iteration depends on: scores of the source, scores of the trial points and the solution of
the Newton system; `none` if its norm is NaN. -/
structure Env where
  calcScore : Vec → Score
  trial : Vec → Score
  solve : Score → Option Vec

/-- `Eigen::Vector3d::norm`. -/
noncomputable def norm (v : Vec) : ℝ := Real.sqrt (dot v v)

/-- One pass of the loop up to the new position, ndt2d.h:397-424 and d2d_ndt2d.h:454-481. -/
inductive Step
  | fail                                    -- "not enough overlap"
  | broken                                  -- the step length is not a number
  | next (x : Vec) (len : ℝ) (score : Score)

/-- see `Step` -/
noncomputable def newtonStep (cfg : Config) (env : Env) (x : Vec) : Step :=
  let score := env.calcScore x
  match env.solve score with
  | none => .fail
  | some d =>
    if norm d = 0 then .fail
    else
      match computeStepLength env.trial x (fun k => d k / norm d) (norm d) cfg.stepSize (cfg.eps / 2) score with
      | (.fin a, dir, _) => .next (fun k => x k + dir k * a) a score
      | _ => .broken

/-- Result of the iteration on one grid. -/
inductive Single
  | fail
  | broken
  | ok (x : Vec) (iterations : ℕ) (score : Score)

open Classical in
/-- The loop of `D2DNormalDistributionsTransform2D::computeSingleGrid`, d2d_ndt2d.h:453-508, at position `x` with
`nr` iterations done. -/
noncomputable def d2dLoop (cfg : Config) (env : Env) (x : Vec) (nr : ℕ) : Single :=
  match newtonStep cfg env x with
  | .fail => .fail
  | .broken => .broken
  | .next x' len score =>
    if nr + 1 ≥ cfg.maxIter ∨ (nr + 1 ≠ 0 ∧ |len| < cfg.eps) then .ok x' (nr + 1) score
    else d2dLoop cfg env x' (nr + 1)
termination_by cfg.maxIter - nr
decreasing_by omega

open Classical in
/-- The loop of `NormalDistributionsTransform2DEx::computeSingleGrid`, ndt2d.h:396-450. -/
noncomputable def ndtLoop (cfg : Config) (env : Env) (x : Vec) (nr : ℕ) : Single :=
  match newtonStep cfg env x with
  | .fail => .fail
  | .broken => .broken
  | .next x' len score =>
    if nr > cfg.maxIter ∨ (nr ≠ 0 ∧ |len| < cfg.eps) then .ok x' (nr + 1) score
    else ndtLoop cfg env x' (nr + 1)
termination_by cfg.maxIter + 1 - nr
decreasing_by omega

/-- `matToVec`, ndt_reg_tools.h:303-312. -/
noncomputable def matToVec (t : Trans) : Vec :=
  let p := getPoseFromTransform t
  ![p.x, p.y, p.th]

/-- `vecToMat`, ndt_reg_tools.h:278-291. -/
noncomputable def vecToMat (v : Vec) : Trans := getTransFromPose ⟨v 0, v 1, v 2⟩

/-! ### Coarse to fine -/

/-- What the matcher reports.  `covariance` and `information` are those of the last grid that was finished. -/
structure Report where
  converged : Bool
  final : Trans
  covariance : Matrix (Fin 3) (Fin 3) ℝ
  information : Matrix (Fin 3) (Fin 3) ℝ

/-- `computeTransformation` over the layers, ndt2d.h:364-375 and d2d_ndt2d.h:418-431; `loop` is the loop on one grid
and `layers` has for each layer what depends on its grids and parameters.  `none`: a position became NaN. -/
noncomputable def computeLayers (loop : Env → Vec → ℕ → Single) : List Env → Report → Option Report
  | [], r => some { r with converged := true }
  | env :: layers, r =>
    match loop env (matToVec r.final) 0 with
    | .fail => some { r with converged := false, covariance := 1, information := 1 }
    | .broken => none
    | .ok x _ score => computeLayers loop layers ⟨false, vecToMat x, score.hessian, score.hessian⁻¹⟩

/-- `D2DNormalDistributionsTransform2D::computeTransformation`, d2d_ndt2d.h:403-432, with both grids set.
`r` is the report before the call. -/
noncomputable def d2dTransformation (cfg : Config) (layers : List Env) (r : Report) (guess : Trans) : Option Report :=
  computeLayers (d2dLoop cfg) layers { r with converged := false, final := guess }

/-- `NormalDistributionsTransform2DEx::computeTransformation`, ndt2d.h:348-376, with target grid and source set. -/
noncomputable def ndtTransformation (cfg : Config) (layers : List Env) (r : Report) (guess : Trans) : Option Report :=
  computeLayers (ndtLoop cfg) layers { r with converged := false, final := guess }

/-! ### Parallel sum -/

/-- `operator+=`, ndt_reg_tools.h:35-41. -/
noncomputable def Score.add (a b : Score) : Score := ⟨a.value + b.value, a.gradient + b.gradient, a.hessian + b.hessian⟩

/-- `ScoreAndDerivatives::Zero`, ndt_reg_tools.h:26-33, and the constructor. -/
def Score.zero : Score := ⟨0, 0, 0⟩

/-- `omp_ret[thread_id] += local_ret`, d2d_ndt2d.h:573, for the pair of a thread and a cell. -/
noncomputable def addAt (local_ : ℕ → Score) (it : ℕ × ℕ) (l : List Score) : Res (List Score) :=
  match l[it.1]? with
  | some v => .ok (l.set it.1 (v.add (local_ it.2)))
  | none => .ub .outOfBounds

/-- The sum over source cells in `D2DNormalDistributionsTransform2D::calcScore`, d2d_ndt2d.h:534-579, for `threads`
threads.  `schedule` lists the loop iterations done, each with its thread, in the order in which the results are
added; `local_ i` is the contribution of cell `i`. -/
noncomputable def parallelScore (threads : ℕ) (local_ : ℕ → Score) (schedule : List (ℕ × ℕ)) : Res Score :=
  let start : List Score := List.replicate threads .zero ++ List.replicate threads .zero
  (schedule.foldl (fun r it => r.bind (addAt local_ it)) (Res.ok start)).map fun l => l.foldl Score.add .zero

end Verif.Newton
