import Verif.Newton.Model

/- Words used in the statements about the Newton matchers. -/
namespace Verif.Newton

open Verif Verif.Geo

/-- Distance of two vectors (x, y, θ). -/
noncomputable def dist (a b : Vec) : ℝ := Real.sqrt ((a 0 - b 0) ^ 2 + (a 1 - b 1) ^ 2 + (a 2 - b 2) ^ 2)

/-- `v` describes the rigid transform `t`. -/
def Describes (v : Vec) (t : Trans) : Prop :=
  t 0 0 = Real.cos (v 2) ∧ t 0 1 = -Real.sin (v 2) ∧ t 1 0 = Real.sin (v 2) ∧ t 1 1 = Real.cos (v 2) ∧
    t 0 2 = v 0 ∧ t 1 2 = v 1 ∧ t 2 0 = 0 ∧ t 2 1 = 0 ∧ t 2 2 = 1

/-- The solver solves the Newton system H d = -g whenever the Hessian is regular. -/
def SolvesNewton (solve : Score → Option Vec) : Prop :=
  ∀ s : Score, s.hessian.det ≠ 0 → ∃ d, solve s = some d ∧ s.hessian.mulVec d = -s.gradient

/-- Parameters of the incremental matcher of the SLAM front end: `setStepSize(0.01)`,
ndt_slam_algorithm.h:180, the rest as set by the constructor, ndt2d.h:339-341. -/
noncomputable def frontEnd : Config := ⟨0.01, 0.1, 35⟩

/-- Parameters of the distribution to distribution matcher as constructed, d2d_ndt2d.h:383-394. -/
noncomputable def d2dDefault : Config := ⟨0.22, 0.1, 35⟩

/-- Density of the mixture which the score of a cell stands for (Magnusson 2009, 6.7), at `x` standard deviations: a
normal distribution with weight `c1` and a constant `c2` for outliers. -/
noncomputable def mixture (c1 c2 x : ℝ) : ℝ := c1 * Real.exp (-x ^ 2 / 2) + c2

/-- Operations on the layers of a matcher. -/
inductive LayerOp
  | cellSize (size : ℝ)
  | numLayers (num : ℕ)
  | outlierRatio (ratio : ℝ)

/-- An operation. -/
noncomputable def Layers.apply (l : Layers) : LayerOp → Res Layers
  | .cellSize s => .ok (l.setCellSize s)
  | .numLayers n => l.setNumLayers n
  | .outlierRatio r => .ok (l.setOutlierRatio r)

/-- A sequence of operations. -/
noncomputable def Layers.applyAll (l : Layers) : List LayerOp → Res Layers
  | [] => .ok l
  | op :: ops => (l.apply op).bind fun l => l.applyAll ops

/-- What the user has asked for: size of the finest cells, number of layers, ratio of outliers. -/
structure Settings where
  base : ℝ
  layers : ℕ
  ratio : ℝ

/-- The last value set counts. -/
def Settings.after (s : Settings) : List LayerOp → Settings
  | [] => s
  | .cellSize b :: ops => Settings.after { s with base := b } ops
  | .numLayers n :: ops => Settings.after { s with layers := n } ops
  | .outlierRatio r :: ops => Settings.after { s with ratio := r } ops

open Classical in
/-- A solver for the witnesses. -/
noncomputable def newtonSolve (s : Score) : Option Vec :=
  if s.hessian.det ≠ 0 then some ((s.hessian⁻¹).mulVec (-s.gradient)) else none

/-- A score with its maximum at the origin, with exact derivatives: -|v|²/2. -/
noncomputable def bowl : Env :=
  let f : Vec → Score := fun v => ⟨-dot v v / 2, -v, -1⟩
  ⟨f, f, newtonSolve⟩

/-- A score that rises with slope 1 in the direction of x, with a solver that proposes steps of length 1. -/
noncomputable def slope : Env :=
  let f : Vec → Score := fun v => ⟨v 0, ![1, 0, 0], 0⟩
  ⟨f, f, fun _ => some ![1, 0, 0]⟩

end Verif.Newton
