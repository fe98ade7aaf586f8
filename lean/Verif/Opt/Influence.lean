import Verif.Slam.Model
import Verif.Opt.Props
import Mathlib.LinearAlgebra.Matrix.PosDef

/-
Model of `Slam2D::addSwitchConstrainEdge` (slam2d.h:418-447) beside the other calls that fill the optimiser.

Simplifications: as in Slam/Model.lean and Opt/Model.lean.  `Eigen::Matrix<double, 1, 1>(1)` (slam2d.h:434) is the
matrix with the entry 1, as in Eigen since version 3.3 (before, it is a matrix with an undefined entry).
-/
namespace Verif.Opt

open Verif Verif.Slam Verif.Geo Matrix

variable {τ : Type}

/-- What the code stores in an `EdgeSwitchPrior`; `v` is an index into the list of switches. -/
structure PriorEdge where
  id : ℕ
  v : ℕ
  meas : ℝ
  info : ℝ

/-- What the code stores in an `EdgeSE2Switchable`; `v2` is an index into the list of switches. -/
structure LoopEdge where
  id : ℕ
  v0 : Option ℕ
  v1 : Option ℕ
  v2 : ℕ
  meas : Slam.Pose
  info : Info

/-- Slam2D with the robust vertices and edges in its optimiser. -/
structure RState (τ : Type) where
  slam : State τ
  /-- ids and contents of the switch vertices -/
  switches : List (ℕ × Switch)
  priors : List PriorEdge
  loops : List LoopEdge

/-- Constructor. -/
def RState.init : RState τ := ⟨Slam.init, [], [], []⟩

/-- `addSwitchConstrainEdge`, slam2d.h:418-447. -/
def addSwitchConstrainEdge (s : RState τ) (src dst : Option ℕ) (trans : Slam.Pose) (inform : Info) : RState τ :=
  { slam := { s.slam with nodeSeq := s.slam.nodeSeq + 1, edgeSeq := s.slam.edgeSeq + 1 + 1 }
    switches := s.switches ++ [(s.slam.nodeSeq, Switch.origin.setEstimate 1)]
    priors := s.priors ++ [⟨s.slam.edgeSeq, s.switches.length, 1, 1⟩]
    loops := s.loops ++ [⟨s.slam.edgeSeq + 1, src, dst, s.switches.length, trans, inform⟩] }

/-- The calls that fill the optimiser; `addr` is the allocator's choice.  A constraint that throws leaves the state it has
reached. -/
inductive Call (τ : Type)
  | pose (p : Slam.Pose) (obj : τ)
  | constrain (addr src dst : ℕ) (trans : Slam.Pose) (inform : Info)
  | loops (l : List (ℕ × Closure))
  | switchable (src dst : ℕ) (trans : Slam.Pose) (inform : Info)

def Call.run (s : RState τ) : Call τ → RState τ
  | .pose p obj => { s with slam := (addPose s.slam p obj).2 }
  | .constrain addr src dst t inform => { s with slam := (addConstrain addr src dst t inform s.slam).2 }
  | .loops l => { s with slam := (finishLoopClose l s.slam).2 }
  | .switchable src dst t inform =>
    addSwitchConstrainEdge s (s.slam.vertexOf src) (s.slam.vertexOf dst) t inform

end Verif.Opt
