import Verif.Node.Model
import Verif.Algo.Spec

/-
Specification vocabulary for the node.
-/
namespace Verif.Node

open Verif Verif.Geo Matrix

variable {σ ι : Type}

/-- `Run upd s₀ P log s`: the node, with an algorithm starting in `s₀`, is in state `s` after a series of
messages satisfying `P`; `log` lists what could be observed. -/
inductive Run (upd : ι → Trans → σ → Res (Pose × σ)) (s₀ : σ) (P : Msg ι → State σ → Prop) :
    List Out → State σ → Prop
  | init : Run upd s₀ P [] (init s₀)
  | message {log s m o s'} : Run upd s₀ P log s → P m s → callback upd m s = .ok (o, s') →
      Run upd s₀ P (log ++ [o]) s'

/-- The observations of the processed messages. -/
def processed (log : List Out) : List (Pose × Trans × Pose) := log.filterMap Out.processed

/-- The published transform composed with the odometry pose is the estimate. -/
def Consistent (published : Option Trans) (odom slam : Pose) : Prop :=
  ∃ t, published = some t ∧ t * getTransFromPose odom = getTransFromPose slam

/-- `NdtSlamAlgortihm::update` as implementation of the interface. -/
noncomputable def slamUpdate (env : Algo.Input) (motion : Trans) (s : Algo.State) :
    Res (Pose × Algo.State) :=
  (Algo.update { env with motion := motion } s).map fun r => (r.1.2, r.2)

/-- Messages without any correction: no loop closure is found and the scan matcher fails (see
`Algo.Admissible` for the other assumptions). -/
def Uncorrected (m : Msg Algo.Input) (s : State Algo.State) : Prop :=
  IsRigid (convertToTransform m.odomTf) ∧ Algo.OdometryOnly m.env ∧
    Algo.Admissible s.alg { m.env with motion := 1 }

end Verif.Node
