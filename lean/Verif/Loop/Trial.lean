import Verif.Loop.Model

/-
Model of trial loop closures: `LoopDetector::addToGraph` and `removeFromGraph`
(include/ndt_gslam/slam_optimizer/loop_detector.h).
-/
namespace Verif.Loop

open Verif Verif.PoseGraph Verif.Slam

variable {τ : Type}

/-- One turn of the loop of `addToGraph`, loop_detector.h:300-308; `addr` is the allocator's choice. -/
noncomputable def addTrial (addr : ℕ) (c : LoopClosure) (g : G τ) : Res (ℕ × G τ) :=
  (getNode g c.src).bind fun _ =>
  (getNode g c.dst).bind fun _ =>
  (addEdge g addr c.src c.dst ⟨Geo.getPoseFromTransform c.trans, c.inform, .constructed, .odom, false⟩).bind
    fun r =>
  (modifyEdge r.2 r.1 fun e => { e with kind := .loop }).bind fun g =>
  (modifyEdge g r.1 fun e => { e with state := .temp }).map fun g => (r.1, g)

/-- `addToGraph`, loop_detector.h:294-311: the result together with the graph when the call ends (an exception
leaves the constraints added before it in the graph). -/
noncomputable def addToGraph : List (ℕ × LoopClosure) → Op (G τ) (List ℕ)
  | [] => .pure []
  | (addr, c) :: rest => fun g =>
    match addTrial addr c g with
    | .ok (id, g) => Op.bind (addToGraph rest) (fun ids => .pure (id :: ids)) g
    | .throw e => (.throw e, g)
    | .ub u => (.ub u, g)

/-- `removeFromGraph`, loop_detector.h:313-319. -/
def removeFromGraph : List ℕ → G τ → Res (G τ)
  | [], g => .ok g
  | id :: ids, g => (removeEdge g id).bind fun r => removeFromGraph ids r.2

end Verif.Loop
