import Verif.Slam.Model
import Mathlib.Data.List.Perm.Basic

/-
Specification vocabulary for `Slam2D`: the book a client keeps, and the histories of public calls.
-/
namespace Verif.Slam

open Verif Verif.PoseGraph

variable {τ : Type}

/-- What a client knows: the poses (with their data objects) and the constraints, in the order of the
calls. -/
structure Book (τ : Type) where
  poses : List (Pose × τ)
  cons : List (ℕ × ℕ × Pose × EKind)

/-- `History s book`: the object is in state `s` after some series of public calls, and `book` is the
client's book of it.  Calls that throw are included. -/
inductive History : State τ → Book τ → Prop
  | init : History init ⟨[], []⟩
  | addPose {s b} (p : Pose) (o : τ) : History s b →
      History (Slam.addPose s p o).2 { b with poses := b.poses ++ [(p, o)] }
  | addConstrain {s b addr src dst trans inform id s'} : History s b → Fresh s.graph addr →
      Slam.addConstrain addr src dst trans inform s = (.ok id, s') →
      History s' { b with cons := b.cons ++ [(src, dst, trans, .odom)] }
  | rejected {s b addr src dst trans inform e s'} : History s b →
      Slam.addConstrain addr src dst trans inform s = (.throw e, s') → History s' b
  | loopClose {s b loops r s'} : History s b → (loops.map Prod.fst).Nodup →
      (∀ a ∈ loops.map Prod.fst, Fresh s.graph a) →
      finishLoopClose loops s = (.ok r, s') →
      History s' { b with cons := b.cons ++ loops.map fun c => (c.2.src, c.2.dst, c.2.trans, .loop) }
  | optimalize {s b r s'} (est : ℕ → Pose) (upd : τ → Pose → τ) (order : List ℕ) : History s b →
      order.Perm (List.range b.poses.length) →
      Slam.optimalize est upd order s = (.ok r, s') →
      History s'
        { b with
          poses := b.poses.mapIdx fun i x =>
            let p := if i = 0 then x.1 else est i
            (p, upd x.2 p) }

end Verif.Slam
