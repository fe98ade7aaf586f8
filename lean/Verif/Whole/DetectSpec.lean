import Verif.Whole.Detect
import Verif.Whole.Spec
import Verif.Loop.Spec

/-
Specification vocabulary for the algorithm with its own loop detector.
-/
namespace Verif.Whole

open Verif Verif.Geo Verif.World

/-- What is assumed about one update: motion and result of the matcher are rigid, the allocator does not hand out
addresses in use, the optimiser reports each node once, and `std::sort` permutes the list.  Nothing is assumed about
the loop search. -/
structure AdmissibleOwn (s : State) (d : Outer) : Prop where
  motion : IsRigid d.motion
  matcher : ∀ m, d.matcher = some m → IsRigid (convertToTransform m)
  addrs : (d.addr :: d.addrs).Nodup
  enough : 50 ≤ d.addrs.length
  fresh : ∀ a ∈ d.addr :: d.addrs, PoseGraph.Fresh s.alg.engine.graph a
  order : d.order.Perm (List.range (s.alg.engine.graph.nodes.length + 1))
  sorted : d.sorted.Perm (s.order ++ [s.store.length])

/-- `Own o eig log s`: the algorithm, searching for loops itself, is in state `s` after a series of successful
updates (and changes of the parameters in between); `log` lists them. -/
inductive Own (o : Loop.Overread) (eig : NDT.Eig) : List Entry → State → Prop
  | init : Own o eig [] (init eig)
  | setDistance {log s} (d : ℝ) : Own o eig log s → Own o eig log (setDistance s d)
  | setRadius {log s} (r : ℝ) : Own o eig log s → Own o eig log (setRadius s r)
  | update {log s d out s'} : Own o eig log s → AdmissibleOwn s d → updateOwn o eig d s = .ok (out, s') →
      Own o eig (log ++ [⟨out.1, out.2, d.scan⟩]) s'

/-- Poses (with their frames) and constraints of the pose graph, in the order of their ids. -/
def bookOf (s : State) : Slam.Book Algo.Frame where
  poses := s.alg.engine.graph.nodes.map fun n => (n.payload.pose, n.payload.obj)
  cons := s.alg.engine.graph.edges.filterMap fun e => e.map fun e =>
    (e.src, e.dst, e.payload.trans, e.payload.kind)

/-- Poses and constraints when the active frame has become a node: its pose is the newest one, and it is joined to the
one before by the motion between the starts of the two frames. -/
noncomputable def grown (s : State) : Slam.Book Algo.Frame where
  poses := (bookOf s).poses ++ [(s.alg.temp.origin, s.alg.temp)]
  cons := (bookOf s).cons ++ match (bookOf s).poses.length with
    | 0 => []
    | n + 1 => [(n, n + 1, getPoseFromTransform s.alg.lastTrans, .odom)]

/-- The constraints for the loop closures that should be found in the poses and constraints `b`. -/
noncomputable def loopConstraints (env : Loop.Env) (b : Slam.Book Algo.Frame) : List (ℕ × ℕ × Pose × Slam.EKind) :=
  (Loop.closures env b (Loop.tried env b)).map fun c => (c.src, c.dst, getPoseFromTransform c.trans, .loop)

end Verif.Whole
