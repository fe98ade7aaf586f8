import Verif.Whole.Model
import Verif.Algo.Spec
import Verif.World.Spec

/-
Specification vocabulary for the algorithm with its maps.
-/
namespace Verif.Whole

open Verif Verif.Geo Verif.World

/-- What the outside knows about one update: what happened, the pose that was returned, and the scan. -/
structure Entry where
  event : Algo.Event
  pose : Pose
  scan : List NDT.Vec

/-- What is assumed about one update: see `Algo.Admissible`; and `std::sort` permutes the list. -/
structure Admissible (s : State) (inp : Input) : Prop where
  alg : Algo.Admissible s.alg inp.alg
  sorted : inp.sorted.Perm (s.order ++ [s.store.length])

/-- `Reach eig P log s`: the algorithm is in state `s` after a series of successful updates with inputs satisfying
`P` (and changes of the parameters in between); `log` lists them. -/
inductive Reach (eig : NDT.Eig) (P : Algo.Input → Prop) : List Entry → State → Prop
  | init : Reach eig P [] (init eig)
  | setDistance {log s} (d : ℝ) : Reach eig P log s → Reach eig P log (setDistance s d)
  | setRadius {log s} (r : ℝ) : Reach eig P log s → Reach eig P log (setRadius s r)
  | update {log s inp o s'} : Reach eig P log s → P inp.alg → Admissible s inp →
      update eig inp s = .ok (o, s') → Reach eig P (log ++ [⟨o.1, o.2, inp.scan⟩]) s'

/-- The updates whose scan was used. -/
def used (log : List Entry) : List Entry := log.filter fun e => e.event.scanUsed

/-- The point lies among the points of the scan (in their convex hull) as seen by a robot with this pose. -/
def SeenFrom (pose : Trans) (scan : List NDT.Vec) (v : ℝ × ℝ) : Prop :=
  v ∈ convexHull ℝ {x | ∃ p ∈ scan, x = act pose (p 0, p 1)}

/-- The point lies among the points of the first scan, seen from the start pose, or among those of a scan that was
matched, seen from the pose the matcher found for it. -/
def WindowPoint (log : List Entry) (v : ℝ × ℝ) : Prop :=
  ∃ e ∈ log, (e.event = .first ∧ SeenFrom 1 e.scan v) ∨
    ∃ g m q, e.event = .matched g m q ∧ SeenFrom (getTransFromPose q) e.scan v

/-- The poses of the robot for all scans in the frames, as they are estimated at present: pose of the frame in
the graph times the pose of the scan in the frame. -/
noncomputable def scanPoses (s : State) : List Trans := (Algo.frames s.alg).flatMap Algo.Frame.scans

/-- The map `n` is made of these scans: every Gaussian lies among the points of one of them, as seen from a
robot with the given pose in the frame of the map. -/
def MadeOf (n : Map) (part : List (Trans × List NDT.Vec)) : Prop :=
  ∀ c ∈ gaussians n, ∃ x ∈ part, SeenFrom x.1 x.2 (c.mean 0, c.mean 1)

/-! ### Size of the running window -/

/-- `Runs eig P s log s'`: a series of further updates, and changes of the parameters, leads from `s` to `s'`. -/
inductive Runs (eig : NDT.Eig) (P : Algo.Input → Prop) (s : State) : List Entry → State → Prop
  | refl : Runs eig P s [] s
  | setDistance {log s'} (d : ℝ) : Runs eig P s log s' → Runs eig P s log (setDistance s' d)
  | setRadius {log s'} (r : ℝ) : Runs eig P s log s' → Runs eig P s log (setRadius s' r)
  | update {log s' inp o s''} : Runs eig P s log s' → P inp.alg → Admissible s' inp →
      update eig inp s' = .ok (o, s'') → Runs eig P s (log ++ [⟨o.1, o.2, inp.scan⟩]) s''

/-- All points of the scan lie within the range `R` of the sensor. -/
def InRange (R : ℝ) (scan : List NDT.Vec) : Prop := ∀ p ∈ scan, p 0 ^ 2 + p 1 ^ 2 ≤ R ^ 2

/-- The position found by the matcher, if any, is not farther than `T` from the origin of the window, in the
direction of either axis. -/
def NearWindow (T : ℝ) (inp : Algo.Input) : Prop :=
  ∀ r, inp.matcher = some r → |r 0 3| ≤ T ∧ |r 1 3| ≤ T

end Verif.Whole
