import Verif.Pose.Model
import Mathlib.Algebra.Order.ToIntervalMod
import Mathlib.Analysis.SpecialFunctions.Log.Basic

/-
Model of the robust edges of the optimiser (src/slam_optimizer/switchable_constraints, src/slam_optimizer/
max_mixture) and of their creation in slam2d.h.

Simplifications:
* the parts of g2o they are built on are written down as documented by g2o (third party): `SE2`, `EdgeSE2`,
  `BaseVertex::push`/`pop`;
* the pointers to vertices are numbers, the estimates of the vertices a function;
* reading and writing files and console output are left out.
-/
namespace Verif.Opt

open Verif Verif.Geo Matrix

/-! ### g2o -/

/-- `normalize_theta` of g2o (third party): the equivalent angle in `[-π, π)`. -/
noncomputable def normTheta (a : ℝ) : ℝ := toIcoMod Real.two_pi_pos (-Real.pi) a

/-- `SE2::operator*` (third party). -/
noncomputable def se2Mul (a b : Pose) : Pose :=
  ⟨a.x + (Real.cos a.th * b.x - Real.sin a.th * b.y), a.y + (Real.sin a.th * b.x + Real.cos a.th * b.y),
    normTheta (a.th + b.th)⟩

/-- `SE2::inverse` (third party). -/
noncomputable def se2Inv (a : Pose) : Pose :=
  let th := normTheta (-a.th)
  ⟨Real.cos th * -a.x - Real.sin th * -a.y, Real.sin th * -a.x + Real.cos th * -a.y, th⟩

/-- The difference between the measured and the current relative pose: `EdgeSE2::computeError` (third party),
and `delta` in edge_se2Switchable.cpp:101-102 and 115-116. -/
noncomputable def delta (xi xj z : Pose) : Pose := se2Mul (se2Inv z) (se2Mul (se2Inv xi) xj)

/-! ### Switch variables -/

/-- `VertexSwitchLinear`: the member `_x`, and `_estimate` and the stack of saved estimates of
`g2o::BaseVertex`. -/
structure Switch where
  x : ℝ
  estimate : ℝ
  backup : List ℝ

/-- Constructor and `setToOriginImpl`, vertex_switchLinear.h:22-25, vertex_switchLinear.cpp:30-34. -/
def Switch.origin : Switch := ⟨0, 0, []⟩

/-- `setEstimate`, vertex_switchLinear.cpp:36-40. -/
def Switch.setEstimate (v : Switch) (e : ℝ) : Switch := { v with x := e, estimate := e }

/-- `oplusImpl`, vertex_switchLinear.cpp:42-52. -/
noncomputable def Switch.oplus (v : Switch) (update : ℝ) : Switch :=
  let x := v.x + update
  let x := if x < 0 then 0 else x
  let x := if x > 1 then 1 else x
  { v with x := x, estimate := x }

/-- `BaseVertex::push` (third party). -/
def Switch.push (v : Switch) : Switch := { v with backup := v.estimate :: v.backup }

/-- `BaseVertex::pop` (third party): only `_estimate` is restored. -/
def Switch.pop (v : Switch) : Res Switch :=
  match v.backup with
  | [] => .ub .emptyContainer
  | e :: b => .ok { v with estimate := e, backup := b }

/-! ### Switchable constraint -/

/-- `EdgeSE2Switchable::computeError`, edge_se2Switchable.cpp:108-118. -/
noncomputable def switchError (xi xj z : Pose) (s : ℝ) : Pose :=
  let d := delta xi xj z
  ⟨d.x * s, d.y * s, d.th * s⟩

/-- `EdgeSE2Switchable::linearizeOplus`, edge_se2Switchable.cpp:58-105: the Jacobians for the two poses and
for the switch. -/
noncomputable def switchJacobians (xi xj z : Pose) (s : ℝ) : Trans × Trans × (Fin 3 → ℝ) :=
  let dx := xj.x - xi.x
  let dy := xj.y - xi.y
  let si := Real.sin xi.th
  let ci := Real.cos xi.th
  let j0 : Trans := !![-ci, -si, -si * dx + ci * dy; si, -ci, -ci * dx - si * dy; 0, 0, -1]
  let j1 : Trans := !![ci, si, 0; -si, ci, 0; 0, 0, 1]
  let a := (se2Inv z).th
  let r : Trans := !![Real.cos a, -Real.sin a, 0; Real.sin a, Real.cos a, 0; 0, 0, 1]
  let gradient : ℝ := 1
  let d := delta xi xj z
  (s • (r * j0), s • (r * j1), fun i => ![d.x, d.y, d.th] i * gradient)

/-- `EdgeSwitchPrior::computeError` and `linearizeOplus`, edge_switchPrior.cpp:21-33. -/
def priorError (measurement x : ℝ) : ℝ := measurement - x

/-- see `priorError` -/
def priorJacobian : ℝ := -1

/-! ### Mixture -/

/-- What defines a `g2o::EdgeSE2`. -/
structure Edge where
  v0 : ℕ
  v1 : ℕ
  meas : Pose
  info : Matrix (Fin 3) (Fin 3) ℝ

/-- Error vector of an edge for the estimates `est` (third party). -/
noncomputable def Edge.error (e : Edge) (est : ℕ → Pose) : Fin 3 → ℝ :=
  let d := delta (est e.v0) (est e.v1) e.meas
  ![d.x, d.y, d.th]

/-- `chi2` (third party). -/
noncomputable def Edge.chi2 (e : Edge) (est : ℕ → Pose) : ℝ := e.error est ⬝ᵥ (e.info *ᵥ e.error est)

/-- `EdgeSE2Mixture`: its components and what it inherits from `EdgeSE2`.  `bestComponent` is `none` until it
is set: the constructor initialises a local variable of the same name instead. -/
structure Mixture where
  number : ℕ
  comps : List Edge
  weights : List ℝ
  dets : List ℝ
  best : Option ℕ
  belief : Edge
  err : Fin 3 → ℝ

/-- Default constructor, edge_se2_mixture.cpp:40-44. -/
noncomputable def Mixture.empty : Mixture := ⟨0, [], [], [], none, ⟨0, 0, ⟨0, 0, 0⟩, 1⟩, 0⟩

/-- Checked `std::vector::operator[]`. -/
def at? {α : Type} (l : List α) (i : ℕ) : Res α :=
  match l[i]? with
  | some a => .ok a
  | none => .ub .outOfBounds

/-- `getNegLogProb`, edge_se2_mixture.cpp:106-112.  The result is `none` when it is not a finite number: a
weight of zero gives infinity and a negative argument of the logarithm gives NaN; both lose every comparison
in `computeError`.  (A determinant of zero does not occur: it belongs to an inverse matrix.) -/
noncomputable def Mixture.negLogProb (m : Mixture) (est : ℕ → Pose) (c : ℕ) : Res (Option ℝ) :=
  (at? m.comps c).bind fun e =>
  (at? m.weights c).bind fun w =>
  (at? m.dets c).bind fun d =>
  .ok (if 0 < w ∧ 0 < d then some (-Real.log w + 0.5 * Real.log d + 0.5 * e.chi2 est) else none)

/-- One iteration of the loop in `computeError`; `none` is the initial state `best = -1`,
`minError = max()`. -/
noncomputable def better (best : Option (ℕ × ℝ)) (i : ℕ) (p : Option ℝ) : Option (ℕ × ℝ) :=
  match p with
  | none => best
  | some p =>
    match best with
    | none => some (i, p)
    | some (b, m) => if m > p then some (i, p) else some (b, m)

/-- The loop in `computeError`, edge_se2_mixture.cpp:88-96, over the components `i, …, i + n - 1`. -/
noncomputable def Mixture.search (m : Mixture) (est : ℕ → Pose) : ℕ → ℕ → Option (ℕ × ℝ) → Res (Option (ℕ × ℝ))
  | _, 0, best => .ok best
  | i, n + 1, best => (m.negLogProb est i).bind fun p => m.search est (i + 1) n (better best i p)

/-- `computeError`, edge_se2_mixture.cpp:86-104, with `UpdateBelief`, 71-83; index -1 is out of bounds. -/
noncomputable def Mixture.computeError (m : Mixture) (est : ℕ → Pose) : Res Mixture :=
  (m.search est 0 m.number none).bind fun r =>
  match r with
  | none => .ub .outOfBounds
  | some (i, _) =>
    (at? m.comps i).bind fun e => .ok { m with best := some i, belief := e, err := e.error est }

/-- `initializeComponents`, edge_se2_mixture.cpp:57-69: `determinants` is extended, not replaced. -/
noncomputable def Mixture.initializeComponents (m : Mixture) (edges : List Edge) (weights : List ℝ)
    (est : ℕ → Pose) : Res Mixture :=
  ({ m with
     comps := edges
     weights := weights
     number := edges.length
     dets := m.dets ++ edges.map fun e => (e.info⁻¹).det } : Mixture).computeError est

/-- `linearizeOplus`, edge_se2_mixture.cpp:114-123: the state in which the Jacobians of `EdgeSE2` are taken. -/
noncomputable def Mixture.linearizeOplus (m : Mixture) (est : ℕ → Pose) : Res Mixture := m.computeError est

/-- `addMaxMixtureEdge`, slam2d.h:388-416: the edge created for a loop closure. -/
noncomputable def loopMixture (src dst : ℕ) (trans : Pose) (inform : Matrix (Fin 3) (Fin 3) ℝ) (est : ℕ → Pose) :
    Res Mixture :=
  let invalid : Matrix (Fin 3) (Fin 3) ℝ := diagonal ![5e-9, 5e-9, 1e-9]
  Mixture.empty.initializeComponents [⟨src, dst, trans, inform⟩, ⟨src, dst, trans, invalid⟩] [1, 0.0001] est

end Verif.Opt
