import Verif.Opt.Text

/-
Model of the mixture edges between a pose and a landmark and between poses in space:
src/slam_optimizer/max_mixture/edge_se2_pointxy_mixture.cpp and edge_se3_mixture.cpp.  Both are built into the program and
registered with g2o for loading graphs; the SLAM itself uses only `EdgeSE2Mixture` (Opt/Model.lean).  The two classes
have the same text but for the numbers of a measurement and of an information matrix, `linearizeOplus`, and the
normalisation of quaternions; so they are modelled together, with `k` numbers of a measurement and information matrices
of size `n`.

Simplifications: as in Opt/Model.lean and Opt/Text.lean.  The error of a component, `computeError` of the g2o edge, is a
parameter `err`; for landmarks it is `landmarkError`.  The measurement is what `getMeasurementData` and
`setMeasurementData` of g2o exchange.
-/
namespace Verif.Opt

open Verif Verif.Geo Matrix

/-- What defines a component: ends, measurement, information. -/
structure Comp (k n : ℕ) where
  v0 : ℕ
  v1 : ℕ
  meas : Fin k → ℝ
  info : Matrix (Fin n) (Fin n) ℝ

/-- Estimates of poses and of landmarks. -/
structure Estimates where
  pose : ℕ → Pose
  point : ℕ → ℝ × ℝ

/-- `EdgeSE2PointXY::computeError` (third party): the landmark seen from the pose minus the measurement. -/
noncomputable def landmarkError (c : Comp 2 2) (est : Estimates) : Fin 2 → ℝ :=
  let a := est.pose c.v0
  let p := est.point c.v1
  ![Real.cos a.th * (p.1 - a.x) + Real.sin a.th * (p.2 - a.y) - c.meas 0,
    -Real.sin a.th * (p.1 - a.x) + Real.cos a.th * (p.2 - a.y) - c.meas 1]

/-- `chi2` (third party). -/
noncomputable def compChi2 {k n : ℕ} {E : Type} (err : Comp k n → E → Fin n → ℝ) (c : Comp k n) (est : E) : ℝ :=
  err c est ⬝ᵥ (c.info *ᵥ err c est)

/-- `EdgeSE2PointXYMixture`, edge_se2_pointxy_mixture.h:45-84, and `EdgeSE3Mixture`, edge_se3_mixture.h:34-70: components
and what is inherited from the g2o edge.  `best` is `none` until it is set. -/
structure Mix (k n : ℕ) where
  number : ℕ
  comps : List (Comp k n)
  weights : List ℝ
  dets : List ℝ
  best : Option ℕ
  belief : Comp k n
  err : Fin n → ℝ

variable {k n : ℕ} {E : Type}

/-- A g2o edge to which nothing has been assigned. -/
def Comp.blank : Comp k n := ⟨0, 0, 0, 1⟩

/-- Default constructors, edge_se2_pointxy_mixture.cpp:40-45, edge_se3_mixture.cpp:40-44. -/
def Mix.empty : Mix k n := ⟨0, [], [], [], none, .blank, 0⟩

/-- `getNegLogProb`, edge_se2_pointxy_mixture.cpp:106-112, edge_se3_mixture.cpp:103-109.  See `Mixture.negLogProb`. -/
noncomputable def Mix.negLogProb (err : Comp k n → E → Fin n → ℝ) (m : Mix k n) (est : E) (c : ℕ) : Res (Option ℝ) :=
  (at? m.comps c).bind fun e =>
  (at? m.weights c).bind fun w =>
  (at? m.dets c).bind fun d =>
  .ok (if 0 < w ∧ 0 < d then some (-Real.log w + 0.5 * Real.log d + 0.5 * compChi2 err e est) else none)

/-- The loop in `computeError`, edge_se2_pointxy_mixture.cpp:88-97, edge_se3_mixture.cpp:85-94, over the components
`i, …, i + j - 1`. -/
noncomputable def Mix.search (err : Comp k n → E → Fin n → ℝ) (m : Mix k n) (est : E) :
    ℕ → ℕ → Option (ℕ × ℝ) → Res (Option (ℕ × ℝ))
  | _, 0, best => .ok best
  | i, j + 1, best => (m.negLogProb err est i).bind fun p => m.search err est (i + 1) j (better best i p)

/-- `computeError` with `UpdateBelief`, edge_se2_pointxy_mixture.cpp:71-104, edge_se3_mixture.cpp:70-101; index -1 is out
of bounds. -/
noncomputable def Mix.computeError (err : Comp k n → E → Fin n → ℝ) (m : Mix k n) (est : E) : Res (Mix k n) :=
  (m.search err est 0 m.number none).bind fun r =>
  match r with
  | none => .ub .outOfBounds
  | some (i, _) => (at? m.comps i).bind fun e => .ok { m with best := some i, belief := e, err := err e est }

/-- `initializeComponents`, edge_se2_pointxy_mixture.cpp:58-69, edge_se3_mixture.cpp:57-68. -/
noncomputable def Mix.initializeComponents (err : Comp k n → E → Fin n → ℝ) (m : Mix k n) (edges : List (Comp k n))
    (weights : List ℝ) (est : E) : Res (Mix k n) :=
  ({ m with
     comps := edges
     weights := weights
     number := edges.length
     dets := m.dets ++ edges.map fun e => (e.info⁻¹).det } : Mix k n).computeError err est

/-- `EdgeSE2PointXYMixture::linearizeOplus`, edge_se2_pointxy_mixture.cpp:114-118: `computeError` is that of the base
class, so the component stays as it is. -/
def Mix.linearizeLandmark (err : Comp k n → E → Fin n → ℝ) (m : Mix k n) (est : E) : Res (Mix k n) :=
  .ok { m with err := err m.belief est }

/-- `EdgeSE3Mixture::linearizeOplus`, edge_se3_mixture.cpp:111-115. -/
noncomputable def Mix.linearizeSpace (err : Comp k n → E → Fin n → ℝ) (m : Mix k n) (est : E) : Res (Mix k n) :=
  m.computeError err est

/-! ### Text -/

/-- The pairs of indices of an upper triangle in the order of the loops. -/
def upper (n : ℕ) : List (Fin n × Fin n) :=
  (List.finRange n).flatMap fun i => ((List.finRange n).filter (i ≤ ·)).map fun j => (i, j)

/-- One component, edge_se2_pointxy_mixture.cpp:200-219, edge_se3_mixture.cpp:187-206. -/
def writeComp (rnd : ℝ → ℝ) (tag : String) (w : ℝ) (e : Comp k n) : List Piece :=
  [.word tag, .blank, .num (rnd w), .blank, .int e.v0, .blank, .int e.v1, .blank] ++
  ((List.finRange k).flatMap fun i => [.num (rnd (e.meas i)), .blank]) ++
  ((upper n).flatMap fun ij => [.blank, .num (rnd (e.info ij.1 ij.2))]) ++ [.blank]

/-- The loop over the components `c, …, c + j - 1`. -/
def Mix.writeFrom (rnd : ℝ → ℝ) (tag : String) (m : Mix k n) : ℕ → ℕ → Res (List Piece)
  | _, 0 => .ok []
  | c, j + 1 =>
    (at? m.comps c).bind fun e =>
    (at? m.weights c).bind fun w =>
    (m.writeFrom rnd tag (c + 1) j).map fun l => writeComp rnd tag w e ++ l

/-- `write`, edge_se2_pointxy_mixture.cpp:193-221, edge_se3_mixture.cpp:180-208. -/
def Mix.write (rnd : ℝ → ℝ) (tag : String) (m : Mix k n) : Res (List Piece) :=
  (m.writeFrom rnd tag 0 m.number).map fun l => [.int m.number, .blank] ++ l

/-- The numbers of a measurement, read one after the other into `p`: edge_se2_pointxy_mixture.cpp:167,
edge_se3_mixture.cpp:158-159. -/
def readMeas (s : In) : (Fin k → Option ℝ) × In :=
  (List.finRange k).foldl (fun r i =>
    let (x, s) := r.2.getNum (r.1 i)
    (Function.update r.1 i x, s)) (fun _ => none, s)

/-- One iteration of the loops that read an information matrix: edge_se2_pointxy_mixture.cpp:172-177,
edge_se3_mixture.cpp:164-169. -/
def readUpper (ij : Fin n × Fin n) (r : (Fin n → Fin n → Option ℝ) × In) : (Fin n → Fin n → Option ℝ) × In :=
  let (x, s) := r.2.getNum (r.1 ij.1 ij.2)
  (fun k l => if (k, l) = ij ∨ (l, k) = ij then x else r.1 k l, s)

/-- `normalize()` of the last four of seven numbers, edge_se3_mixture.cpp:160 (third party; division by zero gives
NaN, here `none`). -/
noncomputable def normalizeQuat (p : Fin 7 → ℝ) : Option (Fin 7 → ℝ) :=
  let l := Real.sqrt (p 3 ^ 2 + p 4 ^ 2 + p 5 ^ 2 + p 6 ^ 2)
  if l = 0 then none else some fun i => if i < 3 then p i else p i / l

/-- One iteration of the first loop of `read`, edge_se2_pointxy_mixture.cpp:148-179, edge_se3_mixture.cpp:140-171, for
component `c`; `fix` is what is done to the numbers of the measurement (nothing, or `normalizeQuat`), `none` if NaN
results, which is counted as an exception to leave it out of account. -/
noncomputable def Mix.readComponent (fix : (Fin k → ℝ) → Option (Fin k → ℝ)) (known : ℕ → Bool) (c : ℕ) (w : Option ℝ)
    (m : Mix k n) (s : In) : Res (Option ℝ × Mix k n × In) :=
  let comps := m.comps ++ [Comp.blank]
  let s := s.skipWord
  let (w, s) := s.getNum w
  (need w).bind fun wv =>
  let weights := m.weights ++ [wv]
  let (na, s) := s.getInt none
  let (nb, s) := s.getInt none
  (need na).bind fun na =>
  (need nb).bind fun nb =>
  (vertexAt known na).bind fun v0 =>
  (vertexAt known nb).bind fun v1 =>
  let (p, s) := readMeas (k := k) s
  let (a, s) := (upper n).foldl (fun r ij => readUpper ij r) (fun _ _ => none, s)
  if (∀ i, (p i).isSome) ∧ ∀ i j, (a i j).isSome then
    match fix fun i => (p i).getD 0 with
    | none => .throw .runtimeError
    | some p =>
      (at? comps c).bind fun _ =>
      .ok (w, { m with comps := comps.set c ⟨v0, v1, p, .of fun i j => (a i j).getD 0⟩, weights := weights }, s)
  else .ub .uninitialised

/-- The first loop, over the components `c, …, c + j - 1`. -/
noncomputable def Mix.readFrom (fix : (Fin k → ℝ) → Option (Fin k → ℝ)) (known : ℕ → Bool) :
    ℕ → ℕ → Option ℝ → Mix k n → In → Res (Mix k n × In)
  | _, 0, _, m, s => .ok (m, s)
  | c, j + 1, w, m, s =>
    (m.readComponent fix known c w s).bind fun (w, m, s) => Mix.readFrom fix known (c + 1) j w m s

/-- `read`, edge_se2_pointxy_mixture.cpp:133-186, edge_se3_mixture.cpp:127-178. -/
noncomputable def Mix.read (err : Comp k n → E → Fin n → ℝ) (fix : (Fin k → ℝ) → Option (Fin k → ℝ)) (known : ℕ → Bool)
    (est : E) (m : Mix k n) (s : In) : Res (Bool × Mix k n × In) :=
  let (j, s) := s.getInt (some m.number)
  match j with
  | some (.ofNat j) =>
    (Mix.readFrom fix known 0 j none { m with number := j } s).bind fun (m, s) =>
    let m : Mix k n := { m with dets := m.dets ++ (m.comps.take m.number).map fun e => (e.info⁻¹).det }
    (m.computeError err est).map fun m => (s.good, m, s)
  | _ => .throw .runtimeError

end Verif.Opt
