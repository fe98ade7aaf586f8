import Verif.Opt.Model

/-
Model of reading and writing the robust edges as text: the members `read` and `write` of `VertexSwitchLinear`,
`EdgeSwitchPrior`, `EdgeSE2Switchable` and `EdgeSE2Mixture`.

Simplifications:
* a text is a list of pieces: numbers, whole numbers, words, and blanks; pieces that are not separated by a blank form
  one word.  What printing makes of a number (six significant digits by default) is a parameter `rnd`;
* extraction of a number from a word that is not exactly one number fails (in C++ a leading number would be
  taken from it);
* extraction follows `std::istream`: leading blanks are skipped; an exhausted or failed stream leaves the variable as it
  is; a word that is not a number sets it to zero and fails; a word that touches the end of the text sets `eof`;
* the vertices of an edge are set by g2o before `read` is called; the graph they belong to is the set of its vertex ids;
* writing to the stream itself does not fail.
-/
namespace Verif.Opt

open Verif Verif.Geo Matrix

/-- Pieces of a text. -/
inductive Piece
  | num (x : ℝ)
  | int (n : ℤ)
  | word (s : String)
  | blank

/-- A stream being read: the rest of the text and the flags `failbit` and `eofbit`. -/
structure In where
  rest : List Piece
  fail : Bool
  eof : Bool

/-- A stream at the start of a text. -/
def In.start (l : List Piece) : In := ⟨l, false, false⟩

/-- `good()`. -/
def In.good (s : In) : Bool := !s.fail && !s.eof

/-- The text after leading blanks. -/
def skipBlanks : List Piece → List Piece
  | .blank :: l => skipBlanks l
  | l => l

/-- The first word (up to a blank or the end) and what follows. -/
def firstWord : List Piece → List Piece × List Piece
  | [] => ([], [])
  | .blank :: l => ([], .blank :: l)
  | p :: l => let r := firstWord l; (p :: r.1, r.2)

/-- Next word: `none` if the stream is not good or exhausted. -/
def In.next (s : In) : Option (List Piece) × In :=
  if s.good then
    match firstWord (skipBlanks s.rest) with
    | ([], l) => (none, ⟨l, true, true⟩)
    | (w, l) => (some w, ⟨l, false, l.isEmpty⟩)
  else (none, { s with fail := true })

/-- `is >> x` for a `double`; `old` is the value of the variable, `none` if it has none. -/
def In.getNum (s : In) (old : Option ℝ) : Option ℝ × In :=
  match s.next with
  | (none, s) => (old, s)
  | (some [.num x], s) => (some x, s)
  | (some [.int n], s) => (some n, s)
  | (some _, s) => (some 0, { s with fail := true })

/-- `is >> n` for an `int`. -/
def In.getInt (s : In) (old : Option ℤ) : Option ℤ × In :=
  match s.next with
  | (none, s) => (old, s)
  | (some [.int n], s) => (some n, s)
  | (some _, s) => (some 0, { s with fail := true })

/-- `is >> buf` for a `std::string` that is not used afterwards. -/
def In.skipWord (s : In) : In := s.next.2

/-- Use of a variable that may not have a value. -/
def need {α : Type} : Option α → Res α
  | some a => .ok a
  | none => .ub .uninitialised

/-! ### Switch -/

/-- `VertexSwitchLinear::write`, vertex_switchLinear.cpp:24-28. -/
def Switch.write (rnd : ℝ → ℝ) (v : Switch) : List Piece := [.num (rnd v.x)]

/-- `VertexSwitchLinear::read`, vertex_switchLinear.cpp:16-22: the result, the vertex and the stream. -/
def Switch.read (v : Switch) (s : In) : Bool × Switch × In :=
  let (x, s) := s.getNum (some v.x)
  let x := x.getD v.x
  (true, { v with x := x, estimate := x }, s)

/-! ### Prior -/

/-- `EdgeSwitchPrior`: measurement and information. -/
structure Prior where
  meas : ℝ
  info : ℝ

/-- `EdgeSwitchPrior::write`, edge_switchPrior.cpp:15-19. -/
def Prior.write (rnd : ℝ → ℝ) (e : Prior) : List Piece := [.num (rnd e.meas), .blank, .num (rnd e.info)]

/-- `EdgeSwitchPrior::read`, edge_switchPrior.cpp:4-13. -/
def Prior.read (e : Prior) (s : In) : Res (Bool × Prior × In) :=
  let (m, s) := s.getNum none
  (need m).bind fun m =>
  let (i, s) := s.getNum (some e.info)
  .ok (true, ⟨m, i.getD e.info⟩, s)

/-! ### Upper triangles -/

/-- The loop over `i ≤ j` that prints a symmetric matrix, each entry preceded by a blank: edge_se2Switchable.cpp:52-54,
edge_se2_mixture.cpp:209-211. -/
def writeInfo (rnd : ℝ → ℝ) (a : Matrix (Fin 3) (Fin 3) ℝ) : List Piece :=
  [(0, 0), (0, 1), (0, 2), (1, 1), (1, 2), (2, 2)].flatMap fun (ij : Fin 3 × Fin 3) => [.blank, .num (rnd (a ij.1 ij.2))]

/-- A matrix that may have entries without value. -/
abbrev Partial3 := Fin 3 → Fin 3 → Option ℝ

/-- One iteration of the loop that reads it: edge_se2Switchable.cpp:40-44, edge_se2_mixture.cpp:171-175. -/
def readEntry (ij : Fin 3 × Fin 3) (r : Partial3 × In) : Partial3 × In :=
  let (x, s) := r.2.getNum (r.1 ij.1 ij.2)
  (fun k l => if (k, l) = ij ∨ (l, k) = ij then x else r.1 k l, s)

/-- The loop. -/
def readInfo (old : Partial3) (s : In) : Partial3 × In :=
  [(0, 0), (0, 1), (0, 2), (1, 1), (1, 2), (2, 2)].foldl (fun r ij => readEntry ij r) (old, s)

/-- Use of a matrix all of whose entries must have a value. -/
def needInfo (a : Partial3) : Res (Matrix (Fin 3) (Fin 3) ℝ) :=
  if (∀ i j, (a i j).isSome) then .ok (Matrix.of fun i j => (a i j).getD 0) else .ub .uninitialised

/-! ### Switchable constraint -/

/-- `EdgeSE2Switchable`: measurement, its inverse, information. -/
structure SwitchEdge where
  meas : Pose
  inv : Pose
  info : Matrix (Fin 3) (Fin 3) ℝ

/-- `setMeasurement`, edge_se2Switchable.h:29-33. -/
noncomputable def SwitchEdge.setMeasurement (e : SwitchEdge) (m : Pose) : SwitchEdge :=
  { e with meas := m, inv := se2Inv m }

/-- `EdgeSE2Switchable::write`, edge_se2Switchable.cpp:48-56. -/
def SwitchEdge.write (rnd : ℝ → ℝ) (e : SwitchEdge) : List Piece :=
  [.num (rnd e.meas.x), .blank, .num (rnd e.meas.y), .blank, .num (rnd e.meas.th)] ++ writeInfo rnd e.info

/-- Reading of the three numbers of a pose into a local variable. -/
def readPose (s : In) : Option ℝ × Option ℝ × Option ℝ × In :=
  let (x, s) := s.getNum none
  let (y, s) := s.getNum none
  let (th, s) := s.getNum none
  (x, y, th, s)

/-- `EdgeSE2Switchable::read`, edge_se2Switchable.cpp:32-46.  (The information of a new edge has no defined value; here it
has some value.) -/
noncomputable def SwitchEdge.read (e : SwitchEdge) (s : In) : Res (Bool × SwitchEdge × In) :=
  let (x, y, th, s) := readPose s
  (need x).bind fun x =>
  (need y).bind fun y =>
  (need th).bind fun th =>
  let e := e.setMeasurement ⟨x, y, th⟩
  let (a, s) := readInfo (fun i j => some (e.info i j)) s
  .ok (true, { e with info := Matrix.of fun i j => (a i j).getD 0 }, s)

/-! ### Mixture -/

/-- One component, edge_se2_mixture.cpp:196-213.  `tag` is the name under which `EdgeSE2` is registered. -/
def writeComponent (rnd : ℝ → ℝ) (tag : String) (w : ℝ) (e : Edge) : List Piece :=
  [.word tag, .blank, .num (rnd w), .blank, .int e.v0, .blank, .int e.v1, .blank,
    .num (rnd e.meas.x), .blank, .num (rnd e.meas.y), .blank, .num (rnd e.meas.th), .blank] ++
  writeInfo rnd e.info ++ [.blank]

/-- The loop over the components `c, …, c + n - 1`. -/
def Mixture.writeFrom (rnd : ℝ → ℝ) (tag : String) (m : Mixture) : ℕ → ℕ → Res (List Piece)
  | _, 0 => .ok []
  | c, n + 1 =>
    (at? m.comps c).bind fun e =>
    (at? m.weights c).bind fun w =>
    (m.writeFrom rnd tag (c + 1) n).map fun l => writeComponent rnd tag w e ++ l

/-- `EdgeSE2Mixture::write`, edge_se2_mixture.cpp:189-217. -/
def Mixture.write (rnd : ℝ → ℝ) (tag : String) (m : Mixture) : Res (List Piece) :=
  (m.writeFrom rnd tag 0 m.number).map fun l => [.int m.number, .blank] ++ l

/-- A new `EdgeSE2`.  (It has no vertices and no information yet; the values written here are not used, because the
components that are used have been read.) -/
def Edge.blank : Edge := ⟨0, 0, ⟨0, 0, 0⟩, 1⟩

/-- `graph()->vertex(id)`: a null pointer if there is no such vertex, dereferenced later by `computeError` (and caught by
the assertion if it is compiled in). -/
def vertexAt (known : ℕ → Bool) (id : ℤ) : Res ℕ :=
  if 0 ≤ id ∧ known id.toNat = true then .ok id.toNat else .ub .nullDeref

/-- One iteration of the first loop, edge_se2_mixture.cpp:150-177, for component `c`.  The new edge is appended; filled
is the edge at index `c`. -/
def Mixture.readComponent (known : ℕ → Bool) (c : ℕ) (w : Option ℝ) (m : Mixture) (s : In) :
    Res (Option ℝ × Mixture × In) :=
  let comps := m.comps ++ [Edge.blank]
  let s := s.skipWord
  let (w, s) := s.getNum w
  (need w).bind fun wv =>
  let weights := m.weights ++ [wv]
  let (na, s) := s.getInt none
  let (nb, s) := s.getInt none
  (need na).bind fun na =>
  (need nb).bind fun nb =>
  (vertexAt known na).bind fun v0 =>
  (vertexAt known nb).bind fun v1 =>
  let (x, y, th, s) := readPose s
  (need x).bind fun x =>
  (need y).bind fun y =>
  (need th).bind fun th =>
  let (a, s) := readInfo (fun _ _ => none) s
  (needInfo a).bind fun info =>
  (at? comps c).bind fun _ =>
  .ok (w, { m with comps := comps.set c ⟨v0, v1, ⟨x, y, th⟩, info⟩, weights := weights }, s)

/-- The first loop, over the components `c, …, c + n - 1`.  (The variable `w` is declared outside the loop; `p` as well, but
a component that leaves it unset counts as undefined here.) -/
def Mixture.readFrom (known : ℕ → Bool) : ℕ → ℕ → Option ℝ → Mixture → In → Res (Mixture × In)
  | _, 0, _, m, s => .ok (m, s)
  | c, n + 1, w, m, s =>
    (m.readComponent known c w s).bind fun (w, m, s) => Mixture.readFrom known (c + 1) n w m s

/-- `EdgeSE2Mixture::read`, edge_se2_mixture.cpp:137-187: the result, the edge and the stream.  A negative number of
components makes `reserve` throw (`std::length_error`). -/
noncomputable def Mixture.read (known : ℕ → Bool) (est : ℕ → Pose) (m : Mixture) (s : In) :
    Res (Bool × Mixture × In) :=
  let (n, s) := s.getInt (some m.number)
  match n with
  | some (.ofNat n) =>
    (Mixture.readFrom known 0 n none { m with number := n } s).bind fun (m, s) =>
    let m : Mixture := { m with dets := m.dets ++ (m.comps.take m.number).map fun e : Edge => (e.info⁻¹).det }
    (m.computeError est).map fun m => (s.good, m, s)
  | _ => .throw .runtimeError

end Verif.Opt
