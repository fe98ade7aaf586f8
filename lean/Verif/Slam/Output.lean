import Verif.Loop.Model

/-
Model of the two forms in which `Slam2D` hands out its graph: markers for the visualisation (slam2d.h:366-371,
493-542, 544-596) and a text for Graphviz (slam2d.h:373-387).

Simplifications:
* of a marker the fields are kept that differ between markers, and the name space (type, action, scale and
  stamp are constants); colours are (red, green, blue), alpha is 1 throughout;
* `int32` ids do not overflow (fewer than 2^31 constraints), colours are not rounded to `float`;
* how a number is printed is a parameter.
-/
namespace Verif.Slam

open Verif Verif.PoseGraph Verif.Loop

variable {τ : Type}

/-- `visualization_msgs::Marker` as far as it is filled differently. -/
structure Arrow where
  frame : String
  ns : String
  id : ℕ
  points : List (ℝ × ℝ × ℝ)
  color : ℝ × ℝ × ℝ

/-- The pose of the node an edge points to (`getFrom()->getPose()`, `getTo()->getPose()`). -/
def endPose (g : G τ) (i : ℕ) : Res Pose :=
  match g.nodes[i]? with
  | none => .ub .dangling
  | some n => .ok n.payload.pose

/-- Colours of the two kinds of edges, slam2d.h:498-499 and 525-533. -/
def colorOf : EKind → ℝ × ℝ × ℝ
  | .odom => (1, 0, 0)
  | .loop => (0, 1, 0)

/-- One iteration of the loop, slam2d.h:503-539. -/
def arrowOf (g : G τ) (frame : String) (id : ℕ) (e : Edge EdgeP) : Res Arrow :=
  (endPose g e.src).bind fun start =>
  (endPose g e.dst).bind fun stop =>
  .ok ⟨frame, "slam_graph", id, [(start.x, start.y, 0), (stop.x, stop.y, 0)], colorOf e.payload.kind⟩

/-- The loop over the edges with the counter `id`, slam2d.h:501-540. -/
def arrowsFrom (g : G τ) (frame : String) : ℕ → List (Edge EdgeP) → Res (List Arrow)
  | _, [] => .ok []
  | id, e :: es =>
    (arrowOf g frame id e).bind fun a => (arrowsFrom g frame (id + 1) es).map fun l => a :: l

/-- `getGraphSerialized(frame_id)` = `createArrowMarkers(frame_id)`, slam2d.h:366-371, 493-542. -/
def graphMarkers (o : Overread) (s : State τ) (frame : String) : Res (List Arrow) :=
  (forEach o s.graph.edges).bind fun es => arrowsFrom s.graph frame 0 es

/-- The single marker of `createListMarkers`: orientation as quaternion (x, y, z, w), colours with alpha. -/
structure Lines where
  frame : String
  ns : String
  id : ℕ
  orientation : ℝ × ℝ × ℝ × ℝ
  points : List (ℝ × ℝ × ℝ)
  colors : List (ℝ × ℝ × ℝ × ℝ)

/-- The variable `red` after slam2d.h:549-559: both blocks of assignments write to it. -/
noncomputable def lineRed : ℝ × ℝ × ℝ × ℝ := (0.4, 0, 0, 1)

/-- The variable `light_red`, slam2d.h:555: never written; the constructor of the message sets its members to 0. -/
def lineLightRed : ℝ × ℝ × ℝ × ℝ := (0, 0, 0, 0)

/-- The loop of `createListMarkers`, slam2d.h:578-593. -/
noncomputable def linesFrom (g : G τ) : List (Edge EdgeP) → Lines → Res Lines
  | [], m => .ok m
  | e :: es, m =>
    (endPose g e.src).bind fun start =>
    (endPose g e.dst).bind fun stop =>
    linesFrom g es { m with
      points := m.points ++ [(start.x, start.y, 0)] ++ [(stop.x, stop.y, 0)]
      colors := m.colors ++ [lineLightRed] ++ [lineRed] }

/-- `createListMarkers`, slam2d.h:544-596 (not called by the program). -/
noncomputable def listMarkers (o : Overread) (s : State τ) (frame : String) : Res (List Lines) :=
  (forEach o s.graph.edges).bind fun es =>
  (linesFrom s.graph es ⟨frame, "slam_graph", 0, (0, 0, 0, 0), [], []⟩).map fun m => [m]

/-- Line for a node, slam2d.h:377-379. -/
def nodeLine (showNum : ℝ → String) (n : Node (NodeP τ)) : String :=
  "p" ++ toString n.id ++ "[ pose = \"" ++ showNum n.payload.pose.x ++ "," ++ showNum n.payload.pose.y ++ "!\"] \n"

/-- Id of the node an edge points to (`getFrom()->getId()`, `getTo()->getId()`). -/
def endId (g : G τ) (i : ℕ) : Res ℕ :=
  match g.nodes[i]? with
  | none => .ub .dangling
  | some n => .ok n.id

/-- Line for an edge, slam2d.h:383-384. -/
def edgeLine (g : G τ) (e : Edge EdgeP) : Res String :=
  (endId g e.src).bind fun a => (endId g e.dst).map fun b => "p" ++ toString a ++ "->p" ++ toString b ++ "\n"

/-- The second loop, slam2d.h:382-385. -/
def edgeLines (g : G τ) : List (Edge EdgeP) → Res (List String)
  | [] => .ok []
  | e :: es => (edgeLine g e).bind fun l => (edgeLines g es).map fun ls => l :: ls

/-- `getGraphSerialized(stream)`, slam2d.h:373-387: the lines of the text. -/
def graphText (o : Overread) (showNum : ℝ → String) (s : State τ) : Res (List String) :=
  (forEach o (s.graph.nodes.map some)).bind fun ns =>
  (forEach o s.graph.edges).bind fun es =>
  (edgeLines s.graph es).map fun ls => ns.map (nodeLine showNum) ++ ls

end Verif.Slam
