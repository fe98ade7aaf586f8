import Verif.Slam.Output
import Verif.Slam.Props

/-
Property theorem C124 (the graph handed out).  `History s b` says that the object is in state `s` after some
series of public calls; `b` is the client's book of the calls: the current poses and the constraints.
-/
namespace Verif.Slam

open Verif Verif.PoseGraph Verif.Loop

variable {τ : Type}

/-! ### Specification -/

/-- What the arrow for a constraint shows: its number, the current positions of its two poses, and its kind as
colour: red for odometry, green for loop closures. -/
def Shows (frame : String) (i : ℕ) (p q : Pose) (k : EKind) (a : Arrow) : Prop :=
  a.frame = frame ∧ a.ns = "slam_graph" ∧ a.id = i ∧ a.points = [(p.x, p.y, 0), (q.x, q.y, 0)] ∧
    a.color = match k with
      | .odom => (1, 0, 0)
      | .loop => (0, 1, 0)

/-- The pose with number `i`, as a line of the text. -/
def poseLine (showNum : ℝ → String) (i : ℕ) (p : Pose) : String :=
  "p" ++ toString i ++ "[ pose = \"" ++ showNum p.x ++ "," ++ showNum p.y ++ "!\"] \n"

/-- A constraint from pose `i` to pose `j`, as a line of the text. -/
def conLine (i j : ℕ) : String := "p" ++ toString i ++ "->p" ++ toString j ++ "\n"

/-! ### Lemmas -/

theorem SInv.edgeList {s : State τ} {b : Book τ} (inv : SInv s b) :
    ∃ es : List (Edge EdgeP), s.graph.edges = es.map some ∧ es.length = b.cons.length ∧
      ∀ (i : ℕ) c, b.cons[i]? = some c → ∃ addr : ℕ, es[i]? =
        some ⟨addr, i, c.1, c.2.1, ⟨c.2.2.1, stdInfo, .active, c.2.2.2, false⟩⟩ := by
  have h : ∀ x ∈ s.graph.edges, ∃ e, x = some e := by
    intro x hx
    obtain ⟨i, hi, rfl⟩ := List.getElem_of_mem hx
    have hlt : i < b.cons.length := inv.edgesLen ▸ hi
    obtain ⟨a, ha⟩ := inv.edges i _ (List.getElem?_eq_getElem hlt)
    rw [List.getElem?_eq_getElem hi] at ha
    exact ⟨_, Option.some.inj ha⟩
  have : ∃ es : List (Edge EdgeP), s.graph.edges = es.map some := by
    have key : ∀ l : List (Option (Edge EdgeP)), (∀ x ∈ l, ∃ e, x = some e) → ∃ es : List (Edge EdgeP), l = es.map some := by
      intro l
      induction l with
      | nil => exact fun _ => ⟨[], rfl⟩
      | cons x l ih =>
        intro h
        obtain ⟨es, rfl⟩ := ih fun y hy => h y (List.mem_cons_of_mem _ hy)
        obtain ⟨e, rfl⟩ := h x List.mem_cons_self
        exact ⟨e :: es, rfl⟩
    exact key _ h
  obtain ⟨es, hes⟩ := this
  refine ⟨es, hes, by rw [← inv.edgesLen, hes, List.length_map], fun i c hc => ?_⟩
  obtain ⟨a, ha⟩ := inv.edges i c hc
  rw [hes, List.getElem?_map] at ha
  rcases hx : es[i]? with _ | e
  · rw [hx] at ha; cases ha
  · rw [hx] at ha
    exact ⟨a, congrArg some (Option.some.inj (Option.some.inj ha))⟩

theorem forEach_some {β : Type*} (l : List β) : forEach .tolerant (l.map some) = .ok l := by
  unfold forEach
  rw [loopPostfix_eq _ (by rcases l with _ | ⟨n, l⟩ <;> simp)]
  induction l with
  | nil => rfl
  | cons x l ih => simp

theorem arrowsFrom_ok (g : G τ) (frame : String) (l : List (Edge EdgeP))
    (h : ∀ e ∈ l, e.src < g.nodes.length ∧ e.dst < g.nodes.length) (k : ℕ) :
    ∃ as, arrowsFrom g frame k l = .ok as ∧ as.length = l.length ∧
      ∀ (i : ℕ) e, l[i]? = some e → ∃ a, as[i]? = some a ∧ arrowOf g frame (k + i) e = .ok a := by
  induction l generalizing k with
  | nil => exact ⟨[], rfl, rfl, by simp⟩
  | cons e l ih =>
    obtain ⟨as, h1, h2, h3⟩ := ih (fun x hx => h x (List.mem_cons_of_mem _ hx)) (k + 1)
    have he := h e List.mem_cons_self
    have ha : ∃ a, arrowOf g frame k e = .ok a := by
      unfold arrowOf endPose
      rw [List.getElem?_eq_getElem he.1, List.getElem?_eq_getElem he.2]
      exact ⟨_, rfl⟩
    obtain ⟨a, ha⟩ := ha
    refine ⟨a :: as, ?_, by simp [h2], ?_⟩
    · unfold arrowsFrom
      rw [ha, Res.bind_ok, h1, Res.map_ok]
    · rintro (_ | i) x hx
      · obtain rfl : e = x := by simpa using hx
        exact ⟨a, rfl, ha⟩
      · obtain ⟨a', h4, h5⟩ := h3 i x (by simpa using hx)
        exact ⟨a', by simpa using h4, by rw [← h5]; congr 1; omega⟩

theorem SInv.pose {s : State τ} {b : Book τ} (inv : SInv s b) {i : ℕ} (hi : i < s.graph.nodes.length) :
    ∃ p o, b.poses[i]? = some (p, o) ∧ endPose s.graph i = .ok p ∧ endId s.graph i = .ok i := by
  have hb : i < b.poses.length := inv.nodesLen ▸ hi
  rcases hx : b.poses[i]? with _ | ⟨p, o⟩
  · rw [List.getElem?_eq_getElem hb] at hx; cases hx
  · obtain ⟨n, hn, hp⟩ := (inv.node i).1 p o hx
    have hn' : s.graph.nodes[i]? = some n := by
      unfold getNode at hn
      rcases h : s.graph.nodes[i]? with _ | m
      · rw [h] at hn; cases hn
      · rw [h] at hn; cases hn; rfl
    obtain ⟨gl, hg, -⟩ := inv.graph
    refine ⟨p, o, rfl, ?_, ?_⟩
    · unfold endPose; rw [hn']; simp only [hp]
    · unfold endId; rw [hn']; simp only [hg.inv.nid i n hn']

theorem SInv.ends {s : State τ} {b : Book τ} (inv : SInv s b) {i : ℕ} {c} (hc : b.cons[i]? = some c) :
    c.1 < s.graph.nodes.length ∧ c.2.1 < s.graph.nodes.length := by
  obtain ⟨a, ha⟩ := inv.getEdge_some hc
  obtain ⟨gl, hg, -⟩ := inv.graph
  exact hg.inv.ends i _ (inv.getEdge_iff.1 ha)

theorem SInv.members {s : State τ} {b : Book τ} (inv : SInv s b) {es : List (Edge EdgeP)}
    (hes : es.length = b.cons.length)
    (h : ∀ (i : ℕ) c, b.cons[i]? = some c → ∃ addr : ℕ, es[i]? =
        some ⟨addr, i, c.1, c.2.1, ⟨c.2.2.1, stdInfo, .active, c.2.2.2, false⟩⟩) :
    ∀ e ∈ es, e.src < s.graph.nodes.length ∧ e.dst < s.graph.nodes.length := by
  intro e he
  obtain ⟨i, hi, rfl⟩ := List.getElem_of_mem he
  have hc := List.getElem?_eq_getElem (hes ▸ hi : i < b.cons.length)
  obtain ⟨a, ha⟩ := h i _ hc
  rw [List.getElem?_eq_getElem hi] at ha
  rw [Option.some.inj ha]
  exact inv.ends hc

theorem markers_of_inv {s : State τ} {b : Book τ} (inv : SInv s b) (frame : String) :
    ∃ as, graphMarkers .tolerant s frame = .ok as ∧ as.length = b.cons.length ∧
      ∀ (i : ℕ) c, b.cons[i]? = some c → ∃ a p q, as[i]? = some a ∧
        (b.poses[c.1]?).map Prod.fst = some p ∧ (b.poses[c.2.1]?).map Prod.fst = some q ∧
        Shows frame i p q c.2.2.2 a := by
  obtain ⟨es, h1, h2, h3⟩ := inv.edgeList
  obtain ⟨as, h4, h5, h6⟩ := arrowsFrom_ok s.graph frame es (inv.members h2 h3) 0
  refine ⟨as, ?_, by rw [h5, h2], fun i c hc => ?_⟩
  · unfold graphMarkers
    rw [h1, forEach_some, Res.bind_ok, h4]
  · obtain ⟨addr, ha⟩ := h3 i c hc
    obtain ⟨a, h7, h8⟩ := h6 i _ ha
    have he := inv.ends hc
    obtain ⟨p, o, hp, hp', -⟩ := inv.pose he.1
    obtain ⟨q, o', hq, hq', -⟩ := inv.pose he.2
    refine ⟨a, p, q, h7, by rw [hp]; rfl, by rw [hq]; rfl, ?_⟩
    unfold arrowOf at h8
    simp only at h8
    rw [hp', Res.bind_ok, hq', Res.bind_ok] at h8
    cases h8
    refine ⟨rfl, rfl, by simp, rfl, ?_⟩
    rcases c.2.2.2 <;> rfl

theorem edgeLines_ok {s : State τ} {b : Book τ} (inv : SInv s b) (l : List (Edge EdgeP))
    (h : ∀ e ∈ l, e.src < s.graph.nodes.length ∧ e.dst < s.graph.nodes.length) :
    edgeLines s.graph l = .ok (l.map fun e => conLine e.src e.dst) := by
  induction l with
  | nil => rfl
  | cons e l ih =>
    have he := h e List.mem_cons_self
    obtain ⟨_, _, _, _, h1⟩ := inv.pose he.1
    obtain ⟨_, _, _, _, h2⟩ := inv.pose he.2
    unfold edgeLines edgeLine
    rw [h1, Res.bind_ok, h2, Res.map_ok, Res.bind_ok, ih fun x hx => h x (List.mem_cons_of_mem _ hx)]
    rfl

/-! ### C124 -/

/-- **C124**, markers, partial: if the read past the end of the iteration (C31) is harmless, the published graph has
exactly one arrow for every constraint of the history, in their order and with different ids, between the
current positions of its poses, and coloured after its kind.  Missing: the strict reading of the standard. -/
theorem C124_markers_partial {s : State τ} {b : Book τ} (h : History s b) (frame : String) :
    ∃ as, graphMarkers .tolerant s frame = .ok as ∧ as.length = b.cons.length ∧
      ∀ (i : ℕ) c, b.cons[i]? = some c → ∃ a p q, as[i]? = some a ∧
        (b.poses[c.1]?).map Prod.fst = some p ∧ (b.poses[c.2.1]?).map Prod.fst = some q ∧
        Shows frame i p q c.2.2.2 a := markers_of_inv h.inv frame

/-- **C124**, text, partial: under the same condition the text consists of one line for every pose, with its number
and current position, followed by one line for every constraint, with the numbers of its poses. -/
theorem C124_text_partial {s : State τ} {b : Book τ} (h : History s b) (showNum : ℝ → String) :
    graphText .tolerant showNum s =
      .ok (b.poses.mapIdx (fun i x => poseLine showNum i x.1) ++ b.cons.map fun c => conLine c.1 c.2.1) := by
  have inv := h.inv
  obtain ⟨es, h1, h2, h3⟩ := inv.edgeList
  unfold graphText
  rw [forEach_some, Res.bind_ok, h1, forEach_some, Res.bind_ok, edgeLines_ok inv es (inv.members h2 h3),
    Res.map_ok]
  congr 2
  · apply List.ext_getElem?
    intro i
    rw [List.getElem?_map, List.getElem?_mapIdx]
    rcases hb : b.poses[i]? with _ | ⟨p, o⟩
    · rw [List.getElem?_eq_none_iff] at hb
      rw [List.getElem?_eq_none (by rw [inv.nodesLen]; exact hb)]
      rfl
    · obtain ⟨n, hn, hp⟩ := (inv.node i).1 p o hb
      have hn' : s.graph.nodes[i]? = some n := by
        unfold getNode at hn
        rcases h : s.graph.nodes[i]? with _ | m
        · rw [h] at hn; cases hn
        · rw [h] at hn; cases hn; rfl
      obtain ⟨gl, hg, -⟩ := inv.graph
      rw [hn']
      simp only [Option.map_some, nodeLine, poseLine, hp, hg.inv.nid i n hn']
  · apply List.ext_getElem?
    intro i
    rw [List.getElem?_map, List.getElem?_map]
    rcases hc : b.cons[i]? with _ | c
    · rw [List.getElem?_eq_none_iff] at hc
      rw [List.getElem?_eq_none (by rw [h2]; exact hc)]
      rfl
    · obtain ⟨a, ha⟩ := h3 i c hc
      rw [ha]
      rfl

/-- **C124** is false in the strict reading: as soon as there is one constraint (for the text: one pose) the loop
reads past the end of the container. -/
theorem C124_false {s : State τ} {b : Book τ} (h : History s b) :
    (b.cons ≠ [] → ∀ frame, (graphMarkers .strict s frame).IsUB) ∧
    (b.poses ≠ [] → ∀ showNum, (graphText .strict showNum s).IsUB) := by
  have inv := h.inv
  have key : ∀ {α β : Type} {r : Res α} (f : α → Res β), r.IsUB → (r.bind f).IsUB := by
    intro α β r f hr
    cases r <;> simp_all [Res.IsUB, Res.bind]
  constructor <;> intro hne x
  · refine key _ ((C31_false s.graph).1 fun hc => hne ?_)
    rw [← List.length_eq_zero_iff, ← inv.edgesLen, hc]
    rfl
  · refine key _ ((C31_false s.graph).2 fun hc => hne ?_)
    rw [← List.length_eq_zero_iff, ← inv.nodesLen, hc]
    rfl

theorem linesFrom_eq {s : State τ} {b : Book τ} (inv : SInv s b) (l : List (Edge EdgeP))
    (h : ∀ e ∈ l, e.src < s.graph.nodes.length ∧ e.dst < s.graph.nodes.length) (m : Lines) :
    ∃ ps : List (Pose × Pose), ps.length = l.length ∧
      (∀ (i : ℕ) e, l[i]? = some e → ∃ p q, ps[i]? = some (p, q) ∧ (b.poses[e.src]?).map Prod.fst = some p ∧
        (b.poses[e.dst]?).map Prod.fst = some q) ∧
      linesFrom s.graph l m = .ok { m with
        points := m.points ++ ps.flatMap fun x => [(x.1.x, x.1.y, 0), (x.2.x, x.2.y, 0)]
        colors := m.colors ++ ps.flatMap fun _ => [lineLightRed, lineRed] } := by
  induction l generalizing m with
  | nil => exact ⟨[], rfl, by simp, by simp [linesFrom]⟩
  | cons e l ih =>
    have he := h e List.mem_cons_self
    obtain ⟨p, o, hp, hp', -⟩ := inv.pose he.1
    obtain ⟨q, o', hq, hq', -⟩ := inv.pose he.2
    obtain ⟨ps, h1, h2, h3⟩ := ih (fun x hx => h x (List.mem_cons_of_mem _ hx)) { m with
      points := m.points ++ [(p.x, p.y, 0)] ++ [(q.x, q.y, 0)]
      colors := m.colors ++ [lineLightRed] ++ [lineRed] }
    refine ⟨(p, q) :: ps, by simp [h1], ?_, ?_⟩
    · rintro (_ | i) x hx
      · obtain rfl : e = x := by simpa using hx
        exact ⟨p, q, rfl, by rw [hp]; rfl, by rw [hq]; rfl⟩
      · exact h2 i x (by simpa using hx)
    · simp only [linesFrom]
      rw [hp', Res.bind_ok, hq', Res.bind_ok, h3]
      simp

/-- **C124**, list of lines, partial: under the same condition there is one marker with two points for every constraint,
in their order: the current positions of its poses.  Missing: the strict reading, colours and orientation (see
`C124_lines_false`). -/
theorem C124_lines_partial {s : State τ} {b : Book τ} (h : History s b) (frame : String) :
    ∃ m, listMarkers .tolerant s frame = .ok [m] ∧ m.frame = frame ∧ m.ns = "slam_graph" ∧
      m.points.length = 2 * b.cons.length ∧ m.colors.length = m.points.length ∧
      ∀ (i : ℕ) c, b.cons[i]? = some c → ∃ p q, (b.poses[c.1]?).map Prod.fst = some p ∧
        (b.poses[c.2.1]?).map Prod.fst = some q ∧
        m.points[2 * i]? = some (p.x, p.y, 0) ∧ m.points[2 * i + 1]? = some (q.x, q.y, 0) := by
  have inv := h.inv
  obtain ⟨es, h1, h2, h3⟩ := inv.edgeList
  obtain ⟨ps, h4, h5, h6⟩ := linesFrom_eq inv es (inv.members h2 h3) ⟨frame, "slam_graph", 0, (0, 0, 0, 0), [], []⟩
  have hlen : ∀ {β : Type} (f : Pose × Pose → β) (g : Pose × Pose → β) (l : List (Pose × Pose)),
      (l.flatMap fun x => [f x, g x]).length = 2 * l.length := by
    intro β f g l
    induction l with
    | nil => rfl
    | cons x l ih => simp only [List.flatMap_cons, List.length_append, ih, List.length_cons, List.length_nil]; omega
  have hget : ∀ {β : Type} (f : Pose × Pose → β) (g : Pose × Pose → β) (l : List (Pose × Pose)) (i : ℕ) x, l[i]? = some x →
      (l.flatMap fun x => [f x, g x])[2 * i]? = some (f x) ∧ (l.flatMap fun x => [f x, g x])[2 * i + 1]? = some (g x) := by
    intro β f g l
    induction l with
    | nil => intro i x hx; simp at hx
    | cons y l ih =>
      rintro (_ | i) x hx
      · obtain rfl : y = x := by simpa using hx
        simp
      · have := ih i x (by simpa using hx)
        rw [show 2 * (i + 1) = (2 * i) + 1 + 1 by omega, show 2 * i + 1 + 1 + 1 = (2 * i + 1) + 1 + 1 by omega]
        simpa using this
  obtain ⟨r, hr⟩ : ∃ r, listMarkers .tolerant s frame = r := ⟨_, rfl⟩
  have hm := hr
  unfold listMarkers at hm
  rw [h1, forEach_some, Res.bind_ok, h6, Res.map_ok] at hm
  refine ⟨_, hr.trans hm.symm, rfl, rfl, ?_, ?_, fun i c hc => ?_⟩
  · simp only [List.nil_append]
    rw [hlen, h4, h2]
  · simp only [List.nil_append]
    rw [hlen, hlen]
  · obtain ⟨a, ha⟩ := h3 i c hc
    obtain ⟨p, q, h7, h8, h9⟩ := h5 i _ ha
    refine ⟨p, q, h8, h9, ?_⟩
    simp only [List.nil_append]
    exact hget _ _ ps i _ h7

/-- **C124** is false of the list of lines: the start of every line has the invisible colour 0 (the variable is never set) and
the orientation is the zero quaternion, which is no rotation. -/
theorem C124_lines_false {s : State τ} {b : Book τ} (h : History s b) (frame : String) :
    ∃ m, listMarkers .tolerant s frame = .ok [m] ∧ m.orientation = (0, 0, 0, 0) ∧
      (b.cons ≠ [] → m.colors[0]? = some (0, 0, 0, 0)) := by
  have inv := h.inv
  obtain ⟨es, h1, h2, h3⟩ := inv.edgeList
  obtain ⟨ps, h4, -, h6⟩ := linesFrom_eq inv es (inv.members h2 h3) ⟨frame, "slam_graph", 0, (0, 0, 0, 0), [], []⟩
  refine ⟨_, by unfold listMarkers; rw [h1, forEach_some, Res.bind_ok, h6, Res.map_ok], rfl, fun hne => ?_⟩
  rcases ps with _ | ⟨x, ps⟩
  · rw [h2] at h4
    exact absurd (List.length_eq_zero_iff.1 h4.symm) hne
  · rfl

/-- Two poses and a constraint. -/
example : ∃ (s : State String) (b : Book String), History s b ∧ b.cons ≠ [] ∧ b.poses.length = 2 :=
  ⟨exS3, _, exS3_history, by simp, rfl⟩

end Verif.Slam
