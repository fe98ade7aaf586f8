import Verif.Slam.Props
import Verif.Pose.Props

/-
`initializeGrapFromOdom`, slam2d.h:449-478 (its call at slam2d.h:160 is commented out).

Simplifications:
* the `while` loop may run forever; the model gets a number of rounds and is `none` if these do not suffice;
* edge pointers are resolved by their address among the live edges; a pointer to a destroyed edge is undefined.
-/
namespace Verif.Slam

open Verif Verif.PoseGraph

variable {τ : Type}

/-- Edge object behind a pointer of an adjacency list. -/
def edgeAt (g : G τ) (addr : ℕ) : Res (Edge EdgeP) :=
  match (g.edges.filterMap id).find? (fun e => e.addr = addr) with
  | none => .ub .dangling
  | some e => .ok e

/-- The loops at slam2d.h:460-465 and 471-476: the first odometry edge of an adjacency list. -/
def firstOdom (g : G τ) : List ℕ → Res (Option (Edge EdgeP))
  | [] => .ok none
  | a :: rest => (edgeAt g a).bind fun e => if e.payload.kind = .odom then .ok (some e) else firstOdom g rest

/-- The same for `getNode(id).getEdgesOut()`. -/
def outOdom (g : G τ) (i : ℕ) : Res (Option (Edge EdgeP)) := (getNode g i).bind fun n => firstOdom g n.out

/-- Body of the `while` loop, slam2d.h:467-476. -/
noncomputable def followStep (g : G τ) (e : Edge EdgeP) : Res (G τ × Option (Edge EdgeP)) :=
  (getNode g e.src).bind fun f =>
  (modifyNode g e.dst fun n =>
    { n with pose := Geo.transformConcat f.payload.pose (Geo.getTransFromPose e.payload.trans) }).bind fun g =>
  (outOdom g e.dst).map fun nxt => (g, nxt)

/-- The `while` loop, slam2d.h:466-477, with at most `k` rounds. -/
noncomputable def follow : ℕ → G τ → Option (Edge EdgeP) → Option (Res (G τ))
  | _, g, none => some (.ok g)
  | 0, _, some _ => none
  | k + 1, g, some e =>
    match followStep g e with
    | .ok (g, nxt) => follow k g nxt
    | .throw x => some (.throw x)
    | .ub u => some (.ub u)

/-- `initializeGrapFromOdom`, slam2d.h:449-478. -/
noncomputable def initializeFromOdom (k : ℕ) (s : State τ) : Option (Res (State τ)) :=
  if !s.firstAdded then some (.ok s)
  else
    match modifyNode s.graph s.firstId fun n => { n with pose := ⟨0, 0, 0⟩ } with
    | .ok g =>
      match outOdom g s.firstId with
      | .ok e => (follow k g e).map (Res.map fun g => { s with graph := g })
      | .throw x => some (.throw x)
      | .ub u => some (.ub u)
    | .throw x => some (.throw x)
    | .ub u => some (.ub u)

/-! ### Specification, in terms of the book of the client -/

/-- `c` is the first odometry constraint that starts in pose `i`. -/
def FirstFrom (cons : List (ℕ × ℕ × Pose × EKind)) (i : ℕ) (c : ℕ × ℕ × Pose × EKind) : Prop :=
  ∃ pre post, cons = pre ++ c :: post ∧ c.1 = i ∧ c.2.2.2 = .odom ∧ ∀ d ∈ pre, d.1 = i → d.2.2.2 ≠ .odom

/-- The chain of first odometry constraints from pose `i` on. -/
inductive Path (cons : List (ℕ × ℕ × Pose × EKind)) : ℕ → List (ℕ × ℕ × Pose × EKind) → Prop
  | stop {i} : (∀ c ∈ cons, c.1 = i → c.2.2.2 ≠ .odom) → Path cons i []
  | step {i c l} : FirstFrom cons i c → Path cons c.2.1 l → Path cons i (c :: l)

/-- Odometry constraints lead from older to newer poses. -/
def Forward (cons : List (ℕ × ℕ × Pose × EKind)) : Prop := ∀ c ∈ cons, c.2.2.2 = .odom → c.1 < c.2.1

/-- The pose `p` moved by `t`, with the heading in `(-π, π]`. -/
noncomputable def moved (p t : Pose) : Pose :=
  ⟨p.x + Real.cos p.th * t.x - Real.sin p.th * t.y, p.y + Real.sin p.th * t.x + Real.cos p.th * t.y,
    Geo.normalizeAngle (p.th + t.th)⟩

/-! ### Lemmas -/

theorem concat_moved (p t : Pose) : Geo.transformConcat p (Geo.getTransFromPose t) = moved p t := by
  rw [(Geo.C45_relative_partial p t t).2.2.2]
  unfold moved Geo.compose Geo.toWorld
  simp only [Pose.mk.injEq, and_true]
  refine ⟨?_, ?_⟩ <;> ring

/-- The constraint of an edge. -/
def con (e : Edge EdgeP) : ℕ × ℕ × Pose × EKind := (e.src, e.dst, e.payload.trans, e.payload.kind)

theorem SInv.cons_eq {s : State τ} {b : Book τ} (inv : SInv s b) :
    (s.graph.edges.filterMap id).map con = b.cons := by
  have h : s.graph.edges.map (Option.map con) = b.cons.map some := by
    apply List.ext_getElem?
    intro i
    rw [List.getElem?_map, List.getElem?_map]
    rcases hc : b.cons[i]? with _ | c
    · have : s.graph.edges[i]? = none := by
        rw [List.getElem?_eq_none_iff, inv.edgesLen]
        exact List.getElem?_eq_none_iff.1 hc
      rw [this]; rfl
    · obtain ⟨a, ha⟩ := inv.edges i c hc
      rw [ha]; rfl
  have h2 := congrArg (List.filterMap id) h
  rw [List.filterMap_map] at h2
  rw [List.map_filterMap]
  have e3 : (b.cons.map some).filterMap id = b.cons := by
    rw [List.filterMap_map]
    exact List.filterMap_some
  rw [e3] at h2
  rw [← h2]
  rfl

/-- The graph with other poses. -/
def withPoses (g : G τ) (f : ℕ → Pose) : G τ :=
  { g with nodes := g.nodes.mapIdx fun i n => { n with payload := { n.payload with pose := f i } } }

theorem withPoses_node (g : G τ) (f : ℕ → Pose) (i : ℕ) :
    (withPoses g f).nodes[i]? =
      (g.nodes[i]?).map fun n => { n with payload := { n.payload with pose := f i } } := by
  unfold withPoses
  rw [List.getElem?_mapIdx]

theorem withPoses_modify (g : G τ) (f : ℕ → Pose) {j : ℕ} (hj : j < g.nodes.length) (p : Pose) :
    modifyNode (withPoses g f) j (fun n => { n with pose := p }) = .ok (withPoses g (Function.update f j p)) := by
  unfold modifyNode getNode
  rw [withPoses_node, List.getElem?_eq_getElem hj]
  simp only [Option.map_some, Res.map, Res.bind_ok, Res.ok.injEq]
  unfold withPoses
  simp only [Graph.mk.injEq, and_true]
  apply List.ext_getElem?
  intro i
  rw [List.getElem?_modify, List.getElem?_mapIdx, List.getElem?_mapIdx]
  by_cases h : j = i
  · subst h
    simp [Function.comp_def]
  · have h' : i ≠ j := fun e => h e.symm
    simp [h, Function.update_of_ne h']

theorem edgeAt_withPoses (g : G τ) (f : ℕ → Pose) (a : ℕ) : edgeAt (withPoses g f) a = edgeAt g a := rfl

theorem firstOdom_withPoses (g : G τ) (f : ℕ → Pose) (l : List ℕ) : firstOdom (withPoses g f) l = firstOdom g l := by
  induction l with
  | nil => rfl
  | cons a l ih => simp only [firstOdom, edgeAt_withPoses, ih]

theorem outOdom_withPoses (g : G τ) (f : ℕ → Pose) (i : ℕ) : outOdom (withPoses g f) i = outOdom g i := by
  unfold outOdom getNode
  rw [withPoses_node]
  rcases g.nodes[i]? with _ | n
  · rfl
  · simp only [Option.map_some, Res.bind_ok, firstOdom_withPoses]

section
variable {s : State τ} {b : Book τ} (inv : SInv s b)
include inv

theorem edgeAt_of_mem {e : Edge EdgeP} (h : e ∈ s.graph.edges.filterMap id) :
    edgeAt s.graph e.addr = .ok e := by
  obtain ⟨gl, hg, -⟩ := inv.graph
  have uniq : ∀ e' ∈ s.graph.edges.filterMap id, e'.addr = e.addr → e' = e := by
    intro e' h' ha
    rw [List.mem_filterMap] at h h'
    obtain ⟨o, ho, rfl⟩ := h
    obtain ⟨o', ho', rfl⟩ := h'
    obtain ⟨i, hi⟩ := List.mem_iff_getElem?.1 ho
    obtain ⟨j, hj⟩ := List.mem_iff_getElem?.1 ho'
    have := hg.inv.inj j i e' e (live_iff.2 hj) (live_iff.2 hi) ha
    subst this
    rw [hi] at hj
    simpa using hj.symm
  unfold edgeAt
  rcases hf : (s.graph.edges.filterMap id).find? (fun e' => decide (e'.addr = e.addr)) with _ | e'
  · have := List.find?_eq_none.1 hf e h
    simp at this
  · have h1 := List.mem_of_find?_eq_some hf
    have h2 := List.find?_some hf
    rw [hf]
    simp only [uniq e' h1 (by simpa using h2)]

theorem firstOdom_map (l : List (Edge EdgeP)) (hl : ∀ e ∈ l, e ∈ s.graph.edges.filterMap id) :
    firstOdom s.graph (l.map Edge.addr) = .ok (l.find? fun e => e.payload.kind = .odom) := by
  induction l with
  | nil => rfl
  | cons e l ih =>
    rw [List.map_cons, firstOdom, edgeAt_of_mem inv (hl e List.mem_cons_self), Res.bind_ok]
    by_cases hk : e.payload.kind = .odom
    · rw [if_pos hk, List.find?_cons_of_pos (by simpa using hk)]
    · rw [if_neg hk, List.find?_cons_of_neg (by simpa using hk), ih fun e he => hl e (List.mem_cons_of_mem _ he)]

theorem outOdom_eq {i : ℕ} (hi : i < b.poses.length) :
    outOdom s.graph i = .ok ((s.graph.edges.filterMap id).find? fun e => e.src = i ∧ e.payload.kind = .odom) := by
  obtain ⟨gl, hg, h0⟩ := inv.graph
  have hi' : i < s.graph.nodes.length := by rw [inv.nodesLen]; exact hi
  have hn := List.getElem?_eq_getElem hi'
  obtain ⟨ho, -⟩ := (hg.inv.exact h0).2 i _ hn
  unfold outOdom getNode
  rw [hn]
  simp only [Res.bind_ok]
  rw [ho, firstOdom_map inv _ fun e he => (List.mem_filter.1 he).1, List.find?_filter]
  congr 2
  funext e
  simp

/-- What the search for the next odometry edge finds, in terms of the book. -/
theorem outOdom_spec {i : ℕ} (hi : i < b.poses.length) :
    (outOdom s.graph i = .ok none ∧ ∀ c ∈ b.cons, c.1 = i → c.2.2.2 ≠ .odom) ∨
    ∃ e, outOdom s.graph i = .ok (some e) ∧ FirstFrom b.cons i (con e) ∧ e.dst < b.poses.length := by
  rw [outOdom_eq inv hi]
  rcases hf : (s.graph.edges.filterMap id).find? (fun e => e.src = i ∧ e.payload.kind = .odom) with _ | e
  · left
    refine ⟨by rw [hf], ?_⟩
    rw [← inv.cons_eq]
    intro c hc h1 h2
    obtain ⟨e, he, rfl⟩ := List.mem_map.1 hc
    have := List.find?_eq_none.1 hf e he
    simp only [decide_eq_true_eq] at this
    exact this ⟨h1, h2⟩
  · right
    refine ⟨e, by rw [hf], ?_, ?_⟩
    · obtain ⟨hp, pre, post, hE, hpre⟩ := List.find?_eq_some_iff_append.1 hf
      simp only [decide_eq_true_eq] at hp
      refine ⟨pre.map con, post.map con, ?_, hp.1, hp.2, ?_⟩
      · rw [← inv.cons_eq, hE, List.map_append, List.map_cons]
      · intro d hd h1 h2
        obtain ⟨e', he', rfl⟩ := List.mem_map.1 hd
        have := hpre e' he'
        simp only [Bool.not_eq_eq_eq_not, Bool.not_true, decide_eq_false_iff_not] at this
        exact this ⟨h1, h2⟩
    · have hm := List.mem_of_find?_eq_some hf
      obtain ⟨o, ho, rfl⟩ := List.mem_filterMap.1 hm
      obtain ⟨j, hj⟩ := List.mem_iff_getElem?.1 ho
      obtain ⟨gl, hg, -⟩ := inv.graph
      have := (hg.inv.ends j e (live_iff.2 hj)).2
      rwa [inv.nodesLen] at this

theorem followStep_eq (f : ℕ → Pose) {e : Edge EdgeP} (hs : e.src < b.poses.length) (hd : e.dst < b.poses.length)
    {nxt} (hn : outOdom s.graph e.dst = .ok nxt) :
    followStep (withPoses s.graph f) e =
      .ok (withPoses s.graph (Function.update f e.dst (moved (f e.src) e.payload.trans)), nxt) := by
  have hs' : e.src < s.graph.nodes.length := by rw [inv.nodesLen]; exact hs
  have hd' : e.dst < s.graph.nodes.length := by rw [inv.nodesLen]; exact hd
  unfold followStep
  have e1 : getNode (withPoses s.graph f) e.src = .ok
      { s.graph.nodes[e.src] with payload := { s.graph.nodes[e.src].payload with pose := f e.src } } := by
    unfold getNode
    rw [withPoses_node, List.getElem?_eq_getElem hs']
    rfl
  rw [e1, Res.bind_ok]
  simp only
  rw [withPoses_modify _ _ hd', Res.bind_ok, outOdom_withPoses, hn, concat_moved]
  rfl

end

theorem withPoses_self (g : G τ) : ∃ f, withPoses g f = g ∧
    ∀ i (n : Node (NodeP τ)), g.nodes[i]? = some n → f i = n.payload.pose := by
  refine ⟨fun i => (g.nodes[i]?.map fun n => n.payload.pose).getD ⟨0, 0, 0⟩, ?_, fun i n h => by simp [h]⟩
  unfold withPoses
  obtain ⟨nodes, edges, pool⟩ := g
  simp only [Graph.mk.injEq, and_true]
  apply List.ext_getElem?
  intro i
  rw [List.getElem?_mapIdx]
  rcases nodes[i]? with _ | n <;> rfl

end Verif.Slam
