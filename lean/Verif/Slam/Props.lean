import Verif.Slam.Lemmas
import Mathlib.Tactic.NormNum

/-
Property theorems C32-C38 (`Slam2D`).  `History s b` (Verif/Slam/Spec.lean) says that the object is in
state `s` after some series of public calls; `b` is the client's book of the calls.
-/
namespace Verif.Slam

open Verif Verif.PoseGraph

variable {τ : Type}

/-! ### Facts read off the invariant -/

theorem SInv.node {s : State τ} {b : Book τ} (inv : SInv s b) (id : ℕ) :
    (∀ p o, b.poses[id]? = some (p, o) → ∃ n, getNode s.graph id = .ok n ∧ n.payload = ⟨p, o, false⟩) ∧
    (b.poses[id]? = none → getNode s.graph id = .throw .outOfRange) := by
  have hpay : (s.graph.nodes[id]?).map Node.payload =
      (b.poses[id]?).map fun x => (⟨x.1, x.2, false⟩ : NodeP τ) := by
    rw [← List.getElem?_map, inv.nodes, List.getElem?_map]
  unfold getNode
  rcases h : s.graph.nodes[id]? with _ | n
  · rw [h] at hpay
    rcases hb : b.poses[id]? with _ | x
    · simp
    · rw [hb] at hpay; cases hpay
  · rw [h] at hpay
    rcases hb : b.poses[id]? with _ | x
    · rw [hb] at hpay; cases hpay
    · rw [hb] at hpay
      simp only [Option.map_some, Option.some.injEq] at hpay
      simp only [Option.some.injEq, reduceCtorEq, false_implies, and_true]
      rintro p o rfl
      exact ⟨n, rfl, hpay⟩

theorem SInv.getEdge_iff {s : State τ} {b : Book τ} (inv : SInv s b) {id : ℕ} {e : Edge EdgeP} :
    getEdge s.graph id = .ok e ↔ live s.graph id = some e := by
  obtain ⟨gl, h, -⟩ := inv.graph
  exact getEdge_ok_iff h.inv

theorem SInv.getEdge_some {s : State τ} {b : Book τ} (inv : SInv s b) {id : ℕ} {c}
    (h : b.cons[id]? = some c) : ∃ addr, getEdge s.graph id =
      .ok ⟨addr, id, c.1, c.2.1, ⟨c.2.2.1, stdInfo, .active, c.2.2.2, false⟩⟩ := by
  obtain ⟨addr, ha⟩ := inv.edges id c h
  exact ⟨addr, inv.getEdge_iff.2 (live_iff.2 ha)⟩

theorem SInv.getEdge_none {s : State τ} {b : Book τ} (inv : SInv s b) {id : ℕ}
    (h : b.cons.length ≤ id) : getEdge s.graph id = .throw .outOfRange := by
  unfold getEdge
  rw [if_pos (by rw [inv.edgesLen]; exact h)]

/-! ### Concrete history used in the examples: two poses, one constraint -/

def p0 : Pose := ⟨0, 0, 0⟩
def p1 : Pose := ⟨1, 0, 0⟩

def exS2 : State String := (addPose (addPose init p0 "a").2 p1 "b").2

theorem exS2_history : History exS2 ⟨[(p0, "a"), (p1, "b")], []⟩ :=
  (History.init.addPose p0 "a").addPose p1 "b"

theorem exS2_fresh (a : ℕ) : Fresh exS2.graph a := by
  intro id e h; simp [exS2, addPose, init, addNode, PoseGraph.empty, live] at h

def exS3 : State String := (addConstrain 10 0 1 p1 1 exS2).2

theorem exS3_history : History exS3 ⟨[(p0, "a"), (p1, "b")], [(0, 1, p1, .odom)]⟩ :=
  exS2_history.addConstrain (addr := 10) (src := 0) (dst := 1) (trans := p1) (inform := 1)
    (exS2_fresh 10) rfl

/-! ### C32 -/

/-- **C32.** `addPose` returns the number of poses added before; the getters return for every id the
pose and the data object of that id (as last written by the client or an optimisation); the optimiser
holds for every pose exactly one vertex and precisely the vertex of pose 0 is fixed. -/
theorem C32_poses {s : State τ} {b : Book τ} (h : History s b) :
    (∀ p o, (addPose s p o).1 = b.poses.length) ∧
    (∀ id p o, b.poses[id]? = some (p, o) →
      getPoseLocation s id = .ok p ∧ getPoseData s id = .ok o) ∧
    (∀ id, b.poses.length ≤ id →
      getPoseLocation s id = .throw .outOfRange ∧ getPoseData s id = .throw .outOfRange) ∧
    s.vertices.map Vertex.id = List.range b.poses.length ∧
    ∀ v ∈ s.vertices, v.fixed = true ↔ v.id = 0 := by
  have inv := h.inv
  refine ⟨fun p o => (inv_addPose inv p o).1, fun id p o hb => ?_, fun id hid => ?_, ?_, ?_⟩
  · obtain ⟨n, hn, hp⟩ := (inv.node id).1 p o hb
    simp [getPoseLocation, getPoseData, hn, hp]
  · have := (inv.node id).2 (List.getElem?_eq_none hid)
    simp [getPoseLocation, getPoseData, this]
  · apply List.ext_getElem?
    intro i
    rw [List.getElem?_map, inv.vertices]
    rcases hb : b.poses[i]? with _ | x
    · rw [List.getElem?_eq_none_iff] at hb
      rw [List.getElem?_eq_none (by simpa using hb)]; rfl
    · have : i < b.poses.length := by
        by_contra hc
        rw [List.getElem?_eq_none (by omega)] at hb; cases hb
      rw [List.getElem?_range this]; rfl
  · intro v hv
    obtain ⟨i, hi⟩ := List.mem_iff_getElem?.1 hv
    rw [inv.vertices, Option.map_eq_some_iff] at hi
    obtain ⟨x, -, rfl⟩ := hi
    simp

example : ∃ (s : State String) (b : Book String), History s b ∧ b.poses.length = 2 ∧
    b.cons.length = 1 := ⟨_, _, exS3_history, rfl, rfl⟩

/-! ### C33 -/

/-- **C33.** `addConstrain` with an unknown pose id throws `out_of_range` and leaves the whole object
(pose graph, optimiser problem, counters) as it was; with known ids it never throws. -/
theorem C33_failing_constraint {s : State τ} {b : Book τ} (h : History s b)
    (addr src dst : ℕ) (t : Pose) (I : Info) :
    ((b.poses.length ≤ src ∨ b.poses.length ≤ dst) →
      addConstrain addr src dst t I s = (.throw .outOfRange, s)) ∧
    (src < b.poses.length → dst < b.poses.length →
      (addConstrain addr src dst t I s).1 = .ok b.cons.length) := by
  have inv := h.inv
  refine ⟨fun hb => ?_, fun hs hd => ?_⟩
  · exact addConstrain_throw addr t I (by rw [inv.nodesLen]; exact hb)
  · rcases addConstrain_cases (I := I) inv (r := (addConstrain addr src dst t I s).1)
      (s' := (addConstrain addr src dst t I s).2) rfl with ⟨-, -, h, -⟩ | ⟨h, -⟩
    · exact h
    · omega

example : ∃ (s : State String) (b : Book String), History s b ∧ b.poses.length ≤ 2 ∧
    0 < b.poses.length := ⟨_, _, exS3_history, by decide, by decide⟩

/-! ### C34 -/

/-- The statement of C34: the constraint just added shows exactly the arguments, in the pose graph and
in the optimiser. -/
def KeepsArguments (s' : State τ) (id src dst : ℕ) (t : Pose) (I : Info) : Prop :=
  getConstrainPoses s' id = .ok (src, dst) ∧
  getConstrainTransform s' id = .ok t ∧
  getConstrainInformMat s' id = .ok I ∧
  ∃ o, o ∈ s'.optEdges ∧ o.id = id ∧ o.v0 = some src ∧ o.v1 = some dst ∧ o.meas = t ∧ o.info = I

theorem addConstrain_getters {s s' : State τ} {b : Book τ} {addr src dst id : ℕ} {t : Pose} {I : Info}
    (h : History s b) (fresh : Fresh s.graph addr)
    (ha : addConstrain addr src dst t I s = (.ok id, s')) :
    getConstrainPoses s' id = .ok (src, dst) ∧
    getConstrainTransform s' id = .ok t ∧
    getConstrainInformMat s' id = .ok stdInfo ∧
    (∃ o ∈ s'.optEdges, o.id = id ∧ o.v0 = some src ∧ o.v1 = some dst ∧ o.meas = t ∧
      o.info = stdInfo) ∧ ∀ o ∈ s'.optEdges, o.info = stdInfo := by
  have inv' := (h.addConstrain fresh ha).inv
  rcases addConstrain_cases h.inv ha with ⟨-, -, hid, -⟩ | ⟨-, hid, -⟩
  · cases hid
    have hc : ({ b with cons := b.cons ++ [(src, dst, t, EKind.odom)] } : Book τ).cons[b.cons.length]? =
        some (src, dst, t, .odom) := by simp
    obtain ⟨a, he⟩ := inv'.getEdge_some hc
    have ho := inv'.optEdges b.cons.length
    rw [hc] at ho
    refine ⟨by simp [getConstrainPoses, he], by simp [getConstrainTransform, he],
      by simp [getConstrainInformMat, he], ⟨_, List.mem_iff_getElem?.2 ⟨_, ho⟩, rfl, rfl, rfl, rfl, rfl⟩,
      fun o hom => ?_⟩
    obtain ⟨i, hi⟩ := List.mem_iff_getElem?.1 hom
    rw [inv'.optEdges, Option.map_eq_some_iff] at hi
    obtain ⟨c, -, rfl⟩ := hi
    rfl
  · cases hid

/-- **C34** fails for every information matrix other than diag(500, 500, 5000): the argument is
ignored. -/
theorem C34_false {s s' : State τ} {b : Book τ} {addr src dst id : ℕ} {t : Pose} {I : Info}
    (h : History s b) (fresh : Fresh s.graph addr)
    (ha : addConstrain addr src dst t I s = (.ok id, s')) (hI : I ≠ stdInfo) :
    getConstrainInformMat s' id = .ok stdInfo ∧ ¬ KeepsArguments s' id src dst t I := by
  obtain ⟨-, -, h3, -, -⟩ := addConstrain_getters h fresh ha
  refine ⟨h3, fun hk => ?_⟩
  rw [hk.2.2.1] at h3
  exact hI (Res.ok.inj h3)

/-- **C34**, partial: end points and transform are kept in the pose graph and in the optimiser, and
both hold the same information matrix.  Missing: that matrix is the constant diag(500, 500, 5000). -/
theorem C34_keeps_partial {s s' : State τ} {b : Book τ} {addr src dst id : ℕ} {t : Pose} {I : Info}
    (h : History s b) (fresh : Fresh s.graph addr)
    (ha : addConstrain addr src dst t I s = (.ok id, s')) :
    getConstrainPoses s' id = .ok (src, dst) ∧
    getConstrainTransform s' id = .ok t ∧
    ∃ J, getConstrainInformMat s' id = .ok J ∧
      ∃ o ∈ s'.optEdges, o.id = id ∧ o.v0 = some src ∧ o.v1 = some dst ∧ o.meas = t ∧ o.info = J := by
  obtain ⟨h1, h2, h3, h4, -⟩ := addConstrain_getters h fresh ha
  exact ⟨h1, h2, _, h3, h4⟩

example : ∃ (s s' : State String) (b : Book String) (id : ℕ), History s b ∧ Fresh s.graph 10 ∧
    addConstrain 10 0 1 p1 1 s = (.ok id, s') ∧ (1 : Info) ≠ stdInfo := by
  refine ⟨exS2, exS3, _, 0, exS2_history, exS2_fresh 10, rfl, fun h => ?_⟩
  have := congrFun (congrFun h 0) 0
  norm_num [stdInfo] at this

/-! ### C35 -/

/-- **C35.** With at least two poses `addLastConstrain` succeeds and adds an edge from the second
newest to the newest pose (ids n-2 and n-1 of n poses). -/
theorem C35_last_constraint {s : State τ} {b : Book τ} (h : History s b)
    (h2 : 2 ≤ b.poses.length) (addr : ℕ) (fresh : Fresh s.graph addr) (t : Pose) (I : Info) :
    ∃ id s', addLastConstrain addr t I s = (.ok id, s') ∧
      getConstrainPoses s' id = .ok (b.poses.length - 2, b.poses.length - 1) ∧
      getConstrainTransform s' id = .ok t := by
  have inv := h.inv
  unfold addLastConstrain
  rw [inv.prevId, inv.lastId]
  have h1 := (C33_failing_constraint h addr (b.poses.length - 2) (b.poses.length - 1) t I).2
    (by omega) (by omega)
  rcases ha : addConstrain addr (b.poses.length - 2) (b.poses.length - 1) t I s with ⟨r, s'⟩
  rw [ha] at h1
  simp only at h1
  subst h1
  obtain ⟨g1, g2, -⟩ := addConstrain_getters h fresh ha
  exact ⟨_, s', rfl, g1, g2⟩

example : ∃ (s : State String) (b : Book String), History s b ∧ 2 ≤ b.poses.length ∧
    Fresh s.graph 10 := ⟨exS2, _, exS2_history, by decide, exS2_fresh 10⟩

/-! ### C36 -/

/-- **C36.** For all optimiser results and all iteration orders of the vertex map, `optimalize` ends
normally and returns true; afterwards every pose equals the optimiser's estimate of its vertex and its
data object has been told exactly that estimate; constraints, topology and the optimiser's edges are
unchanged. -/
theorem C36_only_poses {s s' : State τ} {b : Book τ} (h : History s b) (est : ℕ → Pose)
    (upd : τ → Pose → τ) (order : List ℕ) (hp : order.Perm (List.range b.poses.length)) (r : Res Bool)
    (ho : optimalize est upd order s = (r, s')) :
    r = .ok true ∧
    (∀ id, id < b.poses.length → ∃ v, s'.vertices[id]? = some v ∧ v.id = id ∧
      (v.fixed = false → v.est = est id) ∧
      getPoseLocation s' id = .ok v.est ∧
      getPoseData s' id = (getPoseData s id).map (upd · v.est)) ∧
    (∀ id, getEdge s'.graph id = getEdge s.graph id) ∧
    (∀ id, (getNode s'.graph id).map (fun n => (n.id, n.out, n.inn)) =
      (getNode s.graph id).map fun n => (n.id, n.out, n.inn)) ∧
    s'.optEdges = s.optEdges ∧
    s'.vertices.map (fun v => (v.id, v.fixed)) = s.vertices.map fun v => (v.id, v.fixed) := by
  have inv := h.inv
  obtain ⟨hr, he, hpool, hoe, htop, inv'⟩ := inv_optimalize inv est upd hp ho
  refine ⟨hr, fun id hid => ?_, fun id => ?_, fun id => ?_, hoe, ?_⟩
  · have hb := List.getElem?_eq_getElem hid
    obtain ⟨n, hn, hpl⟩ := (inv.node id).1 _ _ hb
    have hb' : (b.poses.mapIdx fun i x => (if i = 0 then x.1 else est i,
        upd x.2 (if i = 0 then x.1 else est i)))[id]? = some (if id = 0 then b.poses[id].1 else est id,
        upd b.poses[id].2 (if id = 0 then b.poses[id].1 else est id)) := by
      rw [List.getElem?_mapIdx, hb]; rfl
    obtain ⟨n', hn', hpl'⟩ := (inv'.node id).1 _ _ hb'
    have hv := inv'.vertices id
    simp only at hv
    rw [hb'] at hv
    refine ⟨_, hv, rfl, fun hf => ?_, ?_, ?_⟩
    · simp at hf; simp [hf]
    · simp [getPoseLocation, hn', hpl']
    · simp [getPoseData, hn, hpl, hn', hpl']
  · unfold getEdge live; rw [he, hpool]
  · have := htop id
    unfold getNode
    rcases h1 : s'.graph.nodes[id]? with _ | n' <;> rcases h2 : s.graph.nodes[id]? with _ | n <;>
      rw [h1, h2] at this <;> first | rfl | (cases this) | skip
    simp only [Option.map_some, Option.some.injEq] at this
    simp only [Res.map_ok, this]
  · apply List.ext_getElem?
    intro i
    rw [List.getElem?_map, List.getElem?_map, inv.vertices, inv'.vertices]
    simp only [List.getElem?_mapIdx, Option.map_map]
    rcases b.poses[i]? with _ | x <;> rfl

example : ∃ (s : State String) (b : Book String), History s b ∧
    [1, 0].Perm (List.range b.poses.length) :=
  ⟨exS3, _, exS3_history, by decide⟩

/-! ### C37 -/

/-- **C37.** For every list of closures reported by the search (their end points being existing
poses), `tryLoopClose` adds exactly one edge of type LOOP per closure, with the closure's end points
and transform, returns true if and only if there is a closure, and leaves every earlier constraint and
every pose unchanged. -/
theorem C37_loop_edges {s : State τ} {b : Book τ} (h : History s b) (loops : List (ℕ × Closure))
    (hnd : (loops.map Prod.fst).Nodup) (hf : ∀ a ∈ loops.map Prod.fst, Fresh s.graph a)
    (hv : ∀ c ∈ loops, c.2.src < b.poses.length ∧ c.2.dst < b.poses.length) :
    ∃ r s', finishLoopClose loops s = (.ok r, s') ∧
      (r = true ↔ loops ≠ []) ∧
      (∀ k (c : ℕ × Closure), loops[k]? = some c →
        ∃ e, getEdge s'.graph (b.cons.length + k) = .ok e ∧ e.src = c.2.src ∧ e.dst = c.2.dst ∧
          e.payload.trans = c.2.trans ∧ e.payload.kind = .loop) ∧
      (∀ id, id < b.cons.length → getEdge s'.graph id = getEdge s.graph id) ∧
      (∀ id, b.cons.length + loops.length ≤ id → getEdge s'.graph id = .throw .outOfRange) ∧
      (∀ id, getPoseLocation s' id = getPoseLocation s id ∧ getPoseData s' id = getPoseData s id) := by
  have inv := h.inv
  obtain ⟨s', ha, inv', hpre, -⟩ := addLoops_ok inv hnd hf hv
  have hfin : finishLoopClose loops s = (.ok (decide (0 < loops.length)), s') := by
    unfold finishLoopClose; rw [Op.bind_apply_ok ha]; rfl
  refine ⟨_, s', hfin, by simp [List.length_pos_iff], fun k c hk => ?_, fun id hid => ?_,
    fun id hid => ?_, fun id => ?_⟩
  · have hc : (b.cons ++ loops.map fun c => (c.2.src, c.2.dst, c.2.trans, EKind.loop))[b.cons.length + k]? =
        some (c.2.src, c.2.dst, c.2.trans, .loop) := by
      rw [List.getElem?_append_right (by omega)]
      simp [hk]
    obtain ⟨a, he⟩ := inv'.getEdge_some hc
    exact ⟨_, he, rfl, rfl, rfl, rfl⟩
  · have hlen := inv.edgesLen
    have hlt : id < s'.graph.edges.length := Nat.lt_of_lt_of_le (by omega) hpre.length_le
    have heq : s'.graph.edges[id]? = s.graph.edges[id]? := by
      obtain ⟨l, hl⟩ := hpre
      rw [← hl, List.getElem?_append_left (by omega)]
    unfold getEdge live
    rw [inv.pool, inv'.pool, heq, if_neg (by omega), if_neg (by omega : ¬ s.graph.edges.length ≤ id)]
  · exact inv'.getEdge_none (by simpa using hid)
  · rcases hb : b.poses[id]? with _ | ⟨p, o⟩
    · have h1 := (inv.node id).2 hb
      have h2 := (inv'.node id).2 hb
      simp [getPoseLocation, getPoseData, h1, h2]
    · obtain ⟨n, h1, e1⟩ := (inv.node id).1 p o hb
      obtain ⟨n', h2, e2⟩ := (inv'.node id).1 p o hb
      simp [getPoseLocation, getPoseData, h1, h2, e1, e2]

example : ∃ (s : State String) (b : Book String) (loops : List (ℕ × Closure)), History s b ∧
    loops ≠ [] ∧ (loops.map Prod.fst).Nodup ∧ (∀ a ∈ loops.map Prod.fst, Fresh s.graph a) ∧
    ∀ c ∈ loops, c.2.src < b.poses.length ∧ c.2.dst < b.poses.length :=
  ⟨exS2, _, [(10, ⟨1, 0, p1, 1⟩), (20, ⟨0, 1, p1, 1⟩)], exS2_history, by simp, by simp,
    fun a _ => exS2_fresh a, by simp⟩

/-! ### C38 -/

/-- **C38.** At any time the optimiser problem mirrors the pose graph: vertex `id` exists exactly for
the poses, carries the pose's id and its current value; edge `id` exists exactly for the constraints
and has the same end points, measurement and information. -/
theorem C38_mirror {s : State τ} {b : Book τ} (h : History s b) :
    s.vertices.length = nodeCount s.graph ∧
    (∀ id n, getNode s.graph id = .ok n → ∃ v, s.vertices[id]? = some v ∧ v.id = id ∧
      v.est = n.payload.pose) ∧
    s.optEdges.length = s.graph.edges.length ∧
    ∀ id, id < s.optEdges.length → ∃ e o v w, getEdge s.graph id = .ok e ∧ s.optEdges[id]? = some o ∧
      o.id = id ∧ o.v0 = some e.src ∧ o.v1 = some e.dst ∧ o.meas = e.payload.trans ∧
      o.info = e.payload.inform ∧ s.vertices[e.src]? = some v ∧ v.id = e.src ∧
      s.vertices[e.dst]? = some w ∧ w.id = e.dst := by
  have inv := h.inv
  have hlen : s.optEdges.length = b.cons.length := by
    have hh : ∀ i, i < s.optEdges.length ↔ i < b.cons.length := by
      intro i
      have := inv.optEdges i
      constructor <;> intro h <;> by_contra hc
      · rw [List.getElem?_eq_none (by omega : b.cons.length ≤ i), List.getElem?_eq_getElem h] at this
        cases this
      · rw [List.getElem?_eq_none (by omega : s.optEdges.length ≤ i), List.getElem?_eq_getElem h] at this
        cases this
    have h1 := hh s.optEdges.length
    have h2 := hh b.cons.length
    omega
  refine ⟨by rw [inv.verticesLen, nodeCount, inv.nodesLen], fun id n hn => ?_,
    by rw [hlen, inv.edgesLen], fun id hid => ?_⟩
  · rcases hb : b.poses[id]? with _ | ⟨p, o⟩
    · rw [(inv.node id).2 hb] at hn; cases hn
    · obtain ⟨n', h1, e1⟩ := (inv.node id).1 p o hb
      rw [h1] at hn; cases hn
      refine ⟨_, by rw [inv.vertices, hb]; rfl, rfl, by rw [e1]⟩
  · have hc := List.getElem?_eq_getElem (hlen ▸ hid : id < b.cons.length)
    obtain ⟨a, he⟩ := inv.getEdge_some hc
    have ho := inv.optEdges id
    rw [hc] at ho
    obtain ⟨gl, hg, -⟩ := inv.graph
    have hends := hg.inv.ends id _ (inv.getEdge_iff.1 he)
    have hvx : ∀ i, i < s.graph.nodes.length → ∃ v, s.vertices[i]? = some v ∧ v.id = i := by
      intro i hi
      rw [inv.nodesLen] at hi
      exact ⟨_, by rw [inv.vertices, List.getElem?_eq_getElem hi]; rfl, rfl⟩
    obtain ⟨v, hv1, hv2⟩ := hvx _ hends.1
    obtain ⟨w, hw1, hw2⟩ := hvx _ hends.2
    exact ⟨_, _, v, w, he, ho, rfl, rfl, rfl, rfl, rfl, hv1, hv2, hw1, hw2⟩

example : ∃ (s : State String) (b : Book String), History s b ∧ s.optEdges.length = 1 ∧
    s.vertices.length = 2 := ⟨exS3, _, exS3_history, rfl, rfl⟩

end Verif.Slam
