import Verif.Slam.Spec

namespace Verif.Slam

open Verif Verif.PoseGraph

variable {τ : Type}

/-- Representation invariant. -/
structure SInv (s : State τ) (b : Book τ) : Prop where
  graph : ∃ glog, PoseGraph.History s.graph glog ∧ glog.removals = 0
  nodes : s.graph.nodes.map Node.payload = b.poses.map fun x => (⟨x.1, x.2, false⟩ : NodeP τ)
  edgesLen : s.graph.edges.length = b.cons.length
  edges : ∀ (i : ℕ) c, b.cons[i]? = some c → ∃ addr, s.graph.edges[i]? =
    some (some ⟨addr, i, c.1, c.2.1, ⟨c.2.2.1, stdInfo, .active, c.2.2.2, false⟩⟩)
  vertices : ∀ i : ℕ, s.vertices[i]? = (b.poses[i]?).map fun x => ⟨i, decide (i = 0), x.1⟩
  nodeSeq : s.nodeSeq = b.poses.length
  vertexOf : ∀ i, s.vertexOf i = if i < b.poses.length then some i else none
  optEdges : ∀ i : ℕ, s.optEdges[i]? =
    (b.cons[i]?).map fun c => ⟨i, some c.1, some c.2.1, c.2.2.1, stdInfo⟩
  edgeSeq : s.edgeSeq = b.cons.length
  firstAdded : s.firstAdded = decide (0 < b.poses.length)
  lastId : s.lastId = b.poses.length - 1
  prevId : s.prevId = b.poses.length - 2
  firstId : s.firstId = 0

theorem inv_init : SInv (init : State τ) ⟨[], []⟩ where
  graph := ⟨_, .init, rfl⟩
  nodes := rfl
  edgesLen := rfl
  edges := by simp
  vertices := by simp [init]
  nodeSeq := rfl
  vertexOf := by simp [init]
  optEdges := by simp [init]
  edgeSeq := rfl
  firstAdded := rfl
  lastId := rfl
  prevId := rfl
  firstId := rfl

theorem SInv.nodesLen {s : State τ} {b : Book τ} (inv : SInv s b) :
    s.graph.nodes.length = b.poses.length := by
  have := congrArg List.length inv.nodes
  simpa using this

theorem SInv.verticesLen {s : State τ} {b : Book τ} (inv : SInv s b) :
    s.vertices.length = b.poses.length := by
  have h : ∀ i, i < s.vertices.length ↔ i < b.poses.length := by
    intro i
    have := inv.vertices i
    constructor <;> intro h <;> by_contra hc
    · rw [List.getElem?_eq_none (by omega : b.poses.length ≤ i), List.getElem?_eq_getElem h] at this
      cases this
    · rw [List.getElem?_eq_none (by omega : s.vertices.length ≤ i), List.getElem?_eq_getElem h] at this
      cases this
  have h1 := h s.vertices.length
  have h2 := h b.poses.length
  omega

theorem SInv.pool {s : State τ} {b : Book τ} (inv : SInv s b) : s.graph.pool = [] := by
  obtain ⟨gl, h, h0⟩ := inv.graph
  exact (h.inv.exact h0).1

theorem inv_addPose {s : State τ} {b : Book τ} (inv : SInv s b) (p : Pose) (o : τ) :
    (addPose s p o).1 = b.poses.length ∧
    SInv (addPose s p o).2 { b with poses := b.poses ++ [(p, o)] } := by
  have hn := inv.nodesLen
  have hv := inv.verticesLen
  obtain ⟨gl, hg, hr⟩ := inv.graph
  have hg' := hg.addNode ⟨p, o, false⟩
  have key : ∀ (f : Bool), f = decide (b.poses.length = 0) → ∀ i : ℕ,
      (s.vertices ++ [⟨s.nodeSeq, f, p⟩])[i]? =
      ((b.poses ++ [(p, o)])[i]?).map fun x => ⟨i, decide (i = 0), x.1⟩ := by
    intro f hf i
    simp only [List.getElem?_append, hv]
    split_ifs with h
    · exact inv.vertices i
    · rcases Nat.lt_or_ge b.poses.length i with h1 | h1
      · rw [List.getElem?_eq_none (by simp; omega), List.getElem?_eq_none (by simp; omega)]; rfl
      · have : i = b.poses.length := by omega
        subst this
        simp [inv.nodeSeq, hf]
  have hvo : ∀ i, Function.update s.vertexOf s.graph.nodes.length (some s.vertices.length) i =
      if i < (b.poses ++ [(p, o)]).length then some i else none := by
    intro i
    rw [hn, hv]
    by_cases h : i = b.poses.length
    · subst h; simp
    · rw [Function.update_of_ne h, inv.vertexOf]
      simp only [List.length_append, List.length_singleton]
      split_ifs <;> first | rfl | omega
  have hnod : (addNode s.graph ⟨p, o, false⟩).2.nodes.map Node.payload =
      (b.poses ++ [(p, o)]).map fun x => ⟨x.1, x.2, false⟩ := by
    simp [addNode, inv.nodes]
  unfold addPose
  by_cases hf : s.firstAdded = true
  · have hpos : 0 < b.poses.length := by simpa [inv.firstAdded] using hf
    simp only [hf, if_true]
    refine ⟨hn, ⟨_, hg', hr⟩, hnod, inv.edgesLen, inv.edges, ?_, ?_, hvo, inv.optEdges, inv.edgeSeq,
      ?_, ?_, ?_, inv.firstId⟩
    · exact key false (by simp; intro h; simp [h] at hpos)
    · simp [inv.nodeSeq]
    · simp
    · simp [addNode, hn]
    · simp [inv.lastId]
  · have hz : b.poses.length = 0 := by
      rw [inv.firstAdded] at hf; simpa using hf
    simp only [hf]
    refine ⟨hn, ⟨_, hg', hr⟩, hnod, inv.edgesLen, inv.edges, ?_, ?_, hvo, inv.optEdges, inv.edgeSeq,
      ?_, ?_, ?_, ?_⟩
    · exact key true (by simp [hz])
    · simp [inv.nodeSeq]
    · simp
    · simp [addNode, hn]
    · simp [inv.prevId, hz]
    · simp [addNode, hn, hz]

theorem modify_last {α : Type*} (l : List α) (a : α) (f : α → α) :
    (l ++ [a]).modify l.length f = l ++ [f a] := by
  induction l with
  | nil => rfl
  | cons b l ih => simp [ih]

/-- The state after a successful `addConstrain`. -/
def constrained (s : State τ) (nodes : List (Node (NodeP τ))) (addr src dst : ℕ) (t : Pose)
    (k : EKind) : State τ :=
  { s with
    graph :=
      { nodes := nodes
        edges := s.graph.edges ++
          [some ⟨addr, s.graph.edges.length, src, dst, ⟨t, stdInfo, .active, k, false⟩⟩]
        pool := [] }
    optEdges := s.optEdges ++ [⟨s.edgeSeq, s.vertexOf src, s.vertexOf dst, t, stdInfo⟩]
    edgeSeq := s.edgeSeq + 1 }

theorem getEdge_last (nodes : List (Node (NodeP τ))) (l : List (Option (Edge EdgeP))) (e : Edge EdgeP) :
    getEdge (⟨nodes, l ++ [some e], []⟩ : G τ) l.length = .ok e := by
  simp [getEdge, live]

theorem addEdge_nil {s : State τ} (hp : s.graph.pool = []) {src dst : ℕ} (addr : ℕ) (p : EdgeP)
    (hs : src < s.graph.nodes.length) (hd : dst < s.graph.nodes.length) :
    ∃ nodes, addEdge s.graph addr src dst p = .ok (s.graph.edges.length,
      ⟨nodes, s.graph.edges ++ [some ⟨addr, s.graph.edges.length, src, dst, p⟩], []⟩) ∧
      nodes.length = s.graph.nodes.length ∧
      ∀ i : ℕ, nodes[i]? = (s.graph.nodes[i]?).map fun n => linkedNode n i src dst addr := by
  obtain ⟨nodes, hl, hlen, hn⟩ := link_spec
    (⟨s.graph.nodes, s.graph.edges ++ [some ⟨addr, s.graph.edges.length, src, dst, p⟩], []⟩ : G τ)
    addr hs hd
  refine ⟨nodes, ?_, hlen, hn⟩
  unfold addEdge
  rw [hp]
  simp only [hl, Res.map_ok]

theorem change_ok {f : G τ → Res (α × G τ)} {s : State τ} {a : α} {g : G τ}
    (h : f s.graph = .ok (a, g)) : change f s = (.ok a, { s with graph := g }) := by
  simp [change, h]

theorem addConstrain_eq {s : State τ} (hp : s.graph.pool = []) {src dst : ℕ} (addr : ℕ) (t : Pose)
    (I : Info) (hs : src < s.graph.nodes.length) (hd : dst < s.graph.nodes.length) :
    ∃ nodes, addConstrain addr src dst t I s =
      (.ok s.graph.edges.length, constrained s nodes addr src dst t .odom) ∧
      nodes.length = s.graph.nodes.length ∧
      (∀ i : ℕ, nodes[i]? = (s.graph.nodes[i]?).map fun n => linkedNode n i src dst addr) ∧
      ∀ glog, PoseGraph.History s.graph glog → Fresh s.graph addr →
        ∃ glog', PoseGraph.History (constrained s nodes addr src dst t .odom).graph glog' ∧
          glog'.removals = glog.removals := by
  obtain ⟨nodes, ha, hlen, hn⟩ :=
    addEdge_nil hp addr ⟨t, stdInfo, .constructed, .odom, false⟩ hs hd
  have hg1 : getNode s.graph src = .ok (s.graph.nodes[src]) := by
    rw [getNode, List.getElem?_eq_getElem hs]
  have hg2 : getNode s.graph dst = .ok (s.graph.nodes[dst]) := by
    rw [getNode, List.getElem?_eq_getElem hd]
  have hm1 : modifyEdge (⟨nodes, s.graph.edges ++
        [some ⟨addr, s.graph.edges.length, src, dst, ⟨t, stdInfo, .constructed, .odom, false⟩⟩], []⟩ :
        G τ) s.graph.edges.length (fun e => { e with state := .active }) =
      .ok ⟨nodes, s.graph.edges ++
        [some ⟨addr, s.graph.edges.length, src, dst, ⟨t, stdInfo, .active, .odom, false⟩⟩], []⟩ := by
    simp [modifyEdge, getEdge_last, modify_last]
  have hm2 : modifyEdge (⟨nodes, s.graph.edges ++
        [some ⟨addr, s.graph.edges.length, src, dst, ⟨t, stdInfo, .active, .odom, false⟩⟩], []⟩ :
        G τ) s.graph.edges.length (fun e => { e with kind := .odom }) =
      .ok ⟨nodes, s.graph.edges ++
        [some ⟨addr, s.graph.edges.length, src, dst, ⟨t, stdInfo, .active, .odom, false⟩⟩], []⟩ := by
    simp [modifyEdge, getEdge_last, modify_last]
  refine ⟨nodes, ?_, hlen, hn, fun glog h fresh => ?_⟩
  · unfold addConstrain
    rw [Op.bind_apply_ok (s' := s) (by rw [query, hg1]), Op.bind_apply_ok (s' := s)
      (by rw [query, hg2]), Op.bind_apply_ok (change_ok ha), Op.bind_apply_ok
      (change_ok (by rw [hm1]; rfl)), Op.bind_apply_ok (change_ok (by rw [hm2]; rfl))]
    rfl
  · have h1 := h.addEdge fresh ha
    have h2 := h1.touchEdge _ hm1
    have h3 := h2.touchEdge _ hm2
    exact ⟨_, h3, rfl⟩

/-- State after one loop closure. -/
theorem addLoop_eq {s : State τ} (hp : s.graph.pool = []) {src dst : ℕ} (addr : ℕ) (t : Pose)
    (I : Info) (hs : src < s.graph.nodes.length) (hd : dst < s.graph.nodes.length)
    (rest : List (ℕ × Closure)) :
    ∃ nodes, addLoops ((addr, ⟨src, dst, t, I⟩) :: rest) s =
        addLoops rest (constrained s nodes addr src dst t .loop) ∧
      nodes.length = s.graph.nodes.length ∧
      (∀ i : ℕ, nodes[i]? = (s.graph.nodes[i]?).map fun n => linkedNode n i src dst addr) ∧
      ∀ glog, PoseGraph.History s.graph glog → Fresh s.graph addr →
        ∃ glog', PoseGraph.History (constrained s nodes addr src dst t .loop).graph glog' ∧
          glog'.removals = glog.removals := by
  obtain ⟨nodes, hc, hlen, hn, hh⟩ := addConstrain_eq hp addr t I hs hd
  have hm : modifyEdge (constrained s nodes addr src dst t .odom).graph s.graph.edges.length
      (fun e => { e with kind := .loop }) =
      .ok (constrained s nodes addr src dst t .loop).graph := by
    simp [constrained, modifyEdge, getEdge_last, modify_last]
  refine ⟨nodes, ?_, hlen, hn, fun glog h fresh => ?_⟩
  · rw [addLoops, Op.bind_apply_ok hc, Op.bind_apply_ok (change_ok (by rw [hm]; rfl))]
    rfl
  · obtain ⟨gl, h1, h2⟩ := hh glog h fresh
    exact ⟨_, h1.touchEdge _ hm, h2⟩

theorem inv_constrained {s : State τ} {b : Book τ} (inv : SInv s b) {nodes : List (Node (NodeP τ))}
    {addr src dst : ℕ} {t : Pose} {k : EKind} (fresh : Fresh s.graph addr)
    (hs : src < b.poses.length) (hd : dst < b.poses.length)
    (hn : ∀ i : ℕ, nodes[i]? = (s.graph.nodes[i]?).map fun n => linkedNode n i src dst addr)
    (hh : ∀ glog, PoseGraph.History s.graph glog → Fresh s.graph addr →
        ∃ glog', PoseGraph.History (constrained s nodes addr src dst t k).graph glog' ∧
          glog'.removals = glog.removals) :
    SInv (constrained s nodes addr src dst t k) { b with cons := b.cons ++ [(src, dst, t, k)] } := by
  obtain ⟨gl, hg, hr⟩ := inv.graph
  obtain ⟨gl', hg', hr'⟩ := hh gl hg fresh
  have hlen := inv.edgesLen
  have holen : s.optEdges.length = b.cons.length := by
    have h : ∀ i, i < s.optEdges.length ↔ i < b.cons.length := by
      intro i
      have := inv.optEdges i
      constructor <;> intro h <;> by_contra hc
      · rw [List.getElem?_eq_none (by omega : b.cons.length ≤ i), List.getElem?_eq_getElem h] at this
        cases this
      · rw [List.getElem?_eq_none (by omega : s.optEdges.length ≤ i), List.getElem?_eq_getElem h] at this
        cases this
    have h1 := h s.optEdges.length
    have h2 := h b.cons.length
    omega
  refine ⟨⟨gl', hg', by omega⟩, ?_, ?_, ?_, inv.vertices, inv.nodeSeq, inv.vertexOf, ?_, ?_,
    inv.firstAdded, inv.lastId, inv.prevId, inv.firstId⟩
  · rw [← inv.nodes]
    apply List.ext_getElem?
    intro i
    simp only [constrained, List.getElem?_map, hn, Option.map_map]
    rfl
  · simp [constrained, hlen]
  · intro i c hc
    simp only [List.getElem?_append] at hc
    simp only [constrained, List.getElem?_append, hlen]
    split_ifs at hc ⊢ with h
    · exact inv.edges i c hc
    · have hi : i = b.cons.length := by
        by_contra hne
        rw [List.getElem?_eq_none (by simp; omega)] at hc; cases hc
      subst hi
      simp only [Nat.sub_self, List.getElem?_cons_zero, Option.some.injEq] at hc
      subst hc
      exact ⟨addr, by simp⟩
  · intro i
    simp only [constrained, List.getElem?_append, holen]
    split_ifs with h
    · exact inv.optEdges i
    · rcases Nat.lt_or_ge b.cons.length i with h1 | h1
      · rw [List.getElem?_eq_none (by simp; omega), List.getElem?_eq_none (by simp; omega)]; rfl
      · have hi : i = b.cons.length := by omega
        subst hi
        simp [inv.edgeSeq, inv.vertexOf, hs, hd]
  · simp [constrained, inv.edgeSeq]

theorem query_throw {s : State τ} {i : ℕ} (h : s.graph.nodes.length ≤ i) :
    query (fun g => getNode g i) s = (.throw .outOfRange, s) := by
  rw [query, getNode, List.getElem?_eq_none h]

theorem addConstrain_throw {s : State τ} {src dst : ℕ} (addr : ℕ) (t : Pose) (I : Info)
    (h : s.graph.nodes.length ≤ src ∨ s.graph.nodes.length ≤ dst) :
    addConstrain addr src dst t I s = (.throw .outOfRange, s) := by
  unfold addConstrain
  by_cases hs : s.graph.nodes.length ≤ src
  · exact Op.bind_apply_throw (query_throw hs)
  · have hd := h.resolve_left hs
    rw [Op.bind_apply_ok (s' := s) (a := s.graph.nodes[src]'(by omega)) (by
      rw [query, getNode, List.getElem?_eq_getElem])]
    exact Op.bind_apply_throw (query_throw hd)

theorem addConstrain_cases {s s' : State τ} {b : Book τ} (inv : SInv s b) {addr src dst : ℕ} {t : Pose}
    {I : Info} {r : Res ℕ} (h : addConstrain addr src dst t I s = (r, s')) :
    (src < b.poses.length ∧ dst < b.poses.length ∧ r = .ok b.cons.length ∧
      (Fresh s.graph addr → SInv s' { b with cons := b.cons ++ [(src, dst, t, .odom)] })) ∨
    ((b.poses.length ≤ src ∨ b.poses.length ≤ dst) ∧ r = .throw .outOfRange ∧ s' = s) := by
  have hn := inv.nodesLen
  by_cases hlt : src < b.poses.length ∧ dst < b.poses.length
  · obtain ⟨nodes, hc, _, hnn, hh⟩ := addConstrain_eq inv.pool addr t I (hn ▸ hlt.1) (hn ▸ hlt.2)
    rw [hc] at h
    cases h
    exact .inl ⟨hlt.1, hlt.2, by rw [inv.edgesLen],
      fun fresh => inv_constrained inv fresh hlt.1 hlt.2 hnn hh⟩
  · have : b.poses.length ≤ src ∨ b.poses.length ≤ dst := by omega
    rw [addConstrain_throw addr t I (hn ▸ this)] at h
    cases h
    exact .inr ⟨this, rfl, rfl⟩

theorem fresh_constrained {s : State τ} {nodes : List (Node (NodeP τ))} {addr src dst a : ℕ} {t : Pose}
    {k : EKind} (h : Fresh s.graph a) (hne : a ≠ addr) :
    Fresh (constrained s nodes addr src dst t k).graph a := by
  intro id e he
  rw [live_iff] at he
  simp only [constrained, List.getElem?_append] at he
  split_ifs at he with h1
  · exact h id e (live_iff.2 he)
  · have : id - s.graph.edges.length = 0 := by
      by_contra hc
      rw [List.getElem?_eq_none (by simp; omega)] at he; cases he
    rw [this] at he
    simp only [List.getElem?_cons_zero, Option.some.injEq] at he
    rw [← he]; exact Ne.symm hne

theorem addLoops_ok {loops : List (ℕ × Closure)} {s : State τ} {b : Book τ} (inv : SInv s b)
    (hnd : (loops.map Prod.fst).Nodup) (hf : ∀ a ∈ loops.map Prod.fst, Fresh s.graph a)
    (hv : ∀ c ∈ loops, c.2.src < b.poses.length ∧ c.2.dst < b.poses.length) :
    ∃ s', addLoops loops s = (.ok (), s') ∧
      SInv s' { b with cons := b.cons ++ loops.map fun c => (c.2.src, c.2.dst, c.2.trans, .loop) } ∧
      s.graph.edges <+: s'.graph.edges ∧ s.optEdges <+: s'.optEdges := by
  induction loops generalizing s b with
  | nil => exact ⟨s, rfl, by simpa using inv, List.prefix_rfl, List.prefix_rfl⟩
  | cons x rest ih =>
    obtain ⟨addr, src, dst, t, I⟩ := x
    have hn := inv.nodesLen
    have hx := hv _ (List.mem_cons_self ..)
    obtain ⟨nodes, hc, hlen, hnn, hh⟩ :=
      addLoop_eq inv.pool addr t I (hn ▸ hx.1) (hn ▸ hx.2) rest
    have fresh := hf addr (by simp)
    have inv' := inv_constrained inv fresh hx.1 hx.2 hnn hh
    rw [List.map_cons, List.nodup_cons] at hnd
    obtain ⟨s', h1, h2, h3, h4⟩ := ih inv' hnd.2
      (fun a ha => fresh_constrained (hf a (by simp at ha ⊢; exact .inr ha)) (by
        rintro rfl; exact hnd.1 ha))
      (fun c hc' => hv c (List.mem_cons_of_mem _ hc'))
    exact ⟨s', by rw [hc, h1], by simpa using h2, (List.prefix_append _ _).trans h3,
      (List.prefix_append _ _).trans h4⟩

theorem addLoops_valid {loops : List (ℕ × Closure)} {s s' : State τ} {b : Book τ} (inv : SInv s b)
    (hnd : (loops.map Prod.fst).Nodup) (hf : ∀ a ∈ loops.map Prod.fst, Fresh s.graph a)
    (h : addLoops loops s = (.ok (), s')) :
    ∀ c ∈ loops, c.2.src < b.poses.length ∧ c.2.dst < b.poses.length := by
  induction loops generalizing s b with
  | nil => simp
  | cons x rest ih =>
    obtain ⟨addr, src, dst, t, I⟩ := x
    have hn := inv.nodesLen
    have hx : src < b.poses.length ∧ dst < b.poses.length := by
      by_contra hc
      have := addConstrain_throw (s := s) (src := src) (dst := dst) addr t I (by omega)
      rw [addLoops, Op.bind_apply_throw this] at h
      cases h
    obtain ⟨nodes, hc, hlen, hnn, hh⟩ :=
      addLoop_eq inv.pool addr t I (hn ▸ hx.1) (hn ▸ hx.2) rest
    have fresh := hf addr (by simp)
    have inv' := inv_constrained inv fresh hx.1 hx.2 hnn hh
    rw [List.map_cons, List.nodup_cons] at hnd
    have := ih inv' hnd.2
      (fun a ha => fresh_constrained (hf a (by simp at ha ⊢; exact .inr ha)) (by
        rintro rfl; exact hnd.1 ha)) (by rw [← hc, h])
    intro c hc'
    rcases List.mem_cons.1 hc' with rfl | hc'
    · exact hx
    · exact this c hc'

theorem finishLoopClose_ok {loops : List (ℕ × Closure)} {s s' : State τ} {r : Bool}
    (h : finishLoopClose loops s = (.ok r, s')) :
    addLoops loops s = (.ok (), s') ∧ r = decide (0 < loops.length) := by
  unfold finishLoopClose at h
  rcases h1 : addLoops loops s with ⟨r1, s1⟩
  rcases r1 with u | e | u
  · rw [Op.bind_apply_ok h1] at h
    cases h
    exact ⟨rfl, rfl⟩
  · rw [Op.bind_apply_throw h1] at h; cases h
  · rw [Op.bind_apply_ub h1] at h; cases h

/-! ### Optimisation -/

/-- Copying estimates: state after processing the ids in `order`. -/
theorem updatePoseGraph_spec (upd : τ → Pose → τ) (order : List ℕ) (s : State τ)
    (hv : ∀ i ∈ order, i < s.graph.nodes.length ∧ s.vertexOf i = some i ∧ i < s.vertices.length)
    (hnd : order.Nodup) :
    ∃ nodes, updatePoseGraph upd order s =
        (.ok (), { s with graph := { s.graph with nodes := nodes } }) ∧
      nodes.length = s.graph.nodes.length ∧
      (∀ i : ℕ, nodes[i]? = (s.graph.nodes[i]?).map fun n =>
        match (if i ∈ order then s.vertices[i]? else none) with
        | none => n
        | some v =>
          { n with payload := { n.payload with pose := v.est, obj := upd n.payload.obj v.est } }) ∧
      ∀ glog, PoseGraph.History s.graph glog →
        ∃ glog', PoseGraph.History ({ s.graph with nodes := nodes } : G τ) glog' ∧
          glog'.removals = glog.removals := by
  induction order generalizing s with
  | nil =>
    exact ⟨s.graph.nodes, rfl, rfl, fun i => by simp, fun gl h => ⟨gl, h, rfl⟩⟩
  | cons id rest ih =>
    obtain ⟨h1, h2, h3⟩ := hv id (List.mem_cons_self ..)
    have hv3 := List.getElem?_eq_getElem h3
    have hnd' := List.nodup_cons.1 hnd
    let v := s.vertices[id]
    let f : NodeP τ → NodeP τ := fun n => { n with pose := v.est, obj := upd n.obj v.est }
    have hm : modifyNode s.graph id f = .ok
        { s.graph with nodes := s.graph.nodes.modify id fun n => { n with payload := f n.payload } } := by
      rw [modifyNode, getNode, List.getElem?_eq_getElem h1]; rfl
    obtain ⟨nodes, e1, e2, e3, e4⟩ := ih
      { s with graph :=
        { s.graph with nodes := s.graph.nodes.modify id fun n => { n with payload := f n.payload } } }
      (fun i hi => by
        obtain ⟨a, b, c⟩ := hv i (List.mem_cons_of_mem _ hi)
        exact ⟨by simpa using a, b, c⟩) hnd'.2
    refine ⟨nodes, ?_, by simpa using e2, fun i => ?_, fun gl h => ?_⟩
    · rw [updatePoseGraph]
      simp only [h2, Option.bind_some, hv3]
      rw [Op.bind_apply_ok (change_ok (by show (modifyNode s.graph id f).map _ = _; rw [hm]; rfl))]
      exact e1
    · rw [e3]
      simp only
      rw [getElem?_modifyNode]
      rcases hi : s.graph.nodes[i]? with _ | n
      · rfl
      · by_cases hid : i = id
        · subst hid
          simp [hnd'.1, hv3, f, v]
        · simp [hid]
    · obtain ⟨gl', h5, h6⟩ := e4 _ (h.touchNode _ hm)
      exact ⟨gl', h5, h6⟩

theorem inv_optimalize {s s' : State τ} {b : Book τ} (inv : SInv s b) (est : ℕ → Pose)
    (upd : τ → Pose → τ) {order : List ℕ} (hp : order.Perm (List.range b.poses.length)) {r : Res Bool}
    (h : optimalize est upd order s = (r, s')) :
    r = .ok true ∧
    s'.graph.edges = s.graph.edges ∧ s'.graph.pool = s.graph.pool ∧ s'.optEdges = s.optEdges ∧
    (∀ i : ℕ, (s'.graph.nodes[i]?).map (fun n => (n.id, n.out, n.inn)) =
      (s.graph.nodes[i]?).map fun n => (n.id, n.out, n.inn)) ∧
    SInv s'
      { b with
        poses := b.poses.mapIdx fun i x =>
          let p := if i = 0 then x.1 else est i
          (p, upd x.2 p) } := by
  have hn := inv.nodesLen
  have hvl := inv.verticesLen
  have hmem : ∀ i, i ∈ order ↔ i < b.poses.length := fun i => by rw [hp.mem_iff, List.mem_range]
  have hnd : order.Nodup := hp.nodup_iff.2 List.nodup_range
  let verts := s.vertices.map fun v => if v.fixed then v else { v with est := est v.id }
  have hverts : ∀ i : ℕ, verts[i]? = (b.poses[i]?).map fun x =>
      ⟨i, decide (i = 0), if i = 0 then x.1 else est i⟩ := by
    intro i
    simp only [verts, List.getElem?_map, inv.vertices, Option.map_map]
    rcases b.poses[i]? with _ | x
    · rfl
    · by_cases h0 : i = 0 <;> simp [h0]
  obtain ⟨nodes, e1, e2, e3, e4⟩ := updatePoseGraph_spec upd order { s with vertices := verts }
    (fun i hi => by
      have hi := (hmem i).1 hi
      exact ⟨by simpa [hn] using hi, by simp [inv.vertexOf, hi], by simpa [verts, hvl] using hi⟩) hnd
  have hopt : optimalize est upd order s =
      (.ok true, { s with
        vertices := verts
        graph := { s.graph with nodes := nodes } }) := by
    unfold optimalize
    show Op.bind (updatePoseGraph upd order) (fun _ => Op.pure true) { s with vertices := verts } = _
    rw [Op.bind_apply_ok e1]
    rfl
  rw [hopt] at h
  cases h
  refine ⟨rfl, rfl, rfl, rfl, fun i => ?_, ?_⟩
  · simp only [e3, Option.map_map]
    rcases s.graph.nodes[i]? with _ | n
    · rfl
    · simp only [Option.map_some, Function.comp]
      congr 1
      split <;> rfl
  · obtain ⟨gl, hg, hr⟩ := inv.graph
    obtain ⟨gl', hg', hr'⟩ := e4 gl hg
    refine ⟨⟨gl', hg', by omega⟩, ?_, inv.edgesLen, inv.edges, ?_, by simpa using inv.nodeSeq, ?_,
      inv.optEdges, inv.edgeSeq, by simpa using inv.firstAdded, by simpa using inv.lastId,
      by simpa using inv.prevId, inv.firstId⟩
    · apply List.ext_getElem?
      intro i
      have hpay : (s.graph.nodes[i]?).map Node.payload = (b.poses[i]?).map fun x => ⟨x.1, x.2, false⟩ := by
        rw [← List.getElem?_map, inv.nodes, List.getElem?_map]
      simp only [List.getElem?_map, List.getElem?_mapIdx, e3, Option.map_map]
      rcases hb : b.poses[i]? with _ | x
      · rw [hb] at hpay
        rcases hsn : s.graph.nodes[i]? with _ | n
        · rfl
        · rw [hsn] at hpay; cases hpay
      · rw [hb] at hpay
        rcases hsn : s.graph.nodes[i]? with _ | n
        · rw [hsn] at hpay; cases hpay
        · rw [hsn] at hpay
          simp only [Option.map_some, Option.some.injEq] at hpay
          have hi : i < b.poses.length := by
            by_contra hc
            rw [List.getElem?_eq_none (by omega)] at hb; cases hb
          simp [(hmem i).2 hi, hverts, hb, hpay]
    · intro i
      rw [hverts]
      simp only [List.getElem?_mapIdx]
      rcases b.poses[i]? with _ | x <;> rfl
    · intro i; simpa using inv.vertexOf i

theorem History.inv {s : State τ} {b : Book τ} (h : History s b) : SInv s b := by
  induction h with
  | init => exact inv_init
  | addPose p o _ ih => exact (inv_addPose ih p o).2
  | addConstrain _ fresh h ih =>
    rcases addConstrain_cases ih h with ⟨-, -, -, h⟩ | ⟨-, h, -⟩
    · exact h fresh
    · cases h
  | rejected _ h ih =>
    rcases addConstrain_cases ih h with ⟨-, -, h, -⟩ | ⟨-, -, h⟩
    · cases h
    · rw [h]; exact ih
  | loopClose _ hnd hf h ih =>
    obtain ⟨h, -⟩ := finishLoopClose_ok h
    obtain ⟨s', h1, h2, -⟩ := addLoops_ok ih hnd hf (addLoops_valid ih hnd hf h)
    rw [h] at h1
    cases h1
    exact h2
  | optimalize est upd order _ hp h ih => exact (inv_optimalize ih est upd hp h).2.2.2.2.2

end Verif.Slam
