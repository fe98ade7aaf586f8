import Verif.Loop.Trial
import Verif.Loop.Props

/-
C128: trial loop closures can be taken back.
-/
namespace Verif.Loop

open Verif Verif.PoseGraph Verif.Slam

variable {τ : Type}

/-- The constraint of a trial closure. -/
noncomputable def trialEdge (addr id : ℕ) (c : LoopClosure) : Edge EdgeP :=
  ⟨addr, id, c.src, c.dst, ⟨Geo.getPoseFromTransform c.trans, c.inform, .temp, .loop, false⟩⟩

theorem getEdge_eq_live {ν ε : Type} {g : Graph ν ε} {log : Log ν ε} (inv : PoseGraph.Inv g log) (j : ℕ) :
    getEdge g j = match live g j with
      | some e => .ok e
      | none => .throw .outOfRange := by
  unfold getEdge
  split_ifs with h1 h2
  · rw [live_none_of_ge h1]
  · rw [inv.pool] at h2
    unfold live
    rw [h2]
    rfl
  · rcases hl : live g j with _ | e
    · exfalso
      rcases slot_cases g j with h | h | ⟨e, h⟩
      · rw [List.getElem?_eq_none_iff] at h; exact h1 h
      · exact h2 ((inv.pool j).2 h)
      · rw [live_iff.2 h] at hl; cases hl
    · rfl

/-- What one trial does. -/
structure Tried (g : G τ) (addr : ℕ) (c : LoopClosure) (id : ℕ) (g' : G τ) : Prop where
  free : live g id = none
  live : ∀ j, live g' j = if j = id then some (trialEdge addr id c) else live g j
  nodes : ∀ i : ℕ, g'.nodes[i]? = (g.nodes[i]?).map fun n => linkedNode n i c.src c.dst addr
  count : g'.edges.length + g.pool.length = g.edges.length + g'.pool.length + 1
  long : g'.edges.length ≤ g.edges.length + 1

theorem addTrial_spec {g : G τ} {log : Log (NodeP τ) EdgeP} (h : PoseGraph.History g log) {addr : ℕ} {c : LoopClosure}
    (hf : Fresh g addr) (hs : c.src < g.nodes.length) (hd : c.dst < g.nodes.length) :
    ∃ id g', addTrial addr c g = .ok (id, g') ∧ Tried g addr c id g' ∧ ∃ log', PoseGraph.History g' log' := by
  obtain ⟨id, g1, h1, ad⟩ := addEdge_spec h.inv addr
    (⟨Geo.getPoseFromTransform c.trans, c.inform, .constructed, .odom, false⟩ : EdgeP) hs hd
  have H1 := h.addEdge hf h1
  have l1 := ad.live
  have m2 : ∃ g2, modifyEdge g1 id (fun e : EdgeP => { e with kind := .loop }) = .ok g2 := by
    unfold modifyEdge
    rw [getEdge_eq_live H1.inv, l1, if_pos rfl]
    exact ⟨_, rfl⟩
  obtain ⟨g2, m2⟩ := m2
  have H2 := H1.touchEdge _ m2
  have e2 := modifyEdge_ok m2
  have l2 : ∀ j, live g2 j = (live g1 j).map (touched id (fun e : EdgeP => { e with kind := .loop }) j) := by
    intro j; rw [e2]; exact live_modifyEdge g1 id (fun e : EdgeP => { e with kind := .loop }) j
  have m3 : ∃ g3, modifyEdge g2 id (fun e : EdgeP => { e with state := .temp }) = .ok g3 := by
    unfold modifyEdge
    rw [getEdge_eq_live H2.inv, l2, l1, if_pos rfl]
    exact ⟨_, rfl⟩
  obtain ⟨g3, m3⟩ := m3
  have H3 := H2.touchEdge _ m3
  have e3 := modifyEdge_ok m3
  have l3 : ∀ j, live g3 j = (live g2 j).map (touched id (fun e : EdgeP => { e with state := .temp }) j) := by
    intro j; rw [e3]; exact live_modifyEdge g2 id (fun e : EdgeP => { e with state := .temp }) j
  refine ⟨id, g3, ?_, ⟨ad.free, ?_, ?_, ?_, ?_⟩, _, H3⟩
  · unfold addTrial getNode
    rw [List.getElem?_eq_getElem hs, List.getElem?_eq_getElem hd]
    simp only [Res.bind_ok, h1, m2, m3]
    rfl
  · intro j
    rw [l3, l2, l1]
    by_cases hj : j = id
    · subst hj; simp [touched, trialEdge]
    · simp only [if_neg hj]
      rcases live g j with _ | e <;> simp [touched, hj]
  · intro i
    rw [e3, e2]
    exact ad.nodes i
  · have le : g3.edges.length = g1.edges.length := by rw [e3, e2]; simp
    have lp : g3.pool = g1.pool := by rw [e3, e2]
    rw [le, lp, ad.len, ad.pool]
    have ht := ad.top
    rcases hp : g.pool with _ | ⟨x, p⟩
    · rw [hp] at ht; simp at ht ⊢; omega
    · rw [hp] at ht
      simp at ht
      have : x < g.edges.length := by
        have := (h.inv.pool x).1 (by rw [hp]; simp)
        exact (List.getElem?_eq_some_iff.1 this).1
      simp; omega
  · have le : g3.edges.length = g1.edges.length := by rw [e3, e2]; simp
    rw [le, ad.len]
    have ht := ad.top
    rcases hp : g.pool with _ | ⟨x, p⟩
    · rw [hp] at ht; simp at ht; omega
    · rw [hp] at ht
      simp at ht
      have : x < g.edges.length := by
        have := (h.inv.pool x).1 (by rw [hp]; simp)
        exact (List.getElem?_eq_some_iff.1 this).1
      omega

theorem linked_payload (l l' : List (Node (NodeP τ))) {s d a : ℕ}
    (h : ∀ i : ℕ, l'[i]? = (l[i]?).map fun n => linkedNode n i s d a) : l'.length = l.length ∧
    ∀ i : ℕ, (l'[i]?).map (fun n => (n.id, n.payload)) = (l[i]?).map (fun n => (n.id, n.payload)) := by
  constructor
  · apply le_antisymm
    · by_contra hc
      have := h l.length
      rw [List.getElem?_eq_none le_rfl, Option.map_none, List.getElem?_eq_none_iff] at this
      omega
    · by_contra hc
      have := h l'.length
      rw [List.getElem?_eq_none le_rfl, eq_comm, Option.map_eq_none_iff, List.getElem?_eq_none_iff] at this
      omega
  · intro i
    rw [h]
    rcases l[i]? with _ | n <;> simp [linkedNode]

theorem addToGraph_spec {cs : List (ℕ × LoopClosure)} {g : G τ} {log : Log (NodeP τ) EdgeP}
    (h : PoseGraph.History g log) (ht : Trial g cs) :
    ∃ ids g1 log1, addToGraph cs g = (.ok ids, g1) ∧ PoseGraph.History g1 log1 ∧ ids.length = cs.length ∧ ids.Nodup ∧
      (∀ id ∈ ids, live g id = none) ∧
      (∀ (k : ℕ) id a c, ids[k]? = some id → cs[k]? = some (a, c) → live g1 id = some (trialEdge a id c)) ∧
      (∀ j, j ∉ ids → live g1 j = live g j) ∧
      g1.nodes.length = g.nodes.length ∧
      (∀ i : ℕ, (g1.nodes[i]?).map (fun n => (n.id, n.payload)) = (g.nodes[i]?).map (fun n => (n.id, n.payload))) ∧
      (∀ (i : ℕ) n n1, g.nodes[i]? = some n → g1.nodes[i]? = some n1 → (∀ x ∈ n.inn, x ∈ n1.inn) ∧
        ∀ x ∈ cs, x.2.dst = i → x.1 ∈ n1.inn) ∧
      g1.edges.length + g.pool.length = g.edges.length + g1.pool.length + cs.length ∧
      g1.edges.length ≤ g.edges.length + cs.length := by
  induction cs generalizing g log with
  | nil =>
    refine ⟨[], g, log, rfl, h, rfl, List.nodup_nil, by simp, by simp, fun _ _ => rfl, rfl, fun _ => rfl, ?_, by simp,
      by simp⟩
    intro i n n1 h1 h2
    rw [h1] at h2
    cases h2
    exact ⟨fun _ h => h, by simp⟩
  | cons x cs ih =>
    obtain ⟨a, c⟩ := x
    obtain ⟨hs, hd⟩ := ht.nodes (a, c) (by simp)
    obtain ⟨id, g1, h1, tr, log1, H1⟩ := addTrial_spec h (ht.fresh (a, c) (by simp)) hs hd
    obtain ⟨len1, pay1⟩ := linked_payload _ _ tr.nodes
    have hdist := ht.distinct
    simp only [List.map_cons, List.nodup_cons] at hdist
    have ht1 : Trial g1 cs := by
      refine ⟨fun y hy => ?_, fun y hy => ?_, hdist.2⟩
      · unfold nodeCount; rw [len1]; exact ht.nodes y (by simp [hy])
      · intro j e hj
        rw [tr.live] at hj
        split_ifs at hj with hji
        · cases hj
          intro he
          exact hdist.1 (List.mem_map.2 ⟨y, hy, he.symm⟩)
        · exact ht.fresh y (by simp [hy]) j e hj
    obtain ⟨ids, g2, log2, e2, H2, hl, nd, fr, tl, ot, len2, pay2, inn2, cnt2, lng2⟩ := ih H1 ht1
    have hid : id ∉ ids := by
      intro hi
      have := fr id hi
      rw [tr.live, if_pos rfl] at this
      cases this
    refine ⟨id :: ids, g2, log2, ?_, H2, by simp [hl], List.nodup_cons.2 ⟨hid, nd⟩, ?_, ?_, ?_, len2.trans len1,
      fun i => (pay2 i).trans (pay1 i), ?_, ?_, ?_⟩
    · unfold addToGraph
      simp only [h1]
      rw [Op.bind_apply_ok e2]
      rfl
    · intro j hj
      rcases List.mem_cons.1 hj with rfl | hj
      · exact tr.free
      · have := fr j hj
        rw [tr.live] at this
        split_ifs at this
        exact this
    · intro k j a' c' hk hc
      cases k with
      | zero =>
        cases hk; cases hc
        rw [ot _ hid, tr.live, if_pos rfl]
      | succ k => exact tl k j a' c' hk hc
    · intro j hj
      rw [List.mem_cons, not_or] at hj
      rw [ot j hj.2, tr.live, if_neg hj.1]
    · intro i n n2 hn hn2
      have hn1 := tr.nodes i
      rw [hn] at hn1
      obtain ⟨p1, p2⟩ := inn2 i _ n2 hn1 hn2
      refine ⟨fun y hy => p1 y ?_, fun y hy hyi => ?_⟩
      · show y ∈ (if i = c.dst then pushUnique n.inn a else n.inn)
        split_ifs
        · exact mem_pushUnique.2 (.inl hy)
        · exact hy
      · rcases List.mem_cons.1 hy with rfl | hy
        · refine p1 _ ?_
          show a ∈ (if i = c.dst then pushUnique n.inn a else n.inn)
          rw [if_pos hyi.symm]
          exact mem_pushUnique.2 (.inr rfl)
        · exact p2 y hy hyi
    · have := tr.count
      simp only [List.length_cons]
      omega
    · have := tr.long
      simp only [List.length_cons]
      omega

theorem removeFromGraph_spec {ids : List ℕ} {g : G τ} {log : Log (NodeP τ) EdgeP} (h : PoseGraph.History g log)
    (hn : ids.Nodup) (hl : ∀ id ∈ ids, live g id ≠ none) :
    ∃ g2 log2, removeFromGraph ids g = .ok g2 ∧ PoseGraph.History g2 log2 ∧
      (∀ j, live g2 j = if j ∈ ids then none else live g j) ∧ g2.nodes = g.nodes ∧
      g2.edges.length = g.edges.length ∧ g2.pool.length = g.pool.length + ids.length := by
  induction ids generalizing g log with
  | nil => exact ⟨g, log, rfl, h, by simp, rfl, rfl, by simp⟩
  | cons id ids ih =>
    obtain ⟨e, he⟩ := Option.ne_none_iff_exists'.1 (hl id (by simp))
    have hr := removeEdge_live h.inv he
    have H1 := h.removed hr
    have lv := live_set_none g (id :: g.pool) id
    rw [List.nodup_cons] at hn
    obtain ⟨g2, log2, e2, H2, l2, n2, len2, p2⟩ := ih H1 hn.2 (by
      intro j hj
      rw [lv, if_neg (by rintro rfl; exact hn.1 hj)]
      exact hl j (by simp [hj]))
    refine ⟨g2, log2, ?_, H2, ?_, n2, by simpa using len2, ?_⟩
    · unfold removeFromGraph
      rw [hr, Res.bind_ok]
      exact e2
    · intro j
      rw [l2, lv]
      by_cases h1 : j = id <;> by_cases h2 : j ∈ ids <;> simp [h1, h2]
    · rw [p2]
      simp only [List.length_cons]
      omega

/-! ### C128 -/

theorem getNode_payload {g g' : G τ} {i : ℕ}
    (h : (g'.nodes[i]?).map (fun n => (n.id, n.payload)) = (g.nodes[i]?).map (fun n => (n.id, n.payload))) :
    (getNode g' i).map (fun n => (n.id, n.payload)) = (getNode g i).map (fun n => (n.id, n.payload)) := by
  unfold getNode
  rcases h1 : g'.nodes[i]? with _ | n' <;> rcases h2 : g.nodes[i]? with _ | n <;> rw [h1, h2] at h
  · cases h
  · cases h
  · simp only [Option.map_some, Option.some.injEq] at h
    simp only [Res.map_ok, h]

/-- C128, what holds: trial closures are added under new ids, each with the nodes, the transform and the information
of its closure, marked as temporary loop closures; nothing else changes; and taking them back leaves a graph that looks
as before.  Missing: the adjacency lists, see `C128_false`. -/
theorem C128_taken_back_partial {g : G τ} {log : Log (NodeP τ) EdgeP} (h : PoseGraph.History g log)
    {cs : List (ℕ × LoopClosure)} (ht : Trial g cs) (hb : log.high + cs.length < 2 ^ 64) :
    ∃ ids g1 g2, addToGraph cs g = (.ok ids, g1) ∧ ids.length = cs.length ∧
      (∀ (k : ℕ) a c, cs[k]? = some (a, c) → ∃ id e, ids[k]? = some id ∧ getEdge g id = .throw .outOfRange ∧
        getEdge g1 id = .ok e ∧ e.id = id ∧ e.src = c.src ∧ e.dst = c.dst ∧
        e.payload = ⟨Geo.getPoseFromTransform c.trans, c.inform, .temp, .loop, false⟩) ∧
      edgeCount g1 = edgeCount g + cs.length ∧ nodeCount g1 = nodeCount g ∧
      (∀ j, j ∉ ids → getEdge g1 j = getEdge g j) ∧
      (∀ i, (getNode g1 i).map (fun n => (n.id, n.payload)) = (getNode g i).map (fun n => (n.id, n.payload))) ∧
      removeFromGraph ids g1 = .ok g2 ∧ LooksSame g g2 := by
  obtain ⟨ids, g1, log1, e1, H1, hl, nd, fr, tl, ot, len1, pay1, -, cnt1, lng1⟩ := addToGraph_spec h ht
  have hlive : ∀ id ∈ ids, live g1 id ≠ none := by
    intro id hid
    obtain ⟨k, hk⟩ := List.mem_iff_getElem?.1 hid
    have hlt : k < cs.length := by rw [← hl]; exact (List.getElem?_eq_some_iff.1 hk).1
    rw [tl k id _ _ hk (List.getElem?_eq_getElem hlt)]
    simp
  obtain ⟨g2, log2, e2, H2, l2, n2, len2, p2⟩ := removeFromGraph_spec H1 nd hlive
  have pool_le : ∀ {g : G τ} {log : Log (NodeP τ) EdgeP}, PoseGraph.History g log → g.pool.length ≤ g.edges.length := by
    intro g log h
    have hs : g.pool ⊆ List.range g.edges.length := by
      intro x hx
      rw [h.inv.pool] at hx
      exact List.mem_range.2 (List.getElem?_eq_some_iff.1 hx).1
    simpa using (h.inv.poolNodup.subperm hs).length_le
  have hp := pool_le h
  have hp1 := pool_le H1
  have hp2 := pool_le H2
  have hh := h.inv.high
  refine ⟨ids, g1, g2, e1, hl, ?_, ?_, len1, ?_, fun i => getNode_payload (pay1 i), e2, ?_, ?_, ?_, ?_⟩
  · intro k a c hk
    have hlt : k < ids.length := by rw [hl]; exact (List.getElem?_eq_some_iff.1 hk).1
    refine ⟨ids[k], trialEdge a ids[k] c, List.getElem?_eq_getElem hlt, ?_, ?_, rfl, rfl, rfl, rfl⟩
    · rw [getEdge_eq_live h.inv, fr _ (List.getElem_mem hlt)]
    · rw [getEdge_eq_live H1.inv, tl k _ a c (List.getElem?_eq_getElem hlt) hk]
  · unfold edgeCount
    omega
  · intro j hj
    rw [getEdge_eq_live H1.inv, getEdge_eq_live h.inv, ot j hj]
  · unfold nodeCount; rw [n2, len1]
  · unfold edgeCount
    omega
  · intro j
    rw [getEdge_eq_live H2.inv, getEdge_eq_live h.inv, l2]
    split_ifs with hj
    · rw [fr j hj]
    · rw [ot j hj]
  · intro i
    exact getNode_payload (by rw [n2]; exact pay1 i)

theorem expand_dangling {l : List ℕ} {a : ℕ} (ha : a ∈ l) {base : Item} {out : List Item} {g : G τ}
    (hf : Fresh g a) : expand l base (out, g) = .ub .dangling := by
  induction l generalizing out g with
  | nil => cases ha
  | cons x l ih =>
    simp only [expand]
    rcases hx : findEdge g x with _ | e
    · rfl
    · obtain ⟨hxa, id, hlive⟩ := findEdge_some hx
      have hne : a ≠ x := by
        rintro rfl
        exact hf id e hlive hxa
      have ha' : a ∈ l := by
        rcases List.mem_cons.1 ha with h | h
        · exact absurd h hne
        · exact h
      have hset : Fresh (setUsed g x) a := by
        intro j e' hj he'
        have : live (setUsed g x) j = (live g j).map fun e : Edge EdgeP =>
            if e.addr = x then { e with payload := { e.payload with used := true } } else e := by
          unfold live setUsed
          rw [List.getElem?_map]
          rcases g.edges[j]? with _ | _ | e <;> rfl
        rw [this, Option.map_eq_some_iff] at hj
        obtain ⟨e0, h0, rfl⟩ := hj
        refine hf j e0 h0 ?_
        split_ifs at he' <;> exact he'
      simp only
      split_ifs with hu
      · exact ih ha' hf
      · rcases g.nodes[e.src]? with _ | n
        · rfl
        · simp only
          split_ifs
          · exact ih ha' hset
          · exact ih ha' hset

/-- C128 as stated is false: after closures have been tried and taken back, every search from the end node of one of
them uses a pointer to a destroyed constraint. -/
theorem C128_false {g : G τ} {log : Log (NodeP τ) EdgeP} (h : PoseGraph.History g log)
    {cs : List (ℕ × LoopClosure)} (ht : Trial g cs) :
    ∃ ids g1 g2, addToGraph cs g = (.ok ids, g1) ∧ removeFromGraph ids g1 = .ok g2 ∧
      ∀ x ∈ cs, ∀ o env fuel, genLoopClosures o env fuel g2 x.2.dst = some (.ub .dangling) := by
  obtain ⟨ids, g1, log1, e1, H1, hl, nd, fr, tl, ot, len1, pay1, inn1, -⟩ := addToGraph_spec h ht
  have hlive : ∀ id ∈ ids, live g1 id ≠ none := by
    intro id hid
    obtain ⟨k, hk⟩ := List.mem_iff_getElem?.1 hid
    have hlt : k < cs.length := by rw [← hl]; exact (List.getElem?_eq_some_iff.1 hk).1
    rw [tl k id _ _ hk (List.getElem?_eq_getElem hlt)]
    simp
  obtain ⟨g2, log2, e2, H2, l2, n2, -⟩ := removeFromGraph_spec H1 nd hlive
  refine ⟨ids, g1, g2, e1, e2, fun x hx o env fuel => ?_⟩
  have hd : x.2.dst < g.nodes.length := (ht.nodes x hx).2
  have hd1 : x.2.dst < g1.nodes.length := by rw [len1]; exact hd
  have hd2 : x.2.dst < g2.nodes.length := by rw [n2]; exact hd1
  have hin : x.1 ∈ (g1.nodes[x.2.dst]).inn :=
    (inn1 _ _ _ (List.getElem?_eq_getElem hd) (List.getElem?_eq_getElem hd1)).2 x hx rfl
  have hfr : Fresh g2 x.1 := by
    intro j e hj
    rw [l2] at hj
    split_ifs at hj with hji
    rw [ot j hji] at hj
    exact ht.fresh x hx j e hj
  have hb : begin env g2 x.2.dst = .ub .dangling := by
    unfold begin setVisited modifyNode genPossibleEdges getNode
    rw [List.getElem?_eq_getElem hd2]
    simp only [Res.map_ok, Res.bind_ok]
    rw [getElem?_modifyNode g2 x.2.dst (fun n : NodeP τ => { n with visited := true }) x.2.dst, List.getElem?_eq_getElem hd2]
    simp only [Option.map_some, Res.bind_ok]
    rw [expand_dangling (a := x.1) (by simp only [n2]; exact hin) (by exact hfr)]
    rfl
  unfold genLoopClosures search
  rw [hb]
  rfl

theorem addToGraph_append (cs l : List (ℕ × LoopClosure)) (g : G τ) : addToGraph (cs ++ l) g =
    Op.bind (addToGraph cs) (fun ids => Op.bind (addToGraph l) fun ids' => .pure (ids ++ ids')) g := by
  induction cs generalizing g with
  | nil =>
    simp only [List.nil_append, addToGraph, Op.bind, Op.pure]
    rcases addToGraph l g with ⟨_ | _ | _, g'⟩ <;> rfl
  | cons x cs ih =>
    obtain ⟨a, c⟩ := x
    simp only [List.cons_append, addToGraph, Op.bind, Op.pure]
    rcases addTrial a c g with ⟨id, g1⟩ | e | u
    · simp only [ih, Op.bind, Op.pure]
      rcases addToGraph cs g1 with ⟨ids | _ | _, g2⟩
      · simp only
        rcases addToGraph l g2 with ⟨_ | _ | _, g'⟩ <;> rfl
      · rfl
      · rfl
    · rfl
    · rfl

/-- If a closure names a pose that does not exist, an exception is thrown, and the closures before it stay in the graph
(their ids are not returned). -/
theorem C128_unknown {g : G τ} {log : Log (NodeP τ) EdgeP} (h : PoseGraph.History g log)
    {cs rest : List (ℕ × LoopClosure)} (ht : Trial g cs) {x : ℕ × LoopClosure}
    (hx : nodeCount g ≤ x.2.src ∨ nodeCount g ≤ x.2.dst) :
    ∃ ids g1, addToGraph cs g = (.ok ids, g1) ∧ addToGraph (cs ++ x :: rest) g = (.throw .outOfRange, g1) := by
  obtain ⟨ids, g1, log1, e1, -, -, -, -, -, -, len1, -⟩ := addToGraph_spec h ht
  refine ⟨ids, g1, e1, ?_⟩
  have hx1 : addTrial x.1 x.2 g1 = .throw .outOfRange := by
    unfold nodeCount at hx
    unfold addTrial getNode
    rcases hs : g1.nodes[x.2.src]? with _ | n
    · rfl
    · have h1 := (List.getElem?_eq_some_iff.1 hs).1
      rw [show g1.nodes[x.2.dst]? = none from List.getElem?_eq_none (by omega)]
      rfl
  rw [addToGraph_append, Op.bind_apply_ok e1]
  obtain ⟨a, c⟩ := x
  exact Op.bind_apply_throw (by simp only [addToGraph, hx1])

/-- A graph with two poses and a constraint from the first to the second. -/
theorem exTrial : ∃ (g : G String) (log : Log (NodeP String) EdgeP), PoseGraph.History g log ∧
    Trial g [(20, ⟨1, 0, 1, 1⟩), (30, ⟨0, 1, 1, 1⟩)] ∧ log.high = 1 ∧ nodeCount g = 2 := by
  have h := (((PoseGraph.History.init (ν := NodeP String) (ε := EdgeP)).addNode ⟨p0, "a", false⟩).addNode
    ⟨p1, "b", false⟩).addEdge (addr := 10) (src := 0) (dst := 1) (p := ⟨p1, stdInfo, .active, .odom, false⟩)
    (id := 0) (g' := exMarked false false false) (by intro id e h; simp [live, PoseGraph.addNode, PoseGraph.empty] at h)
    rfl
  refine ⟨_, _, h, ⟨by decide, ?_, by decide⟩, rfl, rfl⟩
  have hl : ∀ id e, live (exMarked false false false) id = some e → e.addr = 10 := by
    intro id e he
    have : id = 0 := by have := live_lt he; simpa [exMarked] using this
    subst this
    cases he
    rfl
  intro x hx id e he
  rw [hl id e he]
  rcases List.mem_cons.1 hx with rfl | hx
  · decide
  · rw [List.mem_singleton.1 hx]; decide

/-- The hypotheses of C128 are met. -/
example : ∃ (g : G String) (log : Log (NodeP String) EdgeP) (cs : List (ℕ × LoopClosure)) (x : ℕ × LoopClosure),
    PoseGraph.History g log ∧ Trial g cs ∧ cs.length = 2 ∧ log.high + cs.length < 2 ^ 64 ∧ nodeCount g ≤ x.2.dst := by
  obtain ⟨g, log, h, ht, hh, hn⟩ := exTrial
  exact ⟨g, log, _, (40, ⟨0, 7, 1, 1⟩), h, ht, rfl, by rw [hh]; decide, by rw [hn]; decide⟩

end Verif.Loop
