import Verif.Graph.Iter

/-
Property theorems C26-C31 (pose graph container).  `History g log` (Verif/Graph/Spec.lean) says that
`g` results from some series of public calls; `log` is what the client noted about them.
-/
namespace Verif.PoseGraph

open Verif

variable {ν : Type u} {ε : Type v}

/-! ### A concrete graph used to show that hypotheses can be met

Nodes 0, 1, 2; edges 0→1, 1→2, 2→0 with ids 0, 1, 2; edge 1 removed. -/

def exG3 : Graph String String :=
  ⟨[⟨0, "a", [10], [30]⟩, ⟨1, "b", [20], [10]⟩, ⟨2, "c", [30], [20]⟩],
   [some ⟨10, 0, 0, 1, "x"⟩, some ⟨20, 1, 1, 2, "y"⟩, some ⟨30, 2, 2, 0, "z"⟩], []⟩

def exG2 : Graph String String :=
  ⟨exG3.nodes, [some ⟨10, 0, 0, 1, "x"⟩, none, some ⟨30, 2, 2, 0, "z"⟩], [1]⟩

theorem exG3_history : ∃ log, History exG3 log ∧ log.removals = 0 ∧ log.high = 3 ∧
    log.edge 1 = some (1, 2, "y") ∧ log.nodes = ["a", "b", "c"] := by
  have h0 := History.init (ν := String) (ε := String)
  have h3 := ((h0.addNode "a").addNode "b").addNode "c"
  have h4 := h3.addEdge (addr := 10) (src := 0) (dst := 1) (p := "x")
    (by intro id e h; simp [addNode, empty, live] at h) rfl
  have h5 := h4.addEdge (addr := 20) (src := 1) (dst := 2) (p := "y")
    (by
      intro id e h
      match id with
      | 0 => cases h; decide
      | n + 1 => cases h) rfl
  have h6 := h5.addEdge (addr := 30) (src := 2) (dst := 0) (p := "z")
    (by
      intro id e h
      match id with
      | 0 => cases h; decide
      | 1 => cases h; decide
      | n + 2 => cases h) rfl
  exact ⟨_, h6, rfl, rfl, rfl, rfl⟩

theorem exG2_history : ∃ log, History exG2 log ∧ log.edge 1 = none ∧ log.edge 0 = some (0, 1, "x") ∧
    log.high = 3 := by
  obtain ⟨log, h, -, hh, -⟩ := exG3_history
  have h' := h.removed (id := 1) (g' := exG2) rfl
  refine ⟨_, h', by simp, ?_, hh⟩
  rw [h'.inv.edge]; rfl

/-! ### C26 -/

/-- **C26.** In every reachable graph: `addNode` returns the number of nodes added so far; `addEdge`
between existing nodes succeeds and returns an id that is not in use; a lookup returns exactly what
the client stored under that id. -/
theorem C26_finite_map {g : Graph ν ε} {log : Log ν ε} (h : History g log) :
    (∀ p, (addNode g p).1 = log.nodes.length) ∧
    (∀ addr src dst p, src < log.nodes.length → dst < log.nodes.length →
      ∃ id g', addEdge g addr src dst p = .ok (id, g') ∧ log.edge id = none) ∧
    (∀ id src dst p, log.edge id = some (src, dst, p) ↔
      ∃ e, getEdge g id = .ok e ∧ e.id = id ∧ e.src = src ∧ e.dst = dst ∧ e.payload = p) ∧
    (∀ id p, log.nodes[id]? = some p ↔
      ∃ n, getNode g id = .ok n ∧ n.id = id ∧ n.payload = p) := by
  have inv := h.inv
  have hlen := inv.nodesLen
  refine ⟨fun p => hlen, fun addr src dst p hs hd => ?_, fun id src dst p => ?_, fun id p => ?_⟩
  · obtain ⟨id, g', heq, ha⟩ := addEdge_spec inv addr p (hlen ▸ hs) (hlen ▸ hd)
    exact ⟨id, g', heq, by rw [inv.edge, ha.free]; rfl⟩
  · rw [inv.edge]
    unfold getEdge
    rcases hl : live g id with _ | e
    · constructor
      · intro h; cases h
      · rintro ⟨e, he, -⟩
        split_ifs at he
    · have hlt := live_lt hl
      have hp : id ∉ g.pool := by rw [inv.pool, live_iff.1 hl]; simp
      rw [if_neg (by omega), if_neg hp]
      simp only [Option.map_some, Option.some.injEq, Res.ok.injEq, exists_eq_left', Edge.view,
        Prod.mk.injEq]
      exact ⟨fun ⟨a, b, c⟩ => ⟨inv.eid id e hl, a, b, c⟩, fun ⟨_, a, b, c⟩ => ⟨a, b, c⟩⟩
  · unfold getNode
    rw [← inv.nodes, List.getElem?_map]
    rcases hn : g.nodes[id]? with _ | n
    · simp
    · simp only [Option.map_some, Option.some.injEq, Res.ok.injEq, exists_eq_left']
      exact ⟨fun a => ⟨inv.nid id n hn, a⟩, fun ⟨_, a⟩ => a⟩

example : ∃ (g : Graph String String) (log : Log String String), History g log ∧
    log.edge 0 = some (0, 1, "x") ∧ log.edge 1 = none := by
  obtain ⟨log, h, h1, h0, -⟩ := exG2_history
  exact ⟨_, log, h, h0, h1⟩

/-! ### C27 -/

/-- **C27.** Removing a live edge returns true; then its lookup throws, every other edge and every
node is found as before, the edge count has dropped by one, a second removal returns false without
effect, and the next `addEdge` returns the same id.  (`hb`: the table has less than 2^64 entries.) -/
theorem C27_remove {g : Graph ν ε} {log : Log ν ε} (h : History g log)
    (hb : log.high < 2 ^ 64) {id : ℕ} (hid : log.edge id ≠ none) :
    ∃ g', removeEdge g id = .ok (true, g') ∧
      getEdge g' id = .throw .outOfRange ∧
      (∀ j, j ≠ id → getEdge g' j = getEdge g j) ∧
      (∀ j, getNode g' j = getNode g j) ∧
      edgeCount g = edgeCount g' + 1 ∧
      removeEdge g' id = .ok (false, g') ∧
      ∀ addr src dst p, src < nodeCount g → dst < nodeCount g →
        ∃ g'', addEdge g' addr src dst p = .ok (id, g'') := by
  have inv := h.inv
  have hid' := hid
  rw [inv.edge, ne_eq, Option.map_eq_none_iff] at hid'
  obtain ⟨e, he⟩ := Option.ne_none_iff_exists'.1 hid'
  have hr := removeEdge_live inv he
  have h' := h.removed hr
  have inv' := h'.inv
  have hlt := live_lt he
  refine ⟨_, hr, ?_, fun j hj => ?_, fun _ => rfl, ?_, ?_, fun addr src dst p hs hd => ?_⟩
  · unfold getEdge
    rw [if_neg (by simpa using hlt), if_pos (by simp)]
  · unfold getEdge
    rw [live_set_none]
    simp [hj]
  · rw [inv.high] at hb
    have h1 := inv.count
    have h2 := inv'.count
    have hne : g.pool.length < g.edges.length := by
      have : 0 < {id | log.edge id ≠ none}.ncard := by
        rw [Set.ncard_pos (by rw [inv.finite]; exact Finset.finite_toSet _)]
        exact ⟨id, hid⟩
      omega
    unfold edgeCount
    simp only [List.length_set, List.length_cons]
    omega
  · apply removeEdge_dead inv'
    · rw [live_set_none, if_pos rfl]
    · simp; omega
  · obtain ⟨id', g'', heq, ha⟩ := addEdge_spec inv' addr p hs hd
    have : id' = id := ha.top
    exact ⟨g'', by rw [heq, this]⟩

example : ∃ (log : Log String String), History exG3 log ∧ log.high < 2 ^ 64 ∧ log.edge 1 ≠ none := by
  obtain ⟨log, h, -, hh, h1, -⟩ := exG3_history
  exact ⟨log, h, by omega, by simp [h1]⟩

/-- A series of successful removals of the ids in the list, in this order. -/
inductive RemoveRun : Graph ν ε → List ℕ → Graph ν ε → Prop
  | nil (g) : RemoveRun g [] g
  | cons {g id g1 ids g2} : removeEdge g id = .ok (true, g1) → RemoveRun g1 ids g2 →
      RemoveRun g (id :: ids) g2

/-- A series of additions that returned the ids in the list, in this order. -/
inductive AddRun : Graph ν ε → List ℕ → Graph ν ε → Prop
  | nil (g) : AddRun g [] g
  | cons {g addr src dst p id g1 ids g2} : Fresh g addr →
      addEdge g addr src dst p = .ok (id, g1) → AddRun g1 ids g2 → AddRun g (id :: ids) g2

/-- **C27**, several removals: the ids come back last-in first-out. -/
theorem C27_lifo {g g1 g2 : Graph ν ε} {log : Log ν ε} {removed added : List ℕ}
    (h : History g log) (hr : RemoveRun g removed g1) (ha : AddRun g1 added g2)
    (hlen : added.length = removed.length) : added = removed.reverse := by
  have h1 : ∃ log', History g1 log' ∧ g1.pool = removed.reverse ++ g.pool := by
    clear hlen ha
    induction hr generalizing log with
    | nil g => exact ⟨log, h, by simp⟩
    | cons hr _ ih =>
      have h' := h.removed hr
      obtain ⟨log', hh, hp⟩ := ih h'
      obtain ⟨e, he⟩ := removeEdge_true_live h.inv hr
      rw [removeEdge_live h.inv he] at hr
      cases hr
      exact ⟨log', hh, by rw [hp]; simp⟩
  obtain ⟨log', hh, hp⟩ := h1
  have h2 : ∀ (l rest : List ℕ), g1.pool = l ++ rest → added.length = l.length → added = l := by
    clear hp hlen hr
    induction ha generalizing log' with
    | nil g => intro l rest _ hl; simp at hl; exact (List.length_eq_zero_iff.1 hl.symm).symm
    | cons fresh hadd _ ih =>
      intro l rest hp hl
      rcases l with _ | ⟨i, l⟩
      · simp at hl
      · have hA := (addEdge_added hh.inv hadd).2.2
        have := ih _ (hh.addEdge fresh hadd) l rest (by rw [hA.pool, hp]; rfl) (by simpa using hl)
        rw [this]
        congr
        rw [hA.top, hp]; rfl
  exact h2 _ _ hp (by simpa using hlen)

example : RemoveRun exG3 [0, 1]
    ⟨exG3.nodes, [none, none, some ⟨30, 2, 2, 0, "z"⟩], [1, 0]⟩ :=
  .cons (g1 := ⟨exG3.nodes, [none, some ⟨20, 1, 1, 2, "y"⟩, some ⟨30, 2, 2, 0, "z"⟩], [0]⟩) rfl
    (.cons rfl (.nil _))

example : ∃ g, AddRun (⟨exG3.nodes, [none, none, some ⟨30, 2, 2, 0, "z"⟩], [1, 0]⟩ :
    Graph String String) [1, 0] g := by
  refine ⟨_, .cons (addr := 40) (src := 0) (dst := 1) (p := "u") ?_ rfl
    (.cons (addr := 50) (src := 0) (dst := 1) (p := "v") ?_ rfl (.nil _))⟩
  all_goals
    intro id e h
    match id with
    | 0 => cases h
    | 1 => cases h <;> decide
    | 2 => cases h; decide
    | n + 3 => cases h

/-! ### C28 -/

/-- **C28.** `getEdge` throws `out_of_range` exactly for ids that do not denote a live edge, `getNode`
exactly for ids that are not below the number of nodes; otherwise both return normally. -/
theorem C28_lookup_throws_iff {g : Graph ν ε} {log : Log ν ε} (h : History g log) (id : ℕ) :
    (getEdge g id = .throw .outOfRange ↔ log.edge id = none) ∧
    (log.edge id ≠ none → (getEdge g id).IsOk) ∧
    (getNode g id = .throw .outOfRange ↔ log.nodes.length ≤ id) ∧
    (id < log.nodes.length → (getNode g id).IsOk) := by
  have inv := h.inv
  have hlen := inv.nodesLen
  have hE : (log.edge id = none → getEdge g id = .throw .outOfRange) ∧
      (log.edge id ≠ none → (getEdge g id).IsOk) := by
    rw [inv.edge, ne_eq, Option.map_eq_none_iff]
    unfold getEdge
    rcases slot_cases g id with hs | hs | ⟨e, hs⟩
    · rw [live, hs]; rw [List.getElem?_eq_none_iff] at hs
      simp [hs]
    · have hp := (inv.pool id).2 hs
      rw [live, hs]
      simp [hp]
    · have hl := live_iff.2 hs
      have hp : id ∉ g.pool := by rw [inv.pool, hs]; simp
      have := live_lt hl
      rw [hl, if_neg (by omega), if_neg hp]
      simp [Res.IsOk]
  have hN : (log.nodes.length ≤ id → getNode g id = .throw .outOfRange) ∧
      (id < log.nodes.length → (getNode g id).IsOk) := by
    rw [← hlen]; unfold getNode
    constructor
    · intro hi; rw [List.getElem?_eq_none hi]
    · intro hi; rw [List.getElem?_eq_getElem hi]; exact ⟨_, rfl⟩
  refine ⟨⟨fun ht => ?_, hE.1⟩, hE.2, ⟨fun ht => ?_, hN.1⟩, hN.2⟩
  · by_contra hc
    obtain ⟨a, ha⟩ := hE.2 hc
    rw [ht] at ha; cases ha
  · by_contra hc
    obtain ⟨a, ha⟩ := hN.2 (by omega)
    rw [ht] at ha; cases ha

example : ∃ log, History exG2 log ∧ log.edge 1 = none ∧ log.edge 0 ≠ none := by
  obtain ⟨log, h, h1, h0, -⟩ := exG2_history
  exact ⟨log, h, h1, by simp [h0]⟩

/-! ### C29 -/

/-- The statement of C29. -/
def RejectsUnknown (g : Graph ν ε) (log : Log ν ε) : Prop :=
  ∀ id, log.edge id = none → removeEdge g id = .ok (false, g)

/-- **C29** fails in every reachable graph: the first id past the end is accepted and the access one
past the end of the vector is undefined. -/
theorem C29_false {g : Graph ν ε} {log : Log ν ε} (h : History g log) :
    log.edge log.high = none ∧ removeEdge g log.high = .ub .outOfBounds ∧
    ¬ RejectsUnknown g log := by
  have inv := h.inv
  have h1 : log.edge log.high = none := by
    rw [inv.edge, inv.high, live_none_of_ge (Nat.le_refl _)]; rfl
  have h2 : removeEdge g log.high = .ub .outOfBounds := by rw [inv.high]; exact removeEdge_end inv
  refine ⟨h1, h2, fun hc => ?_⟩
  have := hc _ h1
  rw [h2] at this; cases this

/-- **C29**, partial: every other id that does not denote a live edge is rejected without effect.
Missing: the id that is one more than the largest ever returned. -/
theorem C29_reject_partial {g : Graph ν ε} {log : Log ν ε} (h : History g log) (id : ℕ)
    (hn : log.edge id = none) (hne : id ≠ log.high) : removeEdge g id = .ok (false, g) := by
  have inv := h.inv
  rw [inv.edge, Option.map_eq_none_iff] at hn
  exact removeEdge_dead inv hn (inv.high ▸ hne)

example : ∃ log, History exG2 log ∧ log.edge 1 = none ∧ 1 ≠ log.high := by
  obtain ⟨log, h, h1, h0, hh⟩ := exG2_history
  exact ⟨log, h, h1, by omega⟩

/-! ### C30 -/

/-- The statement of C30 for one node: the adjacency lists hold exactly the live edges leaving and
entering it, each once. -/
def AdjacencyOf (g : Graph ν ε) (i : ℕ) (n : Node ν) : Prop :=
  n.out.Nodup ∧ n.inn.Nodup ∧
  (∀ a, a ∈ n.out ↔ ∃ id e, getEdge g id = .ok e ∧ e.src = i ∧ e.addr = a) ∧
  (∀ a, a ∈ n.inn ↔ ∃ id e, getEdge g id = .ok e ∧ e.dst = i ∧ e.addr = a)

/-- The statement of C30. -/
def AdjacencyExact (g : Graph ν ε) : Prop := ∀ i n, getNode g i = .ok n → AdjacencyOf g i n

theorem getEdge_ok_iff {g : Graph ν ε} {log : Log ν ε} (inv : Inv g log) {id : ℕ} {e : Edge ε} :
    getEdge g id = .ok e ↔ live g id = some e := by
  unfold getEdge
  constructor
  · intro h
    split_ifs at h
    split at h
    · cases h; assumption
    · cases h
  · intro h
    have hlt := live_lt h
    have hp : id ∉ g.pool := by rw [inv.pool, live_iff.1 h]; simp
    rw [if_neg (by omega), if_neg hp, h]

theorem getNode_ok_iff {g : Graph ν ε} {i : ℕ} {n : Node ν} :
    getNode g i = .ok n ↔ g.nodes[i]? = some n := by
  unfold getNode
  rcases g.nodes[i]? with _ | m <;> simp

/-- **C30**, partial: as long as no edge has been removed the adjacency lists are exact.  Missing:
histories with removals (`C30_false_after_removal`). -/
theorem C30_adjacency_partial {g : Graph ν ε} {log : Log ν ε} (h : History g log)
    (hr : log.removals = 0) : AdjacencyExact g := by
  have inv := h.inv
  intro i n hn
  rw [getNode_ok_iff] at hn
  obtain ⟨ho, hi⟩ := (inv.exact hr).2 i n hn
  obtain ⟨n1, n2⟩ := inv.outNodup i n hn
  refine ⟨n1, n2, fun a => ?_, fun a => ?_⟩
  · rw [ho, List.mem_map]
    simp only [List.mem_filter, mem_filterMap_live, decide_eq_true_eq, getEdge_ok_iff inv]
    constructor
    · rintro ⟨e, ⟨⟨id, hl⟩, hs⟩, ha⟩; exact ⟨id, e, hl, hs, ha⟩
    · rintro ⟨id, e, hl, hs, ha⟩; exact ⟨e, ⟨⟨id, hl⟩, hs⟩, ha⟩
  · rw [hi, List.mem_map]
    simp only [List.mem_filter, mem_filterMap_live, decide_eq_true_eq, getEdge_ok_iff inv]
    constructor
    · rintro ⟨e, ⟨⟨id, hl⟩, hs⟩, ha⟩; exact ⟨id, e, hl, hs, ha⟩
    · rintro ⟨id, e, hl, hs, ha⟩; exact ⟨e, ⟨⟨id, hl⟩, hs⟩, ha⟩

example : ∃ log, History exG3 log ∧ log.removals = 0 := by
  obtain ⟨log, h, h0, -⟩ := exG3_history
  exact ⟨log, h, h0⟩

/-- **C30**, partial, all histories: no live edge is missing from the lists of its end nodes and no
list holds a pointer twice. -/
theorem C30_complete_partial {g : Graph ν ε} {log : Log ν ε} (h : History g log) :
    (∀ i n, getNode g i = .ok n → n.out.Nodup ∧ n.inn.Nodup) ∧
    ∀ id e, getEdge g id = .ok e →
      ∃ s d, getNode g e.src = .ok s ∧ getNode g e.dst = .ok d ∧ e.addr ∈ s.out ∧ e.addr ∈ d.inn := by
  have inv := h.inv
  refine ⟨fun i n hn => inv.outNodup i n (getNode_ok_iff.1 hn), fun id e he => ?_⟩
  rw [getEdge_ok_iff inv] at he
  obtain ⟨h1, h2⟩ := inv.ends id e he
  obtain ⟨c1, c2⟩ := inv.complete id e he
  have e1 := List.getElem?_eq_getElem h1
  have e2 := List.getElem?_eq_getElem h2
  exact ⟨_, _, getNode_ok_iff.2 e1, getNode_ok_iff.2 e2, c1 _ e1, c2 _ e2⟩

example : ∃ log, History exG2 log ∧ ∃ e, getEdge exG2 0 = .ok e := by
  obtain ⟨log, h, -⟩ := exG2_history
  exact ⟨log, h, _, rfl⟩

/-- **C30** fails after every removal of a live edge: both end nodes keep the pointer to the destroyed
edge, which is not the address of any live edge. -/
theorem C30_false_after_removal {g g' : Graph ν ε} {log : Log ν ε} {id : ℕ} (h : History g log)
    (hr : removeEdge g id = .ok (true, g')) :
    (∃ i n a, getNode g' i = .ok n ∧ a ∈ n.out ∧ ∀ j e, getEdge g' j = .ok e → e.addr ≠ a) ∧
    (∃ i n a, getNode g' i = .ok n ∧ a ∈ n.inn ∧ ∀ j e, getEdge g' j = .ok e → e.addr ≠ a) ∧
    ¬ AdjacencyExact g' := by
  have inv := h.inv
  have inv' := (h.removed hr).inv
  obtain ⟨e, he⟩ := removeEdge_true_live inv hr
  rw [removeEdge_live inv he] at hr
  cases hr
  obtain ⟨h1, h2⟩ := inv.ends id e he
  obtain ⟨c1, c2⟩ := inv.complete id e he
  have e1 := List.getElem?_eq_getElem h1
  have e2 := List.getElem?_eq_getElem h2
  have hno : ∀ j e', getEdge { g with pool := id :: g.pool, edges := g.edges.set id none } j = .ok e' →
      e'.addr ≠ e.addr := by
    intro j e' hj ha
    rw [getEdge_ok_iff inv', live_set_none] at hj
    split_ifs at hj with hji
    exact hji (inv.inj j id e' e hj he ha)
  refine ⟨⟨e.src, _, e.addr, getNode_ok_iff.2 e1, c1 _ e1, hno⟩,
    ⟨e.dst, _, e.addr, getNode_ok_iff.2 e2, c2 _ e2, hno⟩, fun hc => ?_⟩
  obtain ⟨j, e', hj, -, ha⟩ := ((hc e.src _ (getNode_ok_iff.2 e1)).2.2.1 e.addr).1 (c1 _ e1)
  exact hno j e' hj ha

/-- **C30** fails further when the allocator reuses the address of the destroyed edge: node 0 then
lists an edge that leaves node 1 (graph `exG3`, edge 0 = 0→1 removed, new edge 1→2 at its address). -/
theorem C30_false_alias : ∃ g : Graph String String, (∃ log, History g log) ∧
    ∃ n e, getNode g 0 = .ok n ∧ getEdge g 0 = .ok e ∧ e.addr ∈ n.out ∧ e.src = 1 := by
  obtain ⟨log, h, -⟩ := exG3_history
  have h1 := h.removed (id := 0) (g' := ⟨exG3.nodes,
    [none, some ⟨20, 1, 1, 2, "y"⟩, some ⟨30, 2, 2, 0, "z"⟩], [0]⟩) rfl
  have h2 := h1.addEdge (addr := 10) (src := 1) (dst := 2) (p := "w")
    (by
      intro id e h
      match id with
      | 0 => cases h
      | 1 => cases h; decide
      | 2 => cases h; decide
      | n + 3 => cases h) rfl
  exact ⟨_, ⟨_, h2⟩, _, _, rfl, rfl, by decide, rfl⟩

/-! ### C31 -/

/-- **C31** fails for every edge table with at least one slot and for every graph with at least one
node: the loop with `++it` always reads past the end of the vector (or dereferences a removed first
slot before that). -/
theorem C31_false (g : Graph ν ε) :
    (g.edges ≠ [] → (loopPrefix g.edges).IsUB) ∧
    (g.nodes ≠ [] → (loopPrefix (g.nodes.map some)).IsUB) := by
  constructor <;> intro h
  · exact traverse_prefix_ub _ _ _ (List.length_pos_iff.2 h) (by omega)
  · exact traverse_prefix_ub _ _ _ (List.length_pos_iff.2 (by simpa using h)) (by omega)

example : (exG3.edges ≠ []) ∧ loopPrefix exG3.edges = .ub .pastEnd := by
  refine ⟨by decide, ?_⟩
  simp [exG3, loopPrefix, traverse, derefIter, nextPrefix, skipPrefix]

/-- **C31** fails a second way, also with the postfix increment: `begin` does not skip a removed first
edge. -/
theorem C31_false_first_removed : ∃ g : Graph String String, (∃ log, History g log) ∧
    getEdge g 2 = .ok ⟨30, 2, 2, 0, "z"⟩ ∧ loopPostfix g.edges = .ub .nullDeref := by
  obtain ⟨log, h, -⟩ := exG3_history
  have h1 := h.removed (id := 0) (g' := ⟨exG3.nodes,
    [none, some ⟨20, 1, 1, 2, "y"⟩, some ⟨30, 2, 2, 0, "z"⟩], [0]⟩) rfl
  exact ⟨_, ⟨_, h1⟩, rfl, rfl⟩

/-- **C31**, partial, one step: from an edge of the graph `++it` goes to the live edge with the next larger
id if there is one, and is undefined if there is none.  Missing: the step behind the last edge, for which the
claim is false. -/
theorem C31_prefix_step_partial {g : Graph ν ε} {log : Log ν ε} (h : History g log) {id : ℕ}
    (hid : log.edge id ≠ none) :
    (∀ next, log.edge next ≠ none → id < next → (∀ i, id < i → i < next → log.edge i = none) →
      nextPrefix g.edges id = .ok next ∧ ∃ e, derefIter g.edges next = .ok e ∧ getEdge g next = .ok e) ∧
    ((∀ i, id < i → log.edge i = none) → (nextPrefix g.edges id).IsUB) := by
  have inv := h.inv
  have hlive : ∀ i, log.edge i ≠ none ↔ ∃ e, g.edges[i]? = some (some e) := by
    intro i
    rw [inv.edge, ne_eq, Option.map_eq_none_iff, live]
    rcases g.edges[i]? with _ | _ | e <;> simp
  have hlt : id < g.edges.length := by
    obtain ⟨e, he⟩ := (hlive id).1 hid
    exact (List.getElem?_eq_some_iff.1 he).1
  constructor
  · intro next hn h1 h2
    obtain ⟨e, he⟩ := (hlive next).1 hn
    have hnl : next < g.edges.length := (List.getElem?_eq_some_iff.1 he).1
    refine ⟨?_, e, by rw [derefIter, he], ?_⟩
    · rw [nextPrefix, if_pos hlt, skipPrefix_spec]
      refine ⟨h1, ⟨e, he⟩, fun i hi hp => ?_⟩
      have := mt (hlive i).2 (not_not_intro (h2 i hi hp))
      rw [List.getElem?_eq_getElem (by omega : i < g.edges.length)] at this ⊢
      rcases hx : g.edges[i] with _ | x
      · rfl
      · exact absurd ⟨x, by rw [hx]⟩ this
    · have hl : live g next = some e := by rw [live, he]; rfl
      have hnp : next ∉ g.pool := fun hc => by
        have := (inv.pool next).1 hc
        rw [he] at this; cases this
      rw [getEdge, hl, if_neg (by omega), if_neg hnp]
  · intro h1
    rcases nextPrefix_not_throw g.edges id with ⟨p, hp⟩ | hu
    · exfalso
      rw [nextPrefix, if_pos hlt, skipPrefix_spec] at hp
      exact (hlive p).2 hp.2.1 (h1 p (by omega))
    · exact hu

/-- The two cases of `C31_prefix_step_partial`, in a reachable graph with a removed edge. -/
example : nextPrefix exG2.edges 0 = .ok 2 ∧ nextPrefix exG2.edges 2 = .ub .pastEnd := by
  constructor <;> simp [exG2, nextPrefix, skipPrefix]

/-- **C31**, partial: the loop written with `it++` visits each live edge exactly once, in id order,
and nothing else, provided the edge with id 0 has not been removed.  Missing: the prefix increment and
a removed first edge, for which the claim is false. -/
theorem C31_postfix_loop_partial {g : Graph ν ε} {log : Log ν ε} (h : History g log)
    (h0 : log.high = 0 ∨ log.edge 0 ≠ none) :
    ∃ es, loopPostfix g.edges = .ok es ∧
      (es.map Edge.id).Pairwise (· < ·) ∧
      (∀ e, e ∈ es ↔ getEdge g e.id = .ok e) ∧
      (∀ id, log.edge id ≠ none ↔ id ∈ es.map Edge.id) := by
  have inv := h.inv
  have hhead : g.edges.head? ≠ some none := by
    rcases h0 with h0 | h0
    · rw [inv.high] at h0
      rw [List.length_eq_zero_iff.1 h0]; simp
    · rw [inv.edge, ne_eq, Option.map_eq_none_iff] at h0
      intro hc
      rw [List.head?_eq_getElem?] at hc
      rw [live, hc] at h0
      exact h0 rfl
  refine ⟨_, loopPostfix_eq g.edges hhead, ?_, fun e => ?_, fun id => ?_⟩
  · have hall : ∀ (l : List (Option (Edge ε))) (k : ℕ),
        (∀ i e, l[i]? = some (some e) → e.id = k + i) →
        ((l.filterMap id).map Edge.id).Pairwise (· < ·) ∧ ∀ x ∈ (l.filterMap id).map Edge.id, k ≤ x := by
      intro l
      induction l with
      | nil => intro k _; simp
      | cons a l ih =>
        intro k hk
        obtain ⟨h1, h2⟩ := ih (k + 1) (fun i e hi => by
          have := hk (i + 1) e (by simpa using hi); omega)
        rcases a with _ | e
        · exact ⟨by simpa using h1, fun x hx => by
            have := h2 x (by simpa using hx); omega⟩
        · have he := hk 0 e rfl
          simp only [List.filterMap_cons, id_eq, List.map_cons, List.pairwise_cons, List.mem_cons]
          refine ⟨⟨fun x hx => ?_, h1⟩, ?_⟩
          · have := h2 x hx; omega
          · rintro x (rfl | hx)
            · omega
            · have := h2 x hx; omega
    exact (hall g.edges 0 fun i e hi => by
      rw [inv.eid i e (live_iff.2 hi)]; omega).1
  · rw [mem_filterMap_live, getEdge_ok_iff inv]
    constructor
    · rintro ⟨id, hl⟩; rw [inv.eid id e hl]; exact hl
    · intro hl; exact ⟨_, hl⟩
  · rw [inv.edge, ne_eq, Option.map_eq_none_iff, List.mem_map]
    constructor
    · intro hl
      obtain ⟨e, he⟩ := Option.ne_none_iff_exists'.1 hl
      exact ⟨e, mem_filterMap_live.2 ⟨id, he⟩, inv.eid id e he⟩
    · rintro ⟨e, he, rfl⟩ hn
      obtain ⟨j, hj⟩ := mem_filterMap_live.1 he
      rw [inv.eid j e hj, hj] at hn; cases hn

example : ∃ log, History exG2 log ∧ log.edge 0 ≠ none := by
  obtain ⟨log, h, h1, h0, -⟩ := exG2_history
  exact ⟨log, h, by simp [h0]⟩

end Verif.PoseGraph
