import Verif.Graph.Spec
import Mathlib.Data.List.Nodup
import Mathlib.Data.List.Perm.Basic
import Mathlib.Data.Set.Card
import Mathlib.Data.Set.Finite.Basic

namespace Verif.PoseGraph

open Verif

variable {ν : Type u} {ε : Type v}

/-- What a slot of the edge table shows to a client. -/
def Edge.view (e : Edge ε) : ℕ × ℕ × ε := (e.src, e.dst, e.payload)

/-- Representation invariant. -/
structure Inv (g : Graph ν ε) (log : Log ν ε) : Prop where
  nodes : g.nodes.map Node.payload = log.nodes
  nid : ∀ (i : ℕ) (n : Node ν), g.nodes[i]? = some n → n.id = i
  poolNodup : g.pool.Nodup
  pool : ∀ id, id ∈ g.pool ↔ g.edges[id]? = some none
  eid : ∀ id e, live g id = some e → e.id = id
  edge : ∀ id, log.edge id = (live g id).map Edge.view
  ends : ∀ id e, live g id = some e → e.src < g.nodes.length ∧ e.dst < g.nodes.length
  high : log.high = g.edges.length
  inj : ∀ i j e e', live g i = some e → live g j = some e' → e.addr = e'.addr → i = j
  outNodup : ∀ (i : ℕ) (n : Node ν), g.nodes[i]? = some n → n.out.Nodup ∧ n.inn.Nodup
  complete : ∀ id e, live g id = some e →
    (∀ n, g.nodes[e.src]? = some n → e.addr ∈ n.out) ∧
    (∀ n, g.nodes[e.dst]? = some n → e.addr ∈ n.inn)
  exact : log.removals = 0 → g.pool = [] ∧ ∀ (i : ℕ) (n : Node ν), g.nodes[i]? = some n →
    n.out = ((g.edges.filterMap _root_.id).filter fun e => e.src = i).map Edge.addr ∧
    n.inn = ((g.edges.filterMap _root_.id).filter fun e => e.dst = i).map Edge.addr

theorem live_lt {g : Graph ν ε} {id : ℕ} {e} (h : live g id = some e) : id < g.edges.length := by
  unfold live at h
  by_contra hc
  rw [List.getElem?_eq_none (by omega)] at h
  simp at h

theorem live_none_of_ge {g : Graph ν ε} {id : ℕ} (h : g.edges.length ≤ id) : live g id = none := by
  unfold live
  rw [List.getElem?_eq_none h]; rfl

theorem slot_cases (g : Graph ν ε) (id : ℕ) :
    g.edges[id]? = none ∨ g.edges[id]? = some none ∨ ∃ e, g.edges[id]? = some (some e) := by
  rcases g.edges[id]? with _ | _ | e
  · exact .inl rfl
  · exact .inr (.inl rfl)
  · exact .inr (.inr ⟨e, rfl⟩)

theorem live_iff {g : Graph ν ε} {id : ℕ} {e} : live g id = some e ↔ g.edges[id]? = some (some e) := by
  unfold live
  rcases slot_cases g id with h | h | ⟨e', h⟩ <;> rw [h] <;> simp

theorem mem_pushUnique {l : List ℕ} {a b : ℕ} : b ∈ pushUnique l a ↔ b ∈ l ∨ b = a := by
  unfold pushUnique; split
  · constructor
    · exact .inl
    · rintro (h | rfl) <;> assumption
  · simp

theorem nodup_pushUnique {l : List ℕ} (a : ℕ) (h : l.Nodup) : (pushUnique l a).Nodup := by
  unfold pushUnique; split
  · exact h
  · rename_i hn
    rw [List.nodup_append]
    exact ⟨h, by simp, by simp; rintro b hb rfl; exact hn hb⟩

/-- Adding nodes' links as one function. -/
def linkedNode (n : Node ν) (i src dst addr : ℕ) : Node ν :=
  { n with
    out := if i = src then pushUnique n.out addr else n.out
    inn := if i = dst then pushUnique n.inn addr else n.inn }

theorem link_spec (g : Graph ν ε) {src dst : ℕ} (addr : ℕ) (hs : src < g.nodes.length)
    (hd : dst < g.nodes.length) : ∃ nodes, link g src dst addr = .ok { g with nodes := nodes } ∧
      nodes.length = g.nodes.length ∧
      ∀ i, nodes[i]? = (g.nodes[i]?).map fun n => linkedNode n i src dst addr := by
  refine ⟨_, by rw [link, if_pos ⟨hs, hd⟩], by simp, fun i => ?_⟩
  rw [List.getElem?_modify, List.getElem?_modify]
  rcases h : g.nodes[i]? with _ | n
  · simp
  · simp only [linkedNode, Option.map_some]
    by_cases h1 : i = src <;> by_cases h2 : i = dst <;>
      simp [h1, h2, eq_comm] <;> (try subst h1) <;> (try subst h2) <;> simp_all [eq_comm]

theorem link_ok_iff (g : Graph ν ε) {g' : Graph ν ε} {src dst addr : ℕ} (h : link g src dst addr = .ok g') :
    src < g.nodes.length ∧ dst < g.nodes.length := by
  unfold link at h; split at h
  · assumption
  · cases h

/-- Everything `addEdge` does, given the invariant. -/
structure Added (g : Graph ν ε) (addr src dst : ℕ) (p : ε) (id : ℕ) (g' : Graph ν ε) : Prop where
  free : live g id = none
  top : id = g.pool.headD g.edges.length
  slot : ∀ j, g'.edges[j]? = if j = id then some (some ⟨addr, id, src, dst, p⟩) else g.edges[j]?
  len : g'.edges.length = max g.edges.length (id + 1)
  pool : g'.pool = g.pool.tail
  append : g.pool = [] → g'.edges = g.edges ++ [some ⟨addr, id, src, dst, p⟩]
  nodesLen : g'.nodes.length = g.nodes.length
  nodes : ∀ i : ℕ, g'.nodes[i]? = (g.nodes[i]?).map fun n => linkedNode n i src dst addr

theorem addEdge_spec {g : Graph ν ε} {log : Log ν ε} (inv : Inv g log) (addr : ℕ) {src dst : ℕ}
    (p : ε) (hs : src < g.nodes.length) (hd : dst < g.nodes.length) :
    ∃ id g', addEdge g addr src dst p = .ok (id, g') ∧ Added g addr src dst p id g' := by
  unfold addEdge
  rcases hp : g.pool with _ | ⟨id, pool⟩
  · obtain ⟨nodes, hl, hlen, hn⟩ := link_spec
      { g with
        pool := []
        edges := g.edges ++ [some ⟨addr, g.edges.length, src, dst, p⟩] } addr hs hd
    refine ⟨g.edges.length, { nodes := nodes, pool := [], edges := _ }, by
      simp only [hl, Res.map_ok]; rfl, ?_⟩
    refine ⟨live_none_of_ge (Nat.le_refl _), by simp [hp], fun j => ?_, by simp, by simp [hp],
      fun _ => rfl, hlen, hn⟩
    simp only [List.getElem?_append]
    split_ifs with h1 h2 h2
    · omega
    · rfl
    · subst h2; simp
    · rw [List.getElem?_eq_none (by simp; omega), List.getElem?_eq_none (by omega)]
  · have hmem : g.edges[id]? = some none := (inv.pool id).1 (by rw [hp]; simp)
    have hlt : id < g.edges.length := by
      by_contra hc
      rw [List.getElem?_eq_none (by omega)] at hmem; cases hmem
    obtain ⟨nodes, hl, hlen, hn⟩ := link_spec
      { g with pool := pool, edges := g.edges.set id (some ⟨addr, id, src, dst, p⟩) } addr hs hd
    refine ⟨id, { nodes := nodes, pool := pool, edges := _ }, by
      simp only [if_pos hlt, hl, Res.map_ok]; rfl, ?_⟩
    refine ⟨by simp [live, hmem], by simp [hp], fun j => ?_, by simp; omega, by simp [hp],
      fun h => by simp [hp] at h, hlen, hn⟩
    simp only [List.getElem?_set]
    by_cases h : j = id
    · subst h; simp [hlt]
    · simp [h, Ne.symm h]

theorem Added.live {g g' : Graph ν ε} {addr src dst id : ℕ} {p : ε}
    (h : Added g addr src dst p id g') (j : ℕ) :
    live g' j = if j = id then some ⟨addr, id, src, dst, p⟩ else live g j := by
  unfold PoseGraph.live; rw [h.slot]; split <;> rfl

theorem node_lookup_of_map {l l' : List (Node ν)} {F : ℕ → Node ν → Node ν}
    (h : ∀ i : ℕ, l'[i]? = (l[i]?).map (F i)) {i : ℕ} {n} (hn : l'[i]? = some n) :
    ∃ m, l[i]? = some m ∧ n = F i m := by
  rw [h, Option.map_eq_some_iff] at hn
  obtain ⟨m, hm, rfl⟩ := hn
  exact ⟨m, hm, rfl⟩

theorem filterMap_id_append (l : List (Option (Edge ε))) (e : Edge ε) :
    (l ++ [some e]).filterMap _root_.id = l.filterMap _root_.id ++ [e] := by simp

theorem mem_filterMap_live {g : Graph ν ε} {e : Edge ε} :
    e ∈ g.edges.filterMap _root_.id ↔ ∃ id, live g id = some e := by
  rw [List.mem_filterMap]
  simp only [id_eq, exists_eq_right, live_iff]
  exact List.mem_iff_getElem?

theorem inv_empty : Inv (empty : Graph ν ε) Log.empty where
  nodes := rfl
  nid := by simp [empty]
  poolNodup := by simp [empty]
  pool := by simp [empty]
  eid := by simp [empty, live]
  edge := by simp [empty, live, Log.empty]
  ends := by simp [empty, live]
  high := rfl
  inj := by simp [empty, live]
  outNodup := by simp [empty]
  complete := by simp [empty, live]
  exact := by simp [empty]

theorem inv_addNode {g : Graph ν ε} {log : Log ν ε} (inv : Inv g log) (p : ν) :
    Inv (addNode g p).2 { log with nodes := log.nodes ++ [p] } := by
  have key : ∀ {i : ℕ} {n : Node ν}, (addNode g p).2.nodes[i]? = some n →
      g.nodes[i]? = some n ∨ i = g.nodes.length ∧ n = ⟨i, p, [], []⟩ := by
    intro i n h
    simp only [addNode, List.getElem?_append] at h
    split_ifs at h with h1
    · exact .inl h
    · have : i - g.nodes.length = 0 := by
        by_contra hc
        rw [List.getElem?_eq_none (by simp; omega)] at h; cases h
      rw [this] at h
      simp only [List.getElem?_cons_zero, Option.some.injEq] at h
      exact .inr ⟨by omega, by rw [← h, show g.nodes.length = i by omega]⟩
  have hlen : (addNode g p).2.nodes.length = g.nodes.length + 1 := by simp [addNode]
  refine ⟨by simp [addNode, inv.nodes], ?_, inv.poolNodup, inv.pool, inv.eid, inv.edge, ?_, inv.high,
    inv.inj, ?_, ?_, fun h0 => ⟨(inv.exact h0).1, ?_⟩⟩
  · intro i n h
    rcases key h with h | ⟨-, rfl⟩
    · exact inv.nid i n h
    · rfl
  · intro id e h
    have := inv.ends id e h
    omega
  · intro i n h
    rcases key h with h | ⟨-, rfl⟩
    · exact inv.outNodup i n h
    · simp
  · intro id e h
    have he := inv.ends id e h
    refine ⟨fun n hn => ?_, fun n hn => ?_⟩ <;> rcases key hn with hn | ⟨h', -⟩
    · exact (inv.complete id e h).1 n hn
    · omega
    · exact (inv.complete id e h).2 n hn
    · omega
  · intro i n h
    rcases key h with h | ⟨h', rfl⟩
    · exact (inv.exact h0).2 i n h
    · have : ∀ e ∈ g.edges.filterMap _root_.id, e.src ≠ i ∧ e.dst ≠ i := by
        intro e he
        obtain ⟨id, hl⟩ := mem_filterMap_live.1 he
        have := inv.ends id e hl
        omega
      constructor <;> symm <;> rw [List.map_eq_nil_iff, List.filter_eq_nil_iff] <;> intro e he <;>
        simp [this e he]

theorem addEdge_added {g g' : Graph ν ε} {log : Log ν ε} {addr src dst id : ℕ} {p : ε}
    (inv : Inv g log) (h : addEdge g addr src dst p = .ok (id, g')) :
    src < g.nodes.length ∧ dst < g.nodes.length ∧ Added g addr src dst p id g' := by
  have hlt : src < g.nodes.length ∧ dst < g.nodes.length := by
    unfold addEdge at h
    split at h
    · obtain ⟨_, h, -⟩ := Res.map_eq_ok.1 h
      have := link_ok_iff _ h
      exact this
    · split at h
      · obtain ⟨_, h, -⟩ := Res.map_eq_ok.1 h
        have := link_ok_iff _ h
        exact this
      · cases h
  obtain ⟨id', g'', heq, ha⟩ := addEdge_spec inv addr p hlt.1 hlt.2
  rw [heq] at h
  cases h
  exact ⟨hlt.1, hlt.2, ha⟩

theorem pushUnique_of_not_mem {l : List ℕ} {a : ℕ} (h : a ∉ l) : pushUnique l a = l ++ [a] := by
  unfold pushUnique; rw [if_neg h]

theorem inv_added {g g' : Graph ν ε} {log : Log ν ε} {addr src dst id : ℕ} {p : ε}
    (inv : Inv g log) (fresh : Fresh g addr) (hs : src < g.nodes.length) (hd : dst < g.nodes.length)
    (h : Added g addr src dst p id g') :
    Inv g'
      { log with
        edge := Function.update log.edge id (some (src, dst, p))
        high := max log.high (id + 1) } := by
  have key := fun {i : ℕ} {n : Node ν} (hn : g'.nodes[i]? = some n) =>
    node_lookup_of_map (F := fun i n => linkedNode n i src dst addr) h.nodes hn
  refine ⟨?_, ?_, ?_, ?_, ?_, ?_, ?_, ?_, ?_, ?_, ?_, ?_⟩
  · rw [← inv.nodes]
    apply List.ext_getElem?
    intro i
    simp only [List.getElem?_map, h.nodes, Option.map_map]
    rfl
  · intro i n hn
    obtain ⟨m, hm, rfl⟩ := key hn
    exact inv.nid i m hm
  · rw [h.pool]; exact inv.poolNodup.tail
  · intro j
    rw [h.pool, h.slot]
    rcases hp : g.pool with _ | ⟨i, rest⟩
    · have hid : id = g.edges.length := by rw [h.top, hp]; rfl
      split_ifs with hj
      · simp
      · rw [← inv.pool, hp]; simp
    · have hid : id = i := by rw [h.top, hp]; rfl
      subst hid
      have hnd := inv.poolNodup; rw [hp] at hnd
      split_ifs with hj
      · subst hj
        simpa using (List.nodup_cons.1 hnd).1
      · rw [← inv.pool, hp]; simp [hj]
  · intro j e he
    rw [h.live] at he
    split_ifs at he with hj
    · cases he; exact hj.symm
    · exact inv.eid j e he
  · intro j
    rw [h.live]
    by_cases hj : j = id
    · subst hj; simp [Edge.view]
    · simp [hj, inv.edge]
  · intro j e he
    rw [h.nodesLen]
    rw [h.live] at he
    split_ifs at he with hj
    · cases he; exact ⟨hs, hd⟩
    · exact inv.ends j e he
  · simp only [h.len, inv.high]
  · intro i j e e' hi hj ha
    rw [h.live] at hi hj
    split_ifs at hi hj with h1 h2 h2
    · omega
    · cases hi; exact absurd ha.symm (fresh j e' hj)
    · cases hj; exact absurd ha (fresh i e hi)
    · exact inv.inj i j e e' hi hj ha
  · intro i n hn
    obtain ⟨m, hm, rfl⟩ := key hn
    have := inv.outNodup i m hm
    simp only [linkedNode]
    constructor <;> split_ifs
    · exact nodup_pushUnique _ this.1
    · exact this.1
    · exact nodup_pushUnique _ this.2
    · exact this.2
  · intro j e he
    rw [h.live] at he
    split_ifs at he with hj
    · cases he
      refine ⟨fun n hn => ?_, fun n hn => ?_⟩ <;> obtain ⟨m, hm, rfl⟩ := key hn <;>
        simp [linkedNode, mem_pushUnique]
    · refine ⟨fun n hn => ?_, fun n hn => ?_⟩ <;> obtain ⟨m, hm, rfl⟩ := key hn
      · have := (inv.complete j e he).1 m hm
        simp only [linkedNode]; split_ifs <;> simp [mem_pushUnique, this]
      · have := (inv.complete j e he).2 m hm
        simp only [linkedNode]; split_ifs <;> simp [mem_pushUnique, this]
  · intro h0
    obtain ⟨hp, hex⟩ := inv.exact h0
    refine ⟨by rw [h.pool, hp]; rfl, fun i n hn => ?_⟩
    obtain ⟨m, hm, rfl⟩ := key hn
    obtain ⟨ho, hi⟩ := hex i m hm
    rw [h.append hp, filterMap_id_append]
    have hnot : ∀ q : Edge ε → Bool,
        addr ∉ ((g.edges.filterMap _root_.id).filter q).map Edge.addr := by
      intro q hc
      obtain ⟨e, he, ha⟩ := List.mem_map.1 hc
      obtain ⟨k, hk⟩ := mem_filterMap_live.1 (List.mem_filter.1 he).1
      exact fresh k e hk ha
    simp only [linkedNode, List.filter_append, List.map_append]
    constructor
    · by_cases hi' : i = src
      · subst hi'
        rw [if_pos rfl, pushUnique_of_not_mem (by rw [ho]; exact hnot _), ho]
        simp
      · rw [if_neg hi', ho]; simp [Ne.symm hi']
    · by_cases hi' : i = dst
      · subst hi'
        rw [if_pos rfl, pushUnique_of_not_mem (by rw [hi]; exact hnot _), hi]
        simp
      · rw [if_neg hi', hi]; simp [Ne.symm hi']

/-- What `removeEdge` does for a live id. -/
theorem removeEdge_live {g : Graph ν ε} {log : Log ν ε} (inv : Inv g log) {id : ℕ} {e}
    (h : live g id = some e) :
    removeEdge g id = .ok (true, { g with pool := id :: g.pool, edges := g.edges.set id none }) := by
  have hlt := live_lt h
  have hp : id ∉ g.pool := by
    rw [inv.pool, live_iff.1 h]; simp
  unfold removeEdge
  rw [if_neg (by omega), if_neg hp, if_pos hlt]

theorem removeEdge_dead {g : Graph ν ε} {log : Log ν ε} (inv : Inv g log) {id : ℕ}
    (h : live g id = none) (hne : id ≠ g.edges.length) : removeEdge g id = .ok (false, g) := by
  unfold removeEdge
  split_ifs with h1 h2 h3
  · rfl
  · rfl
  · exfalso
    apply h2
    rw [inv.pool]
    rcases slot_cases g id with hs | hs | ⟨e, hs⟩
    · rw [List.getElem?_eq_none_iff] at hs; omega
    · exact hs
    · rw [live, hs] at h; cases h
  · omega

theorem removeEdge_end {g : Graph ν ε} {log : Log ν ε} (inv : Inv g log) :
    removeEdge g g.edges.length = .ub .outOfBounds := by
  unfold removeEdge
  have : g.edges.length ∉ g.pool := by
    rw [inv.pool, List.getElem?_eq_none (Nat.le_refl _)]; simp
  rw [if_neg (Nat.lt_irrefl _), if_neg this, if_neg (Nat.lt_irrefl _)]

theorem live_set_none (g : Graph ν ε) (pool : List ℕ) (id j : ℕ) :
    live { g with pool := pool, edges := g.edges.set id none } j =
      if j = id then none else live g j := by
  unfold live
  simp only [List.getElem?_set]
  by_cases h : j = id
  · subst h
    by_cases h2 : j < g.edges.length <;> simp [h2]
  · simp [h, Ne.symm h]

theorem removeEdge_true_live {g g' : Graph ν ε} {log : Log ν ε} (inv : Inv g log) {id : ℕ}
    (h : removeEdge g id = .ok (true, g')) : ∃ e, live g id = some e := by
  rcases hl : live g id with _ | e
  · by_cases hne : id = g.edges.length
    · rw [hne, removeEdge_end inv] at h; cases h
    · rw [removeEdge_dead inv hl hne] at h; cases h
  · exact ⟨e, rfl⟩

theorem inv_removed {g g' : Graph ν ε} {log : Log ν ε} {id : ℕ} (inv : Inv g log)
    (h : removeEdge g id = .ok (true, g')) :
    Inv g'
      { log with
        edge := Function.update log.edge id none
        removals := log.removals + 1 } := by
  obtain ⟨e, he⟩ := removeEdge_true_live inv h
  rw [removeEdge_live inv he] at h
  cases h
  have hl := live_set_none g (id :: g.pool) id
  refine ⟨inv.nodes, inv.nid, ?_, ?_, ?_, ?_, ?_, ?_, ?_, inv.outNodup, ?_, ?_⟩
  · refine List.nodup_cons.2 ⟨?_, inv.poolNodup⟩
    rw [inv.pool, live_iff.1 he]; simp
  · intro j
    rw [List.mem_cons, inv.pool]
    simp only [List.getElem?_set]
    by_cases hj : j = id
    · subst hj; simp [live_lt he]
    · simp [hj, Ne.symm hj]
  · intro j e' he'; rw [hl] at he'; split_ifs at he' with hj; exact inv.eid j e' he'
  · intro j; rw [hl]
    by_cases hj : j = id
    · subst hj; simp
    · simp [hj, inv.edge]
  · intro j e' he'; rw [hl] at he'; split_ifs at he' with hj; exact inv.ends j e' he'
  · simpa using inv.high
  · intro i j e1 e2 h1 h2
    rw [hl] at h1 h2
    split_ifs at h1 h2
    exact inv.inj i j e1 e2 h1 h2
  · intro j e' he'; rw [hl] at he'; split_ifs at he' with hj; exact inv.complete j e' he'
  · intro h0; simp at h0

theorem removeEdge_false {g g' : Graph ν ε} {id : ℕ} (h : removeEdge g id = .ok (false, g')) :
    g' = g := by
  unfold removeEdge at h
  split_ifs at h <;> cases h <;> rfl

theorem modifyNode_ok {g g' : Graph ν ε} {id : ℕ} {f : ν → ν} (h : modifyNode g id f = .ok g') :
    g' = { g with nodes := g.nodes.modify id fun n => { n with payload := f n.payload } } := by
  obtain ⟨_, _, h⟩ := Res.map_eq_ok.1 h
  exact h.symm

theorem modifyEdge_ok {g g' : Graph ν ε} {id : ℕ} {f : ε → ε} (h : modifyEdge g id f = .ok g') :
    g' = { g with
      edges := g.edges.modify id fun e => e.map fun e => { e with payload := f e.payload } } := by
  obtain ⟨_, _, h⟩ := Res.map_eq_ok.1 h
  exact h.symm

theorem getElem?_modifyNode (g : Graph ν ε) (id : ℕ) (f : ν → ν) (i : ℕ) :
    (g.nodes.modify id fun n => { n with payload := f n.payload })[i]? =
      (g.nodes[i]?).map fun n => { n with payload := if i = id then f n.payload else n.payload } := by
  rw [List.getElem?_modify]
  by_cases h : i = id
  · subst h; simp
  · simp [h, Ne.symm h]

theorem inv_touchNode {g g' : Graph ν ε} {log : Log ν ε} {id : ℕ} (f : ν → ν) (inv : Inv g log)
    (h : modifyNode g id f = .ok g') : Inv g' { log with nodes := log.nodes.modify id f } := by
  obtain rfl := modifyNode_ok h
  have key := fun {i : ℕ} {n : Node ν} hn => node_lookup_of_map (n := n) (i := i)
    (F := fun i n => { n with payload := if i = id then f n.payload else n.payload })
    (getElem?_modifyNode g id f) hn
  refine ⟨?_, ?_, inv.poolNodup, inv.pool, inv.eid, inv.edge, ?_, inv.high, inv.inj, ?_, ?_, ?_⟩
  · apply List.ext_getElem?
    intro i
    rw [List.getElem?_map, getElem?_modifyNode, ← inv.nodes, List.getElem?_modify,
      List.getElem?_map]
    rcases g.nodes[i]? with _ | n
    · rfl
    · by_cases h : i = id
      · subst h; simp
      · simp [h, Ne.symm h]
  · intro i n hn; obtain ⟨m, hm, rfl⟩ := key hn; exact inv.nid i m hm
  · intro j e he; simpa using inv.ends j e he
  · intro i n hn; obtain ⟨m, hm, rfl⟩ := key hn; exact inv.outNodup i m hm
  · intro j e he
    refine ⟨fun n hn => ?_, fun n hn => ?_⟩ <;> obtain ⟨m, hm, rfl⟩ := key hn
    · exact (inv.complete j e he).1 m hm
    · exact (inv.complete j e he).2 m hm
  · intro h0
    refine ⟨(inv.exact h0).1, fun i n hn => ?_⟩
    obtain ⟨m, hm, rfl⟩ := key hn
    exact (inv.exact h0).2 i m hm

/-- Writing the payload of one edge. -/
def touched (id : ℕ) (f : ε → ε) (j : ℕ) (e : Edge ε) : Edge ε :=
  { e with payload := if j = id then f e.payload else e.payload }

theorem getElem?_modifyEdge (l : List (Option (Edge ε))) (id : ℕ) (f : ε → ε) (j : ℕ) :
    (l.modify id fun e => e.map fun e => { e with payload := f e.payload })[j]? =
      (l[j]?).map fun e => e.map (touched id f j) := by
  rw [List.getElem?_modify]
  by_cases h : j = id
  · subst h
    rcases l[j]? with _ | _ | e <;> simp [touched]
  · rcases l[j]? with _ | _ | e <;> simp [touched, h, Ne.symm h]

theorem live_modifyEdge (g : Graph ν ε) (id : ℕ) (f : ε → ε) (j : ℕ) :
    live { g with
      edges := g.edges.modify id fun e => e.map fun e => { e with payload := f e.payload } } j =
      (live g j).map (touched id f j) := by
  unfold live
  simp only [getElem?_modifyEdge]
  rcases g.edges[j]? with _ | _ | e <;> rfl

theorem filter_modifyEdge (l : List (Option (Edge ε))) (id : ℕ) (f : ε → ε)
    (q : Edge ε → Bool) (hq : ∀ e p, q { e with payload := p } = q e) :
    (((l.modify id fun e => e.map fun e => { e with payload := f e.payload }).filterMap
      _root_.id).filter q).map Edge.addr = ((l.filterMap _root_.id).filter q).map Edge.addr := by
  induction l generalizing id with
  | nil => simp
  | cons a l ih =>
    cases id with
    | zero =>
      simp only [List.modify_zero_cons]
      rcases a with _ | e
      · simp
      · simp only [Option.map_some, List.filterMap_cons, id_eq, List.filter_cons, hq]
        split <;> simp
    | succ n =>
      simp only [List.modify_succ_cons]
      rcases a with _ | e
      · simpa using ih n
      · simp only [List.filterMap_cons, id_eq, List.filter_cons]
        split
        · simpa using ih n
        · exact ih n

theorem inv_touchEdge {g g' : Graph ν ε} {log : Log ν ε} {id : ℕ} (f : ε → ε) (inv : Inv g log)
    (h : modifyEdge g id f = .ok g') :
    Inv g'
      { log with
        edge := Function.update log.edge id
          ((log.edge id).map fun x => (x.1, x.2.1, f x.2.2)) } := by
  obtain rfl := modifyEdge_ok h
  have hl := live_modifyEdge g id f
  have key : ∀ {j e}, live { g with
      edges := g.edges.modify id fun e => e.map fun e => { e with payload := f e.payload } } j =
      some e → ∃ e0, live g j = some e0 ∧ e = touched id f j e0 := by
    intro j e he
    rw [hl, Option.map_eq_some_iff] at he
    obtain ⟨e0, h1, h2⟩ := he
    exact ⟨e0, h1, h2.symm⟩
  refine ⟨inv.nodes, inv.nid, inv.poolNodup, ?_, ?_, ?_, ?_, ?_, ?_, inv.outNodup, ?_, ?_⟩
  · intro j
    simp only [getElem?_modifyEdge, inv.pool]
    rcases g.edges[j]? with _ | _ | e <;> simp
  · intro j e he; obtain ⟨e0, h0, rfl⟩ := key he; exact inv.eid j e0 h0
  · intro j
    rw [hl]
    by_cases hj : j = id
    · subst hj
      simp only [Function.update_self, inv.edge, Option.map_map]
      congr 1
      funext e
      simp [Edge.view, touched]
    · simp only [Function.update_of_ne hj, inv.edge, Option.map_map]
      congr 1
      funext e
      simp [Edge.view, touched, hj]
  · intro j e he; obtain ⟨e0, h0, rfl⟩ := key he; exact inv.ends j e0 h0
  · simpa using inv.high
  · intro i j e e' h1 h2
    obtain ⟨e0, h3, rfl⟩ := key h1
    obtain ⟨e0', h4, rfl⟩ := key h2
    exact inv.inj i j e0 e0' h3 h4
  · intro j e he; obtain ⟨e0, h0, rfl⟩ := key he; exact inv.complete j e0 h0
  · intro h0
    refine ⟨(inv.exact h0).1, fun i n hn => ?_⟩
    have := (inv.exact h0).2 i n hn
    rw [this.1, this.2]
    constructor <;> symm <;> apply filter_modifyEdge <;> intros <;> rfl

theorem History.inv {g : Graph ν ε} {log : Log ν ε} (h : History g log) : Inv g log := by
  induction h with
  | init => exact inv_empty
  | addNode p _ ih => exact inv_addNode ih p
  | addEdge _ fresh h ih =>
    obtain ⟨hs, hd, ha⟩ := addEdge_added ih h
    exact inv_added ih fresh hs hd ha
  | removed _ h ih => exact inv_removed ih h
  | notRemoved _ h ih => rw [removeEdge_false h]; exact ih
  | touchNode f _ h ih => exact inv_touchNode f ih h
  | touchEdge f _ h ih => exact inv_touchEdge f ih h

theorem Inv.nodesLen {g : Graph ν ε} {log : Log ν ε} (inv : Inv g log) :
    g.nodes.length = log.nodes.length := by rw [← inv.nodes]; simp

/-! ### Number of live edges -/

theorem length_eq_filterMap_add_count (l : List (Option (Edge ε))) :
    l.length = (l.filterMap _root_.id).length + l.countP Option.isNone := by
  induction l with
  | nil => rfl
  | cons a l ih =>
    rcases a with _ | e <;> simp [ih] <;> omega

end Verif.PoseGraph
