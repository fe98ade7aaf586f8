import Verif.Loop.Props

/-
The search in graphs as the mapper builds them: lemmas for C119.
-/
namespace Verif.Loop

open Verif Verif.PoseGraph Verif.Slam

variable {τ : Type}

/-! ### Exact result of the expansion -/

theorem findEdge_setUsed {g : G τ} {a a' : ℕ} (h : a' ≠ a) : findEdge (setUsed g a) a' = findEdge g a' := by
  unfold findEdge setUsed
  have key : ∀ l : List (Option (Edge EdgeP)),
      ((l.map fun e => e.map fun e : Edge EdgeP =>
        if e.addr = a then { e with payload := { e.payload with used := true } } else e).filterMap id).find?
          (fun e => decide (e.addr = a')) = (l.filterMap id).find? fun e => decide (e.addr = a') := by
    intro l
    induction l with
    | nil => rfl
    | cons o l ih =>
      rcases o with _ | e
      · simpa using ih
      · simp only [List.map_cons, Option.map_some, List.filterMap_cons, id_eq]
        by_cases ha : e.addr = a
        · have h1 : ¬ e.addr = a' := fun hc => h (by rw [← hc, ha])
          rw [if_pos ha, List.find?_cons_of_neg (by simpa using h1),
            List.find?_cons_of_neg (by simpa using h1)]
          exact ih
        · rw [if_neg ha]
          by_cases ha' : e.addr = a'
          · rw [List.find?_cons_of_pos (by simpa using ha'), List.find?_cons_of_pos (by simpa using ha')]
          · rw [List.find?_cons_of_neg (by simpa using ha'), List.find?_cons_of_neg (by simpa using ha')]
            exact ih
  exact key g.edges

/-- The element, if any, that the expansion produces for an address. -/
noncomputable def expandOne (g : G τ) (base : Item) (a : ℕ) : Option Item :=
  (findEdge g a).bind fun e =>
    if e.payload.used then none
    else (g.nodes[e.src]?).bind fun n => if n.payload.visited then none else some (base.add (edgeItem e))

theorem expand_list {l : List ℕ} {base : Item} {out out' : List Item} {g g' : G τ} (hl : l.Nodup)
    (h : expand l base (out, g) = .ok (out', g')) : out' = out ++ l.filterMap (expandOne g base) := by
  induction l generalizing out g with
  | nil =>
    simp only [expand, Res.ok.injEq, Prod.mk.injEq] at h
    simp [h.1]
  | cons a rest ih =>
    rw [List.nodup_cons] at hl
    have hrest : rest.filterMap (expandOne (setUsed g a) base) = rest.filterMap (expandOne g base) := by
      apply List.filterMap_congr
      intro x hx
      unfold expandOne
      rw [findEdge_setUsed (fun hc : x = a => hl.1 (hc ▸ hx))]
      rfl
    simp only [expand] at h
    rcases hf : findEdge g a with _ | e
    · rw [hf] at h; cases h
    · rw [hf] at h
      simp only at h
      by_cases hu : e.payload.used = true
      · rw [if_pos hu] at h
        rw [ih hl.2 h, List.filterMap_cons]
        have : expandOne g base a = none := by unfold expandOne; rw [hf]; simp [hu]
        rw [this]
      · rw [if_neg hu] at h
        rcases hn : g.nodes[e.src]? with _ | n
        · rw [hn] at h; cases h
        · rw [hn] at h
          simp only at h
          by_cases hv : n.payload.visited = true
          · rw [if_pos hv] at h
            rw [ih hl.2 h, List.filterMap_cons, hrest]
            have : expandOne g base a = none := by unfold expandOne; rw [hf]; simp [hu, hn, hv]
            rw [this]
          · rw [if_neg hv] at h
            rw [ih hl.2 h, List.filterMap_cons, hrest]
            have : expandOne g base a = some (base.add (edgeItem e)) := by
              unfold expandOne; rw [hf]; simp [hu, hn, hv]
            rw [this]
            simp

theorem filterMap_none {α β : Type*} {f : α → Option β} {l : List α} (h : ∀ a ∈ l, f a = none) :
    l.filterMap f = [] := by
  rw [List.filterMap_eq_nil_iff]; exact h

theorem filterMap_single {α β : Type*} {f : α → Option β} {l : List α} (hl : l.Nodup) {a : α} {x : β}
    (ha : a ∈ l) (hx : f a = some x) (h : ∀ c ∈ l, c ≠ a → f c = none) : l.filterMap f = [x] := by
  induction l with
  | nil => cases ha
  | cons c l ih =>
    rw [List.nodup_cons] at hl
    rcases List.mem_cons.1 ha with rfl | ha
    · rw [List.filterMap_cons, hx]
      simp only [List.cons.injEq, true_and]
      exact filterMap_none fun d hd => h d (List.mem_cons_of_mem _ hd) (fun hc => hl.1 (hc ▸ hd))
    · rw [List.filterMap_cons, h c (List.mem_cons_self ..) (fun hc => hl.1 (hc ▸ ha))]
      exact ih hl.2 ha fun d hd => h d (List.mem_cons_of_mem _ hd)

/-! ### Reading the book in a marked graph -/

theorem live_book {s : State τ} {b : Book τ} (h : SInv s b) {id : ℕ} {e}
    (he : live s.graph id = some e) : ∃ c, b.cons[id]? = some c ∧ e.src = c.1 ∧ e.dst = c.2.1 ∧
      e.payload.trans = c.2.2.1 := by
  have hlt := live_lt he
  rw [h.edgesLen] at hlt
  obtain ⟨a, ha⟩ := h.edges id _ (List.getElem?_eq_getElem hlt)
  rw [live_iff, ha] at he
  cases he
  exact ⟨_, List.getElem?_eq_getElem hlt, rfl, rfl, rfl⟩

theorem book_live {s : State τ} {b : Book τ} (h : SInv s b) {id : ℕ} {c}
    (hc : b.cons[id]? = some c) : ∃ e, live s.graph id = some e ∧ e.src = c.1 ∧ e.dst = c.2.1 ∧
      e.payload.trans = c.2.2.1 := by
  obtain ⟨a, ha⟩ := h.edges id c hc
  exact ⟨_, live_iff.2 ha, rfl, rfl, rfl⟩

theorem node_book {s : State τ} {b : Book τ} (h : SInv s b) {i : ℕ} {n}
    (hn : s.graph.nodes[i]? = some n) : ∃ p, b.poses[i]? = some p ∧ n.payload.pose = p.1 := by
  have := congrArg (fun l => l[i]?) h.nodes
  simp only [List.getElem?_map, hn, Option.map_some] at this
  obtain ⟨p, hp, hq⟩ := Option.map_eq_some_iff.1 this.symm
  exact ⟨p, hp, by rw [← hq]⟩

theorem inn_nodup {s : State τ} {b : Book τ} (h : SInv s b) {g : G τ} (hs : Same s.graph g) {i : ℕ} {n}
    (hn : g.nodes[i]? = some n) : n.inn.Nodup := by
  obtain ⟨n0, h0, h1⟩ := hs.node hn
  obtain ⟨gl, hg, -⟩ := h.graph
  rw [(unmarkN_eq h1).2.2.1]
  exact (hg.inv.outNodup i n0 h0).2

theorem leg_eq {b : Book τ} (hb : MapperShape b) {k i : ℕ} {c} (hi : i + 1 < b.poses.length)
    (hc : b.cons[k]? = some c) (h1 : c.1 = i) (h2 : c.2.1 = i + 1) : leg b i = ‖place c.2.2.1‖ := by
  unfold leg
  rcases hf : b.cons.find? (fun c => decide (c.1 = i ∧ c.2.1 = i + 1)) with _ | c'
  · rw [List.find?_eq_none] at hf
    have := hf c (List.mem_iff_getElem?.2 ⟨k, hc⟩)
    simp [h1, h2] at this
  · have h3 := List.find?_some hf
    obtain ⟨k', hk'⟩ := List.mem_iff_getElem?.1 (List.mem_of_find?_eq_some hf)
    simp only [decide_eq_true_eq] at h3
    obtain ⟨k0, -, hu⟩ := hb.2 i hi
    have e1 := hu k ⟨c, hc, h1, h2⟩
    have e2 := hu k' ⟨c', hk', h3⟩
    rw [e1] at hc
    rw [e2, hc] at hk'
    cases hk'
    rw [hf]
    rfl

/-! ### Invariant -/

/-- State of the search after `k` poses have been examined (the newest one included). -/
structure CInv (env : Env) (s0 : State τ) (b : Book τ) (st : St τ) : Prop where
  pos : 1 ≤ st.visited
  le : st.visited ≤ b.poses.length
  same : Same s0.graph st.graph
  vis : ∀ (i : ℕ) n, st.graph.nodes[i]? = some n →
    (n.payload.visited = true ↔ b.poses.length ≤ i + st.visited)
  used : ∀ id e, live st.graph id = some e →
    (e.payload.used = true ↔ b.poses.length ≤ e.dst + st.visited)
  fringe : st.visited < b.poses.length → ∃ it, st.fringe = [it] ∧
    it.node + 1 + st.visited = b.poses.length ∧ it.dist = env.junk + travelled b it.node

/-- Examining pose `m` marks it, and leaves one element waiting, for pose `m - 1`, or none. -/
theorem examine {env : Env} {s0 : State τ} {b : Book τ} (h : SInv s0 b) (hb : MapperShape b)
    {g g1 g2 : G τ} (hs : Same s0.graph g) {m : ℕ} (hm : m < b.poses.length) {base : Item}
    {items : List Item}
    (vis : ∀ (i : ℕ) n, g.nodes[i]? = some n → (n.payload.visited = true ↔ m < i))
    (used : ∀ id e, live g id = some e → (e.payload.used = true ↔ m < e.dst))
    (hv : setVisited g m = .ok g1) (hgen : genPossibleEdges g1 m base = .ok (items, g2))
    (hbase : base.dist = env.junk + travelled b m) :
    Same s0.graph g2 ∧
    (∀ (i : ℕ) n, g2.nodes[i]? = some n → (n.payload.visited = true ↔ m ≤ i)) ∧
    (∀ id e, live g2 id = some e → (e.payload.used = true ↔ m ≤ e.dst)) ∧
    (m = 0 → items = []) ∧
    ∀ i, m = i + 1 → ∃ it, items = [it] ∧ it.node = i ∧ it.dist = env.junk + travelled b i := by
  have hg := good_of_inv h
  have hs1 := hs.trans (same_setVisited hv)
  have hg1 := hg.same hs1
  have hlen : m < g1.nodes.length := by rw [hs1.nodesLen, h.nodesLen]; exact hm
  obtain ⟨nd, items', g2', hnd, hgen', hex⟩ := genPossibleEdges_spec hg1 (base := base) hlen
  rw [hgen] at hgen'
  cases hgen'
  have hs2 := hs1.trans hex.same
  have vis1 : ∀ (i : ℕ) n, g1.nodes[i]? = some n → (n.payload.visited = true ↔ m ≤ i) := by
    intro i n hn
    obtain ⟨n0, h0, hiff⟩ := visited_setVisited hv hn
    rw [hiff, vis i n0 h0]
    omega
  have used1 : ∀ id e, live g1 id = some e → (e.payload.used = true ↔ m < e.dst) := by
    intro id e he
    rw [live_setVisited hv] at he
    exact used id e he
  have hlist : items = nd.inn.filterMap (expandOne g1 base) := by
    have h1 := hgen
    unfold genPossibleEdges at h1
    obtain ⟨n', hn', h2⟩ := Res.bind_eq_ok.1 h1
    unfold getNode at hn'
    rw [hnd] at hn'
    cases hn'
    have := expand_list (inn_nodup h hs1 hnd) h2
    simpa using this
  -- what an incoming constraint of pose `m` is
  have hinn : ∀ a ∈ nd.inn, ∃ id e c, live g1 id = some e ∧ findEdge g1 a = some e ∧ e.addr = a ∧
      e.dst = m ∧ b.cons[id]? = some c ∧ e.src = c.1 ∧ c.2.1 = m ∧ e.payload.trans = c.2.2.1 := by
    intro a ha
    obtain ⟨id, e, h1, h2, h3⟩ := hg1.sound m nd a hnd ha
    obtain ⟨e0, k1, k2⟩ := hs1.live h1
    obtain ⟨c, c1, c2, c3, c4⟩ := live_book h k1
    have k3 := unmarkE_eq k2
    refine ⟨id, e, c, h1, by rw [← h2]; exact findEdge_of_live hg1 h1, h2, h3, c1, ?_, ?_, ?_⟩
    · rw [k3.2.2.1, c2]
    · rw [← c3, ← k3.2.2.2.1, h3]
    · rw [k3.2.2.2.2, c4]
  have hnone : ∀ a id e, live g1 id = some e → findEdge g1 a = some e → m ≤ e.src →
      expandOne g1 base a = none := by
    intro a id e h1 h2 h4
    have hsl := (hg1.ends id e h1).1
    have hn := List.getElem?_eq_getElem hsl
    unfold expandOne
    rw [h2, Option.bind_some, hn, Option.bind_some]
    have := (vis1 _ _ hn).2 h4
    split_ifs
    · rfl
    · rfl
  refine ⟨hs2, ?_, ?_, ?_, ?_⟩
  · intro i n hn
    rw [hex.nodes] at hn
    exact vis1 i n hn
  · intro id e he
    obtain ⟨e0, k1, k2⟩ := hex.same.live he
    have k3 := unmarkE_eq k2
    constructor
    · intro hu
      rcases hex.newUsed id e0 e k1 he hu with h1 | ⟨h1, -⟩
      · have := (used1 id e0 k1).1 h1
        rw [k3.2.2.2.1]; omega
      · obtain ⟨id', e', c, h2, -, h3, h4, -⟩ := hinn _ h1
        have := hg1.inj id' id e' e0 h2 k1 h3
        subst this
        rw [k1] at h2; cases h2
        rw [k3.2.2.2.1, h4]
    · intro hd
      rcases Nat.eq_or_lt_of_le hd with hd | hd
      · obtain ⟨n', hn', ha⟩ := (hg1.same hex.same).complete id e he
        rw [← hd, hex.nodes, hnd] at hn'
        cases hn'
        exact hex.used id e he ha
      · exact hex.keep id e0 e k1 he ((used1 id e0 k1).2 (by rw [← k3.2.2.2.1]; exact hd))
  · intro h0
    rw [hlist]
    refine filterMap_none fun a ha => ?_
    obtain ⟨id, e, c, h1, h2, h3, h4, h5, h6, h7, h8⟩ := hinn a ha
    exact hnone a id e h1 h2 (by omega)
  · intro i hi
    obtain ⟨k, ⟨c, hc, hc1, hc2⟩, hu⟩ := hb.2 i (by omega)
    obtain ⟨e0, k1, k2, k3, k4⟩ := book_live h hc
    obtain ⟨e, j1, j2⟩ := hs1.symm.live k1
    have j3 := unmarkE_eq j2
    obtain ⟨n', hn', ha⟩ := hg1.complete k e j1
    have hdst : e.dst = m := by rw [← j3.2.2.2.1, k3, hc2, hi]
    have hsrc : e.src = i := by rw [← j3.2.2.1, k2, hc1]
    rw [hdst, hnd] at hn'
    cases hn'
    have hone : expandOne g1 base e.addr = some (base.add (edgeItem e)) := by
      have hn := List.getElem?_eq_getElem (hg1.ends k e j1).1
      unfold expandOne
      rw [findEdge_of_live hg1 j1, Option.bind_some, if_neg, hn, Option.bind_some, if_neg]
      · intro hc'
        have := (vis1 _ _ hn).1 hc'
        omega
      · intro hc'
        have := (used1 k e j1).1 hc'
        omega
    refine ⟨base.add (edgeItem e), ?_, hsrc, ?_⟩
    · rw [hlist]
      refine filterMap_single (inn_nodup h hs1 hnd) ha hone fun a ha' hne => ?_
      obtain ⟨id, e', c', h1, h2, h3, h4, h5, h6, h7, h8⟩ := hinn a ha'
      rcases hb.1 c' (List.mem_iff_getElem?.2 ⟨id, h5⟩) with hcc | hcc
      · exfalso
        have := hu id ⟨c', h5, by omega, by omega⟩
        have hk : id = k := this.trans (hu k ⟨c, hc, hc1, hc2⟩).symm
        subst hk
        rw [j1] at h1
        cases h1
        exact hne h3.symm
      · exact hnone a id e' h1 h2 (by omega)
    · rw [add_dist, edgeItem_dist, hbase, ← j3.2.2.2.2, k4, edgeLen_eq]
      unfold travelled
      rw [Finset.sum_eq_sum_Ico_succ_bot (show i < b.poses.length - 1 by omega),
        leg_eq hb (by omega) hc hc1 hc2, hi]
      ring

/-! ### The loop -/

/-- The poses examined after the newest one, in this order. -/
def olderPoses (n : ℕ) : List ℕ := (List.range (n - 1)).reverse

theorem olderPoses_take {n k i : ℕ} (h : i + 1 + k = n) (hk : 1 ≤ k) :
    (olderPoses n).take k = (olderPoses n).take (k - 1) ++ [i] := by
  obtain ⟨k, rfl⟩ := Nat.exists_eq_add_of_le' hk
  have hlt : k < (olderPoses n).length := by simp [olderPoses]; omega
  rw [Nat.add_sub_cancel, List.take_succ_eq_append_getElem hlt]
  congr 2
  simp [olderPoses, List.getElem_reverse]
  omega

open Classical in
/-- Invariant: the attempts are the candidates among the poses examined so far. -/
structure DInv (env : Env) (s0 : State τ) (b : Book τ) (st : St τ) : Prop extends CInv env s0 b st where
  attempts : st.attempts = ((olderPoses b.poses.length).take (st.visited - 1)).filter
    fun i => decide (Candidate env b i)
  depth : st.depth = st.attempts.length
  max : st.depth ≤ 50
  found : st.found = closures env b st.attempts

theorem closures_append (env : Env) (b : Book τ) (l : List ℕ) (i : ℕ) :
    closures env b (l ++ [i]) = closures env b l ++
      ((answer env b l.length i).bind fun r =>
        if r.success then some ⟨b.poses.length - 1, i, r.inform, r.trans⟩ else none).toList := by
  unfold closures
  rw [List.zipIdx_append, List.filterMap_append]
  congr 1
  simp only [List.zipIdx_singleton, Nat.zero_add, List.filterMap_cons, List.filterMap_nil]
  split <;> simp_all

theorem begin_chain {env : Env} {s0 : State τ} {b : Book τ} (h : SInv s0 b) (hb : MapperShape b)
    (hne : 0 < b.poses.length) :
    ∃ st, begin env s0.graph (b.poses.length - 1) = .ok st ∧ DInv env s0 b st := by
  have hg := good_of_inv h
  have hlen := h.nodesLen
  have hv := setVisited_ok (g := s0.graph) (i := b.poses.length - 1) (by omega)
  obtain ⟨n, items, g', hn, hgen, hex⟩ := genPossibleEdges_spec (hg.same (same_setVisited hv))
    (node := b.poses.length - 1) (base := startItem env (b.poses.length - 1)) (by simp; omega)
  have hu := unmarked_of_inv h
  obtain ⟨e1, e2, e3, e4, e5⟩ := examine (env := env) h hb (.refl _) (m := b.poses.length - 1) (by omega)
    (fun i nd hnd => by
      have h1 := hu.1 nd (List.mem_iff_getElem?.2 ⟨i, hnd⟩)
      have h2 : i < s0.graph.nodes.length := (List.getElem?_eq_some_iff.1 hnd).1
      rw [h1]; simp; omega)
    (fun id e he => by
      have h1 := edge_of_inv h he
      have h2 := (hg.ends id e he).2
      rw [h1]; simp; omega) hv hgen
    (by simp [startItem, travelled])
  refine ⟨⟨g', items, 1, 0, [], []⟩, by unfold begin; rw [hv, Res.bind_ok, hgen]; rfl,
    ⟨le_rfl, hne, e1, ?_, ?_, ?_⟩, by simp, rfl, by simp, rfl⟩
  · intro i nd hnd
    rw [e2 i nd hnd]
    simp only
    omega
  · intro id e he
    rw [e3 id e he]
    simp only
    omega
  · intro h1
    simp only at h1
    obtain ⟨it, i1, i2, i3⟩ := e5 (b.poses.length - 2) (by omega)
    exact ⟨it, i1, by simp only; omega, by rw [i2]; exact i3⟩

theorem body_chain {env : Env} {s0 : State τ} {b : Book τ} (h : SInv s0 b) (hb : MapperShape b)
    {st : St τ} (inv : DInv env s0 b st) (hr : st.visited < b.poses.length) (hd : st.depth < 50) :
    ∃ st', body env (b.poses.length - 1) st = .ok st' ∧ DInv env s0 b st' ∧
      st'.visited = st.visited + 1 := by
  classical
  have hg := good_of_inv h
  have hlen := h.nodesLen
  obtain ⟨it, f1, f2, f3⟩ := inv.fringe hr
  have hgl := inv.same.nodesLen
  have ht := List.getElem?_eq_getElem (show b.poses.length - 1 < st.graph.nodes.length by omega)
  have hsrc := List.getElem?_eq_getElem (show it.node < st.graph.nodes.length by omega)
  set target := st.graph.nodes[b.poses.length - 1] with htarget
  set source := st.graph.nodes[it.node] with hsource
  obtain ⟨t0, ht0, ht1⟩ := inv.same.node ht
  obtain ⟨r0, hr0, hr1⟩ := inv.same.node hsrc
  obtain ⟨p, hp, hp'⟩ := node_book h ht0
  obtain ⟨q, hq, hq'⟩ := node_book h hr0
  have tp : target.payload.pose = p.1 := by rw [(unmarkN_eq ht1).2.2.2.1, hp']
  have sp : source.payload.pose = q.1 := by rw [(unmarkN_eq hr1).2.2.2.1, hq']
  obtain ⟨tg, tf, tv⟩ := tryMatch_other env (b.poses.length - 1) st it target.payload.pose source.payload.pose
  set s1 := tryMatch env (b.poses.length - 1) st it target.payload.pose source.payload.pose with hs1
  have hv := setVisited_ok (g := st.graph) (i := it.node) (by omega)
  have hgs := (hg.same inv.same).same (same_setVisited hv)
  obtain ⟨n, items, g', hn, hgen, hex⟩ := genPossibleEdges_spec hgs (node := it.node) (base := it)
    (by simp; omega)
  obtain ⟨e1, e2, e3, e4, e5⟩ := examine (env := env) h hb inv.same (m := it.node) (by omega)
    (fun i nd hnd => by rw [inv.vis i nd hnd]; omega)
    (fun id e he => by rw [inv.used id e he]; omega) hv hgen f3
  have hbody : body env (b.poses.length - 1) st = .ok
      { s1 with
        graph := g'
        fringe := items
        visited := st.visited + 1 } := by
    unfold body
    rw [f1]
    simp only [List.length_singleton, Nat.mod_one, List.getElem?_cons_zero]
    unfold getNode
    simp only [ht, hsrc, Res.bind_ok]
    rw [← hs1, tg, hv, Res.bind_ok, hgen]
    simp
  have hcand : (poseDist target.payload.pose source.payload.pose < env.maxDist ∧ ¬ it.dist < env.minDist) ↔
      Candidate env b it.node := by
    rw [poseDist_eq, tp, sp, f3, not_lt]
    constructor
    · intro hc
      exact ⟨p, q, hp, hq, hc⟩
    · rintro ⟨p', q', h1, h2, h3⟩
      rw [hp] at h1
      rw [hq] at h2
      cases h1
      cases h2
      exact h3
  have hans : answer env b st.depth it.node =
      some (env.matcher st.depth it.node (b.poses.length - 1) (guessTrans target.payload.pose source.payload.pose)) := by
    unfold answer
    rw [hp, hq, tp, sp, guessTrans_eq]
  have htake := olderPoses_take f2 inv.pos
  refine ⟨_, hbody, ⟨⟨by simp, by simp only; omega, e1, ?_, ?_, ?_⟩, ?_, ?_, ?_, ?_⟩, rfl⟩
  · intro i nd hnd
    rw [e2 i nd hnd]
    simp only
    omega
  · intro id e he
    rw [e3 id e he]
    simp only
    omega
  · intro h1
    simp only at h1
    obtain ⟨it', i1, i2, i3⟩ := e5 (it.node - 1) (by omega)
    exact ⟨it', i1, by simp only; omega, by rw [i2]; exact i3⟩
  all_goals
    simp only [Nat.add_sub_cancel]
    rw [hs1]
    unfold tryMatch
  · rw [htake, List.filter_append, ← inv.attempts]
    split_ifs with hc
    · simp [hcand.1 hc]
    · have := mt hcand.2 hc
      simp [this]
  · split_ifs with hc
    · simp [inv.depth]
    · exact inv.depth
  · split_ifs with hc
    · simp only; omega
    · exact inv.max
  · split_ifs with hc
    · simp only
      rw [closures_append, ← inv.found, ← inv.depth, hans, Option.bind_some]
      split_ifs <;> simp
    · exact inv.found

theorem filter_take_prefix {α : Type*} (p : α → Bool) (l : List α) (k : ℕ) :
    (l.take k).filter p = (l.filter p).take ((l.take k).filter p).length := by
  conv_rhs => rw [← List.take_append_drop k l, List.filter_append]
  rw [List.take_append_drop]
  simp

theorem loop_chain {env : Env} {s0 : State τ} {b : Book τ} (h : SInv s0 b) (hb : MapperShape b)
    {st : St τ} (inv : DInv env s0 b st) {fuel : ℕ} (hf : b.poses.length ≤ st.visited + fuel) :
    ∃ st', loop env (b.poses.length - 1) fuel st = some (.ok st') ∧ DInv env s0 b st' ∧
      (st'.visited = b.poses.length ∨ st'.depth = 50) := by
  have hn : ∀ st : St τ, DInv env s0 b st → nodeCount st.graph = b.poses.length := fun st inv => by
    rw [nodeCount, inv.same.nodesLen, h.nodesLen]
  induction fuel generalizing st with
  | zero =>
    have hnr : ¬ running st := by
      unfold running
      rw [hn st inv]
      omega
    refine ⟨st, by unfold loop; rw [if_neg hnr], inv, .inl ?_⟩
    have := inv.le
    omega
  | succ fuel ih =>
    by_cases hr : running st
    · have hr' := hr
      unfold running at hr'
      rw [hn st inv] at hr'
      obtain ⟨st1, h1, h2, h3⟩ := body_chain h hb inv hr'.1 hr'.2
      obtain ⟨st', k1, k2⟩ := ih h2 (by omega)
      refine ⟨st', ?_, k2⟩
      unfold loop
      rw [if_pos hr, h1]
      exact k1
    · refine ⟨st, by unfold loop; rw [if_neg hr], inv, ?_⟩
      unfold running at hr
      rw [hn st inv] at hr
      have h1 := inv.le
      have h2 := inv.max
      have h3 : maxDepth = 50 := rfl
      omega

end Verif.Loop
