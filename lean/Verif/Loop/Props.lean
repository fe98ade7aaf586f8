import Verif.Loop.Lemmas

/-
Properties C39-C42: the loop search.
-/
namespace Verif.Loop

open Verif Verif.PoseGraph Verif.Slam

variable {τ : Type}

theorem live_of_getEdge {g : G τ} {id : ℕ} {e} (h : getEdge g id = .ok e) : live g id = some e := by
  unfold getEdge at h
  rcases hl : live g id with _ | e'
  · rw [hl] at h; split_ifs at h
  · rw [hl] at h
    split_ifs at h
    cases h; rfl

theorem getEdge_live {g : G τ} (hp : g.pool = []) {id : ℕ} {e} (h : live g id = some e) :
    getEdge g id = .ok e := by
  unfold getEdge
  rw [h, if_neg (by have := live_lt h; omega), if_neg (by simp [hp])]

theorem edgeLen_eq (p : Pose) : edgeLen p = ‖place p‖ := by
  rw [edgeLen, Complex.norm_def, Complex.normSq_apply]
  simp only [place, sq]

theorem poseDist_eq (p q : Pose) : poseDist p q = dist (place p) (place q) := by
  rw [poseDist, Complex.dist_eq, Complex.norm_def, Complex.normSq_apply]
  simp only [place, sq, Complex.sub_re, Complex.sub_im]

theorem path_iff {g : G τ} (hp : g.pool = []) {start n : ℕ} {len : ℝ} :
    Path g start n len ↔ LPath g start n len := by
  constructor
  · intro h
    induction h with
    | nil => exact .nil
    | cons _ he hd ih =>
      rw [← edgeLen_eq]
      exact .cons ih (live_of_getEdge he) hd
  · intro h
    induction h with
    | nil => exact .nil
    | cons _ he hd ih =>
      rw [edgeLen_eq]
      exact .cons ih (getEdge_live hp he) hd

theorem good_of_inv {s : State τ} {b : Book τ} (h : SInv s b) : Good s.graph := by
  obtain ⟨gl, hg, hr⟩ := h.graph
  have inv := hg.inv
  refine ⟨?_, ?_, inv.inj, inv.ends, inv.eid⟩
  · intro i n a hn ha
    rw [((inv.exact hr).2 i n hn).2, List.mem_map] at ha
    obtain ⟨e, he, rfl⟩ := ha
    rw [List.mem_filter, mem_filterMap_live] at he
    obtain ⟨⟨id, h1⟩, h2⟩ := he
    exact ⟨id, e, h1, rfl, by simpa using h2⟩
  · intro id e he
    have := List.getElem?_eq_getElem (inv.ends id e he).2
    exact ⟨_, this, (inv.complete id e he).2 _ this⟩

theorem edge_of_inv {s : State τ} {b : Book τ} (h : SInv s b) {id : ℕ} {e}
    (he : live s.graph id = some e) : e.payload.used = false := by
  have hlt := live_lt he
  rw [h.edgesLen] at hlt
  obtain ⟨a, ha⟩ := h.edges id _ (List.getElem?_eq_getElem hlt)
  rw [live_iff, ha] at he
  cases he; rfl

theorem unmarked_of_inv {s : State τ} {b : Book τ} (h : SInv s b) : Unmarked s.graph := by
  constructor
  · intro n hn
    have : n.payload ∈ s.graph.nodes.map Node.payload := List.mem_map_of_mem hn
    rw [h.nodes, List.mem_map] at this
    obtain ⟨x, -, hx⟩ := this
    rw [← hx]
  · intro id e he
    exact edge_of_inv h (live_of_getEdge he)

theorem visitedCount_zero {g : G τ} (h : Unmarked g) : visitedCount g = 0 := by
  unfold visitedCount
  rw [List.countP_eq_zero]
  intro n hn; simp [h.1 n hn]

theorem head_of_inv {s : State τ} {b : Book τ} (h : SInv s b) :
    s.graph.edges.head? ≠ some none := by
  intro hc
  rw [List.head?_eq_getElem?] at hc
  have hlt : 0 < s.graph.edges.length := by
    by_contra h0
    rw [List.getElem?_eq_none (by omega)] at hc; cases hc
  rw [h.edgesLen] at hlt
  obtain ⟨a, ha⟩ := h.edges 0 _ (List.getElem?_eq_getElem hlt)
  rw [ha] at hc; cases hc

theorem good_of_history {s : State τ} {b : Book τ} (h : History s b) : Good s.graph := good_of_inv h.inv

theorem unmarked_of_history {s : State τ} {b : Book τ} (h : History s b) : Unmarked s.graph := unmarked_of_inv h.inv

theorem clearMarks_unmarked {g : G τ} (hp : g.pool = []) (h : Unmarked g) : clearMarks g = g := by
  obtain ⟨nodes, edges, pool⟩ := g
  unfold clearMarks
  simp only [Graph.mk.injEq, and_true]
  constructor
  · conv_rhs => rw [← List.map_id nodes]
    apply List.map_congr_left
    intro n hn
    have := h.1 n hn
    obtain ⟨i, ⟨p, o, v⟩, a, b⟩ := n
    simp only at this
    subst this; rfl
  · conv_rhs => rw [← List.map_id edges]
    apply List.map_congr_left
    intro o ho
    rcases o with _ | e
    · rfl
    · obtain ⟨i, hi⟩ := List.mem_iff_getElem?.1 ho
      have := h.2 i e (getEdge_live hp (live_iff.2 hi))
      obtain ⟨a, i', s, d, ⟨t, I, st, k, u⟩⟩ := e
      simp only at this
      subst this; rfl

/-! ### Examples used below -/

/-- The graph of `exS3` (two poses, constraint from 0 to 1) with marks. -/
def exMarked (v0 v1 u : Bool) : G String :=
  ⟨[⟨0, ⟨p0, "a", v0⟩, [10], []⟩, ⟨1, ⟨p1, "b", v1⟩, [], [10]⟩],
    [some ⟨10, 0, 0, 1, ⟨p1, stdInfo, .active, .odom, u⟩⟩], []⟩

theorem exS3_graph : exS3.graph = exMarked false false false := rfl

theorem edgeLen_p1 : edgeLen p1 = 1 := by simp [edgeLen, p1]

/-- The element for the constraint of `exS3`. -/
noncomputable def exItem (env : Env) : Item :=
  (startItem env 1).add (edgeItem ⟨10, 0, 0, 1, ⟨p1, stdInfo, .active, .odom, false⟩⟩)

theorem exItem_dist (env : Env) : (exItem env).dist = env.junk + 1 := by
  rw [exItem, add_dist, edgeItem_dist]
  exact congrArg _ edgeLen_p1

theorem poseDist_p1 : poseDist p1 p0 = 1 := by simp [poseDist, p1, p0]

/-- A search from pose 1 in `exS3`, step by step. -/
theorem exRun (env : Env) (h1 : 1 < env.maxDist) (h2 : env.minDist ≤ env.junk + 1)
    (h3 : ∀ g, env.matcher 0 0 1 g = ⟨true, 1, 1⟩) : search env 2 exS3.graph 1 =
      some (.ok ⟨exMarked true true true, [], 2, 1, [⟨1, 0, 1, 1⟩], [0]⟩) := by
  have hb : begin env exS3.graph 1 = .ok
      ⟨exMarked false true true, [exItem env], 1, 0, [], []⟩ := rfl
  have ht : ∀ s : St String, s.depth = 0 → tryMatch env 1 s (exItem env) p1 p0 =
      { s with
        depth := s.depth + 1
        attempts := s.attempts ++ [0]
        found := s.found ++ [⟨1, 0, 1, 1⟩] } := by
    intro s hs
    unfold tryMatch
    rw [if_pos ⟨by rw [poseDist_p1]; exact h1, by rw [exItem_dist]; exact not_lt.2 h2⟩]
    simp only [hs, show (exItem env).node = 0 from rfl, h3, if_true]
  have hbody : body env 1 ⟨exMarked false true true, [exItem env], 1, 0, [], []⟩ =
      .ok ⟨exMarked true true true, [], 2, 1, [⟨1, 0, 1, 1⟩], [0]⟩ := by
    unfold body
    simp only [List.length_singleton, Nat.mod_one]
    show (setVisited (tryMatch env 1 _ (exItem env) p1 p0).graph 0).bind _ = _
    rw [ht _ rfl]
    rfl
  unfold search
  rw [hb]
  simp only
  unfold loop
  rw [if_pos (show running _ from ⟨show 1 < 2 by decide, show 0 < 50 by decide⟩), hbody]
  simp only
  unfold loop
  rw [if_neg (by decide)]

/-- A matcher that always succeeds with the identity. -/
noncomputable def exEnv (minDist junk : ℝ) : Env :=
  ⟨minDist, 10, fun _ _ => 0, fun _ _ _ _ => ⟨true, 1, 1⟩, junk, 0⟩

/-! ### C39 -/

/-- **C39.** For every graph (also inconsistent ones), every start node and every environment the
search ends: as many loop rounds as there are nodes suffice.  A search that ends normally has made at
most 50 scan matches. -/
theorem C39_terminates (env : Env) (g : G τ) (start fuel : ℕ) (hf : nodeCount g ≤ fuel) :
    search env fuel g start ≠ none ∧
    ∀ s, search env fuel g start = some (.ok s) → s.attempts.length ≤ 50 := by
  unfold search
  rcases hb : begin env g start with s | e | u
  · obtain ⟨-, h1, h2, h3, h4⟩ := begin_inv hb
    refine ⟨loop_terminates env start fuel _ (by omega), fun s' hs => ?_⟩
    obtain ⟨h3, h4⟩ := loop_attempts hs (by rw [h4, h3]; rfl) (by omega)
    rw [h3]; exact h4
  · simp
  · simp

/-- A search that attempts a match. -/
example : ∃ s, search (exEnv 1 0) 2 exS3.graph 1 = some (.ok s) ∧ s.attempts = [0] ∧
    nodeCount exS3.graph ≤ 2 :=
  ⟨_, exRun (exEnv 1 0) (by norm_num [exEnv]) (by norm_num [exEnv]) fun _ => rfl, rfl, by decide⟩

/-! ### C40 -/

/-- The statement of C40 for one closure of a search from `start` in graph `g`.  `attempts` is the list
of scan matches made by the search (the source pose of each).  The match was started from a turn by the
difference of the two headings without translation. -/
def Justified (env : Env) (g : G τ) (start : ℕ) (attempts : List ℕ) (c : LoopClosure) : Prop :=
  c.src = start ∧ c.dst ≠ start ∧
  (∃ n m, getNode g start = .ok n ∧ getNode g c.dst = .ok m ∧
    dist (place n.payload.pose) (place m.payload.pose) < env.maxDist ∧
    ∃ k, attempts[k]? = some c.dst ∧
      Reported (env.matcher k c.dst start (turnOnly n.payload.pose m.payload.pose)) c) ∧
  ∃ len, Path g start c.dst len ∧ env.minDist ≤ len

/-- **C40**, partial: every closure connects the queried pose to a different pose nearer than the
maximum distance, for which one of the scan matches of this search reported success, and it carries
this match's transform and information.  The path distance condition is shown only up to the content
of the uninitialised variable (`env.junk`).  Missing: `minDist ≤ len` without `junk`, which is false
(`C40_false`); it does hold when the memory happens to contain a value ≤ 0. -/
theorem C40_justified_partial {s : State τ} {b : Book τ} (h : History s b) (env : Env)
    (fuel start : ℕ) (st : St τ) (hs : search env fuel s.graph start = some (.ok st)) :
    ∀ c ∈ st.found,
      c.src = start ∧ c.dst ≠ start ∧
      (∃ n m, getNode s.graph start = .ok n ∧ getNode s.graph c.dst = .ok m ∧
        dist (place n.payload.pose) (place m.payload.pose) < env.maxDist ∧
        ∃ k, st.attempts[k]? = some c.dst ∧
          Reported (env.matcher k c.dst start (turnOnly n.payload.pose m.payload.pose)) c) ∧
      (∃ len, Path s.graph start c.dst len ∧ env.minDist ≤ env.junk + len) ∧
      (env.junk ≤ 0 → Justified env s.graph start st.attempts c) := by
  have hg := good_of_history h
  have hp := h.inv.pool
  have inv : LInv env s.graph start st := by
    unfold search at hs
    by_cases hlt : start < s.graph.nodes.length
    · obtain ⟨s0, h1, h2, -⟩ := begin_spec (env := env) hg hlt
      rw [h1] at hs
      exact loop_linv hg hs h2
    · have : begin env s.graph start = .throw .outOfRange := by
        unfold begin setVisited modifyNode getNode
        rw [List.getElem?_eq_none (by omega)]; rfl
      rw [this] at hs; cases hs
  intro c hc
  obtain ⟨f1, f2, ⟨len, f3, f3'⟩, n, m, f4, f4', f4'', k, f5, f6⟩ := inv.found c hc
  have hn : getNode s.graph start = .ok n := by unfold getNode; rw [f4]
  have hm : getNode s.graph c.dst = .ok m := by unfold getNode; rw [f4']
  have hpath := (path_iff hp).2 f3
  rw [poseDist_eq] at f4''
  exact ⟨f1, f2, ⟨n, m, hn, hm, f4'', k, f6⟩, ⟨len, hpath, f3'⟩,
    fun hj => ⟨f1, f2, ⟨n, m, hn, hm, f4'', k, f6⟩, len, hpath, by linarith⟩⟩

/-- A search in a reachable state that reports a closure. -/
example : ∃ st c, search (exEnv 1 0) 2 exS3.graph 1 = some (.ok st) ∧ c ∈ st.found ∧ c.dst = 0 :=
  ⟨_, _, exRun (exEnv 1 0) (by norm_num [exEnv]) (by norm_num [exEnv]) fun _ => rfl,
    List.mem_singleton_self _, rfl⟩

theorem exPath_len {n : ℕ} {len : ℝ} (h : Path exS3.graph 1 n len) : len ≤ 1 ∧ (n = 1 → len = 0) := by
  induction h with
  | nil => exact ⟨by norm_num, fun _ => rfl⟩
  | @cons m len id e _ he hd ih =>
    have hl := live_of_getEdge he
    rw [exS3_graph] at hl
    have hid : id = 0 := by have := live_lt hl; simpa [exMarked] using this
    subst hid
    simp only [exMarked, live, List.getElem?_cons_zero, Option.join_some, Option.some.injEq] at hl
    subst hl
    simp only at hd ih ⊢
    have := ih.2 hd.symm
    rw [this, ← edgeLen_eq, edgeLen_p1]
    exact ⟨by norm_num, by simp⟩

/-- **C40** fails: the distance of the start element is never initialised, so with a suitable content
of that memory a closure is reported although no path to the pose is as long as the minimum. -/
theorem C40_false : ∃ (s : State String) (b : Book String) (env : Env) (st : St String)
    (c : LoopClosure), History s b ∧ search env (nodeCount s.graph) s.graph 1 = some (.ok st) ∧
      c ∈ st.found ∧ ¬ Justified env s.graph 1 st.attempts c := by
  refine ⟨exS3, _, exEnv 50 100, _, _, exS3_history,
    exRun (exEnv 50 100) (by norm_num [exEnv]) (by norm_num [exEnv]) fun _ => rfl, List.mem_singleton_self _, ?_⟩
  rintro ⟨-, -, -, len, hp, hmin⟩
  have := (exPath_len hp).1
  simp only [exEnv] at hmin
  linarith

/-! ### C41 -/

theorem cleanup_strict_ub {g : G τ} (hne : g.nodes ≠ []) : (cleanup .strict g).IsUB := by
  obtain ⟨u, hu⟩ := (C31_false g).2 hne
  refine ⟨u, ?_⟩
  unfold cleanup forEach
  simp only
  rw [hu]; rfl

/-- **C41** fails in the strict reading of the language: with at least one node the clean-up always
runs into the read past the end of C31, so no search ends with defined behaviour, whatever the
graph. -/
theorem C41_false (env : Env) (fuel : ℕ) (g : G τ) (start : ℕ) (r)
    (h : genLoopClosures .strict env fuel g start = some r) : ¬ r.IsOk := by
  unfold genLoopClosures at h
  obtain ⟨x, hx, rfl⟩ := Option.map_eq_some_iff.1 h
  rcases x with s | e | u
  · have hne : s.graph.nodes ≠ [] := by
      intro hc
      unfold search at hx
      rcases hb : begin env g start with s0 | e | u
      · rw [hb] at hx
        obtain ⟨h1, h2, -⟩ := begin_inv hb
        have h3 := loop_nodeCount hx
        unfold nodeCount at h2 h3
        rw [hc] at h3
        simp at h3
        omega
      · rw [hb] at hx; cases hx
      · rw [hb] at hx; cases hx
    obtain ⟨u, this⟩ := cleanup_strict_ub hne
    rintro ⟨a, ha⟩
    rw [Res.bind_ok, this] at ha
    cases ha
  · rintro ⟨a, ha⟩; cases ha
  · rintro ⟨a, ha⟩; cases ha

/-- The hypothesis of `C41_false` is met by a search whose loop ends normally. -/
example : ∃ r, genLoopClosures .strict (exEnv 1 0) 2 exS3.graph 1 = some r ∧ r.IsUB := by
  refine ⟨_, by
    unfold genLoopClosures
    rw [exRun (exEnv 1 0) (by norm_num [exEnv]) (by norm_num [exEnv]) fun _ => rfl]
    rfl, ?_⟩
  obtain ⟨u, hu⟩ := cleanup_strict_ub (g := exMarked true true true) (by simp [exMarked])
  exact ⟨u, by simp only [Res.bind_ok, hu, Res.map_ub]⟩

theorem no_trace {s : State τ} {b : Book τ} (h : SInv s b) (env : Env)
    (fuel start : ℕ) (cs : List LoopClosure) (g' : G τ)
    (hr : genLoopClosures .tolerant env fuel s.graph start = some (.ok (cs, g'))) :
    Unmarked s.graph ∧ g' = s.graph := by
  have hg := good_of_inv h
  refine ⟨unmarked_of_inv h, ?_⟩
  unfold genLoopClosures at hr
  obtain ⟨x, hx, hr⟩ := Option.map_eq_some_iff.1 hr
  obtain ⟨st, rfl, hr⟩ := Res.bind_eq_ok.1 hr
  obtain ⟨g1, hc, hr⟩ := Res.map_eq_ok.1 hr
  cases hr
  have hsame : Same s.graph st.graph := by
    unfold search at hx
    rcases hb : begin env s.graph start with s0 | e | u
    · rw [hb] at hx
      obtain ⟨s0', h1, h2, -⟩ := begin_spec (env := env) hg (begin_inv hb).1
      rw [hb] at h1
      cases h1
      exact (loop_linv hg hx h2).same
    · rw [hb] at hx; cases hx
    · rw [hb] at hx; cases hx
  rw [cleanup_tolerant (head_same hsame (head_of_inv h))] at hc
  cases hc
  rw [clearMarks_same hsame, clearMarks_unmarked h.pool (unmarked_of_inv h)]

/-- **C41**, partial: if the read past the end of the clean-up loops is harmless on the machine
(`tolerant`), a search that returns leaves exactly the graph it found, with all marks cleared.
Missing: the strict reading (see `C41_false`). -/
theorem C41_no_trace_partial {s : State τ} {b : Book τ} (h : History s b) (env : Env)
    (fuel start : ℕ) (cs : List LoopClosure) (g' : G τ)
    (hr : genLoopClosures .tolerant env fuel s.graph start = some (.ok (cs, g'))) :
    Unmarked s.graph ∧ g' = s.graph :=
  no_trace h.inv env fuel start cs g' hr

/-- **C41**, partial, for the public call: `tryLoopClose` has the effect of adding the closures found
to the state before the call, and nothing else; in particular the state after it is again one reached
by public calls.  Missing as above. -/
theorem C41_tryLoopClose_partial {s : State τ} {b : Book τ} (h : History s b) (env : Env)
    (toVec : Matrix (Fin 3) (Fin 3) ℝ → Pose) (addrs : List ℕ) (start : ℕ) (r : Bool)
    (s' : State τ) (hr : tryLoopClose .tolerant env toVec addrs start s = some (.ok r, s')) :
    ∃ cs, (search env (nodeCount s.graph) s.graph start).map (Res.map St.found) = some (.ok cs) ∧
      finishLoopClose (addrs.zip (cs.map fun c => ⟨c.src, c.dst, toVec c.trans, c.inform⟩)) s =
        (.ok r, s') := by
  unfold tryLoopClose at hr
  obtain ⟨x, hx, hr⟩ := Option.map_eq_some_iff.1 hr
  rcases x with ⟨cs, g'⟩ | e | u
  · simp only at hr
    obtain ⟨-, hg'⟩ := C41_no_trace_partial h env _ start cs g' hx
    subst hg'
    refine ⟨cs, ?_, hr⟩
    unfold genLoopClosures at hx
    obtain ⟨y, hy, hx⟩ := Option.map_eq_some_iff.1 hx
    obtain ⟨st, rfl, hx⟩ := Res.bind_eq_ok.1 hx
    obtain ⟨g1, hc, hx⟩ := Res.map_eq_ok.1 hx
    cases hx
    rw [hy]; rfl
  · cases hr
  · cases hr

theorem exClose : genLoopClosures .tolerant (exEnv 1 0) 2 exS3.graph 1 =
    some (.ok ([⟨1, 0, 1, 1⟩], exS3.graph)) := by
  unfold genLoopClosures
  rw [exRun (exEnv 1 0) (by norm_num [exEnv]) (by norm_num [exEnv]) fun _ => rfl]
  simp only [Option.map_some, Res.bind_ok]
  rw [cleanup_tolerant (by simp [exMarked])]
  rfl

/-- A search in a reachable state which returns normally and finds a closure. -/
example : ∃ cs g', genLoopClosures .tolerant (exEnv 1 0) 2 exS3.graph 1 = some (.ok (cs, g')) ∧
    cs.length = 1 := ⟨_, _, exClose, rfl⟩

example : ∃ s', tryLoopClose .tolerant (exEnv 1 0) (fun _ => p0) [77] 1 exS3 = some (.ok true, s') ∧
    nodeCount s'.graph = 2 ∧ edgeCount s'.graph = 2 := by
  refine ⟨(finishLoopClose [(77, ⟨1, 0, p0, 1⟩)] exS3).2, ?_, rfl, rfl⟩
  unfold tryLoopClose
  rw [show nodeCount exS3.graph = 2 from rfl, exClose]
  rfl

/-! ### C42 -/

/-- **C42** fails: with at least two poses and no constraint that ends in the queried pose, the search
takes an element from an empty queue. -/
theorem C42_false {s : State τ} {b : Book τ} (h : History s b) (env : Env) (start : ℕ)
    (h1 : start < b.poses.length) (h2 : 2 ≤ b.poses.length)
    (h3 : ∀ c ∈ b.cons, c.2.1 ≠ start) :
    search env (nodeCount s.graph) s.graph start = some (.ub .emptyContainer) := by
  have hg := good_of_history h
  have hn := h.inv.nodesLen
  obtain ⟨s0, hb, inv, -, hv⟩ := begin_spec (env := env) hg (start := start) (by omega)
  have hitems : s0.fringe = [] := by
    rw [List.eq_nil_iff_forall_not_mem]
    intro it hit
    obtain ⟨hne, -, len, hp, -⟩ := inv.items it hit
    have key : ∀ n len, LPath s.graph start n len → n = start := by
      intro n len hp
      induction hp with
      | nil => rfl
      | @cons m len id e _ he hd ih =>
        subst ih
        exfalso
        have hlt := live_lt he
        rw [h.inv.edgesLen] at hlt
        obtain ⟨a, ha⟩ := h.inv.edges id _ (List.getElem?_eq_getElem hlt)
        rw [live_iff, ha] at he
        cases he
        exact h3 _ (List.getElem_mem hlt) hd
    exact hne (key _ _ hp)
  obtain ⟨-, hc, -, hd, -⟩ := begin_inv hb
  unfold search
  rw [hb]
  simp only
  have hr : running s0 := ⟨by rw [hc, hv]; unfold nodeCount; omega, by rw [hd]; decide⟩
  have hpos : nodeCount s.graph = nodeCount s.graph - 1 + 1 := by unfold nodeCount; omega
  rw [hpos]
  unfold loop
  rw [if_pos hr]
  have : body env start s0 = .ub .emptyContainer := by unfold body; rw [hitems]; rfl
  rw [this]

/-- Two poses without a constraint, reached through the public API. -/
example : ∃ (s : State String) (b : Book String), History s b ∧ 2 ≤ b.poses.length ∧
    (∀ c ∈ b.cons, c.2.1 ≠ 1) := ⟨exS2, _, exS2_history, by decide, by simp⟩

/-- **C42**, partial: if every pose can be reached from the queried one by walking constraints
backwards, the search ends normally: no element is taken from an empty queue, no dangling pointer and
no missing node is used, nothing is thrown.  Missing: other graphs, for which it is false. -/
theorem C42_safe_partial {s : State τ} {b : Book τ} (h : History s b) (env : Env) (start : ℕ)
    (h1 : start < b.poses.length)
    (h2 : ∀ i, i < b.poses.length → ∃ len, Path s.graph start i len) :
    ∃ st, search env (nodeCount s.graph) s.graph start = some (.ok st) := by
  have hg := good_of_history h
  have hn := h.inv.nodesLen
  obtain ⟨s0, hb, inv, finv, hv⟩ := begin_spec (env := env) hg (start := start) (by omega)
  have hu := unmarked_of_history h
  have finv := finv (visitedCount_zero hu) fun id e he => edge_of_inv h.inv he
  obtain ⟨-, hc, -⟩ := begin_inv hb
  unfold search
  rw [hb]
  exact loop_safe hg
    (fun i hi => by
      obtain ⟨len, hp⟩ := h2 i (by omega)
      exact ⟨len, (path_iff h.inv.pool).1 hp⟩)
    inv finv (by omega)

/-- **C42**, partial, for the graphs the mapper builds: when consecutive poses are all connected by
constraints from the older to the newer one, a search from the newest pose is safe (whatever other
constraints there are).  Missing as above. -/
theorem C42_chain_partial {s : State τ} {b : Book τ} (h : History s b) (env : Env)
    (h0 : 0 < b.poses.length)
    (hchain : ∀ i, i + 1 < b.poses.length → ∃ c ∈ b.cons, c.1 = i ∧ c.2.1 = i + 1) :
    ∃ st, search env (nodeCount s.graph) s.graph (b.poses.length - 1) = some (.ok st) := by
  refine C42_safe_partial h env _ (by omega) ?_
  have key : ∀ k i, i + k = b.poses.length - 1 →
      ∃ len, Path s.graph (b.poses.length - 1) i len := by
    intro k
    induction k with
    | zero => intro i hi; have : i = b.poses.length - 1 := by omega
              subst this; exact ⟨0, .nil⟩
    | succ k ih =>
      intro i hi
      obtain ⟨len, hp⟩ := ih (i + 1) (by omega)
      obtain ⟨c, hc, rfl, hd⟩ := hchain i (by omega)
      obtain ⟨j, hj⟩ := List.mem_iff_getElem?.1 hc
      obtain ⟨a, ha⟩ := h.inv.edges j c hj
      exact ⟨_, .cons hp (getEdge_live h.inv.pool (live_iff.2 ha)) hd⟩
  intro i hi
  exact key (b.poses.length - 1 - i) i (by omega)

example : ∃ (s : State String) (b : Book String), History s b ∧ b.poses.length = 2 ∧
    ∀ i, i + 1 < b.poses.length → ∃ c ∈ b.cons, c.1 = i ∧ c.2.1 = i + 1 := by
  refine ⟨exS3, _, exS3_history, rfl, fun i hi => ⟨_, List.mem_singleton_self _, ?_⟩⟩
  have : i = 0 := by simp at hi; omega
  subst this
  exact ⟨rfl, rfl⟩

end Verif.Loop
