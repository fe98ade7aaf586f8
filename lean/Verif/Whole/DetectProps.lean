import Verif.Whole.DetectSpec
import Verif.Whole.Examples
import Verif.Loop.ChainProps

/-
Property C129: loop closing in the running algorithm.
-/
namespace Verif.Whole

open Verif Verif.Geo Verif.NDTGrid Verif.World

/-! ### Lemmas -/

section
variable {τ : Type}
open Slam Loop

theorem shape_append_odom {b : Book τ} (h : MapperShape b) (hb : ∀ c ∈ b.cons, c.1 < b.poses.length ∧ c.2.1 < b.poses.length)
    (h3 : 0 < b.poses.length) (x : Pose × τ) (t : Pose) :
    MapperShape ⟨b.poses ++ [x], b.cons ++ [(b.poses.length - 1, b.poses.length, t, .odom)]⟩ := by
  refine ⟨fun c hcm => ?_, fun i hi => ?_⟩
  · rcases List.mem_append.1 hcm with hcm | hcm
    · exact h.1 c hcm
    · rw [List.mem_singleton.1 hcm]
      left; simp only; omega
  · simp only [List.length_append, List.length_singleton] at hi ⊢
    have hbound : ∀ (k : ℕ) (c : ℕ × ℕ × Pose × EKind), b.cons[k]? = some c → c.1 = i → c.2.1 = i + 1 →
        i + 1 < b.poses.length := by
      intro k c hk e1 e2
      have := (hb c (List.mem_of_getElem? hk)).2
      omega
    by_cases hlt : i + 1 < b.poses.length
    · obtain ⟨k, ⟨c, k1, k2, k3⟩, hu⟩ := h.2 i hlt
      have hk := (List.getElem?_eq_some_iff.1 k1).1
      refine ⟨k, ⟨c, by rw [List.getElem?_append_left hk]; exact k1, k2, k3⟩, ?_⟩
      rintro k' ⟨c', h1', h2', h3'⟩
      rcases Nat.lt_or_ge k' b.cons.length with hk' | hk'
      · rw [List.getElem?_append_left hk'] at h1'
        exact hu k' ⟨c', h1', h2', h3'⟩
      · rw [List.getElem?_append_right hk'] at h1'
        have := List.mem_singleton.1 (List.mem_iff_getElem?.2 ⟨_, h1'⟩)
        subst this
        simp only at h2' h3'
        omega
    · refine ⟨b.cons.length, ⟨_, by simp; rfl, by simp only; omega, by simp only; omega⟩, ?_⟩
      rintro k' ⟨c', h1', h2', h3'⟩
      rcases Nat.lt_or_ge k' b.cons.length with hk' | hk'
      · rw [List.getElem?_append_left hk'] at h1'
        exact absurd (hbound k' c' h1' h2' h3') hlt
      · have := (List.getElem?_eq_some_iff.1 h1').1
        simp at this
        omega

theorem sinv_ends {e : Slam.State τ} {b : Book τ} (h : SInv e b) : ∀ c ∈ b.cons, c.1 < b.poses.length ∧ c.2.1 < b.poses.length := by
  intro c hc
  obtain ⟨k, hk⟩ := List.mem_iff_getElem?.1 hc
  obtain ⟨ed, k1, k2, k3, -⟩ := book_live h hk
  have := (good_of_inv h).ends k ed k1
  rw [h.nodesLen, k2, k3] at this
  exact this

theorem tried_lt {env : Env} {b : Book τ} : ∀ i ∈ tried env b, i < b.poses.length - 1 := by
  intro i hi
  unfold tried at hi
  have := List.mem_of_mem_take hi
  rw [List.mem_filter, List.mem_reverse, List.mem_range] at this
  exact this.1

theorem closures_spec {env : Env} {b : Book τ} {l : List ℕ} : ∀ c ∈ closures env b l,
    c.src = b.poses.length - 1 ∧ c.dst ∈ l := by
  intro c hc
  unfold closures at hc
  obtain ⟨x, hx, h⟩ := List.mem_filterMap.1 hc
  obtain ⟨r, -, h⟩ := Option.bind_eq_some_iff.1 h
  split_ifs at h
  cases h
  exact ⟨rfl, List.fst_mem_of_mem_zipIdx hx⟩

theorem closures_length {env : Env} {b : Book τ} {l : List ℕ} : (closures env b l).length ≤ l.length := by
  unfold closures
  refine (List.length_filterMap_le _ _).trans ?_
  simp

/-- The closures with their addresses, as `tryLoopClose` adds them. -/
noncomputable def expected (d : Outer) (b : Book τ) : List (ℕ × Closure) :=
  d.addrs.zip ((closures d.env b (tried d.env b)).map fun c => ⟨c.src, c.dst, getPoseFromTransform c.trans, c.inform⟩)

theorem tryLoopClose_exact {e : Slam.State τ} {b : Book τ} (h1 : SInv e b) (h2 : MapperShape b)
    (h3 : 0 < b.poses.length) (d : Outer) :
    tryLoopClose .tolerant d.env getPoseFromTransform d.addrs (b.poses.length - 1) e =
      some (finishLoopClose (expected d b) e) := by
  obtain ⟨st, hs, ha, hf⟩ := search_exact h1 h2 h3 d.env
  have hgen : ∃ g', genLoopClosures .tolerant d.env (PoseGraph.nodeCount e.graph) e.graph (b.poses.length - 1) =
      some (.ok (st.found, g')) := by
    unfold genLoopClosures
    rw [hs]
    have hg := good_of_inv h1
    have hsame : Same e.graph st.graph := by
      unfold search at hs
      rcases hb : begin d.env e.graph (b.poses.length - 1) with s0 | e | u
      · rw [hb] at hs
        obtain ⟨s0', k1, k2, -⟩ := begin_spec (env := d.env) hg (begin_inv hb).1
        rw [hb] at k1
        cases k1
        exact (loop_linv hg hs k2).same
      · rw [hb] at hs; cases hs
      · rw [hb] at hs; cases hs
    simp only [Option.map_some, Res.bind_ok]
    rw [cleanup_tolerant (head_same hsame (head_of_inv h1))]
    exact ⟨_, rfl⟩
  obtain ⟨g', hg'⟩ := hgen
  obtain ⟨-, rfl⟩ := no_trace h1 d.env _ _ _ _ hg'
  unfold tryLoopClose
  rw [hg']
  simp only [Option.map_some]
  rw [hf, show st.attempts = tried d.env b from ha]
  rfl

end

theorem searchLoops_eq {eig : NDT.Eig} {d : Outer} {s : State} {b : Slam.Book Algo.Frame}
    (h1 : Slam.SInv s.alg.engine b) (h2 : Loop.MapperShape b) (h3 : 0 < b.poses.length) :
    searchLoops .tolerant eig d s = closeLoops eig (d.withLoops (expected d b)) s := by
  unfold searchLoops closeLoops
  rw [h1.lastId, tryLoopClose_exact h1 h2 h3 d]
  rfl

/-- The book after the insertion of the active frame. -/
noncomputable def insertedBook (a : Algo.State) (b : Slam.Book Algo.Frame) : Slam.Book Algo.Frame :=
  { poses := b.poses ++ [(a.temp.origin, a.temp)]
    cons := b.cons ++ (if 0 < b.poses.length then
      [(b.poses.length - 1, b.poses.length, getPoseFromTransform a.lastTrans, .odom)] else []) }

theorem shape_inserted {a : Algo.State} {b : Slam.Book Algo.Frame} (inv : Slam.SInv a.engine b)
    (h : Loop.MapperShape b) : Loop.MapperShape (insertedBook a b) := by
  unfold insertedBook
  by_cases h0 : 0 < b.poses.length
  · rw [if_pos h0]
    exact shape_append_odom h (sinv_ends inv) h0 _ _
  · rw [if_neg h0, List.append_nil]
    have : b.poses = [] := List.length_eq_zero_iff.1 (by omega)
    exact ⟨h.1, fun i hi => by simp [this] at hi⟩

theorem updateGraphWith_eq {eig : NDT.Eig} {d : Outer} {s : State} {b : Slam.Book Algo.Frame} (inc cov : Trans)
    (inv : Algo.AInv s.alg b) (h2 : Loop.MapperShape b) (hf : PoseGraph.Fresh s.alg.engine.graph d.addr) :
    updateGraphWith (searchLoops .tolerant eig d) eig inc cov (d.withLoops []) s =
      updateGraph eig inc cov (d.withLoops (expected d (insertedBook s.alg b))) s := by
  unfold updateGraphWith updateGraph
  simp only
  split_ifs with hfar
  · rw [show (d.withLoops []).time = (d.withLoops (expected d (insertedBook s.alg b))).time from rfl]
    unfold addFrame
    rcases hadd : addToMap eig s.global s.temp with g | e | u
    · simp only [Res.bind_ok]
      obtain ⟨a', h', e', -, -⟩ := Algo.inv_insertFrame (s := { s.alg with
             transTemp := s.alg.transTemp * inc
             covarTemp := addToCovar s.alg.covarTemp cov inc }) inv.engine inv.first hf
      rw [show (d.withLoops []).alg.addr = d.addr from rfl,
        show (d.withLoops (expected d (insertedBook s.alg b))).alg.addr = d.addr from rfl, h', Res.bind_ok, Res.bind_ok]
      rw [searchLoops_eq (b := insertedBook s.alg b) e' (shape_inserted inv.engine h2) (by simp [insertedBook])]
      rfl
    · rfl
    · rfl
  · rfl

theorem updateOwn_eq {eig : NDT.Eig} {d : Outer} {log : List Entry} {s : State} {b : Slam.Book Algo.Frame}
    (inv : Inv eig log s b) (h2 : Loop.MapperShape b) (hf : PoseGraph.Fresh s.alg.engine.graph d.addr) :
    updateOwn .tolerant eig d s = update eig (d.withLoops (expected d (insertedBook s.alg b))) s := by
  unfold updateOwn updateWith update
  have ai := inv.full.alg
  have graph : ∀ (a : Algo.State) inc cov, Algo.AInv a b → a.engine = s.alg.engine → a.temp = s.alg.temp →
      a.lastTrans = s.alg.lastTrans →
      updateGraphWith (searchLoops .tolerant eig d) eig inc cov (d.withLoops []) { s with alg := a } =
      updateGraph eig inc cov (d.withLoops (expected d (insertedBook s.alg b))) { s with alg := a } := by
    intro a inc cov ai' e1 e2 e3
    rw [updateGraphWith_eq (s := { s with alg := a }) inc cov ai' h2 (by rw [e1]; exact hf)]
    unfold insertedBook
    simp only [e2, e3]
  split_ifs with h0
  · rfl
  simp only
  rw [show (d.withLoops []).alg.motion = d.motion from rfl,
    show (d.withLoops (expected d (insertedBook s.alg b))).alg.motion = d.motion from rfl]
  split_ifs with h1
  · rw [show (d.withLoops []).scan = d.scan from rfl,
      show (d.withLoops (expected d (insertedBook s.alg b))).scan = d.scan from rfl]
    rcases initializeMap eig (setOrigin (emptyMap eig s.alg.cellSize) (origin s.window)) d.scan with scan | e | u
    · simp only [Res.bind_ok]
      rw [show (d.withLoops []).alg.matcher = d.matcher from rfl,
        show (d.withLoops (expected d (insertedBook s.alg b))).alg.matcher = d.matcher from rfl]
      cases d.matcher with
      | none =>
        simp only
        rw [graph { s.alg with unused := 1 } _ _
          ⟨ai.engine, ai.origins, ai.placed, ai.first, ai.lastId, ai.pos, ai.temp, ai.last, ai.chain⟩ rfl rfl rfl]
      | some r =>
        simp only
        rw [graph { s.alg with unused := 1, lastMatcherPose := _ } _ _
          ⟨ai.engine, ai.origins, ai.placed, ai.first, ai.lastId, ai.pos, ai.temp, ai.last, ai.chain⟩ rfl rfl rfl]
        rfl
    · rfl
    · rfl
  · rfl

theorem expected_length {d : Outer} (h : 50 ≤ d.addrs.length) (b : Slam.Book Algo.Frame) :
    ((Loop.closures d.env b (Loop.tried d.env b)).map fun c =>
      (⟨c.src, c.dst, getPoseFromTransform c.trans, c.inform⟩ : Slam.Closure)).length ≤ d.addrs.length := by
  rw [List.length_map]
  refine closures_length.trans (le_trans ?_ h)
  unfold Loop.tried
  exact List.length_take_le _ _

theorem expected_map {d : Outer} (h : 50 ≤ d.addrs.length) (b : Slam.Book Algo.Frame) :
    ((expected d b).map fun c => (c.2.src, c.2.dst, c.2.trans, Slam.EKind.loop)) = loopConstraints d.env b := by
  have h1 : (expected d b).map Prod.snd = (Loop.closures d.env b (Loop.tried d.env b)).map fun c =>
      (⟨c.src, c.dst, getPoseFromTransform c.trans, c.inform⟩ : Slam.Closure) := by
    unfold expected
    exact List.map_snd_zip (expected_length h b)
  have := congrArg (List.map fun c : Slam.Closure => (c.src, c.dst, c.trans, Slam.EKind.loop)) h1
  rw [List.map_map, List.map_map] at this
  exact this

theorem zip_fst_sublist {α β : Type*} (l : List α) (m : List β) : ((l.zip m).map Prod.fst).Sublist l := by
  induction l generalizing m with
  | nil => simp
  | cons a l ih =>
    cases m with
    | nil => simp
    | cons b m => simpa using ih m

theorem expected_ends {d : Outer} {b : Slam.Book Algo.Frame} : ∀ c ∈ expected d b,
    c.2.src = b.poses.length - 1 ∧ c.2.dst < c.2.src := by
  intro c hc
  have := (List.of_mem_zip (a := c.1) (b := c.2) hc).2
  obtain ⟨c', hc', he⟩ := List.mem_map.1 this
  obtain ⟨e1, e2⟩ := closures_spec c' hc'
  have := tried_lt _ e2
  rw [← he]
  exact ⟨e1, by simp only; omega⟩

theorem admissible_own {d : Outer} {log : List Entry} {eig : NDT.Eig} {s : State} {b : Slam.Book Algo.Frame} (inv : Inv eig log s b)
    (adm : AdmissibleOwn s d) : Admissible s (d.withLoops (expected d (insertedBook s.alg b))) := by
  have hsub : ((expected d (insertedBook s.alg b)).map Prod.fst).Sublist d.addrs := by
    unfold expected
    exact zip_fst_sublist _ _
  refine ⟨⟨adm.motion, adm.matcher, ?_, ?_, ?_, adm.order⟩, adm.sorted⟩
  · exact adm.addrs.sublist (hsub.cons_cons _)
  · intro a ha
    exact adm.fresh a ((hsub.cons_cons _).subset ha)
  · intro c hc
    obtain ⟨e1, e2⟩ := expected_ends c hc
    rw [inv.full.alg.engine.nodesLen]
    have : (insertedBook s.alg b).poses.length = b.poses.length + 1 := by simp [insertedBook]
    omega

theorem bookOf_eq {s : State} {b : Slam.Book Algo.Frame} (h : Slam.SInv s.alg.engine b) : bookOf s = b := by
  unfold bookOf
  have h1 : (s.alg.engine.graph.nodes.map fun n => (n.payload.pose, n.payload.obj)) = b.poses := by
    have := congrArg (List.map fun n : Slam.NodeP Algo.Frame => (n.pose, n.obj)) h.nodes
    rw [List.map_map, List.map_map] at this
    refine Eq.trans this ?_
    conv_rhs => rw [← List.map_id b.poses]
    rfl
  have h2 : (s.alg.engine.graph.edges.filterMap fun e => e.map fun e =>
    (e.src, e.dst, e.payload.trans, e.payload.kind)) = b.cons := by
    have : s.alg.engine.graph.edges.map (fun e => e.map fun e =>
        (e.src, e.dst, e.payload.trans, e.payload.kind)) = b.cons.map some := by
      apply List.ext_getElem?
      intro i
      rw [List.getElem?_map, List.getElem?_map]
      rcases hc : b.cons[i]? with _ | c
      · rw [List.getElem?_eq_none (by rw [h.edgesLen]; exact List.getElem?_eq_none_iff.1 hc)]
        rfl
      · obtain ⟨a, ha⟩ := h.edges i c hc
        rw [ha]
        rfl
    have := congrArg (List.filterMap id) this
    rw [List.filterMap_map, List.filterMap_map] at this
    refine Eq.trans this ?_
    simp
  rw [h1, h2]

theorem grown_eq {s : State} {b : Slam.Book Algo.Frame} (h : Slam.SInv s.alg.engine b) : grown s = insertedBook s.alg b := by
  unfold grown insertedBook
  rw [bookOf_eq h]
  rcases hb : b.poses.length with _ | n <;> simp

/-- What one update with the own loop search does to the graph. -/
theorem own_step {eig : NDT.Eig} (he : NDT.EigOk eig) {d : Outer} {log : List Entry} {s s' : State}
    {out : Algo.Event × Pose} (h : Reach eig (fun _ => True) log s) (hs : Loop.MapperShape (bookOf s))
    (adm : AdmissibleOwn s d) (hu : updateOwn .tolerant eig d s = .ok (out, s')) :
    Admissible s (d.withLoops (expected d (grown s))) ∧ update eig (d.withLoops (expected d (grown s))) s = .ok (out, s') ∧
    ((s'.store.length = s.store.length ∧ bookOf s' = bookOf s) ∨
      (s'.store.length = s.store.length + 1 ∧
        bookOf s' = ⟨Algo.optimised (d.withLoops (expected d (grown s))).alg (grown s).poses,
          (grown s).cons ++ loopConstraints d.env (grown s)⟩)) := by
  obtain ⟨⟨b, inv⟩, -⟩ := h.inv he
  have hb := bookOf_eq inv.full.alg.engine
  rw [hb] at hs ⊢
  rw [grown_eq inv.full.alg.engine]
  have adm' := admissible_own inv adm
  rw [updateOwn_eq inv hs (adm.fresh _ (List.mem_cons_self ..))] at hu
  refine ⟨adm', hu, ?_⟩
  have r' := Reach.update h trivial adm' hu
  obtain ⟨ha, -⟩ := update_spec he inv.full adm'.alg (inv.window.winB.inv he) inv.window.winO inv.window.winC hu
  obtain ⟨e, p, a', b', hu', full', -, -, -, -, -, sc⟩ := Algo.update_step inv.full adm'.alg
  rw [ha] at hu'
  have e1 := Res.ok.inj hu'
  have e3 : s'.alg = a' := congrArg Prod.snd e1
  subst e3
  have hb' := bookOf_eq full'.alg.engine
  rw [hb']
  have n1 : s.store.length = b.poses.length := by
    rw [(C115_frames he h).1, ← inv.full.alg.engine.nodesLen]
  have n2 : s'.store.length = b'.poses.length := by
    rw [(C115_frames he r').1, ← full'.alg.engine.nodesLen]
  have grown : ∀ inc, Algo.Grown (d.withLoops (expected d (insertedBook s.alg b))).alg inc s.alg s'.alg b b' →
      ((s'.store.length = s.store.length ∧ b' = b) ∨
      (s'.store.length = s.store.length + 1 ∧
        b' = ⟨Algo.optimised (d.withLoops (expected d (insertedBook s.alg b))).alg (insertedBook s.alg b).poses,
          (insertedBook s.alg b).cons ++ loopConstraints d.env (insertedBook s.alg b)⟩)) := by
    rintro inc ⟨ins, -, -, ⟨rfl, -⟩ | ⟨rfl, -⟩⟩
    · exact .inl ⟨n2.trans n1.symm, rfl⟩
    · refine .inr ⟨?_, ?_⟩
      · rw [n2, n1]
        unfold Algo.inserted
        simp only
        rw [Algo.length_optimised]
        simp
      · unfold Algo.inserted
        rw [← expected_map adm.enough]
        rfl
  cases sc with
  | first _ _ _ _ h => exact .inl ⟨by rw [n1, n2, h], h⟩
  | idle _ _ _ _ _ h => exact .inl ⟨by rw [n1, n2, h], h⟩
  | failed _ _ _ _ _ _ g => exact grown _ g
  | matched _ _ _ _ _ _ _ g => exact grown _ g

theorem shape_grown {s : State} {b : Slam.Book Algo.Frame} (inv : Slam.SInv s.alg.engine b)
    (h : Loop.MapperShape (bookOf s)) : Loop.MapperShape (grown s) := by
  rw [grown_eq inv]
  rw [bookOf_eq inv] at h
  exact shape_inserted inv h

/-- The invariant of runs with the own loop search. -/
theorem Own.inv {eig : NDT.Eig} (he : NDT.EigOk eig) {log : List Entry} {s : State} (h : Own .tolerant eig log s) :
    Reach eig (fun _ => True) log s ∧ Loop.MapperShape (bookOf s) := by
  induction h with
  | init => exact ⟨.init, by rw [bookOf_eq (b := ⟨[], []⟩) Slam.inv_init]; simp [Loop.MapperShape]⟩
  | setDistance d _ ih => exact ⟨ih.1.setDistance d, ih.2⟩
  | setRadius r _ ih => exact ⟨ih.1.setRadius r, ih.2⟩
  | @update log s d out s' _ adm hu ih =>
    obtain ⟨h1, h2, h3⟩ := own_step he ih.1 ih.2 adm hu
    refine ⟨.update ih.1 trivial h1 h2, ?_⟩
    obtain ⟨⟨b, inv⟩, -⟩ := ih.1.inv he
    rcases h3 with ⟨-, h3⟩ | ⟨-, h3⟩
    · rw [h3]; exact ih.2
    · have hg := shape_grown inv.full.alg.engine ih.2
      have hl := Loop.shape_append_loops hg (loopConstraints d.env (grown s)) (by
        intro c hc
        rw [← expected_map adm.enough] at hc
        obtain ⟨x, hx, rfl⟩ := List.mem_map.1 hc
        exact (expected_ends x hx).2)
      rw [h3]
      exact ⟨hl.1, by simpa [Algo.length_optimised] using hl.2⟩

/-! ### C129 -/

/-- **C129**, partial: if the read past the end of the clean-up loops is harmless, a run of the algorithm with its own
loop search is a run of the algorithm with suitable loop closures as inputs: all statements about `Reach` hold for it.
Missing: the strict reading of the standard (`C129_false`). -/
theorem C129_runs_partial {eig : NDT.Eig} (he : NDT.EigOk eig) {log : List Entry} {s : State}
    (h : Own .tolerant eig log s) : Reach eig (fun _ => True) log s := (h.inv he).1

/-- **C129**, partial: an update either leaves the pose graph alone, or it finishes the active frame; then the loop
search tries exactly the candidates among all finished frames, and exactly its successes become loop constraints, from
the new frame to the old one, after the odometry constraint; the poses change only if there are any.
Missing: the strict reading of the standard (`C129_false`); the candidates are taken with the content of a variable
that is never initialised (C119). -/
theorem C129_search_partial {eig : NDT.Eig} (he : NDT.EigOk eig) {d : Outer} {log : List Entry} {s s' : State}
    {out : Algo.Event × Pose} (h : Own .tolerant eig log s) (adm : AdmissibleOwn s d)
    (hu : updateOwn .tolerant eig d s = .ok (out, s')) :
    (s'.store.length = s.store.length ∧ bookOf s' = bookOf s) ∨
      (s'.store.length = s.store.length + 1 ∧
        (bookOf s').cons = (grown s).cons ++ loopConstraints d.env (grown s) ∧
        (bookOf s').poses.length = (grown s).poses.length ∧
        (loopConstraints d.env (grown s) = [] → (bookOf s').poses = (grown s).poses)) := by
  obtain ⟨h1, h2⟩ := h.inv he
  rcases (own_step he h1 h2 adm hu).2.2 with h3 | ⟨h3, h4⟩
  · exact .inl h3
  · refine .inr ⟨h3, by rw [h4], by rw [h4]; exact Algo.length_optimised _ _, fun h0 => ?_⟩
    rw [h4]
    have : expected d (grown s) = [] := by
      rw [← expected_map adm.enough] at h0
      exact List.map_eq_nil_iff.1 h0
    simp only [Algo.optimised, Outer.withLoops, this, if_true]

/-- **C129**, partial: the loop search is no source of failure: an update ends normally under the conditions of C116,
whatever loop closures are found.  Missing: as above, and the conditions of C116. -/
theorem C129_total_partial {eig : NDT.Eig} (he : NDT.EigOk eig) {d : Outer} {log : List Entry} {s : State}
    (h : Own .tolerant eig log s) (adm : AdmissibleOwn s d) (safe : ∀ loops, Safe s (d.withLoops loops)) :
    ∃ out s', updateOwn .tolerant eig d s = .ok (out, s') := by
  obtain ⟨h1, h2⟩ := h.inv he
  obtain ⟨⟨b, inv⟩, -⟩ := h1.inv he
  rw [bookOf_eq inv.full.alg.engine] at h2
  rw [updateOwn_eq inv h2 (adm.fresh _ (List.mem_cons_self ..))]
  exact C116_update_partial he h1 (admissible_own inv adm) (safe _)

/-! ### The strict reading -/

theorem searchLoops_strict {eig : NDT.Eig} {d : Outer} {s s' : State} : searchLoops .strict eig d s ≠ .ok s' := by
  intro h
  unfold searchLoops at h
  obtain ⟨_, -, h⟩ := Res.bind_eq_ok.1 h
  unfold Loop.tryLoopClose at h
  rcases hg : Loop.genLoopClosures .strict d.env (PoseGraph.nodeCount s.alg.engine.graph) s.alg.engine.graph
    s.alg.engine.lastId with _ | r
  · rw [hg] at h; cases h
  · rw [hg] at h
    have := Loop.C41_false _ _ _ _ _ hg
    rcases r with x | e | u
    · exact this ⟨x, rfl⟩
    · cases h
    · cases h

theorem updateGraph_strict {eig : NDT.Eig} {d : Outer} {inc cov : Trans} {inp : Input} {s s' : State}
    (h : updateGraphWith (searchLoops .strict eig d) eig inc cov inp s = .ok s') : s'.store = s.store := by
  unfold updateGraphWith at h
  simp only at h
  split_ifs at h with hfar
  · obtain ⟨s1, -, h⟩ := Res.bind_eq_ok.1 h
    obtain ⟨a, -, h⟩ := Res.bind_eq_ok.1 h
    obtain ⟨s2, h2, h⟩ := Res.bind_eq_ok.1 h
    exact absurd h2 searchLoops_strict
  · obtain ⟨t, -, h⟩ := Res.bind_eq_ok.1 h
    rw [← Res.ok.inj h]

/-- **C129** fails in the strict reading of the standard: there is no run at all in which a frame is finished. -/
theorem C129_false {eig : NDT.Eig} {log : List Entry} {s : State} (h : Own .strict eig log s) : s.store = [] := by
  induction h with
  | init => rfl
  | setDistance d _ ih => exact ih
  | setRadius r _ ih => exact ih
  | @update log s d out s' _ adm hu ih =>
    rw [← ih]
    unfold updateOwn updateWith at hu
    split_ifs at hu with h0
    · obtain ⟨s1, h1, hu⟩ := Res.bind_eq_ok.1 hu
      have e : s1 = s' := congrArg Prod.snd (Res.ok.inj hu)
      subst e
      unfold firstUpdate at h1
      simp only at h1
      obtain ⟨_, -, h1⟩ := Res.bind_eq_ok.1 h1
      obtain ⟨_, -, h1⟩ := Res.bind_eq_ok.1 h1
      obtain ⟨_, -, h1⟩ := Res.bind_eq_ok.1 h1
      rw [← Res.ok.inj h1]
    · simp only at hu
      split_ifs at hu with hm
      · obtain ⟨sc, -, hu⟩ := Res.bind_eq_ok.1 hu
        rcases hmat : (d.withLoops []).alg.matcher with _ | r
        · rw [hmat] at hu
          simp only at hu
          obtain ⟨s1, h1, hu⟩ := Res.bind_eq_ok.1 hu
          have := updateGraph_strict h1
          exact (congrArg (fun x : (Algo.Event × Pose) × State => x.2.store) (Res.ok.inj hu)).symm.trans this
        · rw [hmat] at hu
          simp only at hu
          obtain ⟨s1, h1, hu⟩ := Res.bind_eq_ok.1 hu
          have := updateGraph_strict h1
          obtain ⟨_, -, hu⟩ := Res.bind_eq_ok.1 hu
          obtain ⟨_, -, hu⟩ := Res.bind_eq_ok.1 hu
          obtain ⟨_, -, hu⟩ := Res.bind_eq_ok.1 hu
          exact (congrArg (fun x : (Algo.Event × Pose) × State => x.2.store) (Res.ok.inj hu)).symm.trans this
      · exact (congrArg (fun x : (Algo.Event × Pose) × State => x.2.store) (Res.ok.inj hu)).symm

/-! ### A run that closes a loop -/

theorem fresh_many {ν ε : Type} (g : PoseGraph.Graph ν ε) (a : ℕ) : ∃ l : List ℕ, l.length = 50 ∧ (a :: l).Nodup ∧
    ∀ x ∈ l, PoseGraph.Fresh g x := by
  set m := (g.edges.map fun e => match e with | some e => e.addr | none => 0).sum + 1 + a with hm
  refine ⟨(List.range 50).map (m + ·), by simp, ?_, ?_⟩
  · rw [List.nodup_cons]
    refine ⟨fun h => ?_, ?_⟩
    · obtain ⟨k, -, hk⟩ := List.mem_map.1 h
      omega
    · exact List.Nodup.map (fun x y h => by simpa using h) List.nodup_range
  · intro x hx id e he
    obtain ⟨k, -, rfl⟩ := List.mem_map.1 hx
    unfold PoseGraph.live at he
    have hmem : some e ∈ g.edges := by
      cases h : g.edges[id]? with
      | none => rw [h] at he; cases he
      | some o =>
        rw [h] at he
        have : o = some e := he
        subst this
        exact List.mem_of_getElem? h
    have := List.single_le_sum (l := g.edges.map fun e => match e with | some e => e.addr | none => 0)
      (fun _ _ => Nat.zero_le _) e.addr (List.mem_map.2 ⟨some e, hmem, rfl⟩)
    omega

/-- A loop search whose matches all have the given outcome. -/
noncomputable def exSearch (success : Bool) : Loop.Env where
  minDist := 0
  maxDist := 10
  pick := fun _ _ => 0
  matcher := fun _ _ _ _ => ⟨success, 1, 1⟩
  junk := 0
  junkCov := 0

theorem exSearch_fail {b : Slam.Book Algo.Frame} (l : List ℕ) : Loop.closures (exSearch false) b l = [] := by
  unfold Loop.closures
  rw [List.filterMap_eq_nil_iff]
  intro x _
  unfold Loop.answer
  split
  · rfl
  · rfl

/-- Runs without loop closures are runs in which the own search has no success. -/
theorem Own.of_noLoops {eig : NDT.Eig} (he : NDT.EigOk eig) {log : List Entry} {s : State}
    (h : Reach eig Algo.NoLoops log s) : Own .tolerant eig log s := by
  induction h with
  | init => exact .init
  | setDistance d _ ih => exact ih.setDistance d
  | setRadius r _ ih => exact ih.setRadius r
  | @update log s inp o s' _ hp adm hu ih =>
    obtain ⟨l, h1, h2, h3⟩ := fresh_many s.alg.engine.graph inp.alg.addr
    have adm' : AdmissibleOwn s ⟨inp.alg.motion, inp.alg.matcher, inp.alg.addr, l, exSearch false, inp.alg.est, inp.alg.order, inp.scan,
        inp.time, inp.sorted⟩ := by
      refine ⟨adm.alg.motion, adm.alg.matcher, h2, h1.ge, ?_, adm.alg.order, adm.sorted⟩
      intro a ha
      rcases List.mem_cons.1 ha with rfl | ha
      · exact adm.alg.fresh _ (List.mem_cons_self ..)
      · exact h3 a ha
    refine Own.update ih adm' ?_
    obtain ⟨i1, i2⟩ := ih.inv he
    obtain ⟨⟨b, inv⟩, -⟩ := i1.inv he
    rw [bookOf_eq inv.full.alg.engine] at i2
    rw [updateOwn_eq inv i2 (adm'.fresh _ (List.mem_cons_self ..))]
    unfold expected
    simp only [exSearch_fail, List.map_nil, List.zip_nil_right]
    rw [← hu]
    congr 1
    obtain ⟨⟨m, ma, ad, lo, es, or⟩, sc, ti, so⟩ := inp
    have : lo = [] := hp
    subst this
    rfl

/-- A run with one finished frame, at the origin, and an active one two metres ahead; whatever the loop search does, the
next update ends normally and finishes the second frame. -/
theorem frame_run {eig : NDT.Eig} (he : NDT.EigOk eig) : ∃ log s, Own .tolerant eig log s ∧ s.store.length = 1 ∧
    (∀ x ∈ (bookOf s).poses, x.1 = ⟨0, 0, 0⟩) ∧ s.alg.temp.origin.x = 2 ∧ s.alg.temp.origin.y = 0 ∧
    ∀ env, ∃ d out s', d.env = env ∧ AdmissibleOwn s d ∧ updateOwn .tolerant eig d s = .ok (out, s') ∧
      s'.store.length = 2 := by
  obtain ⟨sc, -⟩ := exScan_ok 5 (by norm_num) (by norm_num)
  obtain ⟨sc7, -⟩ := exScan_ok 7 (by norm_num) (by norm_num)
  obtain ⟨p0, g, p1, s, h, -, -, hi, hcs, hu, hmt, htt, ot, ⟨f, hf, of, hfm⟩, htm⟩ :=
    run_frame he (P := Algo.NoLoops) (fun _ _ _ _ => rfl)
  obtain ⟨_, -, fl, -⟩ := (h.inv he).2.full
  obtain ⟨⟨b, inv⟩, -⟩ := h.inv he
  have e1 : s.temp.ox = (2 : ℤ) := by
    have := congrFun (congrFun ot 0) 2
    simpa [Algo.ahead_eq, getTransFromPose, origin] using this
  have e2 : s.temp.oy = 0 := by
    have := congrFun (congrFun ot 1) 2
    simpa [Algo.ahead_eq, getTransFromPose, origin] using this
  have fo : FrameOk s.temp := by
    refine ⟨by rw [e1, e2]; exact off_quarter 2, fun c hc => ?_⟩
    have : worldPos s.temp c = (((7 : ℤ) : ℝ), 0) := by
      unfold worldPos
      rw [htm c hc, ← act_trans, ot, Algo.ahead_eq]
      unfold act
      ext <;> simp
      norm_num
    rw [this, e1, e2]
    refine ⟨off_quarter 7, ?_⟩
    unfold RayLength
    norm_num
  have own := Own.of_noLoops he h
  have hn : s.store.length = b.poses.length := by rw [(C115_frames he h).1, ← inv.full.alg.engine.nodesLen]
  refine ⟨_, s, own, by rw [hf]; rfl, ?_, ?_, ?_, ?_⟩
  · intro x hx
    rw [bookOf_eq inv.full.alg.engine] at hx
    obtain ⟨i, hi⟩ := List.mem_iff_getElem?.1 hx
    have hi0 : i < b.poses.length := (List.getElem?_eq_some_iff.1 hi).1
    rw [← hn, hf] at hi0
    have hi0 : i = 0 := by simpa using hi0
    subst hi0
    rw [← of]
    exact (inv.frames.orig 0 f x (by rw [hf]; rfl) hi).symm
  · rw [← inv.frames.tempO, ← show ((2 : ℤ) : ℝ) = 2 by norm_num]; exact e1
  · rw [← inv.frames.tempO]; exact e2
  intro env
  obtain ⟨a, ha, -⟩ := fresh_two s.alg.engine.graph
  obtain ⟨l, h1, h2, h3⟩ := fresh_many s.alg.engine.graph a
  set d : Outer := ⟨Algo.ahead ((2 : ℤ) : ℝ), none, a, l, env, fun _ => ⟨((3 : ℤ) : ℝ), 0, 0⟩,
    List.range (s.alg.engine.graph.nodes.length + 1), exScan 5, 0, s.order ++ [s.store.length]⟩ with hd
  have adm : AdmissibleOwn s d := by
    refine ⟨Algo.ahead_rigid _, by simp [hd], h2, h1.ge, ?_, List.Perm.refl _, List.Perm.refl _⟩
    intro x hx
    rcases List.mem_cons.1 hx with rfl | hx
    · exact ha
    · exact h3 x hx
  have safe : ∀ loops, Safe s (d.withLoops loops) := by
    intro loops
    refine ⟨by rw [hcs]; exact sc, ?_, fo, ?_, by simp [hd, Outer.withLoops]⟩
    · rw [transform_none rfl, hcs, htt, Matrix.one_mul]
      show ScanOk (1 / 4) (transformCloud (Algo.ahead ((2 : ℤ) : ℝ)) (exScan 5))
      rw [exScan_ahead]; exact sc7
    · intro _ i x hx
      rw [hf] at hx
      match i, hx with
      | 0, hx =>
        cases hx
        rw [if_pos rfl, of]
        refine exFrame_in 0 5 (by norm_num) (by norm_num) ?_ hfm
        simp [origin, setOrigin]
      | 1, hx =>
        cases hx
        rw [if_neg (by norm_num)]
        refine exFrame_in 3 5 (by norm_num) (by norm_num) ?_ htm
        simp [origin, setOrigin, hd, Outer.withLoops]
      | n + 2, hx => simp at hx
  obtain ⟨out, s', hs'⟩ := C129_total_partial he own adm safe
  refine ⟨d, out, s', rfl, adm, hs', ?_⟩
  obtain ⟨i1, i2⟩ := own.inv he
  obtain ⟨adm', hu', -⟩ := own_step he i1 i2 adm hs'
  have hfar : Algo.movedFar s.alg (s.alg.transTemp * d.motion) := by
    unfold Algo.movedFar
    rw [htt, Matrix.one_mul, hmt, Algo.displacement_ahead (by norm_num)]
    norm_num
  obtain ⟨ha, -⟩ := update_spec he inv.full adm'.alg (inv.window.winB.inv he) inv.window.winO inv.window.winC hu'
  obtain ⟨e, p, a', b', hu2, full', -, -, -, -, -, sc⟩ := Algo.update_step inv.full adm'.alg
  rw [ha] at hu2
  have e3 : s'.alg = a' := congrArg Prod.snd (Res.ok.inj hu2)
  subst e3
  have hmv : Algo.movedEnough s.alg (s.alg.unused * d.motion) := by
    rw [hu, Matrix.one_mul, Algo.ahead_moved fl.minD fl.minR (by norm_num)]; norm_num
  have r' := Reach.update i1 trivial adm' hu'
  rw [(C115_frames he r').1, full'.alg.engine.nodesLen]
  cases sc with
  | first h => rw [hi] at h; cases h
  | idle _ h => exact absurd hmv h
  | matched _ _ h => cases h
  | failed _ _ _ _ _ _ g =>
    obtain ⟨ins, -, -, ⟨-, -, -, h⟩ | ⟨rfl, -⟩⟩ := g
    · exact absurd hfar h
    · unfold Algo.inserted
      simp only
      rw [Algo.length_optimised, List.length_append, ← hn, hf]
      rfl

/-- The hypotheses are met by a run in which the algorithm finds a loop closure, between its second and its first
frame. -/
example : ∃ eig, NDT.EigOk eig ∧ ∃ log s d out s', Own .tolerant eig log s ∧ AdmissibleOwn s d ∧
    updateOwn .tolerant eig d s = .ok (out, s') ∧ s.store.length = 1 ∧ s'.store.length = 2 ∧
    (1, 0, getPoseFromTransform 1, Slam.EKind.loop) ∈ (bookOf s').cons := by
  obtain ⟨eig, he⟩ := NDT.exists_eig
  obtain ⟨log, s, own, hf, hb, ho1, ho2, hx⟩ := frame_run he
  obtain ⟨d, out, s', hd, adm, hs', hlen⟩ := hx (exSearch true)
  refine ⟨eig, he, log, s, d, out, s', own, adm, hs', hf, hlen, ?_⟩
  obtain ⟨i1, i2⟩ := own.inv he
  obtain ⟨⟨b, inv⟩, -⟩ := i1.inv he
  rcases C129_search_partial he own adm hs' with ⟨h0, -⟩ | ⟨-, h0, -⟩
  · rw [hlen, hf] at h0; simp at h0
  rw [h0]
  refine List.mem_append_right _ ?_
  unfold loopConstraints
  rw [List.mem_map]
  refine ⟨⟨1, 0, 1, 1⟩, ?_, rfl⟩
  rw [grown_eq inv.full.alg.engine]
  obtain ⟨x, hx⟩ : ∃ x, b.poses = [x] := List.length_eq_one_iff.1 (by rw [← inv.frames.len, hf])
  have hx0 : x.1 = ⟨0, 0, 0⟩ := hb x (by rw [bookOf_eq inv.full.alg.engine, hx]; simp)
  have ht : Loop.tried d.env (insertedBook s.alg b) = [0] := by
    have hc : Loop.Candidate d.env (insertedBook s.alg b) 0 := by
      refine ⟨(s.alg.temp.origin, s.alg.temp), x, by simp [insertedBook, hx], by simp [insertedBook, hx], ?_, ?_⟩
      · rw [hx0, Complex.dist_eq_re_im]
        simp only [Loop.place, ho1, ho2, hd, exSearch]
        rw [show ((2 : ℝ) - 0) ^ 2 + (0 - 0) ^ 2 = 2 ^ 2 by norm_num, Real.sqrt_sq (by norm_num)]
        norm_num
      · rw [hd]
        show (0 : ℝ) ≤ 0 + _
        rw [zero_add]
        refine Finset.sum_nonneg fun j _ => ?_
        unfold Loop.leg
        rcases List.find? _ _ with _ | c
        · exact le_rfl
        · exact norm_nonneg _
    unfold Loop.tried
    have : (insertedBook s.alg b).poses.length - 1 = 1 := by simp [insertedBook, hx]
    rw [this]
    simp [hc]
  rw [ht]
  unfold Loop.closures Loop.answer
  simp [insertedBook, hx, hd, exSearch]

end Verif.Whole
