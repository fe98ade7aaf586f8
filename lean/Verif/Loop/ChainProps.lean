import Verif.Loop.Chain

/-
Properties C119 and C120: which poses the loop search tries, and in which order.
-/
namespace Verif.Loop

open Verif Verif.PoseGraph Verif.Slam

variable {τ : Type}

/-! ### The calls of the mapper -/

/-- `Mapped s book`: the object is in state `s` after calls as `updateGraph` makes them
(ndt_slam_algorithm.h:294-342): a first pose; then a pose with the constraint to the one before, a loop search
from the newest pose, optimisations.  (`updateGraph` always does these in the same order; here searches and
optimisations may be left out or repeated.) -/
inductive Mapped : State τ → Book τ → Prop
  | first (p : Pose) (o : τ) : Mapped (addPose init p o).2 ⟨[(p, o)], []⟩
  | next {s b addr trans inform id s'} (p : Pose) (o : τ) : Mapped s b → Fresh (addPose s p o).2.graph addr →
      addLastConstrain addr trans inform (addPose s p o).2 = (.ok id, s') →
      Mapped s' ⟨b.poses ++ [(p, o)], b.cons ++ [(b.poses.length - 1, b.poses.length, trans, .odom)]⟩
  | close {s b env toVec addrs cs r s'} : Mapped s b → addrs.Nodup → (∀ a ∈ addrs, Fresh s.graph a) →
      (search env (nodeCount s.graph) s.graph (b.poses.length - 1)).map (Res.map St.found) = some (.ok cs) →
      addrs.length = cs.length →
      tryLoopClose .tolerant env toVec addrs (b.poses.length - 1) s = some (.ok r, s') →
      Mapped s' { b with cons := b.cons ++ cs.map fun c => (c.src, c.dst, toVec c.trans, .loop) }
  | optimalize {s b r s'} (est : ℕ → Pose) (upd : τ → Pose → τ) (order : List ℕ) : Mapped s b →
      order.Perm (List.range b.poses.length) →
      Slam.optimalize est upd order s = (.ok r, s') →
      Mapped s'
        { b with
          poses := b.poses.mapIdx fun i x =>
            let p := if i = 0 then x.1 else est i
            (p, upd x.2 p) }

theorem search_found {s : State τ} {start : ℕ} {env : Env} {fuel : ℕ} {cs}
    (h : (search env fuel s.graph start).map (Res.map St.found) = some (.ok cs)) :
    ∃ st, search env fuel s.graph start = some (.ok st) ∧ st.found = cs := by
  obtain ⟨x, hx, h⟩ := Option.map_eq_some_iff.1 h
  obtain ⟨st, rfl, h⟩ := Res.map_eq_ok.1 h
  exact ⟨st, hx, Res.ok.inj h⟩

theorem shape_append_loops {b : Book τ} (hb : MapperShape b) (l : List (ℕ × ℕ × Pose × EKind))
    (hl : ∀ c ∈ l, c.2.1 < c.1) : MapperShape { b with cons := b.cons ++ l } := by
  refine ⟨fun c hc => ?_, fun i hi => ?_⟩
  · rcases List.mem_append.1 hc with hc | hc
    · exact hb.1 c hc
    · exact .inr (hl c hc)
  · obtain ⟨k, ⟨c, h1, h2, h3⟩, hu⟩ := hb.2 i hi
    have hk := (List.getElem?_eq_some_iff.1 h1).1
    refine ⟨k, ⟨c, by simp only; rw [List.getElem?_append_left hk]; exact h1, h2, h3⟩, ?_⟩
    rintro k' ⟨c', h1', h2', h3'⟩
    simp only at h1'
    rcases Nat.lt_or_ge k' b.cons.length with hk' | hk'
    · rw [List.getElem?_append_left hk'] at h1'
      exact hu k' ⟨c', h1', h2', h3'⟩
    · rw [List.getElem?_append_right hk'] at h1'
      have := hl c' (List.mem_iff_getElem?.2 ⟨_, h1'⟩)
      omega

theorem Mapped.spec {s : State τ} {b : Book τ} (h : Mapped s b) :
    History s b ∧ MapperShape b ∧ 0 < b.poses.length := by
  induction h with
  | first p o =>
    refine ⟨.addPose p o .init, ⟨by simp, fun i hi => ?_⟩, by simp⟩
    simp at hi
  | @next s b addr trans inform id s' p o h hf hc ih =>
    obtain ⟨h1, h2, h3⟩ := ih
    have hh := History.addPose p o h1
    have inv := hh.inv
    have hc' := hc
    unfold addLastConstrain at hc'
    rw [inv.prevId, inv.lastId] at hc'
    simp only [List.length_append, List.length_singleton] at hc'
    rw [show b.poses.length + 1 - 2 = b.poses.length - 1 by omega, Nat.add_sub_cancel] at hc'
    refine ⟨.addConstrain hh hf hc', ⟨fun c hcm => ?_, fun i hi => ?_⟩, by simp⟩
    · rcases List.mem_append.1 hcm with hcm | hcm
      · exact h2.1 c hcm
      · rw [List.mem_singleton.1 hcm]
        left; simp only; omega
    · simp only [List.length_append, List.length_singleton] at hi ⊢
      have hbound : ∀ (k : ℕ) (c : ℕ × ℕ × Pose × EKind), b.cons[k]? = some c → c.1 = i → c.2.1 = i + 1 → i + 1 < b.poses.length := by
        intro k c hk e1 e2
        obtain ⟨e, k1, k2, k3, k4⟩ := book_live h1.inv hk
        have := ((good_of_history h1).ends k e k1).2
        rw [h1.inv.nodesLen] at this
        omega
      by_cases hlt : i + 1 < b.poses.length
      · obtain ⟨k, ⟨c, k1, k2, k3⟩, hu⟩ := h2.2 i hlt
        have hk := (List.getElem?_eq_some_iff.1 k1).1
        refine ⟨k, ⟨c, by rw [List.getElem?_append_left hk]; exact k1, k2, k3⟩, ?_⟩
        rintro k' ⟨c', h1', h2', h3'⟩
        rcases Nat.lt_or_ge k' b.cons.length with hk' | hk'
        · rw [List.getElem?_append_left hk'] at h1'
          exact hu k' ⟨c', h1', h2', h3'⟩
        · rw [List.getElem?_append_right hk'] at h1'
          have := List.mem_singleton.1 (List.mem_iff_getElem?.2 ⟨_, h1'⟩)
          subst this
          simp only at h2' h3'
          omega
      · refine ⟨b.cons.length, ⟨_, by simp; rfl, by simp only; omega, by simp only; omega⟩, ?_⟩
        rintro k' ⟨c', h1', h2', h3'⟩
        rcases Nat.lt_or_ge k' b.cons.length with hk' | hk'
        · rw [List.getElem?_append_left hk'] at h1'
          exact absurd (hbound k' c' h1' h2' h3') hlt
        · have := (List.getElem?_eq_some_iff.1 h1').1
          simp at this
          omega
  | @close s b env toVec addrs cs r s' h hnd hfr hcs hlen hr ih =>
    obtain ⟨h1, h2, h3⟩ := ih
    obtain ⟨st, hst, rfl⟩ := search_found hcs
    obtain ⟨cs', hcs', hfin⟩ := C41_tryLoopClose_partial h1 env toVec addrs _ r s' hr
    rw [hcs] at hcs'
    have : cs' = st.found := by simpa using hcs'.symm
    subst this
    have hm : (addrs.zip (st.found.map fun c => (⟨c.src, c.dst, toVec c.trans, c.inform⟩ : Closure))).map Prod.fst =
        addrs := by rw [List.map_fst_zip]; simp [hlen]
    have hm2 : (addrs.zip (st.found.map fun c => (⟨c.src, c.dst, toVec c.trans, c.inform⟩ : Closure))).map Prod.snd =
        st.found.map fun c => (⟨c.src, c.dst, toVec c.trans, c.inform⟩ : Closure) := by
      rw [List.map_snd_zip]; simp [hlen]
    have hh := History.loopClose h1 (by rw [hm]; exact hnd) (by rw [hm]; exact hfr) hfin
    have heq : ((addrs.zip (st.found.map fun c => (⟨c.src, c.dst, toVec c.trans, c.inform⟩ : Closure))).map
        fun c => (c.2.src, c.2.dst, c.2.trans, EKind.loop)) =
        st.found.map fun c => (c.src, c.dst, toVec c.trans, EKind.loop) := by
      have := congrArg (List.map fun c : Closure => (c.src, c.dst, c.trans, EKind.loop)) hm2
      rw [List.map_map, List.map_map] at this
      exact this
    rw [heq] at hh
    refine ⟨hh, shape_append_loops h2 _ fun c hc => ?_, h3⟩
    obtain ⟨c', hc', rfl⟩ := List.mem_map.1 hc
    obtain ⟨j1, j2, ⟨n, m, -, j3, -⟩, -⟩ := C40_justified_partial h1 env _ _ st hst c' hc'
    simp only
    have hlt : c'.dst < s.graph.nodes.length := by
      unfold getNode at j3
      by_contra hge
      rw [List.getElem?_eq_none (by omega)] at j3
      cases j3
    rw [h1.inv.nodesLen] at hlt
    omega
  | optimalize est upd order h hp ho ih =>
    obtain ⟨h1, h2, h3⟩ := ih
    exact ⟨.optimalize est upd order h1 hp ho, ⟨h2.1, by simpa using h2.2⟩, by simpa using h3⟩

/-! ### C119 -/

open Classical in
theorem search_exact {s : State τ} {b : Book τ} (h1 : SInv s b) (h2 : MapperShape b) (h3 : 0 < b.poses.length)
    (env : Env) :
    ∃ st, search env (nodeCount s.graph) s.graph (b.poses.length - 1) = some (.ok st) ∧
      st.attempts = ((List.range (b.poses.length - 1)).reverse.filter
        fun i => decide (Candidate env b i)).take 50 ∧
      st.found = closures env b st.attempts := by
  obtain ⟨st0, hb, inv0⟩ := begin_chain (env := env) h1 h2 h3
  have hn : nodeCount s.graph = b.poses.length := h1.nodesLen
  obtain ⟨st, hl, inv, hend⟩ := loop_chain h1 h2 inv0 (fuel := nodeCount s.graph) (by omega)
  refine ⟨st, by unfold search; rw [hb]; exact hl, ?_, inv.found⟩
  have hpre := inv.attempts
  rw [filter_take_prefix] at hpre
  have hlen : st.attempts.length = (((olderPoses b.poses.length).take (st.visited - 1)).filter
    fun i => decide (Candidate env b i)).length := congrArg List.length inv.attempts
  rw [← hlen] at hpre
  rcases hend with hv | hd
  · have hall : (olderPoses b.poses.length).take (st.visited - 1) = olderPoses b.poses.length := by
      rw [List.take_of_length_le]
      simp [olderPoses, hv]
    have h4 := inv.attempts
    rw [hall] at h4
    have h5 : st.attempts.length ≤ 50 := by rw [← inv.depth]; exact inv.max
    show st.attempts = ((olderPoses b.poses.length).filter _).take 50
    rw [← h4, List.take_of_length_le h5]
  · rw [← inv.depth, hd] at hpre
    exact hpre

open Classical in
/-- **C119**, partial: in a graph built by the calls of the mapper the search from the newest pose ends normally;
the poses it matches are exactly the candidates, each once, from the newest to the oldest, up to the limit of 50;
its result has exactly one closure for each successful match.  Missing: the candidates are taken with the
content of a variable that is never initialised (`env.junk`; `C119_false_uninitialised`), and other graphs, for
which the statement is false (`C119_false_parallel`). -/
theorem C119_candidates_partial {s : State τ} {b : Book τ} (h : Mapped s b) (env : Env) :
    ∃ st, search env (nodeCount s.graph) s.graph (b.poses.length - 1) = some (.ok st) ∧
      st.attempts = ((List.range (b.poses.length - 1)).reverse.filter
        fun i => decide (Candidate env b i)).take 50 ∧
      st.found = closures env b st.attempts :=
  search_exact h.spec.1.inv h.spec.2.1 h.spec.2.2 env

/-- The candidates in the sense of the settings alone. -/
def TrueCandidate (env : Env) (b : Book τ) (i : ℕ) : Prop :=
  ∃ p q, b.poses[b.poses.length - 1]? = some p ∧ b.poses[i]? = some q ∧
    dist (place p.1) (place q.1) < env.maxDist ∧ env.minDist ≤ travelled b i

open Classical in
/-- **C119**, partial: if the uninitialised memory happens to hold 0, the poses tried are exactly those nearer than
the maximum distance to which the robot has travelled at least the minimum distance. -/
theorem C119_exact_partial {s : State τ} {b : Book τ} (h : Mapped s b) (env : Env) (hj : env.junk = 0) :
    ∃ st, search env (nodeCount s.graph) s.graph (b.poses.length - 1) = some (.ok st) ∧
      st.attempts = ((List.range (b.poses.length - 1)).reverse.filter
        fun i => decide (TrueCandidate env b i)).take 50 ∧
      st.found = closures env b st.attempts := by
  obtain ⟨st, h1, h2, h3⟩ := C119_candidates_partial h env
  refine ⟨st, h1, ?_, h3⟩
  rw [h2]
  congr 1
  apply List.filter_congr
  intro i _
  congr 1
  simp only [Candidate, TrueCandidate, hj, zero_add]

/-- What `closures` says: closure number `j` of the result belongs to a successful attempt. -/
theorem mem_closures {env : Env} {b : Book τ} {l : List ℕ} {c : LoopClosure} :
    c ∈ closures env b l ↔ ∃ (k : ℕ) (r : MatchResult), l[k]? = some c.dst ∧ c.src = b.poses.length - 1 ∧
      answer env b k c.dst = some r ∧ Reported r c := by
  unfold closures
  rw [List.mem_filterMap]
  constructor
  · rintro ⟨⟨i, k⟩, h1, h2⟩
    obtain ⟨r, h3, h4⟩ := Option.bind_eq_some_iff.1 h2
    split_ifs at h4 with hs
    cases h4
    exact ⟨k, r, List.mem_zipIdx_iff_getElem?.1 h1, rfl, h3, hs, rfl, rfl⟩
  · rintro ⟨k, r, h1, h2, h3, h4, h5, h6⟩
    refine ⟨(c.dst, k), List.mem_zipIdx_iff_getElem?.2 h1, ?_⟩
    rw [h3, Option.bind_some, if_pos h4]
    obtain ⟨cs, cd, ci, ct⟩ := c
    simp only at h2 h5 h6 ⊢
    rw [h2, h5, h6]

theorem exS3_mapped : Mapped exS3 ⟨[(p0, "a"), (p1, "b")], [(0, 1, p1, .odom)]⟩ :=
  .next (s := (addPose init p0 "a").2) (b := ⟨[(p0, "a")], []⟩) (addr := 10) (inform := 1) (id := 0) p1 "b"
    (.first p0 "a") (exS2_fresh 10) rfl

theorem ex_travelled : travelled (⟨[(p0, "a"), (p1, "b")], [(0, 1, p1, .odom)]⟩ : Book String) 0 = 1 := by
  simp [travelled, leg, ← edgeLen_eq, edgeLen_p1]

/-- A graph of the mapper with a candidate, which is tried and becomes a closure. -/
example : ∃ st, search (exEnv 1 0) (nodeCount exS3.graph) exS3.graph 1 = some (.ok st) ∧
    st.attempts = [0] ∧ st.found.map LoopClosure.dst = [0] := by
  classical
  obtain ⟨st, h1, h2, h3⟩ := C119_exact_partial exS3_mapped (exEnv 1 0) rfl
  have hc : TrueCandidate (exEnv 1 0) (⟨[(p0, "a"), (p1, "b")], [(0, 1, p1, .odom)]⟩ : Book String) 0 :=
    ⟨(p1, "b"), (p0, "a"), rfl, rfl, by
      rw [← poseDist_eq]
      exact poseDist_p1.trans_lt (by norm_num [exEnv]), by rw [ex_travelled]; exact le_rfl⟩
  have h4 : st.attempts = [0] := by rw [h2]; simp [hc]
  refine ⟨st, h1, h4, ?_⟩
  rw [h3, h4]
  simp [closures, answer, exEnv]

/-- **C119** fails: with a suitable content of the uninitialised memory a candidate is overlooked. -/
theorem C119_false_uninitialised : ∃ (s : State String) (b : Book String) (env : Env) (st : St String),
    Mapped s b ∧ search env (nodeCount s.graph) s.graph (b.poses.length - 1) = some (.ok st) ∧
      TrueCandidate env b 0 ∧ st.attempts = [] := by
  classical
  obtain ⟨st, h1, h2, h3⟩ := C119_candidates_partial exS3_mapped (exEnv 1 (-100))
  refine ⟨exS3, _, exEnv 1 (-100), st, exS3_mapped, h1, ⟨(p1, "b"), (p0, "a"), rfl, rfl, ?_, ?_⟩, ?_⟩
  · rw [← poseDist_eq]
    exact poseDist_p1.trans_lt (by norm_num [exEnv])
  · rw [ex_travelled]; exact le_rfl
  · have hc : ¬ Candidate (exEnv 1 (-100)) (⟨[(p0, "a"), (p1, "b")], [(0, 1, p1, .odom)]⟩ : Book String) 0 := by
      rintro ⟨p, q, -, -, -, hd⟩
      rw [ex_travelled] at hd
      norm_num [exEnv] at hd
    rw [h2]
    simp [hc]

/-! ### Other graphs -/

/-- The first element with the largest determinant. -/
noncomputable def bestIndex (l : List Item) : ℕ :=
  sInf {i | ∃ it, l[i]? = some it ∧ ∀ x ∈ l, x.det ≤ it.det}

theorem exists_best {l : List Item} (h : l ≠ []) : ∃ (i : ℕ) (it : Item), l[i]? = some it ∧ ∀ x ∈ l, x.det ≤ it.det := by
  induction l with
  | nil => exact absurd rfl h
  | cons a l ih =>
    rcases l.eq_nil_or_concat with hl | -
    · subst hl
      exact ⟨0, a, rfl, by simp⟩
    · by_cases hl : l = []
      · subst hl
        exact ⟨0, a, rfl, by simp⟩
      · obtain ⟨i, it, h1, h2⟩ := ih hl
        rcases le_total it.det a.det with hle | hle
        · refine ⟨0, a, rfl, fun x hx => ?_⟩
          rcases List.mem_cons.1 hx with rfl | hx
          · exact le_rfl
          · exact (h2 x hx).trans hle
        · refine ⟨i + 1, it, by simpa using h1, fun x hx => ?_⟩
          rcases List.mem_cons.1 hx with rfl | hx
          · exact hle
          · exact h2 x hx

theorem bestIndex_spec {l : List Item} (h : l ≠ []) :
    ∃ it, l[bestIndex l]? = some it ∧ ∀ x ∈ l, x.det ≤ it.det := by
  obtain ⟨i, hi⟩ := exists_best h
  exact Nat.sInf_mem (s := {i | ∃ it, l[i]? = some it ∧ ∀ x ∈ l, x.det ≤ it.det}) ⟨i, hi⟩

theorem bestIndex_head {a : Item} {l : List Item} (h : ∀ x ∈ l, x.det ≤ a.det) : bestIndex (a :: l) = 0 := by
  refine Nat.eq_zero_of_le_zero (Nat.sInf_le ⟨a, rfl, fun x hx => ?_⟩)
  rcases List.mem_cons.1 hx with rfl | hx
  · exact le_rfl
  · exact h x hx

theorem bestIndex_second {a b : Item} (h : a.det < b.det) : bestIndex [a, b] = 1 := by
  obtain ⟨it, h1, h2⟩ := bestIndex_spec (l := [a, b]) (by simp)
  have hlt := (List.getElem?_eq_some_iff.1 h1).1
  rcases Nat.lt_or_ge (bestIndex [a, b]) 1 with h0 | h0
  · have : bestIndex [a, b] = 0 := by omega
    rw [this] at h1
    cases h1
    exact absurd (h2 b (by simp)) (not_le.2 h)
  · simp at hlt
    omega

/-- A machine with a priority queue, cleared memory for the distance, and a matcher that always succeeds. -/
noncomputable def queueEnv (junkCov : Geo.Trans) : Env :=
  ⟨1, 10, fun _ l => bestIndex l, fun _ _ _ _ => ⟨true, 1, 1⟩, 0, junkCov⟩

theorem queueEnv_largestFirst (junkCov : Geo.Trans) : LargestFirst (queueEnv junkCov) := by
  intro k l it hit
  by_cases hl : l = []
  · subst hl
    simp at hit
  · obtain ⟨it', h1, h2⟩ := bestIndex_spec hl
    have hlt := (List.getElem?_eq_some_iff.1 h1).1
    simp only [queueEnv] at hit
    rw [Nat.mod_eq_of_lt hlt, h1] at hit
    cases hit
    exact h2

theorem tryMatch_queue {jc : Geo.Trans} {s : St τ} {item : Item} {p q : Pose} (h1 : poseDist p q < 10)
    (h2 : 1 ≤ item.dist) : tryMatch (queueEnv jc) 2 s item p q =
      { s with
        depth := s.depth + 1
        attempts := s.attempts ++ [item.node]
        found := s.found ++ [⟨2, item.node, 1, 1⟩] } := by
  unfold tryMatch
  rw [if_pos ⟨h1, not_lt.2 h2⟩]
  rfl

theorem poseDist_p1_lt : poseDist p1 p0 < 10 := by rw [poseDist_p1]; norm_num

/-- Three poses. -/
def exT0 : State String := (addPose exS2 p1 "c").2

theorem exT0_history : History exT0 ⟨[(p0, "a"), (p1, "b"), (p1, "c")], []⟩ := .addPose p1 "c" exS2_history

/-- The edge object of the constraint number `id` from `src` to pose 2 by the translation `(x, 0)`. -/
def exEdge (addr id src : ℕ) (x : ℝ) (u : Bool) : Edge EdgeP := ⟨addr, id, src, 2, ⟨⟨x, 0, 0⟩, stdInfo, .active, .odom, u⟩⟩

noncomputable def exElem (jc : Geo.Trans) (src : ℕ) (x : ℝ) : Item :=
  (startItem (queueEnv jc) 2).add (edgeItem (exEdge 0 0 src x false))

theorem exElem_dist (jc : Geo.Trans) (src : ℕ) {x : ℝ} (hx : 0 ≤ x) : (exElem jc src x).dist = x := by
  rw [exElem, add_dist, edgeItem_dist]
  simp [edgeLen, exEdge, startItem, queueEnv, Real.sqrt_sq hx]

theorem exElem_node (jc : Geo.Trans) (src : ℕ) (x : ℝ) : (exElem jc src x).node = src := rfl

theorem exElem_det (jc : Geo.Trans) (i j : ℕ) (x : ℝ) : (exElem jc i x).det = (exElem jc j x).det := rfl

/-- Three poses, two constraints from pose 0 to pose 2 and one from pose 1 to pose 2. -/
def exT : State String :=
  (addConstrain 30 1 2 p1 1 (addConstrain 20 0 2 p1 1 (addConstrain 10 0 2 p1 1 exT0).2).2).2

def exTGraph (v0 v1 v2 : Bool) (u0 u1 u2 : Bool) : G String :=
  ⟨[⟨0, ⟨p0, "a", v0⟩, [10, 20], []⟩, ⟨1, ⟨p1, "b", v1⟩, [30], []⟩, ⟨2, ⟨p1, "c", v2⟩, [], [10, 20, 30]⟩],
    [some (exEdge 10 0 0 1 u0), some (exEdge 20 1 0 1 u1), some (exEdge 30 2 1 1 u2)], []⟩

theorem exT_graph : exT.graph = exTGraph false false false false false false := rfl

theorem fresh_of_addrs {g : G τ} {l : List ℕ} (h : g.edges.map (Option.map Edge.addr) = l.map some) {a : ℕ}
    (ha : a ∉ l) : Fresh g a := by
  intro id e he hea
  have h1 := congrArg (fun m => m[id]?) h
  simp only [List.getElem?_map] at h1
  rw [live_iff.1 he] at h1
  simp only [Option.map_some] at h1
  obtain ⟨b, h2, h3⟩ := Option.map_eq_some_iff.1 h1.symm
  cases h3
  exact ha (hea ▸ List.mem_iff_getElem?.2 ⟨id, h2⟩)

theorem exT_history : History exT ⟨[(p0, "a"), (p1, "b"), (p1, "c")],
    [(0, 2, p1, .odom), (0, 2, p1, .odom), (1, 2, p1, .odom)]⟩ := by
  have h1 : History (addConstrain 10 0 2 p1 1 exT0).2 _ :=
    .addConstrain (addr := 10) (src := 0) (dst := 2) (trans := p1) (inform := 1) (id := 0) exT0_history
      (fresh_of_addrs (l := []) rfl (by simp)) rfl
  have h2 : History (addConstrain 20 0 2 p1 1 (addConstrain 10 0 2 p1 1 exT0).2).2 _ :=
    .addConstrain (addr := 20) (src := 0) (dst := 2) (trans := p1) (inform := 1) (id := 1) h1
      (fresh_of_addrs (l := [10]) rfl (by simp)) rfl
  exact .addConstrain (addr := 30) (src := 1) (dst := 2) (trans := p1) (inform := 1) (id := 2) h2
    (fresh_of_addrs (l := [10, 20]) rfl (by simp)) rfl

theorem exT_run : search (queueEnv 0) 3 exT.graph 2 = some (.ok
    ⟨exTGraph true false true true true true, [exElem 0 1 1], 3, 2, [⟨2, 0, 1, 1⟩, ⟨2, 0, 1, 1⟩], [0, 0]⟩) := by
  have hb : begin (queueEnv 0) exT.graph 2 = .ok
      ⟨exTGraph false false true true true true, [exElem 0 0 1, exElem 0 0 1, exElem 0 1 1], 1, 0, [], []⟩ := rfl
  have hbody1 : body (queueEnv 0) 2
      ⟨exTGraph false false true true true true, [exElem 0 0 1, exElem 0 0 1, exElem 0 1 1], 1, 0, [], []⟩ =
      .ok ⟨exTGraph true false true true true true, [exElem 0 0 1, exElem 0 1 1], 2, 1, [⟨2, 0, 1, 1⟩], [0]⟩ := by
    unfold body
    have hp : (queueEnv 0).pick 1 [exElem 0 0 1, exElem 0 0 1, exElem 0 1 1] = 0 :=
      bestIndex_head (by simp [exElem_det 0 1 0])
    simp only [hp]
    show (setVisited (tryMatch (queueEnv 0) 2 _ (exElem 0 0 1) p1 p0).graph 0).bind _ = _
    rw [tryMatch_queue poseDist_p1_lt (by rw [exElem_dist _ _ zero_le_one])]
    rfl
  have hbody2 : body (queueEnv 0) 2
      ⟨exTGraph true false true true true true, [exElem 0 0 1, exElem 0 1 1], 2, 1, [⟨2, 0, 1, 1⟩], [0]⟩ =
      .ok ⟨exTGraph true false true true true true, [exElem 0 1 1], 3, 2, [⟨2, 0, 1, 1⟩, ⟨2, 0, 1, 1⟩], [0, 0]⟩ := by
    unfold body
    have hp : (queueEnv 0).pick 2 [exElem 0 0 1, exElem 0 1 1] = 0 :=
      bestIndex_head (by simp [exElem_det 0 1 0])
    simp only [hp]
    show (setVisited (tryMatch (queueEnv 0) 2 _ (exElem 0 0 1) p1 p0).graph 0).bind _ = _
    rw [tryMatch_queue poseDist_p1_lt (by rw [exElem_dist _ _ zero_le_one])]
    rfl
  unfold search
  rw [hb]
  simp only
  unfold loop
  rw [if_pos (show running _ from ⟨show 1 < 3 by decide, show 0 < 50 by decide⟩), hbody1]
  simp only
  unfold loop
  rw [if_pos (show running _ from ⟨show 2 < 3 by decide, show 1 < 50 by decide⟩), hbody2]
  simp only
  unfold loop
  rw [if_neg (show ¬ running _ from fun h => absurd h.1 (by decide))]

/-- **C119** fails for other graphs: with two constraints between the same poses one pose is matched twice, two
equal closures are reported, and a pose to which the robot has travelled far enough is not tried at all, although
the memory is cleared and the limit of matches is far away. -/
theorem C119_false_parallel : ∃ (s : State String) (b : Book String) (env : Env) (st : St String),
    History s b ∧ LargestFirst env ∧ env.junk = 0 ∧ env.minDist = 1 ∧ env.maxDist = 10 ∧
      search env (nodeCount s.graph) s.graph (b.poses.length - 1) = some (.ok st) ∧
      st.attempts = [0, 0] ∧ st.found = [⟨2, 0, 1, 1⟩, ⟨2, 0, 1, 1⟩] ∧
      (∃ p q, b.poses[2]? = some p ∧ b.poses[1]? = some q ∧ dist (place p.1) (place q.1) < env.maxDist) ∧
      Path s.graph 2 1 1 := by
  refine ⟨exT, _, queueEnv 0, _, exT_history, queueEnv_largestFirst 0, rfl, rfl, rfl, exT_run, rfl, rfl,
    ⟨(p1, "c"), (p1, "b"), rfl, rfl, by simp [queueEnv]⟩, ?_⟩
  have := Path.cons (g := exT.graph) (id := 2) (e := exEdge 30 2 1 1 false) (.nil (start := 2)) rfl rfl
  rwa [show exEdge 30 2 1 1 false = ⟨30, 2, 1, 2, ⟨p1, stdInfo, .active, .odom, false⟩⟩ from rfl, ← edgeLen_eq,
    edgeLen_p1, zero_add] at this

/-! ### C120 -/

/-- **C120**, partial: in a graph built by the calls of the mapper the poses are tried in the order of growing
travelled distance.  Missing: other graphs, and the uncertainty instead of the distance (`C120_false`). -/
theorem C120_order_partial {s : State τ} {b : Book τ} (h : Mapped s b) (env : Env) :
    ∃ st, search env (nodeCount s.graph) s.graph (b.poses.length - 1) = some (.ok st) ∧
      st.attempts.Pairwise fun i j => j < i ∧ travelled b i ≤ travelled b j := by
  classical
  obtain ⟨st, h1, h2, -⟩ := C119_candidates_partial h env
  refine ⟨st, h1, ?_⟩
  rw [h2]
  refine List.Pairwise.sublist ((List.take_sublist _ _).trans List.filter_sublist) ?_
  rw [List.pairwise_reverse]
  refine List.pairwise_lt_range.imp fun hij => ⟨hij, ?_⟩
  refine Finset.sum_le_sum_of_subset_of_nonneg (Finset.Ico_subset_Ico_left hij.le) fun i _ _ => ?_
  unfold leg
  rcases List.find? _ _ with _ | c
  · exact le_rfl
  · exact norm_nonneg _

example : ∃ (s : State String) (b : Book String), Mapped s b ∧ b.poses.length = 2 := ⟨_, _, exS3_mapped, rfl⟩

/-- Three poses, a short constraint from pose 0 to pose 2 and a long one from pose 1 to pose 2. -/
def exD : State String := (addConstrain 20 1 2 ⟨2, 0, 0⟩ 1 (addConstrain 10 0 2 p1 1 exT0).2).2

theorem exD_history : History exD ⟨[(p0, "a"), (p1, "b"), (p1, "c")],
    [(0, 2, p1, .odom), (1, 2, ⟨2, 0, 0⟩, .odom)]⟩ := by
  have h1 : History (addConstrain 10 0 2 p1 1 exT0).2 _ :=
    .addConstrain (addr := 10) (src := 0) (dst := 2) (trans := p1) (inform := 1) (id := 0) exT0_history
      (fresh_of_addrs (l := []) rfl (by simp)) rfl
  exact .addConstrain (addr := 20) (src := 1) (dst := 2) (trans := ⟨2, 0, 0⟩) (inform := 1) (id := 1) h1
    (fresh_of_addrs (l := [10]) rfl (by simp)) rfl

theorem stdInfo_inv : (stdInfo)⁻¹ = Matrix.diagonal ![1 / 500, 1 / 500, 1 / 5000] := by
  apply Matrix.inv_eq_right_inv
  rw [stdInfo, Matrix.diagonal_mul_diagonal, ← Matrix.diagonal_one]
  congr 1
  funext i
  fin_cases i <;> norm_num

theorem exElem_det_value (src : ℕ) (x : ℝ) : (exElem 1 src x).det =
    (1 + 1 / 500) * ((1 + 1 / 500) * (1 + 1 / 5000) + 1 / 5000 * x ^ 2) := by
  have ht : (Geo.getTransFromPose ⟨x, 0, 0⟩)⁻¹ = !![1, 0, -x; 0, 1, 0; 0, 0, 1] := by
    apply Matrix.inv_eq_right_inv
    ext i j
    fin_cases i <;> fin_cases j <;> simp [Geo.getTransFromPose, Matrix.mul_apply, Fin.sum_univ_three]
  have hcov : (exElem 1 src x).det = (Geo.jacc1 1 0 (-x) 0 * 1 * (Geo.jacc1 1 0 (-x) 0).transpose +
      Geo.jacc2 1 0 * Matrix.diagonal ![1 / 500, 1 / 500, 1 / 5000] * (Geo.jacc2 1 0).transpose).det := by
    simp only [exElem, Geo.EdgeCov.add, edgeItem, exEdge, startItem, queueEnv, stdInfo_inv, ht]
    have h1 : (⟨1, 0⟩ : ℂ).arg = 0 := Complex.arg_one
    simp [Geo.atan2, h1]
  have hm : Geo.jacc1 1 0 (-x) 0 * 1 * (Geo.jacc1 1 0 (-x) 0).transpose +
      Geo.jacc2 1 0 * Matrix.diagonal ![1 / 500, 1 / 500, 1 / 5000] * (Geo.jacc2 1 0).transpose =
      !![1 + 1 / 500, 0, 0; 0, 1 + x ^ 2 + 1 / 500, -x; 0, -x, 1 + 1 / 5000] := by
    rw [Matrix.mul_one]
    ext i j
    rw [Matrix.add_apply, Matrix.mul_apply, Matrix.mul_apply]
    simp only [Matrix.mul_diagonal, Fin.sum_univ_three, Matrix.transpose_apply]
    fin_cases i <;> fin_cases j <;> simp [Geo.jacc1, Geo.jacc2]
    ring
  rw [hcov, hm, Matrix.det_fin_three]
  simp
  ring

theorem exElem_det_lt : (exElem 1 0 1).det < (exElem 1 1 2).det := by
  rw [exElem_det_value, exElem_det_value]
  norm_num

def exDGraph (v0 v1 v2 : Bool) (u0 u1 : Bool) : G String :=
  ⟨[⟨0, ⟨p0, "a", v0⟩, [10], []⟩, ⟨1, ⟨p1, "b", v1⟩, [20], []⟩, ⟨2, ⟨p1, "c", v2⟩, [], [10, 20]⟩],
    [some (exEdge 10 0 0 1 u0), some (exEdge 20 1 1 2 u1)], []⟩

theorem exD_begin : begin (queueEnv 1) exD.graph 2 = .ok
    ⟨exDGraph false false true true true, [exElem 1 0 1, exElem 1 1 2], 1, 0, [], []⟩ := rfl

theorem exD_run : search (queueEnv 1) 3 exD.graph 2 = some (.ok
    ⟨exDGraph true true true true true, [], 3, 2, [⟨2, 1, 1, 1⟩, ⟨2, 0, 1, 1⟩], [1, 0]⟩) := by
  have hp1 : poseDist p1 p1 < 10 := by simp [poseDist]
  have hbody1 : body (queueEnv 1) 2
      ⟨exDGraph false false true true true, [exElem 1 0 1, exElem 1 1 2], 1, 0, [], []⟩ =
      .ok ⟨exDGraph false true true true true, [exElem 1 0 1], 2, 1, [⟨2, 1, 1, 1⟩], [1]⟩ := by
    unfold body
    have hp : (queueEnv 1).pick 1 [exElem 1 0 1, exElem 1 1 2] = 1 := bestIndex_second exElem_det_lt
    simp only [hp]
    show (setVisited (tryMatch (queueEnv 1) 2 _ (exElem 1 1 2) p1 p1).graph 1).bind _ = _
    rw [tryMatch_queue hp1 (by rw [exElem_dist _ _ zero_le_two]; norm_num)]
    rfl
  have hbody2 : body (queueEnv 1) 2
      ⟨exDGraph false true true true true, [exElem 1 0 1], 2, 1, [⟨2, 1, 1, 1⟩], [1]⟩ =
      .ok ⟨exDGraph true true true true true, [], 3, 2, [⟨2, 1, 1, 1⟩, ⟨2, 0, 1, 1⟩], [1, 0]⟩ := by
    unfold body
    have hp : (queueEnv 1).pick 2 [exElem 1 0 1] = 0 := bestIndex_head (by simp)
    simp only [hp]
    show (setVisited (tryMatch (queueEnv 1) 2 _ (exElem 1 0 1) p1 p0).graph 0).bind _ = _
    rw [tryMatch_queue poseDist_p1_lt (by rw [exElem_dist _ _ zero_le_one])]
    rfl
  unfold search
  rw [exD_begin]
  simp only
  unfold loop
  rw [if_pos (show running _ from ⟨show 1 < 3 by decide, show 0 < 50 by decide⟩), hbody1]
  simp only
  unfold loop
  rw [if_pos (show running _ from ⟨show 2 < 3 by decide, show 1 < 50 by decide⟩), hbody2]
  simp only
  unfold loop
  rw [if_neg (show ¬ running _ from fun h => absurd h.1 (by decide))]

/-- **C120** fails: the comparison is the wrong way round for `std::priority_queue`.  Two poses are joined to the
queried one by one constraint each; the one whose relation to it is less certain (larger determinant of the
covariance, and longer) is tried first. -/
theorem C120_false : ∃ (s : State String) (b : Book String) (env : Env) (st0 st : St String) (x y : Item),
    History s b ∧ LargestFirst env ∧ env.junk = 0 ∧ env.junkCov = 1 ∧
      begin env s.graph 2 = .ok st0 ∧ st0.fringe = [x, y] ∧ x.node = 0 ∧ y.node = 1 ∧
      x.det < y.det ∧ x.dist < y.dist ∧
      search env (nodeCount s.graph) s.graph 2 = some (.ok st) ∧ st.attempts = [1, 0] :=
  ⟨exD, _, queueEnv 1, _, _, _, _, exD_history, queueEnv_largestFirst 1, rfl, rfl, exD_begin, rfl, rfl, rfl,
    exElem_det_lt, by rw [exElem_dist _ _ zero_le_one, exElem_dist _ _ zero_le_two]; norm_num, exD_run, rfl⟩

end Verif.Loop
