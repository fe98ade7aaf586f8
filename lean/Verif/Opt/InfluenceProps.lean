import Verif.Opt.Influence
import Mathlib.Tactic.Linarith
import Mathlib.Tactic.FieldSimp

/- C157: influence of loop closures on the map. -/
namespace Verif.Opt

open Verif Verif.Slam Verif.Geo Matrix

variable {τ : Type}

/-! ### Specification -/

/-- Squared error, weighted by an information matrix. -/
def weighted (a : Info) (e : Slam.Pose) : ℝ := ![e.x, e.y, e.th] ⬝ᵥ (a *ᵥ ![e.x, e.y, e.th])

/-- A loop closure between two vertices. -/
structure Tie where
  src : ℕ
  dst : ℕ
  meas : Slam.Pose
  info : Info

/-- Squared error of a plain closure. -/
noncomputable def Tie.cost (t : Tie) (est : ℕ → Slam.Pose) : ℝ := weighted t.info (delta (est t.src) (est t.dst) t.meas)

/-- Squared error of a switchable closure, with that of the prior of its switch (measurement 1, information 1). -/
noncomputable def Tie.switchCost (t : Tie) (est : ℕ → Slam.Pose) (s : ℝ) : ℝ :=
  weighted t.info (switchError (est t.src) (est t.dst) t.meas s) + priorError 1 s * 1 * priorError 1 s

/-- Squared error of a closure that is a mixture edge, evaluated at the estimates. -/
noncomputable def Tie.mixtureCost (t : Tie) (est : ℕ → Slam.Pose) : ℝ :=
  match loopMixture t.src t.dst t.meas t.info est with
  | .ok m => m.err ⬝ᵥ (m.belief.info *ᵥ m.err)
  | _ => 0

/-- The optimum that the solver looks for: estimates `est` with the origin where it is, and switches `s` in the unit
interval; `rest` is the cost of all other constraints. -/
def SwitchOptimum (rest : (ℕ → Slam.Pose) → ℝ) (ts : List Tie) (est : ℕ → Slam.Pose) (s : Fin ts.length → ℝ) : Prop :=
  ∀ est' (s' : Fin ts.length → ℝ), est' 0 = est 0 → (∀ k, 0 ≤ s' k ∧ s' k ≤ 1) →
    rest est + ∑ k, (ts.get k).switchCost est (s k) ≤ rest est' + ∑ k, (ts.get k).switchCost est' (s' k)

/-- The same for closures that are plain constraints or mixture edges; `cost` is their cost. -/
def Optimum (rest cost : (ℕ → Slam.Pose) → ℝ) (est : ℕ → Slam.Pose) : Prop :=
  ∀ est', est' 0 = est 0 → rest est + cost est ≤ rest est' + cost est'

/-- Cost of a list of edges in the optimiser; an edge without vertices does not count. -/
noncomputable def edgesCost (es : List OptEdge) (est : ℕ → Slam.Pose) : ℝ :=
  (es.map fun e => match e.v0, e.v1 with
    | some a, some b => weighted e.info (delta (est a) (est b) e.meas)
    | _, _ => 0).sum

/-- Ids that g2o would accept: no two vertices have the same, no two edges have the same. -/
def DistinctIds (s : RState τ) : Prop :=
  (s.slam.vertices.map Vertex.id ++ s.switches.map Prod.fst).Nodup ∧
  (s.slam.optEdges.map OptEdge.id ++ s.priors.map PriorEdge.id ++ s.loops.map LoopEdge.id).Nodup

/-! ### Lemmas -/

theorem weighted_nonneg {a : Info} (ha : a.PosSemidef) (e : Slam.Pose) : 0 ≤ weighted a e := by
  have := ha.dotProduct_mulVec_nonneg ![e.x, e.y, e.th]
  rwa [star_trivial] at this

theorem weighted_scale (a : Info) (xi xj z : Slam.Pose) (s : ℝ) :
    weighted a (switchError xi xj z s) = s ^ 2 * weighted a (delta xi xj z) := by
  unfold weighted switchError
  simp only [dotProduct, mulVec, Fin.sum_univ_three, Matrix.cons_val]
  ring

theorem switchCost_eq (t : Tie) (est : ℕ → Slam.Pose) (s : ℝ) :
    t.switchCost est s = s ^ 2 * t.cost est + (1 - s) ^ 2 := by
  unfold Tie.switchCost Tie.cost priorError
  rw [weighted_scale]
  ring

/-- Completion of the square. -/
theorem square_bound {q s : ℝ} (hq : 0 ≤ q) : s ^ 2 * q + (1 - s) ^ 2 = q / (1 + q) + (1 + q) * (s - 1 / (1 + q)) ^ 2 := by
  have : (1 + q) ≠ 0 := by linarith
  field_simp
  ring

/-! ### Ids -/

/-- Ids are smaller than the counters. -/
structure IdsInv (s : RState τ) : Prop where
  distinct : DistinctIds s
  nodes : ∀ i ∈ s.slam.vertices.map Vertex.id ++ s.switches.map Prod.fst, i < s.slam.nodeSeq
  edges : ∀ i ∈ s.slam.optEdges.map OptEdge.id ++ s.priors.map PriorEdge.id ++ s.loops.map LoopEdge.id, i < s.slam.edgeSeq

/-- Effect of a call on the contents of the optimiser. -/
def Grows (s t : State τ) : Prop :=
  t.vertices = s.vertices ∧ t.nodeSeq = s.nodeSeq ∧
  ((t.optEdges = s.optEdges ∧ t.edgeSeq = s.edgeSeq) ∨
    ∃ e : OptEdge, e.id = s.edgeSeq ∧ t.optEdges = s.optEdges ++ [e] ∧ t.edgeSeq = s.edgeSeq + 1)

theorem change_same {α : Type*} (f : G τ → Res (α × G τ)) (s : State τ) :
    (change f s).2.vertices = s.vertices ∧ (change f s).2.nodeSeq = s.nodeSeq ∧
    (change f s).2.optEdges = s.optEdges ∧ (change f s).2.edgeSeq = s.edgeSeq := by
  unfold change
  rcases f s.graph with ⟨_, _⟩ | _ | _ <;> exact ⟨rfl, rfl, rfl, rfl⟩

/-- Nothing of the optimiser changes. -/
def Same (s t : State τ) : Prop :=
  t.vertices = s.vertices ∧ t.nodeSeq = s.nodeSeq ∧ t.optEdges = s.optEdges ∧ t.edgeSeq = s.edgeSeq

theorem bind_same {α β : Type*} {m : Op (State τ) α} {f : α → Op (State τ) β} {s : State τ} {P : State τ → State τ → Prop}
    (hm : Same s (m s).2) (hP : ∀ t, Same s t → P s t) (hf : ∀ a t, Same s t → P s (f a t).2) :
    P s (Op.bind m f s).2 := by
  unfold Op.bind
  rcases h : m s with ⟨a | _ | _, t⟩ <;> rw [h] at hm
  · exact hf a t hm
  · exact hP t hm
  · exact hP t hm

theorem Same.trans' {s t u : State τ} (h : Same s t) (h' : Same t u) : Same s u :=
  ⟨h'.1.trans h.1, h'.2.1.trans h.2.1, h'.2.2.1.trans h.2.2.1, h'.2.2.2.trans h.2.2.2⟩

theorem Same.grows {s t : State τ} (h : Same s t) : Grows s t := ⟨h.1, h.2.1, .inl h.2.2⟩

theorem query_same {α : Type*} (f : G τ → Res α) (s : State τ) : Same s (query f s).2 := ⟨rfl, rfl, rfl, rfl⟩

theorem addConstrain_grows (addr src dst : ℕ) (t : Slam.Pose) (inform : Info) (s : State τ) :
    Grows s (addConstrain addr src dst t inform s).2 := by
  have key : ∀ {α : Type} (m : Op (State τ) α) (f : α → Op (State τ) ℕ) (u : State τ), Same s u → (∀ u, Same u (m u).2) →
      (∀ a v, Same s v → Grows s (f a v).2) → Grows s (Op.bind m f u).2 := by
    intro α m f u hu hm hf
    refine bind_same (P := fun _ v => Grows s v) (hm u) (fun v hv => (hu.trans' hv).grows) fun a v hv => hf a v (hu.trans' hv)
  unfold addConstrain
  refine key _ _ s ⟨rfl, rfl, rfl, rfl⟩ (query_same _) fun _ u1 h1 => ?_
  refine key _ _ u1 h1 (query_same _) fun _ u2 h2 => ?_
  refine key _ _ u2 h2 (change_same _) fun id u3 h3 => ?_
  refine key _ _ u3 h3 (change_same _) fun _ u4 h4 => ?_
  refine key _ _ u4 h4 (change_same _) fun _ u5 h5 => ?_
  obtain ⟨a, b, c, d⟩ := h5
  refine ⟨a, b, .inr ⟨_, ?_, congrArg (· ++ _) c, congrArg (· + 1) d⟩⟩
  exact d

theorem IdsInv.grow {s : RState τ} (h : IdsInv s) {t : State τ} (g : Grows s.slam t) : IdsInv { s with slam := t } := by
  obtain ⟨g1, g2, ⟨g3, g4⟩ | ⟨e, he, g3, g4⟩⟩ := g
  · refine ⟨⟨?_, ?_⟩, ?_, ?_⟩
    · simpa only [g1] using h.distinct.1
    · simpa only [g3] using h.distinct.2
    · simpa only [g1, g2] using h.nodes
    · simpa only [g3, g4] using h.edges
  · have hp : (t.optEdges.map OptEdge.id ++ s.priors.map PriorEdge.id ++ s.loops.map LoopEdge.id).Perm
        (s.slam.edgeSeq :: (s.slam.optEdges.map OptEdge.id ++ s.priors.map PriorEdge.id ++ s.loops.map LoopEdge.id)) := by
      rw [g3, List.map_append, List.map_cons, List.map_nil, he]
      simp only [List.append_assoc, List.singleton_append]
      exact List.perm_middle
    refine ⟨⟨?_, ?_⟩, ?_, ?_⟩
    · simpa only [g1] using h.distinct.1
    · refine hp.nodup_iff.2 (List.nodup_cons.2 ⟨fun hm => ?_, h.distinct.2⟩)
      exact absurd (h.edges _ hm) (lt_irrefl _)
    · simpa only [g1, g2] using h.nodes
    · intro i hi
      simp only at hi ⊢
      rw [g4]
      rcases List.mem_cons.1 (hp.mem_iff.1 hi) with rfl | hi
      · omega
      · have := h.edges i hi; omega

theorem addLoops_ids (l : List (ℕ × Closure)) : ∀ {s : RState τ}, IdsInv s → ∀ {β : Type} (f : Op (State τ) β),
    (∀ u, Same u (f u).2) → IdsInv { s with slam := (Op.bind (addLoops l) (fun _ => f) s.slam).2 } := by
  induction l with
  | nil =>
    intro s h β f hf
    exact h.grow (hf _).grows
  | cons x l ih =>
    obtain ⟨addr, c⟩ := x
    intro s h β f hf
    have hg := addConstrain_grows addr c.src c.dst c.trans c.inform s.slam
    have h1 := h.grow hg
    unfold addLoops
    rcases e1 : addConstrain addr c.src c.dst c.trans c.inform s.slam with ⟨id | _ | _, u⟩
    · rw [e1] at h1
      have h2 := h1.grow (Same.grows (change_same
        (fun g => (PoseGraph.modifyEdge g id fun e : EdgeP => { e with kind := .loop }).map ((), ·)) u))
      rcases e2 : change (fun g => (PoseGraph.modifyEdge g id fun e : EdgeP => { e with kind := .loop }).map ((), ·)) u
        with ⟨a | _ | _, v⟩
      · rw [e2] at h2
        have := ih h2 f hf
        simpa only [Op.bind, e1, e2] using this
      · rw [e2] at h2
        simpa only [Op.bind, e1, e2] using h2
      · rw [e2] at h2
        simpa only [Op.bind, e1, e2] using h2
    · rw [e1] at h1
      simpa only [Op.bind, e1] using h1
    · rw [e1] at h1
      simpa only [Op.bind, e1] using h1

theorem IdsInv.run {s : RState τ} (h : IdsInv s) (c : Call τ) : IdsInv (c.run s) := by
  rcases c with ⟨p, obj⟩ | ⟨addr, src, dst, t, inform⟩ | l | ⟨src, dst, t, inform⟩
  · have e : (addPose s.slam p obj).2.vertices.map Vertex.id = s.slam.vertices.map Vertex.id ++ [s.slam.nodeSeq] ∧
        (addPose s.slam p obj).2.nodeSeq = s.slam.nodeSeq + 1 ∧
        (addPose s.slam p obj).2.optEdges = s.slam.optEdges ∧ (addPose s.slam p obj).2.edgeSeq = s.slam.edgeSeq := by
      unfold addPose
      simp only []
      split_ifs <;> simp
    obtain ⟨e1, e2, e3, e4⟩ := e
    have hp : ((addPose s.slam p obj).2.vertices.map Vertex.id ++ s.switches.map Prod.fst).Perm
        (s.slam.nodeSeq :: (s.slam.vertices.map Vertex.id ++ s.switches.map Prod.fst)) := by
      rw [e1]
      simp only [List.append_assoc, List.singleton_append]
      exact List.perm_middle
    refine ⟨⟨?_, ?_⟩, ?_, ?_⟩
    · refine hp.nodup_iff.2 (List.nodup_cons.2 ⟨fun hm => ?_, h.distinct.1⟩)
      exact absurd (h.nodes _ hm) (lt_irrefl _)
    · simpa only [Call.run, e3] using h.distinct.2
    · intro i hi
      simp only [Call.run] at hi ⊢
      rw [e2]
      rcases List.mem_cons.1 (hp.mem_iff.1 hi) with rfl | hi
      · omega
      · have := h.nodes i hi; omega
    · simpa only [Call.run, e3, e4] using h.edges
  · exact h.grow (addConstrain_grows _ _ _ _ _ _)
  · exact addLoops_ids l h _ fun u => ⟨rfl, rfl, rfl, rfl⟩
  · unfold Call.run addSwitchConstrainEdge
    obtain ⟨⟨d1, d2⟩, n1, n2⟩ := h
    have hp2 : (s.slam.optEdges.map OptEdge.id ++ (s.priors ++ [(⟨s.slam.edgeSeq, s.switches.length, 1, 1⟩ : PriorEdge)]).map PriorEdge.id ++
        (s.loops ++ [(⟨s.slam.edgeSeq + 1, s.slam.vertexOf src, s.slam.vertexOf dst, s.switches.length, t, inform⟩ : LoopEdge)]).map
          LoopEdge.id).Perm (s.slam.edgeSeq :: (s.slam.edgeSeq + 1) ::
        (s.slam.optEdges.map OptEdge.id ++ s.priors.map PriorEdge.id ++ s.loops.map LoopEdge.id)) := by
      simp only [List.map_append, List.map_cons, List.map_nil, List.append_assoc, List.singleton_append]
      rw [← List.append_assoc]
      refine List.perm_middle.trans (List.Perm.cons _ ?_)
      rw [← List.append_assoc, ← List.append_assoc (s.slam.optEdges.map OptEdge.id)]
      exact List.perm_append_singleton _ _
    refine ⟨⟨?_, ?_⟩, ?_, ?_⟩
    · simp only [List.map_append, List.map_cons, List.map_nil, ← List.append_assoc]
      refine (List.perm_append_singleton _ _).nodup_iff.2 (List.nodup_cons.2 ⟨fun hm => ?_, d1⟩)
      exact absurd (n1 _ hm) (lt_irrefl _)
    · refine hp2.nodup_iff.2 (List.nodup_cons.2 ⟨fun hm => ?_, List.nodup_cons.2 ⟨fun hm => ?_, d2⟩⟩)
      · rcases List.mem_cons.1 hm with hm | hm
        · omega
        · exact absurd (n2 _ hm) (lt_irrefl _)
      · have := n2 _ hm; omega
    · intro i hi
      simp only [List.map_append, List.map_cons, List.map_nil, ← List.append_assoc] at hi ⊢
      rcases List.mem_append.1 hi with hi | hi
      · have := n1 i hi; omega
      · simp at hi; omega
    · intro i hi
      simp only
      rcases List.mem_cons.1 (hp2.mem_iff.1 hi) with rfl | hi
      · omega
      · rcases List.mem_cons.1 hi with rfl | hi
        · omega
        · have := n2 i hi; omega

/-! ### C157 -/

/-- C157, ids: after any series of calls no two vertices and no two edges of the optimiser have the same id, whatever
mixture of poses, constraints, plain and switchable closures was added. -/
theorem C157_ids (calls : List (Call τ)) : DistinctIds (calls.foldl Call.run RState.init) := by
  have : ∀ s : RState τ, IdsInv s → IdsInv (calls.foldl Call.run s) := by
    induction calls with
    | nil => exact fun s h => h
    | cons c l ih => exact fun s h => ih _ (h.run c)
  refine (this RState.init ⟨⟨?_, ?_⟩, ?_, ?_⟩).distinct <;> simp [RState.init, Slam.init]

/-- C157, start: a switchable closure is added with the measurement and information it is given between the vertices of its
poses, and costs at first as much as the plain one. -/
theorem C157_start (s : RState τ) (src dst a b : ℕ) (t : Slam.Pose) (inform : Info) (ha : s.slam.vertexOf src = some a)
    (hb : s.slam.vertexOf dst = some b) :
    ∃ (e : LoopEdge) (p : PriorEdge) (v : ℕ × Switch),
      ((Call.switchable src dst t inform).run s).switches = s.switches ++ [v] ∧
      ((Call.switchable src dst t inform).run s).priors = s.priors ++ [p] ∧
      ((Call.switchable src dst t inform).run s).loops = s.loops ++ [e] ∧
      ((Call.switchable src dst t inform).run s).slam.graph = s.slam.graph ∧
      ((Call.switchable src dst t inform).run s).slam.optEdges = s.slam.optEdges ∧
      ((Call.switchable src dst t inform).run s).slam.vertices = s.slam.vertices ∧
      e.v0 = some a ∧ e.v1 = some b ∧ (s.switches ++ [v])[e.v2]? = some v ∧ p.v = e.v2 ∧ e.meas = t ∧ e.info = inform ∧
      p.meas = 1 ∧ p.info = 1 ∧
      ∀ est, Tie.switchCost ⟨a, b, e.meas, e.info⟩ est v.2.estimate = Tie.cost ⟨a, b, t, inform⟩ est := by
  refine ⟨⟨s.slam.edgeSeq + 1, some a, some b, s.switches.length, t, inform⟩, ⟨s.slam.edgeSeq, s.switches.length, 1, 1⟩,
    (s.slam.nodeSeq, Switch.origin.setEstimate 1), rfl, rfl, ?_, rfl, rfl, rfl, rfl, rfl, by simp, rfl, rfl, rfl, rfl, rfl,
    fun est => ?_⟩
  · simp only [Call.run, addSwitchConstrainEdge]
    rw [ha, hb]
  · rw [switchCost_eq]
    simp [Switch.setEstimate]

/-- C157, best switch: for given poses the switch with the smallest cost is 1/(1+q), where q is the squared error of the
closure, and the closure then costs q/(1+q), which is less than 1; a single Gauss-Newton step with the Jacobians of the two
edges, applied to the switch vertex, leads there from everywhere in the unit interval. -/
theorem C157_switch (t : Tie) (ht : t.info.PosSemidef) (est : ℕ → Slam.Pose) :
    0 < 1 / (1 + t.cost est) ∧ 1 / (1 + t.cost est) ≤ 1 ∧
    t.switchCost est (1 / (1 + t.cost est)) = t.cost est / (1 + t.cost est) ∧ t.cost est / (1 + t.cost est) < 1 ∧
    (∀ s, s ≠ 1 / (1 + t.cost est) → t.switchCost est (1 / (1 + t.cost est)) < t.switchCost est s) ∧
    ∀ v : Switch, v.x = v.estimate →
      let j := (switchJacobians (est t.src) (est t.dst) t.meas v.estimate).2.2
      let e := switchError (est t.src) (est t.dst) t.meas v.estimate
      let h := j ⬝ᵥ (t.info *ᵥ j) + priorJacobian * 1 * priorJacobian
      let b := j ⬝ᵥ (t.info *ᵥ ![e.x, e.y, e.th]) + priorJacobian * 1 * priorError 1 v.estimate
      h ≠ 0 ∧ (v.oplus (-b / h)).estimate = 1 / (1 + t.cost est) := by
  have hq : 0 ≤ t.cost est := weighted_nonneg ht _
  have h1 : 0 < 1 + t.cost est := by linarith
  have h01 : 0 < 1 / (1 + t.cost est) ∧ 1 / (1 + t.cost est) ≤ 1 :=
    ⟨by positivity, by rw [div_le_one h1]; linarith⟩
  have hmin : t.switchCost est (1 / (1 + t.cost est)) = t.cost est / (1 + t.cost est) := by
    rw [switchCost_eq, square_bound hq]; ring
  refine ⟨h01.1, h01.2, hmin, by rw [div_lt_one h1]; linarith, fun s hs => ?_, fun v hv => ?_⟩
  · rw [hmin, switchCost_eq, square_bound hq]
    have : 0 < (s - 1 / (1 + t.cost est)) ^ 2 := by
      have := sub_ne_zero.2 hs
      positivity
    nlinarith
  · simp only []
    have hj : (switchJacobians (est t.src) (est t.dst) t.meas v.estimate).2.2 ⬝ᵥ
        (t.info *ᵥ (switchJacobians (est t.src) (est t.dst) t.meas v.estimate).2.2) = t.cost est := by
      have : (switchJacobians (est t.src) (est t.dst) t.meas v.estimate).2.2 =
          ![(delta (est t.src) (est t.dst) t.meas).x, (delta (est t.src) (est t.dst) t.meas).y,
            (delta (est t.src) (est t.dst) t.meas).th] := by
        funext i; simp [switchJacobians]
      rw [this]; rfl
    have hb : (switchJacobians (est t.src) (est t.dst) t.meas v.estimate).2.2 ⬝ᵥ
        (t.info *ᵥ ![(switchError (est t.src) (est t.dst) t.meas v.estimate).x,
          (switchError (est t.src) (est t.dst) t.meas v.estimate).y,
          (switchError (est t.src) (est t.dst) t.meas v.estimate).th]) = v.estimate * t.cost est := by
      rw [← hj]
      simp only [switchError, switchJacobians, dotProduct, mulVec, Fin.sum_univ_three, Matrix.cons_val]
      ring
    rw [hj, hb]
    have hh : t.cost est + priorJacobian * 1 * priorJacobian = 1 + t.cost est := by unfold priorJacobian; ring
    rw [hh]
    refine ⟨h1.ne', ?_⟩
    have hx : v.x + -(v.estimate * t.cost est + priorJacobian * 1 * priorError 1 v.estimate) / (1 + t.cost est) =
        1 / (1 + t.cost est) := by
      unfold priorJacobian priorError
      rw [hv]
      field_simp
      ring
    rw [C65_increment, hx, min_eq_right h01.2, max_eq_right h01.1.le]

/-- C157, switchable closures, partial (they are provided, but not used by `tryLoopClose`): at an optimum the rest of the
graph is disturbed by no more than 1 for each closure, however wrong the closures are; more exactly, by no more than the
costs q/(1+q) of the closures at the poses one compares with. -/
theorem C157_switchable_partial (rest : (ℕ → Slam.Pose) → ℝ) (ts : List Tie) (hts : ∀ t ∈ ts, t.info.PosSemidef)
    {est : ℕ → Slam.Pose} {s : Fin ts.length → ℝ} (h : SwitchOptimum rest ts est s) :
    (∀ est', est' 0 = est 0 → rest est ≤ rest est' + (ts.map fun t => t.cost est' / (1 + t.cost est')).sum) ∧
    (∀ est', est' 0 = est 0 → rest est ≤ rest est' + ts.length) ∧
    ∀ k, (∀ k, 0 ≤ s k ∧ s k ≤ 1) → s k = 1 / (1 + (ts.get k).cost est) := by
  have pos : ∀ k : Fin ts.length, (ts.get k).info.PosSemidef := fun k => hts _ (List.get_mem _ _)
  have nonneg : ∀ (k : Fin ts.length) e x, 0 ≤ (ts.get k).switchCost e x := by
    intro k e x
    rw [switchCost_eq]
    have : 0 ≤ (ts.get k).cost e := weighted_nonneg (pos k) _
    positivity
  have first : ∀ est', est' 0 = est 0 →
      rest est ≤ rest est' + (ts.map fun t => t.cost est' / (1 + t.cost est')).sum := by
    intro est' h0
    have := h est' (fun k => 1 / (1 + (ts.get k).cost est')) h0 fun k =>
      ⟨(C157_switch _ (pos k) est').1.le, (C157_switch _ (pos k) est').2.1⟩
    have e : (ts.map fun t => t.cost est' / (1 + t.cost est')).sum =
        ∑ k, (ts.get k).switchCost est' (1 / (1 + (ts.get k).cost est')) := by
      rw [Finset.sum_congr rfl fun k _ => (C157_switch _ (pos k) est').2.2.1]
      rw [← List.sum_ofFn]
      congr 1
      apply List.ext_getElem <;> simp
    rw [e]
    have : 0 ≤ ∑ k, (ts.get k).switchCost est (s k) := Finset.sum_nonneg fun k _ => nonneg k _ _
    linarith
  refine ⟨first, fun est' h0 => (first est' h0).trans ?_, fun k hs => ?_⟩
  · have : (ts.map fun t => t.cost est' / (1 + t.cost est')).sum ≤ (ts.map fun _ => (1 : ℝ)).sum :=
      List.sum_le_sum fun t ht => (C157_switch t (hts t ht) est').2.2.2.1.le
    simp only [List.map_const', List.sum_replicate, nsmul_eq_mul, mul_one] at this
    linarith
  · by_contra hne
    have hc := C157_switch _ (pos k) est
    have hlt := hc.2.2.2.2.1 _ hne
    have := h est (Function.update s k (1 / (1 + (ts.get k).cost est))) rfl (fun i => by
      by_cases hik : i = k
      · subst hik
        rw [Function.update_self]
        exact ⟨hc.1.le, hc.2.1⟩
      · rw [Function.update_of_ne hik]
        exact hs i)
    have hsum : ∑ i, (ts.get i).switchCost est (Function.update s k (1 / (1 + (ts.get k).cost est)) i) <
        ∑ i, (ts.get i).switchCost est (s i) := by
      refine Finset.sum_lt_sum (fun i _ => ?_) ⟨k, Finset.mem_univ _, by rw [Function.update_self]; exact hlt⟩
      by_cases hik : i = k
      · subst hik
        rw [Function.update_self]; exact hlt.le
      · rw [Function.update_of_ne hik]
    linarith

/-- C157, mixture edges, partial (provided, but not used by `tryLoopClose` either): at an optimum the rest of the graph is
disturbed by no more than the gate of each closure (C89) and its cost under the null hypothesis at the poses one compares
with. -/
theorem C157_mixture_partial (rest : (ℕ → Slam.Pose) → ℝ) (ts : List Tie) (hts : ∀ t ∈ ts, t.info.PosDef)
    {est : ℕ → Slam.Pose} (h : Optimum rest (fun e => (ts.map fun t => t.mixtureCost e).sum) est) :
    ∀ est', est' 0 = est 0 → rest est ≤ rest est' + (ts.map fun t =>
      max 0 (2 * Real.log 10000 + Real.log t.info.det - Real.log 2.5e-26) +
        weighted (diagonal ![5e-9, 5e-9, 1e-9]) (delta (est' t.src) (est' t.dst) t.meas)).sum := by
  have hd : (diagonal ![5e-9, 5e-9, 1e-9] : Info).PosSemidef := by
    refine Matrix.PosSemidef.diagonal fun i => ?_
    fin_cases i <;> norm_num
  have key : ∀ t ∈ ts, ∀ e, 0 ≤ t.mixtureCost e ∧ t.mixtureCost e ≤
      max 0 (2 * Real.log 10000 + Real.log t.info.det - Real.log 2.5e-26) +
        weighted (diagonal ![5e-9, 5e-9, 1e-9]) (delta (e t.src) (e t.dst) t.meas) := by
    intro t ht e
    obtain ⟨m, hm, -, -, -, hv⟩ := C89_loop_gate t.src t.dst t.meas t.info (hts t ht).det_pos e []
    obtain ⟨h1, h2⟩ := hv _ rfl
    have hl : loopMixture t.src t.dst t.meas t.info e = .ok m := by
      rw [← hm]; rfl
    have hc : t.mixtureCost e = weighted m.belief.info (delta (e t.src) (e t.dst) t.meas) := by
      unfold Tie.mixtureCost
      rw [hl]
      simp only
      rw [h1]
      rfl
    have hnull : weighted (diagonal ![5e-9, 5e-9, 1e-9]) (delta (e t.src) (e t.dst) t.meas) =
        5e-9 * (delta (e t.src) (e t.dst) t.meas).x ^ 2 + 5e-9 * (delta (e t.src) (e t.dst) t.meas).y ^ 2 +
          1e-9 * (delta (e t.src) (e t.dst) t.meas).th ^ 2 := by
      unfold weighted
      simp only [dotProduct, Fin.sum_univ_three, Matrix.mulVec_diagonal, Matrix.cons_val]
      ring
    rw [hc, h2]
    simp only [lastEst, List.map_nil, List.getLast?_nil, Option.getD_none]
    split_ifs with hg
    · refine ⟨weighted_nonneg (hts t ht).posSemidef _, ?_⟩
      rw [hnull]
      have := le_max_right 0 (2 * Real.log 10000 + Real.log t.info.det - Real.log 2.5e-26)
      unfold weighted
      linarith
    · refine ⟨weighted_nonneg hd _, ?_⟩
      have := le_max_left 0 (2 * Real.log 10000 + Real.log t.info.det - Real.log 2.5e-26)
      linarith
  intro est' h0
  have h1 := h est' h0
  simp only at h1
  have h2 : 0 ≤ (ts.map fun t => t.mixtureCost est).sum := by
    refine List.sum_nonneg fun x hx => ?_
    obtain ⟨t, ht, rfl⟩ := List.mem_map.1 hx
    exact (key t ht est).1
  have h3 := List.sum_le_sum (l := ts) (f := fun t => t.mixtureCost est') fun t ht => (key t ht est').2
  linarith

/-- The history of the witness below: two poses at the same place, joined by odometry that says so, and a closure that says
that they are `L` apart. -/
noncomputable def wrongLoop (L : ℝ) : RState Unit :=
  [Call.pose ⟨0, 0, 0⟩ (), .pose ⟨0, 0, 0⟩ (), .constrain 0 0 1 ⟨0, 0, 0⟩ 1, .loops [(1, ⟨0, 1, ⟨L, 0, 0⟩, 1⟩)]].foldl
    Call.run RState.init

theorem wrongLoop_edges (L : ℝ) : (wrongLoop L).slam.optEdges =
    [⟨0, some 0, some 1, ⟨0, 0, 0⟩, stdInfo⟩, ⟨1, some 0, some 1, ⟨L, 0, 0⟩, stdInfo⟩] := by
  rfl

theorem wrong_cost (p : Slam.Pose) (l : ℝ) : weighted stdInfo (delta ⟨0, 0, 0⟩ p ⟨l, 0, 0⟩) =
    500 * (p.x - l) ^ 2 + 500 * p.y ^ 2 + 5000 * (normTheta p.th) ^ 2 := by
  rw [delta_eq, calcError_eq]
  unfold weighted stdInfo
  simp only [dotProduct, Fin.sum_univ_three, Matrix.mulVec_diagonal, Matrix.cons_val, sub_zero, Real.cos_zero, Real.sin_zero,
    neg_zero, add_zero]
  ring

/-- Negation of C157 for the closures that `tryLoopClose` adds, which are plain constraints: for every bound there is a
graph with one wrong closure in which every optimum has a cost of the odometry beyond the bound, although it could be 0. -/
theorem C157_false (B : ℝ) : ∃ (L : ℝ) (odom loop : OptEdge), (wrongLoop L).slam.optEdges = [odom, loop] ∧
    edgesCost [odom] (fun _ => ⟨0, 0, 0⟩) = 0 ∧
    (∃ est, est 0 = ⟨0, 0, 0⟩ ∧ Optimum (edgesCost [odom]) (edgesCost [loop]) est) ∧
    ∀ est, est 0 = ⟨0, 0, 0⟩ → Optimum (edgesCost [odom]) (edgesCost [loop]) est → B < edgesCost [odom] est := by
  have hB : 0 ≤ |B| := abs_nonneg B
  have h0 : ∀ (l : ℝ) (i : ℕ) (est : ℕ → Slam.Pose), est 0 = ⟨0, 0, 0⟩ →
      edgesCost [⟨i, some 0, some 1, ⟨l, 0, 0⟩, stdInfo⟩] est =
        500 * ((est 1).x - l) ^ 2 + 500 * (est 1).y ^ 2 + 5000 * (normTheta (est 1).th) ^ 2 := by
    intro l i est he
    unfold edgesCost
    simp only [List.map_cons, List.map_nil, List.sum_cons, List.sum_nil, add_zero]
    rw [he, wrong_cost]
  have hn : normTheta 0 = 0 := by
    unfold normTheta
    rw [toIcoMod_eq_self]
    constructor <;> linarith [Real.pi_pos]
  set L : ℝ := |B| + 1 with hL
  have hhalf : ∀ est : ℕ → Slam.Pose, est = (fun i => if i = 0 then ⟨0, 0, 0⟩ else ⟨L / 2, 0, 0⟩) →
      est 0 = ⟨0, 0, 0⟩ ∧ est 1 = ⟨L / 2, 0, 0⟩ := by
    rintro _ rfl; exact ⟨rfl, rfl⟩
  obtain ⟨half, hh⟩ : ∃ est : ℕ → Slam.Pose, est = (fun i => if i = 0 then ⟨0, 0, 0⟩ else ⟨L / 2, 0, 0⟩) := ⟨_, rfl⟩
  obtain ⟨e0, e1⟩ := hhalf half hh
  refine ⟨L, _, _, wrongLoop_edges L, ?_, ⟨half, e0, fun est' he' => ?_⟩, fun est he hopt => ?_⟩
  · rw [h0 0 0 _ rfl]
    simp only [hn]; ring
  · rw [h0 _ _ _ e0, h0 _ _ _ e0, h0 _ _ _ (he'.trans e0), h0 _ _ _ (he'.trans e0), e1]
    simp only [hn]
    nlinarith [sq_nonneg ((est' 1).x - L / 2), sq_nonneg (est' 1).y, sq_nonneg (normTheta (est' 1).th)]
  · have := hopt half (e0.trans he.symm)
    rw [h0 _ _ _ e0, h0 _ _ _ e0, h0 _ _ _ he, h0 _ _ _ he, e1] at this
    rw [h0 _ _ _ he]
    simp only [hn] at this
    have hx : (est 1).x = L / 2 := by
      have : ((est 1).x - L / 2) ^ 2 ≤ 0 := by
        nlinarith [sq_nonneg (est 1).y, sq_nonneg (normTheta (est 1).th)]
      nlinarith [sq_nonneg ((est 1).x - L / 2), pow_eq_zero_iff (two_ne_zero) |>.1 (le_antisymm this (sq_nonneg _))]
    rw [hx]
    nlinarith [sq_nonneg (est 1).y, sq_nonneg (normTheta (est 1).th), le_abs_self B]

open Classical in
/-- The conditions of the theorems: an optimum with a switchable closure that contradicts the rest of the graph, which asks
for two poses at the same place; a reachable state in which both poses have a vertex. -/
example : ∃ (rest : (ℕ → Slam.Pose) → ℝ) (t : Tie) (est : ℕ → Slam.Pose) (s : ℝ), t.info.PosDef ∧ 0 ≤ s ∧ s ≤ 1 ∧
    SwitchOptimum rest [t] est (fun _ => s) ∧ rest est = 0 ∧ t.cost est ≠ 0 := by
  have hd : (⟨0, 1, ⟨1, 0, 0⟩, 1⟩ : Tie).info.PosDef := Matrix.PosDef.one
  have hc := C157_switch ⟨0, 1, ⟨1, 0, 0⟩, 1⟩ hd.posSemidef fun _ => ⟨0, 0, 0⟩
  refine ⟨fun est => if est 0 = est 1 ∧ est 0 = ⟨0, 0, 0⟩ then 0 else 1, ⟨0, 1, ⟨1, 0, 0⟩, 1⟩, fun _ => ⟨0, 0, 0⟩, _, hd,
    hc.1.le, hc.2.1, fun est' s' h0 _ => ?_, by simp, ?_⟩
  · show (if _ then (0 : ℝ) else 1) + ∑ k : Fin 1, _ ≤ (if _ then (0 : ℝ) else 1) + ∑ k : Fin 1, _
    rw [Fin.sum_univ_one, Fin.sum_univ_one]
    show _ + Tie.switchCost ⟨0, 1, ⟨1, 0, 0⟩, 1⟩ _ _ ≤ _ + Tie.switchCost ⟨0, 1, ⟨1, 0, 0⟩, 1⟩ _ _
    rw [if_pos ⟨rfl, rfl⟩, zero_add]
    have hn : 0 ≤ Tie.switchCost ⟨0, 1, ⟨1, 0, 0⟩, 1⟩ est' (s' 0) := by
      rw [switchCost_eq]
      have : 0 ≤ (⟨0, 1, ⟨1, 0, 0⟩, 1⟩ : Tie).cost est' := weighted_nonneg Matrix.PosSemidef.one _
      positivity
    split_ifs with h
    · have : Tie.switchCost ⟨0, 1, ⟨1, 0, 0⟩, 1⟩ est' (s' 0) = Tie.switchCost ⟨0, 1, ⟨1, 0, 0⟩, 1⟩ (fun _ => ⟨0, 0, 0⟩) (s' 0) := by
        unfold Tie.switchCost
        simp only
        rw [← h.1, h.2]
      rw [zero_add, this]
      by_cases hs : s' 0 = 1 / (1 + Tie.cost ⟨0, 1, ⟨1, 0, 0⟩, 1⟩ fun _ => ⟨0, 0, 0⟩)
      · rw [hs]
      · exact (hc.2.2.2.2.1 _ hs).le
    · rw [hc.2.2.1]
      linarith [hc.2.2.2.1]
  · unfold Tie.cost
    simp only
    rw [delta_eq, calcError_eq]
    have hn : normTheta 0 = 0 := by
      unfold normTheta
      rw [toIcoMod_eq_self]
      constructor <;> linarith [Real.pi_pos]
    simp [weighted, hn, dotProduct, Fin.sum_univ_three]

example : ((wrongLoop 1).slam.vertexOf 0 = some 0) ∧ ((wrongLoop 1).slam.vertexOf 1 = some 1) := ⟨rfl, rfl⟩

end Verif.Opt
