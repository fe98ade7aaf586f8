import Verif.Slam.FromOdom
import Mathlib.Tactic.IntervalCases

/- C152: poses from odometry. -/
namespace Verif.Slam

open Verif Verif.PoseGraph

variable {τ : Type}

theorem follow_spec {s : State τ} {b : Book τ} (inv : SInv s b) (hf : Forward b.cons) {i : ℕ}
    (hi : i < b.poses.length) (f : ℕ → Pose) {e} (he : outOdom s.graph i = .ok e) :
    ∃ l f', Path b.cons i l ∧
      (∀ k, b.poses.length ≤ k + i → follow k (withPoses s.graph f) e = some (.ok (withPoses s.graph f'))) ∧
      (∀ j ≤ i, f' j = f j) ∧ (∀ c ∈ l, f' c.2.1 = moved (f' c.1) c.2.2.1 ∧ i < c.2.1 ∧
        c.1 < b.poses.length ∧ c.2.1 < b.poses.length) ∧
      (∀ j, j ∉ l.map (fun c => c.2.1) → f' j = f j) := by
  induction hn : b.poses.length - i using Nat.strong_induction_on generalizing i f e with
  | _ n ih =>
    rcases outOdom_spec inv hi with ⟨h1, h2⟩ | ⟨e', h1, h2, h3⟩
    · rw [h1] at he
      cases he
      refine ⟨[], f, .stop h2, fun k _ => ?_, fun _ _ => rfl, fun c hc => by simp at hc, fun _ _ => rfl⟩
      cases k <;> rfl
    · rw [h1] at he
      cases he
      obtain ⟨pre, post, hE, hs, hk, hpre⟩ := id h2
      have hlt : e'.src < e'.dst := hf (con e') (by rw [hE]; simp) hk
      change e'.src = i at hs
      subst hs
      obtain ⟨nxt, hnxt⟩ : ∃ nxt, outOdom s.graph e'.dst = .ok nxt := by
        rcases outOdom_spec inv h3 with ⟨h, -⟩ | ⟨e2, h, -⟩ <;> exact ⟨_, h⟩
      obtain ⟨l, f', p1, p2, p3, p4, p5⟩ := ih (b.poses.length - e'.dst) (by omega) h3
        (Function.update f e'.dst (moved (f e'.src) e'.payload.trans)) hnxt rfl
      have hsrc : f' e'.src = f e'.src := by
        rw [p3 _ hlt.le, Function.update_of_ne (by omega)]
      refine ⟨con e' :: l, f', .step h2 p1, fun k hk => ?_, fun j hj => ?_, fun c hc => ?_, fun j hj => ?_⟩
      · obtain ⟨k, rfl⟩ : ∃ k', k = k' + 1 := ⟨k - 1, by omega⟩
        rw [follow, followStep_eq inv f hi h3 hnxt]
        exact p2 k (by omega)
      · rw [p3 j (by omega), Function.update_of_ne (by omega)]
      · rcases List.mem_cons.1 hc with rfl | hc
        · refine ⟨?_, hlt, hi, h3⟩
          show f' e'.dst = moved (f' e'.src) e'.payload.trans
          rw [p3 _ le_rfl, Function.update_self, hsrc]
        · obtain ⟨q1, q2, q3, q4⟩ := p4 c hc
          exact ⟨q1, by omega, q3, q4⟩
      · rw [List.map_cons, List.mem_cons, not_or] at hj
        exact (p5 j hj.2).trans (Function.update_of_ne hj.1 _ _)

theorem start_spec {s : State τ} {b : Book τ} (inv : SInv s b) (hp : 0 < b.poses.length) :
    ∃ f : ℕ → Pose, f 0 = ⟨0, 0, 0⟩ ∧
      (∀ i ≠ 0, ∀ n : Node (NodeP τ), s.graph.nodes[i]? = some n → f i = n.payload.pose) ∧
      ∀ k, ∀ e, outOdom s.graph 0 = .ok e → initializeFromOdom k s =
        (follow k (withPoses s.graph f) e).map (Res.map fun g => { s with graph := g }) := by
  obtain ⟨f, h1, h2⟩ := withPoses_self s.graph
  refine ⟨Function.update f 0 ⟨0, 0, 0⟩, Function.update_self .., fun i hi n hn => ?_, fun k e he => ?_⟩
  · rw [Function.update_of_ne hi, h2 i n hn]
  · unfold initializeFromOdom
    have hfa : s.firstAdded = true := by rw [inv.firstAdded]; simpa using hp
    rw [hfa, inv.firstId]
    have hm := withPoses_modify s.graph f (j := 0) (by rw [inv.nodesLen]; exact hp) ⟨0, 0, 0⟩
    rw [h1] at hm
    simp only [Bool.not_true, Bool.false_eq_true, if_false]
    rw [hm]
    simp only [outOdom_withPoses, he]

/-- C152 for odometry constraints from older to newer poses, in every history of public calls: the function ends,
after at most as many rounds as there are poses.  The first pose is then zero, every pose at the end of a constraint of
the chain of first odometry constraints is the pose at its start moved by the constraint, and no other pose, no data
object, no constraint and nothing that the optimiser holds is changed.  Partial: it does not end if odometry
constraints form a cycle (`C152_false`). -/
theorem C152_partial {s : State τ} {b : Book τ} (h : History s b) (hf : Forward b.cons) (hp : 0 < b.poses.length) :
    ∃ l s', Path b.cons 0 l ∧ (∀ k, b.poses.length ≤ k → initializeFromOdom k s = some (.ok s')) ∧
      getPoseLocation s' 0 = .ok ⟨0, 0, 0⟩ ∧
      (∀ c ∈ l, ∃ p, getPoseLocation s' c.1 = .ok p ∧ getPoseLocation s' c.2.1 = .ok (moved p c.2.2.1)) ∧
      (∀ i ≠ 0, i ∉ l.map (fun c => c.2.1) → getPoseLocation s' i = getPoseLocation s i) ∧
      (∀ i, getPoseData s' i = getPoseData s i) ∧ s'.graph.edges = s.graph.edges ∧
      s'.vertices = s.vertices ∧ s'.optEdges = s.optEdges := by
  have inv := h.inv
  obtain ⟨f, f0, f1, f2⟩ := start_spec inv hp
  obtain ⟨e, he⟩ : ∃ e, outOdom s.graph 0 = .ok e := by
    rcases outOdom_spec inv hp with ⟨h, -⟩ | ⟨e2, h, -⟩ <;> exact ⟨_, h⟩
  obtain ⟨l, f', p1, p2, p3, p4, p5⟩ := follow_spec inv hf hp f he
  have loc : ∀ i < b.poses.length, getPoseLocation { s with graph := withPoses s.graph f' } i = .ok (f' i) := by
    intro i hi
    have hi' : i < s.graph.nodes.length := by rw [inv.nodesLen]; exact hi
    unfold getPoseLocation getNode
    simp only [withPoses_node, List.getElem?_eq_getElem hi', Option.map_some]
    rfl
  refine ⟨l, { s with graph := withPoses s.graph f' }, p1, fun k hk => ?_, ?_, fun c hc => ?_, fun i hi hl => ?_,
    fun i => ?_, rfl, rfl, rfl⟩
  · rw [f2 k e he, p2 k (by omega)]; rfl
  · rw [loc 0 hp, p3 0 le_rfl, f0]
  · obtain ⟨q1, -, q3, q4⟩ := p4 c hc
    exact ⟨f' c.1, loc _ q3, by rw [loc _ q4, q1]⟩
  · unfold getPoseLocation getNode
    simp only [withPoses_node]
    rcases hn : s.graph.nodes[i]? with _ | n
    · rfl
    · simp only [Option.map_some]
      show Res.ok (f' i) = Res.ok n.payload.pose
      rw [p5 i hl, f1 i hi n hn]
  · unfold getPoseData getNode
    simp only [withPoses_node]
    rcases s.graph.nodes[i]? with _ | n <;> rfl

theorem path_covers {cons : List (ℕ × ℕ × Pose × EKind)} {n : ℕ}
    (hc : ∀ c ∈ cons, c.2.2.2 = .odom → c.2.1 = c.1 + 1)
    (hall : ∀ i, i + 1 < n → ∃ c ∈ cons, c.1 = i ∧ c.2.2.2 = .odom) {i : ℕ} {l} (h : Path cons i l) :
    ∀ j, i ≤ j → j + 1 < n → ∃ c ∈ l, FirstFrom cons j c := by
  induction h with
  | stop h =>
    rename_i i
    intro j hj hn
    obtain ⟨c, h1, h2, h3⟩ := hall i (by omega)
    exact absurd h3 (h c h1 h2)
  | @step i c l h1 _ ih =>
    intro j hj hn
    obtain ⟨pre, post, hE, hs, hk, -⟩ := id h1
    rcases Nat.eq_or_lt_of_le hj with rfl | hlt
    · exact ⟨c, List.mem_cons_self, h1⟩
    · have := hc c (by rw [hE]; simp) hk
      obtain ⟨d, d1, d2⟩ := ih j (by omega) hn
      exact ⟨d, List.mem_cons_of_mem _ d1, d2⟩

/-- C152 for a recorded run: if the odometry constraints are those between successive poses, then the first pose is
zero and every later one is its predecessor moved by the first odometry constraint between the two. -/
theorem C152_run_partial {s : State τ} {b : Book τ} (h : History s b) (hp : 0 < b.poses.length)
    (hc : ∀ c ∈ b.cons, c.2.2.2 = .odom → c.2.1 = c.1 + 1)
    (hall : ∀ i, i + 1 < b.poses.length → ∃ c ∈ b.cons, c.1 = i ∧ c.2.2.2 = .odom) :
    ∃ s', (∀ k, b.poses.length ≤ k → initializeFromOdom k s = some (.ok s')) ∧
      getPoseLocation s' 0 = .ok ⟨0, 0, 0⟩ ∧
      ∀ i, i + 1 < b.poses.length → ∃ c p, FirstFrom b.cons i c ∧ getPoseLocation s' i = .ok p ∧
        getPoseLocation s' (i + 1) = .ok (moved p c.2.2.1) := by
  obtain ⟨l, s', p1, p2, p3, p4, -⟩ := C152_partial h (fun c h1 h2 => by rw [hc c h1 h2]; omega) hp
  refine ⟨s', p2, p3, fun i hi => ?_⟩
  obtain ⟨c, c1, c2⟩ := path_covers hc hall p1 i (Nat.zero_le _) hi
  obtain ⟨pre, post, hE, hs, hk, -⟩ := id c2
  obtain ⟨p, q1, q2⟩ := p4 c c1
  have e2 := hc c (by rw [hE]; simp) hk
  rw [e2, hs] at q2
  rw [hs] at q1
  exact ⟨c, p, c2, q1, q2⟩

/-- Negation of C152: if an odometry constraint leads away from every pose, for example because the robot came back to
its start, then the function never ends. -/
theorem C152_false {s : State τ} {b : Book τ} (h : History s b) (hp : 0 < b.poses.length)
    (hall : ∀ i < b.poses.length, ∃ c ∈ b.cons, c.1 = i ∧ c.2.2.2 = .odom) (k : ℕ) :
    initializeFromOdom k s = none := by
  have inv := h.inv
  have some_next : ∀ i < b.poses.length, ∃ e, outOdom s.graph i = .ok (some e) ∧ e.src = i ∧
      e.dst < b.poses.length := by
    intro i hi
    rcases outOdom_spec inv hi with ⟨-, h2⟩ | ⟨e, h1, ⟨_, _, _, h2, _⟩, h3⟩
    · obtain ⟨c, c1, c2, c3⟩ := hall i hi
      exact absurd c3 (h2 c c1 c2)
    · exact ⟨e, h1, h2, h3⟩
  have key : ∀ k (f : ℕ → Pose) (e : Edge EdgeP), e.src < b.poses.length → e.dst < b.poses.length →
      follow k (withPoses s.graph f) (some e) = none := by
    intro k
    induction k with
    | zero => intro f e _ _; rfl
    | succ k ih =>
      intro f e hs hd
      obtain ⟨e', h1, h2, h3⟩ := some_next e.dst hd
      rw [follow, followStep_eq inv f hs hd h1]
      exact ih _ e' (by omega) h3
  obtain ⟨f, -, -, f2⟩ := start_spec inv hp
  obtain ⟨e, h1, h2, h3⟩ := some_next 0 hp
  rw [f2 k _ h1, key k f e (by omega) h3]
  rfl

/-- A run of two poses with one constraint: C152 applies. -/
example : ∃ s', (∀ k, 2 ≤ k → initializeFromOdom k exS3 = some (.ok s')) ∧
    getPoseLocation s' 0 = .ok ⟨0, 0, 0⟩ := by
  obtain ⟨s', h1, h2, -⟩ := C152_run_partial exS3_history (by decide)
    (by intro c hc _; simp only [List.mem_singleton] at hc; subst hc; rfl)
    (by
      intro i hi
      have : i = 0 := by simp only [List.length_cons, List.length_nil] at hi; omega
      subst this
      exact ⟨_, List.mem_singleton.2 rfl, rfl, rfl⟩)
  exact ⟨s', h1, h2⟩

/-- The way back to the first pose as a second constraint. -/
theorem exS3_fresh : Fresh exS3.graph 20 := by
  intro id e h
  obtain ⟨a, ha⟩ := exS3_history.inv.edges 0 (0, 1, p1, .odom) rfl
  have hl := exS3_history.inv.edgesLen
  have : id < 1 := by
    have := live_lt h
    rw [hl] at this
    exact this
  have h0 : id = 0 := by omega
  subst h0
  have e1 : live exS3.graph 0 = some ⟨10, 0, 0, 1, ⟨p1, stdInfo, .active, .odom, false⟩⟩ := rfl
  rw [e1] at h
  cases h
  decide

/-- The robot that came back: the hypotheses of `C152_false` are met. -/
example : ∃ (s : State String) (b : Book String), History s b ∧ ∀ k, initializeFromOdom k s = none := by
  refine ⟨_, _, exS3_history.addConstrain (addr := 20) (src := 1) (dst := 0) (trans := p1) (inform := 1)
    exS3_fresh rfl, fun k => C152_false (exS3_history.addConstrain (addr := 20) (src := 1) (dst := 0) (trans := p1)
      (inform := 1) exS3_fresh rfl) (by decide) (fun i hi => ?_) k⟩
  simp only [List.length_cons, List.length_nil] at hi
  interval_cases i
  · exact ⟨(0, 1, p1, .odom), by simp, rfl, rfl⟩
  · exact ⟨(1, 0, p1, .odom), by simp, rfl, rfl⟩

end Verif.Slam
