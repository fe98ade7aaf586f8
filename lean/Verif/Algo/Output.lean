import Verif.Algo.Used
import Verif.Slam.OutputProps

/-
Property theorem C124 for the algorithm: the graph published after an update.
-/
namespace Verif.Algo

open Verif Verif.Geo Matrix Slam

/-- `getGraphSerialized(world_frame_id)`, ndt_slam_algorithm.h:55-59. -/
noncomputable def getGraphSerialized (o : Loop.Overread) (s : State) (frame : String) : Res (List Arrow) :=
  graphMarkers o s.engine frame

/-! ### Specification -/

/-- Origins of the finished frames, in the order in which they were finished. -/
def finished (s : State) : List Pose := s.engine.graph.nodes.map fun n => n.payload.obj.origin

/-- An arrow from one position to another. -/
def Joins (p q : Pose) (a : Arrow) : Prop := a.points = [(p.x, p.y, 0), (q.x, q.y, 0)]

/-- Colour of odometry. -/
def Red (a : Arrow) : Prop := a.color = (1, 0, 0)

/-- Colour of loop closures. -/
def Green (a : Arrow) : Prop := a.color = (0, 1, 0)

/-! ### Lemmas -/

/-- The odometry constraints of a book, as pairs of poses. -/
def odoms (b : Book Frame) : List (ℕ × ℕ) :=
  (b.cons.filter fun c => decide (c.2.2.2 = .odom)).map fun c => (c.1, c.2.1)

theorem odoms_grown {inp : Input} {inc : Trans} {s s' : State} {b b' : Book Frame}
    (h : odoms b = (List.range (b.poses.length - 1)).map fun i => (i, i + 1)) (g : Grown inp inc s s' b b') :
    odoms b' = (List.range (b'.poses.length - 1)).map fun i => (i, i + 1) := by
  obtain ⟨_, -, -, ⟨rfl, -⟩ | ⟨rfl, -⟩⟩ := g
  · exact h
  · unfold inserted odoms
    simp only
    rw [length_optimised, List.filter_append, List.filter_append, List.map_append, List.map_append]
    have h1 : (inp.loops.map fun c => (c.2.src, c.2.dst, c.2.trans, EKind.loop)).filter
        (fun c => decide (c.2.2.2 = .odom)) = [] := by
      rw [List.filter_eq_nil_iff]
      intro c hc
      obtain ⟨x, -, rfl⟩ := List.mem_map.1 hc
      simp
    rw [h1]
    unfold odoms at h
    rw [h]
    rcases hb : b.poses.length with _ | n
    · simp [hb]
    · simp [List.range_succ, hb]

theorem Reach.odoms {P : Input → Prop} {log : List (Event × Pose)} {s : State} (h : Reach P log s) :
    ∃ b, Full s b ∧ Algo.odoms b = (List.range (b.poses.length - 1)).map fun i => (i, i + 1) := by
  induction h with
  | init => exact ⟨_, full_init, rfl⟩
  | setDistance d _ ih =>
    obtain ⟨b, ih, f⟩ := ih
    exact ⟨b, full_setDistance ih d, f⟩
  | update _ hp adm h ih =>
    obtain ⟨b, ih, f⟩ := ih
    obtain ⟨e, p, s', b', h', f', -, -, -, -, -, sc⟩ := update_step ih adm
    rw [h] at h'
    cases h'
    refine ⟨b', f', ?_⟩
    cases sc with
    | first _ _ _ _ hb => rw [hb]; exact f
    | idle _ _ _ _ _ hb => rw [hb]; exact f
    | failed _ _ _ _ _ _ g => exact odoms_grown f g
    | matched _ _ _ _ _ _ _ g => exact odoms_grown f g

theorem finished_eq {s : State} {b : Book Frame} (f : Full s b) : finished s = b.poses.map Prod.fst := by
  have h := congrArg (List.map fun n : NodeP Frame => n.obj.origin) f.alg.engine.nodes
  rw [List.map_map, List.map_map] at h
  unfold finished
  have e : (fun n : PoseGraph.Node (NodeP Frame) => n.payload.obj.origin) =
      (fun n : NodeP Frame => n.obj.origin) ∘ PoseGraph.Node.payload := rfl
  rw [e, h]
  apply List.map_congr_left
  intro x hx
  exact f.alg.origins x hx

/-! ### C124 -/

open Classical in
/-- **C124** for the algorithm, partial: after any run, if the read past the end (C31) is harmless, the published graph
shows the chain of the finished frames by red arrows, one from every frame to the next one, and nothing else but green
arrows between finished frames.  Missing: the strict reading of the standard. -/
theorem C124_algorithm_partial {P : Input → Prop} {log : List (Event × Pose)} {s : State} (h : Reach P log s)
    (frame : String) :
    ∃ as, getGraphSerialized .tolerant s frame = .ok as ∧
      (as.filter fun a => Red a).length = (finished s).length - 1 ∧
      (∀ (i : ℕ) p q, (finished s)[i]? = some p → (finished s)[i + 1]? = some q → ∃ a ∈ as, Red a ∧ Joins p q a) ∧
      ∀ a ∈ as, (Red a ∨ Green a) ∧ ∃ p ∈ finished s, ∃ q ∈ finished s, Joins p q a := by
  obtain ⟨b, f, hod⟩ := h.odoms
  obtain ⟨as, h1, h2, h3⟩ := markers_of_inv f.alg.engine frame
  have hfin := finished_eq f
  have hcol : ∀ {i p q k a}, Shows frame i p q k a → (Red a ↔ k = .odom) := by
    intro i p q k a hs
    unfold Red
    rw [hs.2.2.2.2]
    cases k <;> simp
  refine ⟨as, h1, ?_, ?_, ?_⟩
  · have hlen := congrArg List.length hod
    unfold odoms at hlen
    simp only [List.length_map, List.length_range] at hlen
    rw [hfin, List.length_map, ← hlen, ← List.countP_eq_length_filter, ← List.countP_eq_length_filter]
    have key : ∀ (as : List Arrow) (cs : List (ℕ × ℕ × Pose × EKind)), as.length = cs.length →
        (∀ (i : ℕ) c, cs[i]? = some c → ∃ a, as[i]? = some a ∧ (Red a ↔ c.2.2.2 = .odom)) →
        as.countP (fun a => decide (Red a)) = cs.countP fun c => decide (c.2.2.2 = .odom) := by
      intro as
      induction as with
      | nil =>
        intro cs hl _
        rw [List.length_eq_zero_iff.1 hl.symm]
        rfl
      | cons a as ih =>
        rintro (_ | ⟨c, cs⟩) hl hi
        · simp at hl
        · obtain ⟨a', ha, hr⟩ := hi 0 c rfl
          obtain rfl : a = a' := by simpa using ha
          rw [List.countP_cons, List.countP_cons, ih cs (by simpa using hl) fun i c hc => hi (i + 1) c hc]
          simp only [hr]
    refine key as b.cons h2 fun i c hc => ?_
    obtain ⟨a, p, q, ha, -, -, hs⟩ := h3 i c hc
    exact ⟨a, ha, hcol hs⟩
  · intro i p q hp hq
    have hi : i < b.poses.length - 1 := by
      have := (List.getElem?_eq_some_iff.1 hq).1
      rw [hfin, List.length_map] at this
      omega
    have hm : (i, i + 1) ∈ odoms b := by
      rw [hod, List.mem_map]
      exact ⟨i, List.mem_range.2 hi, rfl⟩
    obtain ⟨c, hc, hce⟩ := List.mem_map.1 hm
    rw [List.mem_filter] at hc
    obtain ⟨k, hk, hck⟩ := List.getElem_of_mem hc.1
    have hk' : b.cons[k]? = some c := by rw [List.getElem?_eq_getElem hk, hck]
    obtain ⟨a, p', q', ha, hp', hq', hs⟩ := h3 k c hk'
    have e1 : c.1 = i := congrArg Prod.fst hce
    have e2 : c.2.1 = i + 1 := congrArg Prod.snd hce
    rw [hfin, List.getElem?_map] at hp hq
    rw [e1, hp] at hp'
    rw [e2, hq] at hq'
    cases hp'
    cases hq'
    exact ⟨a, List.mem_of_getElem? ha, (hcol hs).2 (by simpa using hc.2), hs.2.2.2.1⟩
  · intro a ha
    obtain ⟨k, hk, rfl⟩ := List.getElem_of_mem ha
    obtain ⟨a', p, q, ha', hp, hq, hs⟩ := h3 k _ (List.getElem?_eq_getElem (h2 ▸ hk : k < b.cons.length))
    rw [List.getElem?_eq_getElem hk] at ha'
    obtain rfl := Option.some.inj ha'
    refine ⟨?_, p, ?_, q, ?_, hs.2.2.2.1⟩
    · unfold Red Green
      rw [hs.2.2.2.2]
      rcases (b.cons[k]'(h2 ▸ hk)).2.2.2 with _ | _
      · exact .inl rfl
      · exact .inr rfl
    · rw [hfin]
      rw [← List.getElem?_map] at hp
      exact List.mem_of_getElem? hp
    · rw [hfin]
      rw [← List.getElem?_map] at hq
      exact List.mem_of_getElem? hq

/-- There are runs with any number of finished frames. -/
theorem run_nodes (n : ℕ) : ∃ log s, Reach NoLoops log s ∧ s.initialized = true ∧ s.unused = 1 ∧
    s.maxTraveled = -1 ∧ s.engine.graph.nodes.length = n := by
  induction n with
  | zero =>
    obtain ⟨_, e0, p0, s0, b, b', r0, -, -, -, c0, i0, -, F⟩ :=
      Reach.extend (P := NoLoops) .init rigid_one (mat := none) (by simp) (fun _ _ _ => rfl)
    cases c0 with
    | idle h => simp [init] at h
    | failed h => simp [init] at h
    | matched h => simp [init] at h
    | first _ _ _ h hb hp =>
      refine ⟨_, _, r0.setDistance (-1), i0, h, rfl, ?_⟩
      show s0.engine.graph.nodes.length = 0
      rw [F.alg.engine.nodesLen, hb, hp]
      rfl
  | succ n ih =>
    obtain ⟨log, s, r, hi, hu, hd, hn⟩ := ih
    obtain ⟨b0, F0, f0, -⟩ := r.full
    obtain ⟨a, ha⟩ := exists_fresh s.engine.graph
    have adm : Admissible s ⟨ahead 1, none, a, [], fun _ => ⟨0, 0, 0⟩, List.range (s.engine.graph.nodes.length + 1)⟩ :=
      ⟨ahead_rigid 1, by simp, by simp, by simpa using ha, by simp, List.Perm.refl _⟩
    have hmv : movedEnough s (s.unused * ahead 1) := by
      rw [hu, Matrix.one_mul, ahead_moved f0.minD f0.minR (by norm_num)]; norm_num
    obtain ⟨e, p, s', b', hup, F1, hi', -, -, -, hmt, sc⟩ := update_step F0 adm
    have r1 := Reach.update (P := NoLoops) r (by unfold NoLoops; rfl) adm hup
    cases sc with
    | first h => rw [hi] at h; cases h
    | idle _ h => exact absurd hmv h
    | matched _ _ h => cases h
    | failed _ _ _ _ _ h1 g =>
      obtain ⟨ins, -, -, ⟨-, -, -, h⟩ | ⟨h, -⟩⟩ := g
      · refine absurd ?_ h
        have := abs_nonneg (getDisplacement (s.transTemp * ahead 1))
        unfold movedFar
        rw [hd]
        simp only
        linarith
      · refine ⟨_, s', r1, hi', h1, hmt.trans hd, ?_⟩
        rw [F1.alg.engine.nodesLen, h]
        unfold inserted
        simp only
        rw [length_optimised, List.length_append, List.length_singleton, ← F0.alg.engine.nodesLen, hn]

/-- A run with three finished frames. -/
example : ∃ log s, Reach NoLoops log s ∧ (finished s).length = 3 := by
  obtain ⟨log, s, h, -, -, -, hn⟩ := run_nodes 3
  exact ⟨log, s, h, by simp [finished, hn]⟩

end Verif.Algo
