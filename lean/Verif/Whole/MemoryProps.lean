import Verif.Whole.Memory

/-
C165: the memory taken by the frames grows with the way driven and not with the time.
-/
namespace Verif.Whole

open Verif Verif.Geo Verif.NDTGrid Verif.World Verif.Voxel

/-- **C165**, nodes: the graph has as many nodes as there are stored frames, and each of them stands for a piece of the
way at least as long as the smallest generation distance used. -/
theorem C165_nodes {eig : NDT.Eig} (he : NDT.EigOk eig) {P : Algo.Input → Prop} {D D' : ℝ} {log : List Entry}
    {s : State} (h : Drive eig P D D' log s) :
    s.alg.engine.graph.nodes.length = s.store.length ∧ (s.store.length : ℝ) * D ≤ way log := by
  obtain ⟨⟨b, inv⟩, -⟩ := h.reach.inv he
  have h2 := (h.nodes he).2
  have := displacement_nonneg s.alg.transTemp
  exact ⟨by rw [inv.full.alg.engine.nodesLen, inv.frames.len], by linarith⟩

/-- **C165**, frames: with a sensor of range `R` and a generation distance of at most `D'`, every frame, stored or
active, has at most `(8 (R + D') + 2)²` cells, however many scans were merged into it. -/
theorem C165_frames {eig : NDT.Eig} (he : NDT.EigOk eig) {P : Algo.Input → Prop} {D D' R : ℝ} (hR : 0 ≤ R)
    (hD' : 0 ≤ D') {log : List Entry} {s : State} (h : Drive eig P D D' log s)
    (hs : ∀ e ∈ log, InRange R e.scan) {f : Map} (hf : f ∈ framesInMemory s) :
    (f.grid.cells.length : ℝ) ≤ (8 * (R + D') + 2) ^ 2 := by
  obtain ⟨⟨b, inv⟩, -⟩ := h.reach.inv he
  have wf : WF f.grid := by
    rcases List.mem_append.1 hf with hf | hf
    · exact ((inv.frames.storeB f hf).inv he).wf
    · rw [List.mem_singleton.1 hf]
      exact (inv.frames.tempB.inv he).wf
  exact cells_le wf (by linarith) (h.extents he hR hD' hs f hf)

/-- **C165**: all frames together take memory for at most `(way / D + 1) (8 (R + D') + 2)²` cells. -/
theorem C165_memory {eig : NDT.Eig} (he : NDT.EigOk eig) {P : Algo.Input → Prop} {D D' R : ℝ} (hR : 0 ≤ R)
    (hD : 0 < D) (hD' : 0 ≤ D') {log : List Entry} {s : State} (h : Drive eig P D D' log s)
    (hs : ∀ e ∈ log, InRange R e.scan) :
    (((framesInMemory s).map fun f => f.grid.cells.length).sum : ℝ) ≤
      (way log / D + 1) * (8 * (R + D') + 2) ^ 2 := by
  have h1 := List.sum_le_card_nsmul ((framesInMemory s).map fun f => (f.grid.cells.length : ℝ))
    ((8 * (R + D') + 2) ^ 2) (by
      intro x hx
      obtain ⟨f, hf, rfl⟩ := List.mem_map.1 hx
      exact C165_frames he hR hD' h hs hf)
  rw [List.length_map, nsmul_eq_mul] at h1
  have hl : ((framesInMemory s).length : ℝ) ≤ way log / D + 1 := by
    unfold framesInMemory
    rw [List.length_append, List.length_singleton]
    push_cast
    have := (le_div_iff₀ hD).2 (C165_nodes he h).2
    linarith
  exact h1.trans (mul_le_mul_of_nonneg_right hl (sq_nonneg _))

/-- **C165**, standing still: an update whose scan is not used, because the odometry shows too little motion, leaves
the frames, the map, the window and the graph as they are; so does any number of them. -/
theorem C165_idle {eig : NDT.Eig} (he : NDT.EigOk eig) {P : Algo.Input → Prop} {s s' : State} {log0 log : List Entry}
    (h0 : Reach eig P log0 s) (h : Runs eig P s log s') (hi : ∀ e ∈ log, e.event.scanUsed = false) :
    framesInMemory s' = framesInMemory s ∧ s'.global = s.global ∧ s'.window = s.window ∧
    s'.alg.engine.graph.nodes.length = s.alg.engine.graph.nodes.length ∧ way (log0 ++ log) = way log0 := by
  induction h with
  | refl => exact ⟨rfl, rfl, rfl, rfl, by rw [List.append_nil]⟩
  | setDistance d _ ih => exact ih hi
  | setRadius r _ ih => exact ih hi
  | @update log s1 inp o s2 hr hp adm hu ih =>
    obtain ⟨j1, j2, j3, j4, j5⟩ := ih fun e he => hi e (List.mem_append_left _ he)
    have hev : o.1.scanUsed = false := hi ⟨o.1, o.2, inp.scan⟩ (by simp)
    have r1 := hr.reach h0
    obtain ⟨⟨b, inv⟩, -⟩ := r1.inv he
    obtain ⟨⟨b2, inv2⟩, -⟩ := (Reach.update r1 hp adm hu).inv he
    obtain ⟨-, hd, -⟩ := update_spec he inv.full adm.alg (inv.window.winB.inv he) inv.window.winO
      inv.window.winC hu
    have hst : s2.store = s1.store ∧ s2.temp = s1.temp ∧ s2.global = s1.global ∧ s2.window = s1.window ∧
        ∃ m, o.1 = .idle m := by
      obtain ⟨ev, po⟩ := o
      simp only at hd hev
      cases hd with
      | first => cases hev
      | idle _ ht hw hst hg => exact ⟨hst, ht, hg, hw, _, rfl⟩
      | failed => cases hev
      | matched => cases hev
    obtain ⟨k1, k2, k3, k4, m, k5⟩ := hst
    refine ⟨?_, k3.trans j2, k4.trans j3, ?_, ?_⟩
    · rw [← j1]
      unfold framesInMemory
      rw [k1, k2]
    · rw [← j4, inv2.full.alg.engine.nodesLen, inv.full.alg.engine.nodesLen, ← inv2.frames.len, ← inv.frames.len, k1]
    · rw [← j5]
      unfold way
      rw [← List.append_assoc, way_snoc]
      unfold wayStep
      simp only [k5]

/-- A drive with a node: generation distance half a metre, one metre driven. -/
theorem drive_one {eig : NDT.Eig} (he : NDT.EigOk eig) : ∃ log s, Drive eig (fun i => i.loops = []) (1 / 2) (1 / 2) log s ∧
    (∀ e ∈ log, InRange 6 e.scan) ∧ s.store.length = 1 ∧ way log = 1 := by
  have h0 : Reach eig (fun i => i.loops = []) [] (setDistance (init eig) (1 / 2)) := .setDistance _ .init
  have d0 : Drive eig (fun i => i.loops = []) (1 / 2) (1 / 2) [] (setDistance (init eig) (1 / 2)) := .setDistance _ .init
  obtain ⟨inp, o, s1, inp1, g, m, q, p, s, hp, ⟨hs, -⟩, adm, hu, hp1, hs1, adm1, hu1, hq⟩ :=
    matched_step he h0 (fun _ _ _ _ => rfl) rfl rfl (fun _ _ _ _ => rfl)
  obtain ⟨⟨b, inv⟩, -⟩ := h0.inv he
  have r1 : Reach eig (fun i => i.loops = []) ([] ++ [⟨o.1, o.2, inp.scan⟩]) s1 := .update h0 hp adm hu
  obtain ⟨⟨b1, inv1⟩, -⟩ := r1.inv he
  have r2 := Reach.update r1 hp1 adm1 hu1
  obtain ⟨ha, hd, -⟩ := update_spec he inv.full adm.alg (inv.window.winB.inv he) inv.window.winO inv.window.winC hu
  obtain ⟨e, p', a', b', hu2, -, -, -, -, -, hmt, sc⟩ := Algo.update_step inv.full adm.alg
  rw [ha] at hu2
  have h2 := Res.ok.inj hu2
  simp only [Prod.mk.injEq] at h2
  obtain ⟨ho, rfl⟩ := h2
  have hmt1 : s1.alg.maxTraveled = 1 / 2 := hmt
  have d1 := Drive.update d0 hp adm (le_of_eq rfl) (le_of_eq rfl) hu
  have d2 := Drive.update d1 hp1 adm1 (le_of_eq hmt1.symm) (le_of_eq hmt1) hu1
  have hev : o.1 = e := by rw [ho]
  have hfirst : o.1 = .first ∧ s1.store = [] ∧ s1.alg.lastMatcherPose = ⟨0, 0, 0⟩ ∧ s1.alg.transTemp = 1 := by
    cases sc with
    | first h _ hm _ _ _ _ _ ht =>
      refine ⟨hev, ?_, hm, ht⟩
      obtain ⟨ev, po⟩ := o
      simp only at hd hev
      subst hev
      cases hd with
      | first _ _ _ _ hst => exact hst
    | idle h => cases h
    | failed h => cases h
    | matched h => cases h
  obtain ⟨f1, f2, f3, f4⟩ := hfirst
  refine ⟨_, s, d2, ?_, ?_, ?_⟩
  · intro x hx
    have hx' : x.scan = exScan 5 := by
      rcases List.mem_append.1 hx with hx | hx
      · rw [List.nil_append, List.mem_singleton] at hx
        rw [hx]; exact hs
      · rw [List.mem_singleton] at hx
        rw [hx]; exact hs1
    rw [hx']
    intro v hv
    rw [List.eq_of_mem_replicate hv]
    norm_num
  · obtain ⟨-, hd1, -⟩ := update_spec he inv1.full adm1.alg (inv1.window.winB.inv he) inv1.window.winO
      inv1.window.winC hu1
    simp only at hd1
    have hdisp : getDisplacement (s1.alg.transTemp * ((getTransFromPose s1.alg.lastMatcherPose)⁻¹ *
        getTransFromPose q)) = 1 := by
      rw [f4, Matrix.one_mul, displacement_between, f3, hq]
      unfold Algo.dist2
      norm_num
    cases hd1 with
    | matched _ _ _ hm _ =>
      cases hm with
      | kept hf =>
        refine absurd ?_ hf
        unfold Algo.movedFar
        rw [hdisp, hmt1]
        norm_num
      | inserted _ _ hc =>
        rcases hc with ⟨-, hst, -⟩ | ⟨-, hst, -⟩
        · rw [hst, f2]; rfl
        · rw [hst, f2]; unfold sync; simp
  · unfold way wayStep
    simp only [List.nil_append, List.foldl_append, List.foldl_cons, List.foldl_nil, f1, hq]
    unfold Algo.dist2
    norm_num

example : ∃ eig log s, NDT.EigOk eig ∧ Drive eig (fun i => i.loops = []) (1 / 2) (1 / 2) log s ∧
    (∀ e ∈ log, InRange 6 e.scan) ∧ s.store.length = 1 ∧ way log = 1 := by
  obtain ⟨eig, he⟩ := NDT.exists_eig
  obtain ⟨log, s, h⟩ := drive_one he
  exact ⟨eig, log, s, he, h⟩

end Verif.Whole
