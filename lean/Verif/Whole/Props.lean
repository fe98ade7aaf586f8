import Verif.Whole.Invariant

/-
Properties of the algorithm with its maps: C113, C114, C115.
-/
namespace Verif.Whole

open Verif Verif.Geo Verif.NDTGrid Verif.World

/-- The scans of finished frames with their poses in the world. -/
noncomputable def inWorld (p : Pose) (part : List (Trans × List NDT.Vec)) : List (Trans × List NDT.Vec) :=
  part.map fun y => (getTransFromPose p * y.1, y.2)

theorem frames_inWorld : ∀ (ps : List (Pose × Algo.Frame)) (parts : List (List (Trans × List NDT.Vec))),
    parts.map (List.map Prod.fst) = ps.map (fun x => x.2.inserts.map Algo.Insert.place) →
    (∀ x ∈ ps, x.2.origin = x.1) →
    (ps.map Prod.snd).flatMap Algo.Frame.scans =
      (List.zipWith (fun x part => inWorld x.1 part) ps parts).flatten.map Prod.fst ∧
    parts.flatten.map Prod.snd = (List.zipWith (fun x part => inWorld x.1 part) ps parts).flatten.map Prod.snd := by
  intro ps
  induction ps with
  | nil =>
    intro parts h _
    have : parts = [] := by simpa using h
    subst this
    exact ⟨rfl, rfl⟩
  | cons x ps ih =>
    intro parts h ho
    cases parts with
    | nil => cases h
    | cons part parts =>
      simp only [List.map_cons, List.cons.injEq] at h
      obtain ⟨i1, i2⟩ := ih parts h.2 fun y hy => ho y (List.mem_cons_of_mem _ hy)
      constructor
      · simp only [List.map_cons, List.flatMap_cons, List.zipWith_cons_cons, List.flatten_cons, List.map_append, i1]
        congr 1
        unfold Algo.Frame.scans inWorld
        rw [ho x List.mem_cons_self, List.map_map]
        have := congrArg (List.map fun t => getTransFromPose x.1 * t) h.1
        simp only [List.map_map] at this
        exact this.symm
      · simp only [List.flatten_cons, List.map_append, List.zipWith_cons_cons, i2]
        congr 1
        unfold inWorld
        rw [List.map_map]
        rfl

/-- All scans with their poses in the world. -/
theorem scans_inWorld {eig : NDT.Eig} {log : List Entry} {s : State} {b : Slam.Book Algo.Frame}
    (inv : Inv eig log s b) : ∃ (parts : List (List (Trans × List NDT.Vec))) (last : List (Trans × List NDT.Vec)),
    scanPoses s = ((List.zipWith (fun x part => inWorld x.1 part) b.poses parts).flatten ++
      inWorld s.alg.temp.origin last).map Prod.fst ∧
    (used log).map Entry.scan = ((List.zipWith (fun x part => inWorld x.1 part) b.poses parts).flatten ++
      inWorld s.alg.temp.origin last).map Prod.snd ∧
    (∀ x ∈ parts.flatten ++ last, IsRigid x.1) ∧ List.Forall₂ MadeOf s.store parts ∧ MadeOf s.temp last := by
  obtain ⟨parts, last, p1, p2, p3, p4, p5, p6⟩ := inv.frames.made
  obtain ⟨i1, i2⟩ := frames_inWorld b.poses parts p1 inv.full.alg.origins
  refine ⟨parts, last, ?_, ?_, p4, p5, p6⟩
  · unfold scanPoses
    rw [Algo.frames_eq inv.full, List.flatMap_append, i1, List.map_append]
    congr 1
    simp only [List.flatMap_cons, List.flatMap_nil, List.append_nil]
    unfold Algo.Frame.scans inWorld
    rw [List.map_map]
    have := congrArg (List.map fun t => getTransFromPose s.alg.temp.origin * t) p2
    simp only [List.map_map] at this
    exact this.symm
  · rw [← p3, List.map_append, List.map_append, i2]
    congr 1
    unfold inWorld
    rw [List.map_map]
    rfl

theorem zip_fst_snd {α β : Type*} (l : List (α × β)) : (l.map Prod.fst).zip (l.map Prod.snd) = l := by
  induction l with
  | nil => rfl
  | cons x l ih => simp [ih]

/-! ### C113: the published map shows what was seen -/

/-- The scans used and the poses at present estimated for them correspond one to one, in the order of the updates. -/
theorem C113_poses {eig : NDT.Eig} (he : NDT.EigOk eig) {P : Algo.Input → Prop} {log : List Entry} {s : State}
    (h : Reach eig P log s) : (scanPoses s).length = (used log).length := by
  obtain ⟨⟨b, inv⟩, -⟩ := h.inv he
  obtain ⟨parts, last, h1, h2, -⟩ := scans_inWorld inv
  have := congrArg List.length h2
  rw [h1]
  simp only [List.length_map] at this ⊢
  exact this.symm

/-- C113: every point of the published map lies among the points of one of the scans used, seen from the pose the
graph at present estimates for it. -/
theorem C113_map {eig : NDT.Eig} (he : NDT.EigOk eig) {P : Algo.Input → Prop} {log : List Entry} {s : State}
    (h : Reach eig P log s) {v : NDT.Vec} (hv : v ∈ pclMap s) :
    ∃ x ∈ (scanPoses s).zip ((used log).map Entry.scan), SeenFrom x.1 x.2 (v 0, v 1) := by
  obtain ⟨⟨b, inv⟩, -⟩ := h.inv he
  obtain ⟨parts, last, h1, h2, h3, h4, -⟩ := scans_inWorld inv
  rw [h1, h2, zip_fst_snd]
  obtain ⟨c', hc', rfl⟩ := List.mem_map.1 (inv.mapped.cloud.mem_iff.1 hv)
  obtain ⟨f, hf, c, hc, sc⟩ := inv.mapped.src c' hc'
  obtain ⟨i, hi⟩ := List.getElem?_of_mem hf
  have hlt : i < s.store.length := (List.getElem?_eq_some_iff.1 hi).1
  have hltb : i < b.poses.length := by rw [← inv.frames.len]; exact hlt
  rw [List.forall₂_iff_get] at h4
  have hltp : i < parts.length := by rw [← h4.1]; exact hlt
  have hm := h4.2 i hlt hltp
  simp only [List.get_eq_getElem] at hm
  rw [(List.getElem?_eq_some_iff.1 hi).2] at hm
  obtain ⟨x, hx, hs⟩ := hm c hc
  have ho := inv.frames.orig i f _ hi (List.getElem?_eq_getElem hltb)
  have hxr : IsRigid x.1 := h3 x (List.mem_append_left _ (List.mem_flatten.2 ⟨_, List.getElem_mem hltp, hx⟩))
  refine ⟨(getTransFromPose b.poses[i].1 * x.1, x.2), List.mem_append_left _ (List.mem_flatten.2
    ⟨inWorld b.poses[i].1 parts[i], ?_, List.mem_map.2 ⟨x, hx, rfl⟩⟩), ?_⟩
  · refine List.mem_of_getElem? (i := i) ?_
    rw [List.getElem?_zipWith, List.getElem?_eq_getElem hltb, List.getElem?_eq_getElem hltp]
  · have := seenFrom_act hs (getTransFromPose_rigid b.poses[i].1) hxr
    rw [act_trans] at this
    have e : ((worldPoint s.global c') 0, (worldPoint s.global c') 1) = worldPos s.global c' := rfl
    rw [e, sc.pos]
    unfold worldPos
    rw [ho]
    exact this

/-- C113 as long as no loop was closed: from the pose the algorithm reported for the scan. -/
theorem C113_no_loops {eig : NDT.Eig} (he : NDT.EigOk eig) {log : List Entry} {s : State}
    (h : Reach eig Algo.NoLoops log s) {v : NDT.Vec} (hv : v ∈ pclMap s) :
    ∃ e ∈ used log, SeenFrom (getTransFromPose e.pose) e.scan (v 0, v 1) := by
  obtain ⟨x, hx, hs⟩ := C113_map he h hv
  have h1 : scanPoses s = (used log).map fun e => getTransFromPose e.pose := by
    unfold scanPoses
    rw [Algo.C80_scans (h.inv he).2, List.filter_map, List.map_map]
    rfl
  rw [h1, List.zip_map'] at hx
  obtain ⟨e, he', rfl⟩ := List.mem_map.1 hx
  exact ⟨e, he', hs⟩

/-! ### C114: the published running window shows what was seen -/

/-- C114: every point of the published running window lies among the points of the first scan, seen from the start
pose, or among those of a matched scan, seen from the pose the matcher found. -/
theorem C114_window {eig : NDT.Eig} (he : NDT.EigOk eig) {P : Algo.Input → Prop} {log : List Entry} {s : State}
    (h : Reach eig P log s) {v : NDT.Vec} (hv : v ∈ pclWindow s) : WindowPoint log (v 0, v 1) := by
  obtain ⟨⟨b, inv⟩, -⟩ := h.inv he
  obtain ⟨c, hc, rfl⟩ := List.mem_map.1 ((published (inv.window.winB.listed he rfl)).mem_iff.1 hv)
  exact inv.window.src c hc

/-! ### C115: frames, nodes and the mapper -/

/-- C115: there is one stored frame per node, it has the pose of the node, and the mapper holds every frame exactly
once. -/
theorem C115_frames {eig : NDT.Eig} (he : NDT.EigOk eig) {P : Algo.Input → Prop} {log : List Entry} {s : State}
    (h : Reach eig P log s) :
    s.store.length = s.alg.engine.graph.nodes.length ∧
    (∀ (i : ℕ) f, s.store[i]? = some f → Slam.getPoseLocation s.alg.engine i = .ok (origin f)) ∧
    s.order.Nodup ∧ (∀ i, i ∈ s.order ↔ i < s.store.length) := by
  obtain ⟨⟨b, inv⟩, -⟩ := h.inv he
  refine ⟨by rw [inv.frames.len, inv.full.alg.engine.nodesLen], ?_, inv.mapped.order.nodup_iff.2 List.nodup_range,
    fun i => by rw [inv.mapped.order.mem_iff, List.mem_range]⟩
  intro i f hf
  have hlt : i < b.poses.length := by rw [← inv.frames.len]; exact (List.getElem?_eq_some_iff.1 hf).1
  rw [inv.frames.orig i f _ hf (List.getElem?_eq_getElem hlt)]
  exact (Algo.getPose inv.full.alg.engine (List.getElem?_eq_getElem hlt)).1

/-- C115: every Gaussian of the map is one of a stored frame, at its place in the world. -/
theorem C115_map {eig : NDT.Eig} (he : NDT.EigOk eig) {P : Algo.Input → Prop} {log : List Entry} {s : State}
    (h : Reach eig P log s) :
    ∀ c' ∈ gaussians s.global, ∃ f ∈ s.store, ∃ c ∈ gaussians f, SameInWorld f c s.global c' := by
  obtain ⟨⟨b, inv⟩, -⟩ := h.inv he
  exact inv.mapped.src

/-- C115, no frame is missing: where a frame has a Gaussian and no frame that comes later in the mapper has one, the
map knows the square, and the Gaussian it has there, unless rays have erased it, is one of that frame; the last frame
of the mapper is there in full.  (Gaussians exactly on border lines of the map are excluded.) -/
theorem C115_complete {eig : NDT.Eig} (he : NDT.EigOk eig) {P : Algo.Input → Prop} {log : List Entry} {s : State}
    (h : Reach eig P log s) (hoff : ∀ f ∈ s.store, ∀ c ∈ gaussians f, OffLines (1 / 4) (worldPos f c))
    {as bs : List ℕ} {i : ℕ} (ho : s.order = as ++ i :: bs) {f : Map} (hf : s.store[i]? = some f)
    {c : NDT.Cell} (hc : c ∈ gaussians f)
    (hlast : ∀ j ∈ bs, ∀ g, s.store[j]? = some g → ∀ c' ∈ gaussians g,
      Voxel.squareOf (1 / 4) (worldPos g c') ≠ Voxel.squareOf (1 / 4) (worldPos f c)) :
    ∃ d, Voxel.content s.global.grid (Voxel.squareOf (1 / 4) (worldPos f c)) = some d ∧
      (bs = [] → d.gaussian = true) ∧
      (d.gaussian = true → ∃ c2 ∈ gaussians f,
        Voxel.squareOf (1 / 4) (worldPos f c2) = Voxel.squareOf (1 / 4) (worldPos f c) ∧
        SameInWorld f c2 s.global d) := by
  obtain ⟨⟨b, inv⟩, -⟩ := h.inv he
  obtain ⟨n0, i0, o0, c0, a0⟩ := inv.mapped.merged
  have hmem : ∀ x ∈ s.order.filterMap (fun i => s.store[i]?), x ∈ s.store := by
    intro x hx
    obtain ⟨i, -, hi⟩ := List.mem_filterMap.1 hx
    exact List.mem_of_getElem? hi
  obtain ⟨d, h1, h2, h3⟩ := (addAll_complete he i0 o0 c0 (fun x hx => (inv.frames.storeB x (hmem x hx)).inv he)
    (fun x hx => hoff x (hmem x hx)) a0).2 (as.filterMap fun i => s.store[i]?) f (bs.filterMap fun i => s.store[i]?)
    (by rw [ho, List.filterMap_append, List.filterMap_cons, hf]) c hc (by
      intro g hg c' hc'
      obtain ⟨j, hj, hg⟩ := List.mem_filterMap.1 hg
      exact hlast j hj g hg c' hc')
  exact ⟨d, h1, fun hb => h2 (by rw [hb]; rfl), h3⟩

/-! ### C110 and C111 for the algorithm -/

/-- C110: what the algorithm publishes are the Gaussians of its maps at their place in the world, each once. -/
theorem C110_algorithm {eig : NDT.Eig} (he : NDT.EigOk eig) {P : Algo.Input → Prop} {log : List Entry} {s : State}
    (h : Reach eig P log s) :
    (pclMap s).Perm ((gaussians s.global).map
      fun c => ![(worldPos s.global c).1, (worldPos s.global c).2, c.mean 2]) ∧
    (pclWindow s).Perm ((gaussians s.window).map
      fun c => ![(worldPos s.window c).1, (worldPos s.window c).2, c.mean 2]) := by
  obtain ⟨⟨b, inv⟩, -⟩ := h.inv he
  exact ⟨inv.mapped.cloud, published (inv.window.winB.listed he rfl)⟩

/-- C111: every Gaussian of every map of the algorithm is usable. -/
theorem C111_algorithm {eig : NDT.Eig} (he : NDT.EigOk eig) {P : Algo.Input → Prop} {log : List Entry} {s : State}
    (h : Reach eig P log s) :
    ∀ n ∈ s.global :: s.window :: s.temp :: s.store, ∀ c ∈ gaussians n, Usable c := by
  obtain ⟨⟨b, inv⟩, -⟩ := h.inv he
  have hb : ∀ n ∈ s.global :: s.window :: s.temp :: s.store, Built eig true n := by
    intro n hn
    simp only [List.mem_cons] at hn
    rcases hn with rfl | rfl | rfl | hn
    · exact inv.mapped.globalB
    · exact inv.window.winB
    · exact inv.frames.tempB
    · exact inv.frames.storeB n hn
  intro n hn c hc
  exact C111_usable he (hb n hn) c (mem_gaussians.1 hc).1

end Verif.Whole
