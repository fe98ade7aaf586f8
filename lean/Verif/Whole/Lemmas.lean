import Verif.Whole.Spec
import Verif.Algo.Props
import Verif.World.Motion

/-
Helper lemmas for the algorithm with its maps.
-/
namespace Verif.Whole

open Verif Verif.Geo Verif.NDTGrid Verif.World

/-! ### Scans merged into a frame -/

theorem seenFrom_convex (pose : Trans) (ps : List NDT.Vec) : Convex ℝ {v : NDT.Vec | SeenFrom pose ps (head v)} := by
  refine convex_preimage (S := convexHull ℝ {x | ∃ p ∈ ps, x = act pose (p 0, p 1)}) (convex_convexHull ℝ _)
    fun a b u v _ => head_affine a b u v

theorem seenFrom_act {t : Trans} {pose : Trans} {ps : List NDT.Vec} {v : ℝ × ℝ} (h : SeenFrom pose ps v)
    (ht : IsRigid t) (hp : IsRigid pose) : SeenFrom (t * pose) ps (act t v) := by
  unfold SeenFrom at *
  have : convexHull ℝ {x | ∃ p ∈ ps, x = act pose (p 0, p 1)} ⊆
      {x | act t x ∈ convexHull ℝ {x | ∃ p ∈ ps, x = act (t * pose) (p 0, p 1)}} := by
    apply convexHull_min
    · rintro x ⟨p, hp', rfl⟩
      refine subset_convexHull ℝ _ ⟨p, hp', ?_⟩
      obtain ⟨-, -, -, g1, g2, g3⟩ := (isRigid_iff t).1 ht
      obtain ⟨-, -, -, k1, k2, k3⟩ := (isRigid_iff pose).1 hp
      unfold act
      simp only [Matrix.mul_apply, Fin.sum_univ_three, k1, k2, k3]
      ext <;> simp <;> ring
    · intro u hu v hv a b ha hb hab
      show act t (a • u + b • v) ∈ convexHull ℝ {x | ∃ p ∈ ps, x = act (t * pose) (p 0, p 1)}
      rw [act_affine _ _ _ _ _ hab]
      exact convex_convexHull ℝ _ hu hv ha hb hab
  exact this h

/-- Merging a cloud that is given in the frame of the map. -/
theorem merged {eig : NDT.Eig} {n n' : Map} (hi : MapInv n) {t : Trans} (ht : IsRigid t)
    {ps : List NDT.Vec} (h : mergeCloudTraced eig n (transformCloud t ps) (origin n) true = .ok n') :
    origin n' = origin n ∧ n'.grid.cellSize = n.grid.cellSize ∧
    ∀ c' ∈ gaussians n', (∃ c ∈ gaussians n, c.mean = c'.mean) ∨ SeenFrom t ps (c'.mean 0, c'.mean 1) := by
  unfold mergeCloudTraced at h
  simp only at h
  rw [Algo.transBtw_self, transformCloud_one] at h
  obtain ⟨g, h1, h⟩ := Res.bind_eq_ok.1 h
  unfold mergeGridTraced at h
  simp only at h
  obtain ⟨g1, ht1, w1, c1, h⟩ := mergeTraced_split (cell_lawful eig) hi.wf h
  have hcs1 : 0 < g1.cellSize := by rw [c1]; exact hi.cs
  obtain ⟨a1, a2, a3, -, a5⟩ := mergeCells_frame (n := { n with grid := g1 }) w1 hcs1 h
  have a6 := (mergeCells_all (I := cellI eig) (Q := fun _ => True) (n := { n with grid := g1 })
    (fun _ _ _ _ => trivial) w1 hcs1 h (fun _ _ _ => trivial) (fun _ _ => trivial)).2.1
  refine ⟨origin_eq a1 a2 a3, a6.trans c1, fun c' hc' => ?_⟩
  obtain ⟨hv, hgc⟩ := mem_gaussians.1 hc'
  rcases a5 (Or.inl rfl) c' hv with h | ⟨h, -⟩
  · left
    obtain ⟨c, hc, b1, b2, -⟩ := traceAll_same ht1 c' h hgc
    exact ⟨c, mem_gaussians.2 ⟨hc, b1⟩, b2.symm⟩
  · right
    refine createGrid_mem (seenFrom_convex t ps) hi.cs ?_ h1 c' h hgc
    intro p hp
    unfold transformCloud at hp
    obtain ⟨q, hq, rfl⟩ := List.mem_map.1 hp
    refine subset_convexHull ℝ _ ⟨q, hq, ?_⟩
    rw [linear4_convert, translation4_convert]
    exact (convert_act ht q).1

theorem merged_made {eig : NDT.Eig} {n n' : Map} (hi : MapInv n) {t : Trans} (ht : IsRigid t)
    {ps : List NDT.Vec} (h : mergeCloudTraced eig n (transformCloud t ps) (origin n) true = .ok n')
    {part : List (Trans × List NDT.Vec)} (hm : MadeOf n part) : MadeOf n' (part ++ [(t, ps)]) := by
  intro c' hc'
  rcases (merged hi ht h).2.2 c' hc' with ⟨c, hc, he⟩ | hs
  · obtain ⟨x, hx, hs⟩ := hm c hc
    rw [he] at hs
    exact ⟨x, List.mem_append_left _ hx, hs⟩
  · exact ⟨_, List.mem_append_right _ (List.mem_singleton.2 rfl), hs⟩

/-! ### The statements of the algorithm without its maps -/

theorem closeLoops_spec {eig : NDT.Eig} {inp : Input} {s s' : State} {b : Slam.Book Algo.Frame}
    (inv : Slam.SInv s.alg.engine b) (hid : s.alg.lastNodeId < b.poses.length)
    (hnd : (inp.alg.loops.map Prod.fst).Nodup)
    (hf : ∀ a ∈ inp.alg.loops.map Prod.fst, PoseGraph.Fresh s.alg.engine.graph a)
    (hl : ∀ c ∈ inp.alg.loops, c.2.src < b.poses.length ∧ c.2.dst < b.poses.length)
    (hp : inp.alg.order.Perm (List.range b.poses.length)) (h : closeLoops eig inp s = .ok s') :
    Algo.closeLoops inp.alg s.alg = .ok s'.alg ∧ s'.temp = s.temp ∧ s'.window = s.window ∧
    ((inp.alg.loops = [] ∧ s'.store = s.store ∧ s'.global = s.global ∧ s'.order = s.order ∧ s'.cloud = s.cloud ∧
        s'.loadTime = s.loadTime) ∨
      (inp.alg.loops ≠ [] ∧ s'.store = sync s'.alg.engine s.store ∧ s'.order = inp.sorted ∧ inp.sorted ≠ [] ∧
        addAll eig (NDTGrid.clear s.global) (inp.sorted.filterMap fun i => s'.store[i]?) = .ok s'.global ∧
        s'.cloud = meansTransformed s'.global ∧ s'.loadTime = inp.time)) := by
  obtain ⟨e, he, inv1, -, -⟩ := Slam.addLoops_ok inv hnd hf hl
  have hfin : Slam.finishLoopClose inp.alg.loops s.alg.engine =
      (.ok (decide (0 < inp.alg.loops.length)), e) := by
    unfold Slam.finishLoopClose
    rw [Slam.Op.bind_apply_ok he]
    rfl
  have hloc := (Algo.getPose inv (List.getElem?_eq_getElem hid)).1
  unfold closeLoops at h
  unfold Algo.closeLoops
  simp only [hloc, Res.bind_ok, hfin, Algo.lift, Res.map_ok] at h ⊢
  by_cases h0 : inp.alg.loops = []
  · simp only [h0, List.length_nil, lt_irrefl, decide_false, Bool.false_eq_true, if_false] at h ⊢
    cases h
    exact ⟨rfl, rfl, rfl, .inl ⟨trivial, rfl, rfl, rfl, rfl, rfl⟩⟩
  · have hpos : 0 < inp.alg.loops.length := List.length_pos_iff.2 h0
    simp only [hpos, decide_true, if_true] at h ⊢
    rcases ho : Slam.optimalize inp.alg.est Algo.Frame.updatePosition inp.alg.order e with ⟨r, e'⟩
    obtain ⟨rfl, -, -, -, -, inv2⟩ := Slam.inv_optimalize inv1 inp.alg.est Algo.Frame.updatePosition hp ho
    rw [ho] at h
    simp only [Res.map_ok, Res.bind_ok, if_true] at h ⊢
    unfold recalc at h
    obtain ⟨g, h1, h⟩ := Res.bind_eq_ok.1 h
    split_ifs at h with hne
    cases h
    exact ⟨rfl, rfl, rfl, .inr ⟨h0, rfl, rfl, hne, h1, rfl, rfl⟩⟩

/-- What `updateGraph` does with the maps. -/
inductive Merged (eig : NDT.Eig) (inp : Input) (inc : Trans) (s s' : State) : Prop
  | kept : ¬ Algo.movedFar s.alg (s.alg.transTemp * inc) →
      mergeCloudTraced eig s.temp (transformCloud (s.alg.transTemp * inc) inp.scan) (origin s.temp) true = .ok s'.temp →
      s'.store = s.store → s'.global = s.global → s'.order = s.order → s'.cloud = s.cloud →
      s'.loadTime = s.loadTime → Merged eig inp inc s s'
  | inserted {g : Map} : Algo.movedFar s.alg (s.alg.transTemp * inc) → addToMap eig s.global s.temp = .ok g →
      ((inp.alg.loops = [] ∧ s'.store = s.store ++ [{ s.temp with timestamp := inp.time }] ∧ s'.global = g ∧
          s'.order = s.order ++ [s.store.length] ∧ s'.cloud = meansTransformed g ∧ s'.loadTime = s.loadTime) ∨
        (inp.alg.loops ≠ [] ∧
          s'.store = sync s'.alg.engine (s.store ++ [{ s.temp with timestamp := inp.time }]) ∧
          s'.order = inp.sorted ∧ inp.sorted ≠ [] ∧
          addAll eig (NDTGrid.clear g) (inp.sorted.filterMap fun i => s'.store[i]?) = .ok s'.global ∧
          s'.cloud = meansTransformed s'.global ∧ s'.loadTime = inp.time)) →
      mergeCloudTraced eig (setOrigin (emptyMap eig s.alg.cellSize) s'.alg.temp.origin) inp.scan
        s'.alg.temp.origin true = .ok s'.temp → Merged eig inp inc s s'

theorem updateGraph_spec {eig : NDT.Eig} {inp : Input} {s s' : State} {b : Slam.Book Algo.Frame}
    (inv : Algo.AInv s.alg b) (adm : Algo.Admissible s.alg inp.alg) {inc cov : Trans}
    (h : updateGraph eig inc cov inp s = .ok s') :
    Algo.updateGraph inc cov inp.alg s.alg = .ok s'.alg ∧ s'.window = s.window ∧ Merged eig inp inc s s' := by
  unfold updateGraph at h
  unfold Algo.updateGraph
  simp only at h ⊢
  set a1 : Algo.State := { s.alg with
             transTemp := s.alg.transTemp * inc
             covarTemp := addToCovar s.alg.covarTemp cov inc } with ha1
  by_cases hfar : Algo.movedFar a1 (s.alg.transTemp * inc)
  · rw [if_pos hfar] at h ⊢
    obtain ⟨s1, h1, h⟩ := Res.bind_eq_ok.1 h
    unfold addFrame at h1
    obtain ⟨g, hg, h1⟩ := Res.bind_eq_ok.1 h1
    cases h1
    obtain ⟨a2, h2, h⟩ := Res.bind_eq_ok.1 h
    obtain ⟨s3, h3, h⟩ := Res.bind_eq_ok.1 h
    obtain ⟨a2', h2', e2, hs2, hf2⟩ := Algo.inv_insertFrame (s := a1) (b := b) inv.engine inv.first
      (addr := inp.alg.addr) (adm.fresh _ (List.mem_cons_self ..))
    have h2'' : Algo.insertFrame inp.alg.addr a1 = .ok a2 := h2
    rw [h2''] at h2'
    cases h2'
    have hlen : (b.poses ++ [(a1.temp.origin, a1.temp)]).length = b.poses.length + 1 := by simp
    have hnl := inv.engine.nodesLen
    have hnd := List.nodup_cons.1 adm.addrs
    have hid2 : a2.lastNodeId = b.poses.length := by rw [hs2]
    obtain ⟨q1, q2, q3, q4⟩ := closeLoops_spec (inp := inp) (s := ⟨a2, _, _, _, _, _, _, _, _, _, _, _⟩) e2
      (by show a2.lastNodeId < _; rw [hid2, hlen]; omega) hnd.2
      (fun a ha => hf2 a (fun h => hnd.1 (h ▸ ha)) (adm.fresh a (List.mem_cons_of_mem _ ha)))
      (fun c hc => by
        have h := adm.loops c hc
        rw [hnl, ← hlen] at h
        exact h)
      (by
        have h := adm.order
        rw [hnl, ← hlen] at h
        exact h) h3
    have q1' : Algo.closeLoops inp.alg a2 = .ok s3.alg := q1
    rw [h2'', Res.bind_ok, q1', Res.bind_ok]
    unfold restart at h
    obtain ⟨a4, h4, h⟩ := Res.bind_eq_ok.1 h
    obtain ⟨t, h5, h⟩ := Res.bind_eq_ok.1 h
    cases h
    have heng : a4.engine = s3.alg.engine := by
      unfold Algo.restart at h4
      obtain ⟨p, -, h4⟩ := Res.bind_eq_ok.1 h4
      cases h4; rfl
    refine ⟨h4, q3, .inserted hfar hg ?_ ?_⟩
    · simp only [heng]
      exact q4
    have hcell : a4.cellSize = s.alg.cellSize := by
      have e1 : a4.cellSize = s3.alg.cellSize := by
        unfold Algo.restart at h4
        obtain ⟨p, -, h4⟩ := Res.bind_eq_ok.1 h4
        cases h4; rfl
      have e2 : s3.alg.cellSize = a2.cellSize := by
        unfold Algo.closeLoops at q1'
        obtain ⟨p, -, q1'⟩ := Res.bind_eq_ok.1 q1'
        obtain ⟨r, -, q1'⟩ := Res.bind_eq_ok.1 q1'
        simp only at q1'
        split_ifs at q1'
        · obtain ⟨r', -, q1'⟩ := Res.bind_eq_ok.1 q1'
          have := Res.ok.inj q1'
          rw [← this]
          split_ifs <;> rfl
        · have := Res.ok.inj q1'
          rw [← this]
      rw [e1, e2, hs2]
    rw [q2, hcell] at h5
    exact h5
  · rw [if_neg hfar] at h ⊢
    obtain ⟨t, h1, h⟩ := Res.bind_eq_ok.1 h
    cases h
    exact ⟨rfl, rfl, .kept hfar h1 rfl rfl rfl rfl rfl⟩

/-- What `update` does with the maps. -/
inductive Done (eig : NDT.Eig) (inp : Input) (s s' : State) : Algo.Event → Prop
  | first {g} : s.alg.initialized = false →
      Voxel.enlarge (setCellSize (setOrigin s.window ⟨0, 0, 0⟩) s.alg.cellSize).grid (-s.radius) (-s.radius) s.radius
        s.radius = .ok g →
      initializeMap eig { setCellSize (setOrigin s.window ⟨0, 0, 0⟩) s.alg.cellSize with grid := g } inp.scan =
        .ok s'.window →
      initializeMap eig (setCellSize (setOrigin s.temp ⟨0, 0, 0⟩) s.alg.cellSize) inp.scan = .ok s'.temp →
      s'.store = s.store → s'.global = s.global → s'.order = s.order → s'.cloud = s.cloud → s'.loadTime = s.loadTime →
      Done eig inp s s' .first
  | idle {m} : s.alg.initialized = true → s'.temp = s.temp → s'.window = s.window →
      s'.store = s.store → s'.global = s.global → s'.order = s.order → s'.cloud = s.cloud → s'.loadTime = s.loadTime →
      Done eig inp s s' (.idle m)
  | failed {g m} : s.alg.initialized = true → Merged eig inp inp.alg.motion s s' → s'.window = s.window →
      Done eig inp s s' (.failed g m)
  | matched {g m q r cumul} : s.alg.initialized = true → inp.alg.matcher = some r →
      q = getPoseFromTransform (getTransFromPose (origin s.window) * convertToTransform r) →
      Merged eig inp ((getTransFromPose s.alg.lastMatcherPose)⁻¹ * getTransFromPose q) s s' →
      updateWindow eig s.alg.cellSize s.window inp.scan (convertToTransform r) = .ok (cumul, s'.window) →
      Done eig inp s s' (.matched g m q)

theorem mergeGridTraced_keeps {eig : NDT.Eig} {n g n' : Map} (hi : MapInv n)
    {t : Bool} (h : mergeGridTraced eig n g t true = .ok n') :
    origin n' = origin n ∧ n'.grid.cellSize = n.grid.cellSize := by
  unfold mergeGridTraced at h
  simp only at h
  obtain ⟨g1, ht1, w1, c1, h⟩ := mergeTraced_split (cell_lawful eig) hi.wf h
  have hcs1 : 0 < g1.cellSize := by rw [c1]; exact hi.cs
  obtain ⟨a1, a2, a3, -, -⟩ := mergeCells_frame (n := { n with grid := g1 }) w1 hcs1 h
  have a6 := (mergeCells_all (I := cellI eig) (Q := fun _ => True) (n := { n with grid := g1 })
    (fun _ _ _ _ => trivial) w1 hcs1 h (fun _ _ _ => trivial) (fun _ _ => trivial)).2.1
  exact ⟨origin_eq a1 a2 a3, a6.trans c1⟩

theorem update_spec {eig : NDT.Eig} (he : NDT.EigOk eig) {inp : Input} {s s' : State} {b : Slam.Book Algo.Frame} {o : Algo.Event × Pose}
    (inv : Algo.Full s.alg b) (adm : Algo.Admissible s.alg inp.alg) (wi : MapInv s.window)
    (wo : origin s.window = s.alg.window)
    (wc : s.window.grid.cellSize = s.alg.cellSize)
    (h : update eig inp s = .ok (o, s')) :
    Algo.update inp.alg s.alg = .ok (o, s'.alg) ∧ Done eig inp s s' o.1 ∧ s'.alg.cellSize = s.alg.cellSize ∧
    origin s'.window = s'.alg.window ∧ s'.window.grid.cellSize = s.alg.cellSize := by
  unfold update at h
  unfold Algo.update
  by_cases hi : s.alg.initialized = false
  · rw [if_pos (by simp [hi])] at h ⊢
    obtain ⟨s1, h1, h⟩ := Res.bind_eq_ok.1 h
    cases h
    unfold firstUpdate at h1
    simp only at h1
    obtain ⟨g, hg, h1⟩ := Res.bind_eq_ok.1 h1
    obtain ⟨w, hw, h1⟩ := Res.bind_eq_ok.1 h1
    obtain ⟨t, ht, h1⟩ := Res.bind_eq_ok.1 h1
    cases h1
    have w0 : MapInv (setCellSize (setOrigin s.window ⟨0, 0, 0⟩) s.alg.cellSize) := by
      have : setCellSize (setOrigin s.window ⟨0, 0, 0⟩) s.alg.cellSize = setOrigin s.window ⟨0, 0, 0⟩ := by
        rw [← wc]; rfl
      rw [this]
      exact setOrigin_inv wi _
    obtain ⟨e1, e2, -, e3⟩ := enlarge_stored w0.wf w0.cs hg
    have w1 : MapInv { setCellSize (setOrigin s.window ⟨0, 0, 0⟩) s.alg.cellSize with grid := g } :=
      ⟨e1, by show 0 < g.cellSize; rw [e2]; exact w0.cs, fun x hx => w0.ginv x ((e3 x).1 hx)⟩
    obtain ⟨-, o1, o2, -⟩ := scan_mem he convex_univ w1 (fun _ _ => Set.mem_univ _) hw
    exact ⟨rfl, .first hi hg hw ht rfl rfl rfl rfl rfl, rfl, o1, o2.trans e2⟩
  · have hi' : s.alg.initialized = true := by simpa using hi
    rw [if_neg (by simp [hi'])] at h ⊢
    simp only at h ⊢
    by_cases hm : Algo.movedEnough { s.alg with unused := s.alg.unused * inp.alg.motion }
        (s.alg.unused * inp.alg.motion)
    · rw [if_neg (not_not_intro hm)] at h ⊢
      obtain ⟨scan, h0, h⟩ := Res.bind_eq_ok.1 h
      rw [wo] at h h0
      cases hmat : inp.alg.matcher with
      | none =>
        rw [hmat] at h
        simp only at h ⊢
        obtain ⟨s1, h1, h⟩ := Res.bind_eq_ok.1 h
        cases h
        have a1 : Algo.AInv { s.alg with unused := 1 } b := ⟨inv.alg.engine, inv.alg.origins, inv.alg.placed,
          inv.alg.first, inv.alg.lastId, inv.alg.pos, inv.alg.temp, inv.alg.last, inv.alg.chain⟩
        obtain ⟨q1, q2, q3⟩ := updateGraph_spec (s := ⟨{ s.alg with unused := 1 }, _, _, _, _, _, _, _, _, _, _, _⟩) a1
          ⟨adm.motion, adm.matcher, adm.addrs, adm.fresh, adm.loops, adm.order⟩ h1
        rw [show Algo.updateGraph inp.alg.motion ((100 : ℝ) • 1) inp.alg _ = _ from q1, Res.bind_ok]
        obtain ⟨a2, b2, q1'', -, same, -⟩ := Algo.inv_updateGraph a1
          ⟨adm.motion, adm.matcher, adm.addrs, adm.fresh, adm.loops, adm.order⟩ adm.motion ((100 : ℝ) • 1)
        rw [show Algo.updateGraph inp.alg.motion ((100 : ℝ) • 1) inp.alg _ = _ from q1] at q1''
        cases q1''
        refine ⟨rfl, .failed hi' ?_ q2, same.cell, ?_, ?_⟩
        rotate_left
        · rw [show s'.window = s.window from q2, wo]; exact same.window.symm
        · rw [show s'.window = s.window from q2, wc]
        cases q3 with
        | kept c1 c2 c3 c4 c5 c6 c7 => exact .kept c1 c2 c3 c4 c5 c6 c7
        | inserted c1 c2 c3 c4 => exact .inserted c1 c2 c3 c4
      | some r =>
        rw [hmat] at h
        simp only at h ⊢
        obtain ⟨s1, h1, h⟩ := Res.bind_eq_ok.1 h
        obtain ⟨scan1, h2, h⟩ := Res.bind_eq_ok.1 h
        obtain ⟨w1, h3, h⟩ := Res.bind_eq_ok.1 h
        obtain ⟨⟨r1, w2⟩, h4, h⟩ := Res.bind_eq_ok.1 h
        cases h
        have hreg := adm.matcher r hmat
        set p := getPoseFromTransform (getTransFromPose s.alg.window * convertToTransform r) with hp
        have hir : IsRigid ((getTransFromPose s.alg.lastMatcherPose)⁻¹ * getTransFromPose p) := by
          rw [trans_inv]
          exact rigid_mul (getTransFromPose_rigid _) (getTransFromPose_rigid _)
        have a1 : Algo.AInv { s.alg with unused := 1, lastMatcherPose := p } b := ⟨inv.alg.engine, inv.alg.origins,
          inv.alg.placed, inv.alg.first, inv.alg.lastId, inv.alg.pos, inv.alg.temp, inv.alg.last, inv.alg.chain⟩
        have adm1 : Algo.Admissible { s.alg with unused := 1, lastMatcherPose := p } inp.alg :=
          ⟨adm.motion, adm.matcher, adm.addrs, adm.fresh, adm.loops, adm.order⟩
        obtain ⟨q1, q2, q3⟩ := updateGraph_spec
          (s := ⟨{ s.alg with unused := 1, lastMatcherPose := p }, _, _, _, _, _, _, _, _, _, _, _⟩) a1 adm1 h1
        have q1' : Algo.updateGraph ((getTransFromPose s.alg.lastMatcherPose)⁻¹ * getTransFromPose p)
          ((1 / 100 : ℝ) • 1) inp.alg { s.alg with unused := 1, lastMatcherPose := p } = .ok s1.alg := q1
        obtain ⟨a2, b2, q1'', -, same, -⟩ := Algo.inv_updateGraph a1 adm1 hir ((1 / 100 : ℝ) • 1)
        rw [q1'] at q1''
        cases q1''
        rw [q1', Res.bind_ok]
        have q2' : s1.window = s.window := q2
        rw [q2'] at h3
        have hcell : s1.alg.cellSize = s.alg.cellSize := same.cell
        have hwin : s1.alg.window = s.alg.window := same.window
        obtain ⟨o1, o2⟩ := mergeGridTraced_keeps wi h3
        have bi : MapInv w1 := by
          have ie : MapInv (setOrigin (emptyMap eig s.alg.cellSize) s.alg.window) :=
            setOrigin_inv (init_inv eig 0 0 0 (by rw [← wc]; exact wi.cs)) _
          have i0 : MapInv scan := mergeCloudTraced_inv he (clearGrid_inv ie) h0
          exact mergeGridTraced_inv he wi (transform_inv he i0 h2) h3
        obtain ⟨m1, m2⟩ := Algo.moveWindow_grid (cellI eig) (convertToTransform r) bi.wf bi.cs h4
        have eo : (⟨w1.ox, w1.oy, w1.th⟩ : Pose) = s.alg.window := by
          rw [← wo]; exact o1
        rw [eo, o2, wc, ← hcell, ← hwin] at m1 m2
        refine ⟨?_, ?_, hcell, rfl, ?_⟩
        · rw [m1, m2]
          rfl
        rotate_left
        · rw [← wc, ← o2]
          exact (move_all (I := cellI eig) (Q := fun _ => True) (Q' := fun _ => True) bi.wf bi.cs h4
            (fun _ _ => trivial) (fun _ _ _ => trivial) (fun _ _ => trivial)).2.1
        · refine .matched (r := r) hi' hmat (by rw [wo]) ?_ ?_
            (cumul := !![convertToTransform r 0 0, convertToTransform r 0 1, r1.1;
              convertToTransform r 1 0, convertToTransform r 1 1, r1.2;
              convertToTransform r 2 0, convertToTransform r 2 1, convertToTransform r 2 2])
          · cases q3 with
            | kept c1 c2 c3 c4 c5 c6 c7 => exact .kept c1 c2 c3 c4 c5 c6 c7
            | inserted c1 c2 c3 c4 => exact .inserted c1 c2 c3 c4
          · unfold updateWindow
            simp only
            rw [wo, show initializeMap eig (setOrigin (NDTGrid.init (cellI eig) 0 0 0 s.alg.cellSize) s.alg.window)
              inp.scan = .ok scan from h0, Res.bind_ok, h2, Res.bind_ok, h3, Res.bind_ok, h4, Res.bind_ok]
    · rw [if_pos hm] at h ⊢
      cases h
      exact ⟨rfl, .idle hi' rfl rfl rfl rfl rfl rfl rfl, rfl, wo, wc⟩

end Verif.Whole
