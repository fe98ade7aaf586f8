import Verif.Whole.Props
import Verif.World.Take

/-
C116: updates and undefined behaviour.
-/
namespace Verif.Whole

open Verif Verif.Geo Verif.NDTGrid Verif.World Verif.Voxel

/-- The points are on no border line of a square, at least two squares away from the square of the sensor and not
absurdly far. -/
def ScanOk (cs : ℝ) (ps : List NDT.Vec) : Prop :=
  ∀ p ∈ ps, OffLines cs (p 0, p 1) ∧
    (2 ≤ |(squareOf cs (p 0, p 1)).1| ∨ 2 ≤ |(squareOf cs (p 0, p 1)).2|) ∧
    |(squareOf cs (p 0, p 1)).1| < 2 ^ 63 ∧ |(squareOf cs (p 0, p 1)).2| < 2 ^ 63

/-- The motion since the last scan was used that an update works with. -/
noncomputable def increment (s : State) (inp : Input) : Trans :=
  match inp.alg.matcher with
  | none => inp.alg.motion
  | some r => (getTransFromPose s.alg.lastMatcherPose)⁻¹ *
      getTransFromPose (getPoseFromTransform (getTransFromPose s.alg.window * convertToTransform r))

/-- What an update needs: a good scan (as made and as merged into the active frame), a good active frame, good
frames at the poses of the optimiser if there are loop closures, and a match
after which the window can take the scan. -/
structure Safe (s : State) (inp : Input) : Prop where
  scan : ScanOk s.alg.cellSize inp.scan
  merged : ScanOk s.alg.cellSize (transformCloud (s.alg.transTemp * increment s inp) inp.scan)
  frame : FrameOk s.temp
  frames : inp.alg.loops ≠ [] → ∀ (i : ℕ) f, (s.store ++ [s.temp])[i]? = some f →
    FrameOk (setOrigin f (if i = 0 then origin f else inp.alg.est i))
  window : ∀ r, inp.alg.matcher = some r → TakeOk s.alg.cellSize inp.scan (convertToTransform r)

theorem scan_total {eig : NDT.Eig} (he : NDT.EigOk eig) {n : Map} (hi : MapInv n) {ps : List NDT.Vec}
    (h : ScanOk n.grid.cellSize ps) : ∃ n', mergeCloudTraced eig n ps (origin n) true = .ok n' :=
  mergeScan_total he hi (fun p hp => (h p hp).1) (fun p hp => (h p hp).2.1) fun p hp => (h p hp).2.2

theorem closeLoops_total {eig : NDT.Eig} {inp : Input} {s : State} {b : Slam.Book Algo.Frame}
    (inv : Slam.SInv s.alg.engine b) (hid : s.alg.lastNodeId < b.poses.length)
    (hnd : (inp.alg.loops.map Prod.fst).Nodup)
    (hf : ∀ a ∈ inp.alg.loops.map Prod.fst, PoseGraph.Fresh s.alg.engine.graph a)
    (hl : ∀ c ∈ inp.alg.loops, c.2.src < b.poses.length ∧ c.2.dst < b.poses.length)
    (hp : inp.alg.order.Perm (List.range b.poses.length)) (hne : inp.sorted ≠ [])
    (hr : inp.alg.loops ≠ [] → ∀ e cons, Slam.SInv e ⟨Algo.optimised inp.alg b.poses, cons⟩ →
      ∃ g, World.addAll eig (NDTGrid.clear s.global) (inp.sorted.filterMap fun i => (sync e s.store)[i]?) = .ok g) :
    ∃ s', closeLoops eig inp s = .ok s' := by
  obtain ⟨e, he, inv1, -, -⟩ := Slam.addLoops_ok inv hnd hf hl
  have hfin : Slam.finishLoopClose inp.alg.loops s.alg.engine =
      (.ok (decide (0 < inp.alg.loops.length)), e) := by
    unfold Slam.finishLoopClose
    rw [Slam.Op.bind_apply_ok he]
    rfl
  have hloc := (Algo.getPose inv (List.getElem?_eq_getElem hid)).1
  unfold closeLoops
  simp only [hloc, Res.bind_ok, hfin, Algo.lift, Res.map_ok]
  by_cases h0 : inp.alg.loops = []
  · simp only [h0, List.length_nil, lt_irrefl, decide_false, Bool.false_eq_true, if_false]
    exact ⟨_, rfl⟩
  · have hpos : 0 < inp.alg.loops.length := List.length_pos_iff.2 h0
    simp only [hpos, decide_true, if_true]
    rcases ho : Slam.optimalize inp.alg.est Algo.Frame.updatePosition inp.alg.order e with ⟨r, e'⟩
    obtain ⟨rfl, -, -, -, -, inv2⟩ := Slam.inv_optimalize inv1 inp.alg.est Algo.Frame.updatePosition hp ho
    simp only [Res.map_ok, Res.bind_ok, if_true]
    have hop : Algo.optimised inp.alg b.poses = b.poses.mapIdx fun i x =>
        let p := if i = 0 then x.1 else inp.alg.est i
        (p, x.2.updatePosition p) := by unfold Algo.optimised; rw [if_neg h0]
    obtain ⟨g, hg⟩ := hr h0 e' _ (by rw [hop]; exact inv2)
    unfold recalc
    simp only at hg ⊢
    rw [hg, Res.bind_ok, if_neg hne]
    exact ⟨_, rfl⟩

theorem updateGraph_total {eig : NDT.Eig} (he : NDT.EigOk eig) {inp : Input} {s : State} {b : Slam.Book Algo.Frame}
    (inv : Algo.AInv s.alg b) (adm : Algo.Admissible s.alg inp.alg) {inc cov : Trans} (hinc : IsRigid inc)
    (hcs : 0 < s.alg.cellSize)
    (hb : ∀ f ∈ s.store, Built eig true f) (ht : Built eig true s.temp) (hlen : s.store.length = b.poses.length)
    (hg : MapInv s.global) (hgo : origin s.global = ⟨0, 0, 0⟩) (hgc : s.global.grid.cellSize = 1 / 4)
    (ho : ∀ (i : ℕ) m x, s.store[i]? = some m → b.poses[i]? = some x → origin m = x.1)
    (hto : origin s.temp = s.alg.temp.origin) (htc : s.temp.grid.cellSize = s.alg.cellSize)
    (hsort : inp.sorted ≠ [])
    (h1 : ScanOk s.alg.cellSize inp.scan)
    (h2 : ScanOk s.alg.cellSize (transformCloud (s.alg.transTemp * inc) inp.scan))
    (h3 : FrameOk s.temp)
    (h4 : inp.alg.loops ≠ [] → ∀ (i : ℕ) f, (s.store ++ [s.temp])[i]? = some f →
      FrameOk (setOrigin f (if i = 0 then origin f else inp.alg.est i))) :
    ∃ s', updateGraph eig inc cov inp s = .ok s' := by
  obtain ⟨a', b', ha, inv', same, -⟩ := Algo.inv_updateGraph inv adm hinc cov
  unfold updateGraph
  unfold Algo.updateGraph at ha
  simp only at ha ⊢
  set a1 : Algo.State := { s.alg with
             transTemp := s.alg.transTemp * inc
             covarTemp := addToCovar s.alg.covarTemp cov inc } with ha1
  by_cases hfar : Algo.movedFar a1 (s.alg.transTemp * inc)
  · rw [if_pos hfar]
    obtain ⟨g, hadd⟩ := addToMap_total he hg hgo hgc (ht.inv he) h3
    obtain ⟨hgi, hgo', hgc'⟩ := addToMap_frame he hg (ht.inv he) hadd
    unfold addFrame
    simp only
    rw [hadd, Res.bind_ok, Res.bind_ok]
    obtain ⟨a2, h2a, e2, hs2, hf2⟩ := Algo.inv_insertFrame (s := a1) (b := b) inv.engine inv.first
      (addr := inp.alg.addr) (adm.fresh _ (List.mem_cons_self ..))
    simp only
    rw [h2a, Res.bind_ok]
    have hlenb : (b.poses ++ [(a1.temp.origin, a1.temp)]).length = b.poses.length + 1 := by simp
    have hnl := inv.engine.nodesLen
    have hnd := List.nodup_cons.1 adm.addrs
    have hid2 : a2.lastNodeId = b.poses.length := by rw [hs2]
    have hor : ∀ x ∈ b.poses ++ [(a1.temp.origin, a1.temp)], x.2.origin = x.1 := by
      intro x hx
      rcases List.mem_append.1 hx with hx | hx
      · exact inv.origins x hx
      · rw [List.mem_singleton.1 hx]
    have hbl : ∀ x ∈ s.store ++ [{ s.temp with timestamp := inp.time }], MapInv x := by
      intro x hx
      rcases List.mem_append.1 hx with hx | hx
      · exact (hb x hx).inv he
      · rw [List.mem_singleton.1 hx]; exact (Built.setTimestamp inp.time ht).inv he
    obtain ⟨s3, hs3⟩ := closeLoops_total (eig := eig) (inp := inp) (s := ⟨a2, s.radius, emptyMap eig a1.cellSize,
        s.store ++ [{ s.temp with timestamp := inp.time }], g, s.order ++ [s.store.length], meansTransformed g,
        s.window, occupancyMsg eig g, s.loadTime, s.windowTime, s.windowSeq⟩) e2
      (by show a2.lastNodeId < _; rw [hid2, hlenb]; omega) hnd.2
      (fun a ha => hf2 a (fun h => hnd.1 (h ▸ ha)) (adm.fresh a (List.mem_cons_of_mem _ ha)))
      (fun c hc => by
        have h := adm.loops c hc
        rw [hnl, ← hlenb] at h
        exact h)
      (by
        have h := adm.order
        rw [hnl, ← hlenb] at h
        exact h) hsort
      (fun h0 e cons se => by
        refine addAll_total he _ _ ?_ (hgo'.trans hgo) (hgc'.trans hgc) ?_
        · have := clearGrid_inv hgi
          exact ⟨this.wf, this.cs, this.ginv⟩
        · intro f hf
          obtain ⟨i, -, hi⟩ := List.mem_filterMap.1 hf
          rw [sync_get se (Algo.origins_optimised inp.alg hor) (by
            rw [Algo.length_optimised]; simp [hlen]) i] at hi
          obtain ⟨y, hy, hi⟩ := Option.bind_eq_some_iff.1 hi
          obtain ⟨x, hx, rfl⟩ := Option.map_eq_some_iff.1 hi
          refine ⟨setOrigin_inv (hbl y (List.mem_of_getElem? hy)) _, ?_⟩
          unfold Algo.optimised at hx
          rw [if_neg h0, List.getElem?_mapIdx] at hx
          obtain ⟨z, hz, rfl⟩ := Option.map_eq_some_iff.1 hx
          simp only
          rcases Nat.lt_or_ge i s.store.length with hlt | hge
          · rw [List.getElem?_append_left hlt] at hy
            rw [List.getElem?_append_left (by rw [← hlen]; exact hlt)] at hz
            have := h4 h0 i y (by rw [List.getElem?_append_left hlt]; exact hy)
            rw [ho i y z hy hz] at this
            exact this
          · have hin : i = s.store.length := by
              have := (List.getElem?_eq_some_iff.1 hy).1
              simp at this
              omega
            subst hin
            rw [List.getElem?_append_right (le_refl _), Nat.sub_self, List.getElem?_cons_zero] at hy
            rw [hlen, List.getElem?_append_right (le_refl _), Nat.sub_self, List.getElem?_cons_zero] at hz
            cases hy
            cases hz
            have := h4 h0 s.store.length s.temp (by
              rw [List.getElem?_append_right (le_refl _), Nat.sub_self, List.getElem?_cons_zero])
            rw [hto] at this
            exact this)
    rw [hs3, Res.bind_ok]
    obtain ⟨q1, q2, q3, q4⟩ := closeLoops_spec (inp := inp) (s := ⟨a2, _, _, _, _, _, _, _, _, _, _, _⟩) e2
      (by show a2.lastNodeId < _; rw [hid2, hlenb]; omega) hnd.2
      (fun a ha => hf2 a (fun h => hnd.1 (h ▸ ha)) (adm.fresh a (List.mem_cons_of_mem _ ha)))
      (fun c hc => by
        have h := adm.loops c hc
        rw [hnl, ← hlenb] at h
        exact h)
      (by
        have h := adm.order
        rw [hnl, ← hlenb] at h
        exact h) hs3
    rw [if_pos hfar, h2a, Res.bind_ok, show Algo.closeLoops inp.alg a2 = .ok s3.alg from q1, Res.bind_ok] at ha
    unfold restart
    rw [ha, Res.bind_ok]
    simp only
    have hcell : a'.cellSize = s.alg.cellSize := same.cell
    obtain ⟨t, ht'⟩ := scan_total he (n := setCellSize (setOrigin s3.temp a'.temp.origin) a'.cellSize) (by
      rw [q2, hcell]
      exact setOrigin_inv (init_inv eig 0 0 0 hcs) _) (ps := inp.scan) (by
      show ScanOk a'.cellSize inp.scan
      rw [hcell]; exact h1)
    rw [ht', Res.bind_ok]
    exact ⟨_, rfl⟩
  · rw [if_neg hfar]
    have hi := ht.inv he
    obtain ⟨t, ht'⟩ := scan_total he hi (by rw [htc]; exact h2)
    rw [ht', Res.bind_ok]
    exact ⟨_, rfl⟩

theorem transform_none {s : State} {inp : Input} (h : inp.alg.matcher = none) : increment s inp = inp.alg.motion := by
  unfold increment; rw [h]

/-- C116, what holds: an update does not reach undefined behaviour under the conditions of `Safe`. -/
theorem C116_update_partial {eig : NDT.Eig} (he : NDT.EigOk eig) {P : Algo.Input → Prop} {log : List Entry}
    {s : State} (h : Reach eig P log s) {inp : Input} (adm : Admissible s inp) (safe : Safe s inp) :
    ∃ o s', update eig inp s = .ok (o, s') := by
  obtain ⟨⟨b, inv⟩, -⟩ := h.inv he
  have hsort : inp.sorted ≠ [] := by
    intro h0
    have := adm.sorted.length_eq
    rw [h0] at this
    simp at this
  have graph : ∀ (a : Algo.State) inc cov, Algo.AInv a b → IsRigid inc → a.cellSize = s.alg.cellSize →
      a.engine = s.alg.engine → a.temp = s.alg.temp → a.transTemp = s.alg.transTemp → inc = increment s inp →
      ∃ s', updateGraph eig inc cov inp { s with alg := a } = .ok s' := by
    intro a inc cov ai hr hc hen hte htt hin
    refine updateGraph_total he (s := { s with alg := a }) ai ?_ hr (by rw [hc]; exact inv.cs) inv.frames.storeB
      inv.frames.tempB inv.frames.len (inv.mapped.globalB.inv he) inv.mapped.globalO inv.mapped.globalC
      inv.frames.orig (by rw [hte]; exact inv.frames.tempO) (by rw [hc]; exact inv.frames.tempC) hsort
      (by rw [hc]; exact safe.scan) (by rw [hc, htt, hin]; exact safe.merged) safe.frame safe.frames
    have ad := adm.alg
    exact ⟨ad.motion, ad.matcher, ad.addrs, by rw [hen]; exact ad.fresh, by rw [hen]; exact ad.loops,
      by rw [hen]; exact ad.order⟩
  unfold update
  by_cases hi : s.alg.initialized = false
  · rw [if_pos (by simp [hi])]
    obtain ⟨rfl, t0, w0, -⟩ := inv.start hi
    unfold firstUpdate
    simp only
    have iw : MapInv (setCellSize (setOrigin s.window ⟨0, 0, 0⟩) s.alg.cellSize) := by
      rw [w0]; exact setOrigin_inv (n := emptyMap eig s.alg.cellSize) (init_inv eig 0 0 0 inv.cs) ⟨0, 0, 0⟩
    have it : MapInv (setCellSize (setOrigin s.temp ⟨0, 0, 0⟩) s.alg.cellSize) := by
      rw [t0]; exact setOrigin_inv (n := emptyMap eig s.alg.cellSize) (init_inv eig 0 0 0 inv.cs) ⟨0, 0, 0⟩
    obtain ⟨g, hg, -⟩ := enlarge_spec iw.wf iw.cs (-s.radius) (-s.radius) s.radius s.radius
    obtain ⟨e1, e2, -, e3⟩ := enlarge_stored iw.wf iw.cs hg
    have w1 : MapInv { setCellSize (setOrigin s.window ⟨0, 0, 0⟩) s.alg.cellSize with grid := g } :=
      ⟨e1, by show 0 < g.cellSize; rw [e2]; exact iw.cs, fun x hx => iw.ginv x ((e3 x).1 hx)⟩
    obtain ⟨w, hw⟩ := scan_total he (clearGrid_inv w1) (ps := inp.scan) (by
      show ScanOk g.cellSize inp.scan
      rw [e2]; exact safe.scan)
    obtain ⟨t, ht⟩ := scan_total he (clearGrid_inv it) (ps := inp.scan) safe.scan
    have hw' : initializeMap eig { setCellSize (setOrigin s.window ⟨0, 0, 0⟩) s.alg.cellSize with grid := g }
      inp.scan = .ok w := hw
    have ht' : initializeMap eig (setCellSize (setOrigin s.temp ⟨0, 0, 0⟩) s.alg.cellSize) inp.scan = .ok t := ht
    rw [hg, Res.bind_ok, hw', Res.bind_ok, ht', Res.bind_ok, Res.bind_ok]
    exact ⟨_, _, rfl⟩
  · have hi' : s.alg.initialized = true := by simpa using hi
    rw [if_neg (by simp [hi'])]
    simp only
    by_cases hm : Algo.movedEnough { s.alg with unused := s.alg.unused * inp.alg.motion }
        (s.alg.unused * inp.alg.motion)
    · rw [if_neg (not_not_intro hm)]
      obtain ⟨scan, hs⟩ := scan_total he (clearGrid_inv (setOrigin_inv (init_inv eig 0 0 0 inv.cs) (origin s.window)))
        (ps := inp.scan) safe.scan
      have hs' : initializeMap eig (setOrigin (emptyMap eig s.alg.cellSize) (origin s.window)) inp.scan = .ok scan := hs
      rw [hs', Res.bind_ok]
      have ai := inv.full.alg
      cases hmat : inp.alg.matcher with
      | none =>
        simp only
        obtain ⟨s', h'⟩ := graph { s.alg with unused := 1 } inp.alg.motion ((100 : ℝ) • 1)
          ⟨ai.engine, ai.origins, ai.placed, ai.first, ai.lastId, ai.pos, ai.temp, ai.last, ai.chain⟩ adm.alg.motion
          rfl rfl rfl rfl (transform_none hmat).symm
        rw [h', Res.bind_ok]
        exact ⟨_, _, rfl⟩
      | some r =>
        simp only
        set p := getPoseFromTransform (getTransFromPose (origin s.window) * convertToTransform r) with hp
        have hir : IsRigid ((getTransFromPose s.alg.lastMatcherPose)⁻¹ * getTransFromPose p) := by
          rw [trans_inv]
          exact rigid_mul (getTransFromPose_rigid _) (getTransFromPose_rigid _)
        obtain ⟨s', h'⟩ := graph { s.alg with unused := 1, lastMatcherPose := p } _ ((1 / 100 : ℝ) • 1)
          ⟨ai.engine, ai.origins, ai.placed, ai.first, ai.lastId, ai.pos, ai.temp, ai.last, ai.chain⟩ hir
          rfl rfl rfl rfl (by unfold increment; rw [hmat]; simp only [hp, inv.window.winO])
        rw [h', Res.bind_ok]
        obtain ⟨-, q2, -⟩ := updateGraph_spec
          (s := ⟨{ s.alg with unused := 1, lastMatcherPose := p }, _, _, _, _, _, _, _, _, _, _, _⟩)
          ⟨ai.engine, ai.origins, ai.placed, ai.first, ai.lastId, ai.pos, ai.temp, ai.last, ai.chain⟩
          ⟨adm.alg.motion, adm.alg.matcher, adm.alg.addrs, adm.alg.fresh, adm.alg.loops, adm.alg.order⟩ h'
        have q2' : s'.window = s.window := q2
        have hth : s.window.th = 0 := by
          have := inv.full.win.th
          rw [← inv.window.winO] at this
          exact this
        obtain ⟨w, hw⟩ := updateWindow_total he inv.cs inv.window.winB inv.window.winC hth
          (fun p hp => (safe.scan p hp).1) (fun p hp => (safe.scan p hp).2.1) (fun p hp => (safe.scan p hp).2.2)
          (safe.window r hmat)
        unfold updateWindow at hw
        simp only at hw
        rw [show initializeMap eig (setOrigin (NDTGrid.init (cellI eig) 0 0 0 s.alg.cellSize) (origin s.window))
          inp.scan = _ from hs', Res.bind_ok] at hw
        obtain ⟨s1, h1, hw⟩ := Res.bind_eq_ok.1 hw
        obtain ⟨w1, h2, hw⟩ := Res.bind_eq_ok.1 hw
        obtain ⟨r1, h3, hw⟩ := Res.bind_eq_ok.1 hw
        rw [h1, Res.bind_ok, q2', h2, Res.bind_ok, h3, Res.bind_ok]
        exact ⟨_, _, rfl⟩
    · rw [if_pos hm]
      exact ⟨_, _, rfl⟩

/-- C116: an update that does not use the scan needs no conditions. -/
theorem C116_idle (eig : NDT.Eig) {s : State} {inp : Input} (hi : s.alg.initialized = true)
    (hm : ¬ Algo.movedEnough s.alg (s.alg.unused * inp.alg.motion)) :
    ∃ p s', update eig inp s = .ok ((.idle inp.alg.motion, p), s') := by
  unfold update
  rw [if_neg (by simp [hi])]
  simp only
  rw [if_pos (show ¬ Algo.movedEnough { s.alg with unused := s.alg.unused * inp.alg.motion }
        (s.alg.unused * inp.alg.motion) from hm)]
  exact ⟨_, _, rfl⟩

/-- C116 is false: if the first scan has six points at the sensor, the first update is undefined behaviour. -/
theorem C116_false {eig : NDT.Eig} (he : NDT.EigOk eig) {inp : Input} (h : inp.scan = exScan 0) :
    update eig inp (init eig) = .ub .badCast := by
  unfold update
  rw [if_pos (show (!(init eig).alg.initialized) = true from rfl)]
  unfold firstUpdate
  simp only
  have iw : MapInv (setCellSize (setOrigin (init eig).window ⟨0, 0, 0⟩) (init eig).alg.cellSize) :=
    setOrigin_inv (n := emptyMap eig (1 / 4)) (init_inv eig 0 0 0 (by norm_num)) ⟨0, 0, 0⟩
  obtain ⟨g, hg, -⟩ := enlarge_spec iw.wf iw.cs (-(init eig).radius) (-(init eig).radius) (init eig).radius
    (init eig).radius
  obtain ⟨e1, e2, -, e3⟩ := enlarge_stored iw.wf iw.cs hg
  have w1 : MapInv { setCellSize (setOrigin (init eig).window ⟨0, 0, 0⟩) (init eig).alg.cellSize with grid := g } :=
    ⟨e1, by show 0 < g.cellSize; rw [e2]; exact iw.cs, fun x hx => iw.ginv x ((e3 x).1 hx)⟩
  rw [hg, Res.bind_ok, h, sensor_ub he w1]
  rfl

end Verif.Whole
