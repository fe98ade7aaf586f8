import Verif.Whole.Total

/-
A run of the algorithm with its maps: the hypotheses of C113-C116 are met.
-/
namespace Verif.Whole

open Verif Verif.Geo Verif.NDTGrid Verif.World Verif.Voxel

theorem fresh_two {ν ε : Type} (g : PoseGraph.Graph ν ε) : ∃ a, PoseGraph.Fresh g a ∧ PoseGraph.Fresh g (a + 1) := by
  have h : ∀ k, PoseGraph.Fresh g
      ((g.edges.map fun e => match e with | some e => e.addr | none => 0).sum + 1 + k) := by
    intro k id e he
    unfold PoseGraph.live at he
    have hm : some e ∈ g.edges := by
      cases h : g.edges[id]? with
      | none => rw [h] at he; cases he
      | some o =>
        rw [h] at he
        have : o = some e := he
        subst this
        exact List.mem_of_getElem? h
    have := List.single_le_sum (l := g.edges.map fun e => match e with | some e => e.addr | none => 0)
      (fun _ _ => Nat.zero_le _) e.addr (List.mem_map.2 ⟨some e, hm, rfl⟩)
    omega
  exact ⟨_, h 0, h 1⟩

/-- The scan `exScan m` is good for the algorithm. -/
theorem exScan_ok (m : ℤ) (h1 : 1 ≤ m) (h2 : m < 100) : ScanOk (1 / 4) (exScan m) ∧
    (∀ p ∈ exScan m, squareOf (1 / 4 : ℝ) (head p) = (4 * m, 0)) := by
  have a : ∀ p ∈ exScan m, (p 0, p 1) = ((m : ℝ), (0 : ℝ)) := by
    intro p hp
    rw [List.eq_of_mem_replicate hp]
    simp
  have b : ∀ p ∈ exScan m, squareOf (1 / 4 : ℝ) (p 0, p 1) = (4 * m, 0) := by
    intro p hp
    rw [a p hp, squareOf_iff (by norm_num)]
    push_cast
    refine ⟨?_, ?_, ?_, ?_⟩ <;> linarith
  refine ⟨fun p hp => ⟨by rw [a p hp]; exact off_quarter m, ?_, ?_⟩, b⟩
  · left
    rw [b p hp]
    simp only
    rw [abs_of_pos (by omega)]
    omega
  · rw [b p hp]
    simp only
    rw [abs_of_pos (by omega)]
    exact ⟨by omega, by norm_num⟩

theorem exScan_ahead (k m : ℤ) : transformCloud (Algo.ahead k) (exScan m) = exScan (k + m) := by
  unfold transformCloud exScan
  simp only
  rw [linear4_convert, translation4_convert, List.map_replicate]
  congr 1
  have : getAngle (Algo.ahead k) = 0 := getAngle_zero _ _
  rw [this, rotZ_zero, Matrix.one_mulVec, Algo.ahead_eq]
  funext i
  fin_cases i <;> simp [add_comm]

/-- From a reachable state there is an update with given motion, scan and at most one loop closure, in which the
matcher does not succeed. -/
theorem Reach.extend_update {eig : NDT.Eig} (he : NDT.EigOk eig) {P : Algo.Input → Prop} {log : List Entry} {s : State}
    (h : Reach eig P log s) {m : Trans} (hm : IsRigid m) (scan : List NDT.Vec) (est : ℕ → Pose)
    (loop : List Slam.Closure) (hl : loop.length ≤ 1)
    (hl' : ∀ c ∈ loop, c.src < s.store.length + 1 ∧ c.dst < s.store.length + 1)
    (hP : ∀ a order, P ⟨m, none, a, loop.map fun c => (a + 1, c), est, order⟩)
    (h1 : ScanOk s.alg.cellSize scan) (h2 : ScanOk s.alg.cellSize (transformCloud (s.alg.transTemp * m) scan))
    (h3 : FrameOk s.temp)
    (h4 : loop ≠ [] → ∀ (i : ℕ) f, (s.store ++ [s.temp])[i]? = some f →
      FrameOk (setOrigin f (if i = 0 then origin f else est i))) :
    ∃ inp e p s' b b', Admissible s inp ∧ Whole.update eig inp s = .ok ((e, p), s') ∧ P inp.alg ∧ inp.scan = scan ∧ inp.alg.motion = m ∧
      inp.alg.matcher = none ∧ (inp.alg.loops = [] ↔ loop = []) ∧ Algo.StepCase inp.alg s.alg s'.alg b b' e ∧
      s'.alg.initialized = true ∧ s'.alg.maxTraveled = s.alg.maxTraveled ∧
      s'.alg.cellSize = s.alg.cellSize ∧ Done eig inp s s' e := by
  obtain ⟨⟨b, inv⟩, -⟩ := h.inv he
  obtain ⟨a, ha, ha'⟩ := fresh_two s.alg.engine.graph
  have hn : s.store.length = s.alg.engine.graph.nodes.length := (C115_frames he h).1
  have hmem : ∀ x ∈ loop.map (fun c => (a + 1, c)), x.1 = a + 1 ∧ x.2 ∈ loop := by
    intro x hx
    obtain ⟨c, hc, rfl⟩ := List.mem_map.1 hx
    exact ⟨rfl, hc⟩
  set inp : Input := ⟨⟨m, none, a, loop.map fun c => (a + 1, c), est,
    List.range (s.alg.engine.graph.nodes.length + 1)⟩, scan, 0, s.order ++ [s.store.length]⟩ with hinp
  have adm : Admissible s inp := by
    refine ⟨⟨hm, by simp [hinp], ?_, ?_, ?_, List.Perm.refl _⟩, List.Perm.refl _⟩
    · match loop, hl with
      | [], _ => simp [hinp]
      | [c], _ => simp [hinp]
    · intro x hx
      rcases List.mem_cons.1 hx with rfl | hx
      · exact ha
      · obtain ⟨y, hy, rfl⟩ := List.mem_map.1 hx
        rw [(hmem y hy).1]; exact ha'
    · intro c hc
      rw [← hn]
      exact hl' _ (hmem c hc).2
  have hne : inp.alg.loops = [] ↔ loop = [] := by simp [hinp]
  have safe : Safe s inp := ⟨h1, h2, h3, fun h0 => h4 fun h => h0 (hne.2 h), by simp [hinp]⟩
  obtain ⟨o, s', hu⟩ := C116_update_partial he h adm safe
  have q := update_spec he inv.full adm.alg (inv.window.winB.inv he) inv.window.winO inv.window.winC hu
  obtain ⟨e, p, a', b', hu', -, hi, -, -, -, hmt, sc⟩ := Algo.update_step inv.full adm.alg
  rw [q.1] at hu'
  have e1 := Res.ok.inj hu'
  have e2 : o = (e, p) := congrArg Prod.fst e1
  have e3 : s'.alg = a' := congrArg Prod.snd e1
  subst e2
  subst e3
  exact ⟨inp, e, p, s', b, b', adm, hu, hP _ _, rfl, rfl, rfl, hne, sc, hi, hmt, q.2.2.1, q.2.1⟩

theorem Reach.extend {eig : NDT.Eig} (he : NDT.EigOk eig) {P : Algo.Input → Prop} {log : List Entry} {s : State}
    (h : Reach eig P log s) {m : Trans} (hm : IsRigid m) (scan : List NDT.Vec) (est : ℕ → Pose)
    (loop : List Slam.Closure) (hl : loop.length ≤ 1)
    (hl' : ∀ c ∈ loop, c.src < s.store.length + 1 ∧ c.dst < s.store.length + 1)
    (hP : ∀ a order, P ⟨m, none, a, loop.map fun c => (a + 1, c), est, order⟩)
    (h1 : ScanOk s.alg.cellSize scan) (h2 : ScanOk s.alg.cellSize (transformCloud (s.alg.transTemp * m) scan))
    (h3 : FrameOk s.temp)
    (h4 : loop ≠ [] → ∀ (i : ℕ) f, (s.store ++ [s.temp])[i]? = some f →
      FrameOk (setOrigin f (if i = 0 then origin f else est i))) :
    ∃ inp e p s' b b', Reach eig P (log ++ [⟨e, p, scan⟩]) s' ∧ inp.scan = scan ∧ inp.alg.motion = m ∧
      inp.alg.matcher = none ∧ (inp.alg.loops = [] ↔ loop = []) ∧ Algo.StepCase inp.alg s.alg s'.alg b b' e ∧
      s'.alg.initialized = true ∧ s'.alg.maxTraveled = s.alg.maxTraveled ∧
      s'.alg.cellSize = s.alg.cellSize ∧ Done eig inp s s' e := by
  obtain ⟨inp, e, p, s', b, b', adm, hu, hp, rfl, q⟩ := h.extend_update he hm scan est loop hl hl' hP h1 h2 h3 h4
  exact ⟨inp, e, p, s', b, b', .update h hp adm hu, rfl, q⟩

theorem seen_single {pose : Trans} {k m : ℤ} {v : ℝ × ℝ} (hp : pose = Algo.ahead k)
    (h : SeenFrom pose (exScan m) v) : v = (((k + m : ℤ) : ℝ), 0) := by
  have : {x | ∃ p ∈ exScan m, x = act pose (p 0, p 1)} = {(((k + m : ℤ) : ℝ), (0 : ℝ))} := by
    ext x
    simp only [Set.mem_ofPred_eq, Set.mem_singleton_iff]
    have e : act pose ((m : ℝ), (0 : ℝ)) = (((k + m : ℤ) : ℝ), (0 : ℝ)) := by
      rw [hp, Algo.ahead_eq]
      unfold act
      ext <;> simp [add_comm]
    constructor
    · rintro ⟨p, hp, rfl⟩
      rw [List.eq_of_mem_replicate hp]
      exact e
    · rintro rfl
      exact ⟨![(m : ℝ), 0, 0], List.mem_replicate.2 ⟨by norm_num, rfl⟩, e.symm⟩
  unfold SeenFrom at h
  rw [this, convexHull_singleton] at h
  exact h

/-- A scan merged into a map leaves a Gaussian. -/
theorem exScan_merged {eig : NDT.Eig} (he : NDT.EigOk eig) (m : ℤ) {n n' : Map} {q0 : ℤ × ℤ}
    (hoff : ∀ p ∈ exScan m, OffLines (1 / 4 : ℝ) (head p)) (hsq : ∀ p ∈ exScan m, squareOf (1 / 4 : ℝ) (head p) = q0)
    (hi : MapInv n) (hcs : n.grid.cellSize = 1 / 4)
    (h : mergeCloudTraced eig n (exScan m) (origin n) true = .ok n') : gaussians n' ≠ [] := by
  unfold mergeCloudTraced at h
  simp only at h
  rw [Algo.transBtw_self, transformCloud_one] at h
  obtain ⟨g, hscan, h⟩ := Res.bind_eq_ok.1 h
  rw [hcs] at hscan
  obtain ⟨hwfs, hcss, hpl, hoffs, hcont⟩ := createGrid_placed (cell_scan he) (by norm_num : (0 : ℝ) < 1 / 4) hoff hscan
  unfold mergeGridTraced at h
  simp only at h
  obtain ⟨t, ht, w1, c1, h⟩ := mergeTraced_split (cell_lawful eig) hi.wf h
  have ct : t.cellSize = 1 / 4 := c1.trans hcs
  obtain ⟨g', e, w', -, -, -, -, -, hc', -⟩ := mergeCells_resize (cellI eig) (n := { n with grid := t }) w1
    (by show 0 < t.cellSize; rw [ct]; norm_num) (getValidCells g.grid) true (Or.inl rfl) (fun c hc hg => by
      apply OffLines.notOpen
      show OffLines t.cellSize _
      rw [ct]
      exact hoffs c hc hg)
  have h' : mergeCells (cellI eig) { n with grid := t } (getValidCells g.grid) true = .ok n' := h
  rw [h'] at e
  have hpts : pointsIn (1 / 4 : ℝ) (exScan m) q0 = exScan m := by
    unfold pointsIn
    rw [List.filter_eq_self]
    intro p hp
    simpa using hsq p hp
  have gg : (cellI eig).gaussian (cellOf (cellI eig) (exScan m)) = true := (exScan_mean he m).1
  have hcell := hcont q0
  rw [hpts, Option.filter_some, if_pos gg] at hcell
  obtain ⟨hq, -⟩ := Option.filter_eq_some_iff.1 hcell
  have hmem : cellOf (cellI eig) (exScan m) ∈ inSquare (cellI eig) (1 / 4 : ℝ) (getValidCells g.grid) q0 := by
    refine mem_inSquare.2 ⟨(mem_validCells hwfs _).2 ⟨_, hq⟩, gg, ?_⟩
    have := hpl q0 _ hq gg
    rwa [squareOfMean, hcss] at this
  obtain ⟨y, hy⟩ : ∃ y, (inSquare (cellI eig) (1 / 4 : ℝ) (getValidCells g.grid) q0).getLast? = some y :=
    ⟨_, List.getLast?_eq_getLast_of_ne_nil (List.ne_nil_of_mem hmem)⟩
  obtain ⟨-, gy, -⟩ := mem_inSquare.1 (List.mem_of_getLast? hy)
  have hcy : content g' q0 = some y := by
    rw [hc' q0]
    show ((inSquare (cellI eig) t.cellSize _ q0).getLast?).or _ = _
    rw [ct, hy, Option.some_or]
  rw [Res.ok.inj e]
  exact List.ne_nil_of_mem (mem_gaussians.2 ⟨(mem_validCells w' y).2 ⟨_, hcy⟩, gy⟩)

/-- A run: the first scan, then two metres without success of the matcher, so that the first frame is finished. -/
theorem run_frame_at {eig : NDT.Eig} (he : NDT.EigOk eig) (m : ℤ) (m1 : 0 < m) (m2 : m < 98) {P : Algo.Input → Prop}
    (hP : ∀ v a est order, P ⟨v, none, a, [], est, order⟩) :
    ∃ p₀ g p₁ s, Reach eig P [⟨.first, p₀, exScan m⟩, ⟨.failed g (Algo.ahead (2 : ℤ)), p₁, exScan m⟩] s ∧
      pclMap s ≠ [] ∧ pclWindow s ≠ [] ∧ s.alg.initialized = true ∧ s.alg.cellSize = 1 / 4 ∧
      s.alg.unused = 1 ∧ s.alg.maxTraveled = 3 / 2 ∧
      s.alg.transTemp = 1 ∧ getTransFromPose (origin s.temp) = Algo.ahead (2 : ℤ) ∧ (∃ f, s.store = [f] ∧ origin f = ⟨0, 0, 0⟩ ∧
        f.grid.cellSize = 1 / 4 ∧ gaussians f ≠ [] ∧ ∀ c ∈ gaussians f, (c.mean 0, c.mean 1) = ((m : ℝ), (0 : ℝ))) ∧
      gaussians s.temp ≠ [] ∧ ∀ c ∈ gaussians s.temp, (c.mean 0, c.mean 1) = ((m : ℝ), (0 : ℝ)) := by
  obtain ⟨sc, sq⟩ := exScan_ok m (by omega) (by omega)
  obtain ⟨sc7, -⟩ := exScan_ok (2 + m) (by omega) (by omega)
  have g0 : gaussians (init eig).temp = [] := gaussians_init eig (1 / 4) ⟨0, 0, 0⟩
  obtain ⟨inp, e0, p0, s0, _, _, r0, hsc0, -, -, -, c0, i0, mt0, cs0, d0⟩ :=
    Reach.extend he (P := P) .init Algo.rigid_one (exScan m) (fun _ => ⟨0, 0, 0⟩) [] (by simp) (by simp)
      (fun a order => hP _ a _ order) sc
      (by rw [show (init eig).alg.transTemp = 1 from rfl, Matrix.one_mul, transformCloud_one]; exact sc)
      (exFrame_in 0 m m1 (by omega) (by simp [origin, init, emptyMap, NDTGrid.init]) (by rw [g0]; simp)) (by simp)
  have cs0' : s0.alg.cellSize = 1 / 4 := cs0
  have mt0' : s0.alg.maxTraveled = 3 / 2 := mt0
  obtain ⟨⟨b1, inv0⟩, -⟩ := r0.inv he
  cases c0 with
  | idle h => simp [init, Algo.init] at h
  | failed h => simp [init, Algo.init] at h
  | matched h => simp [init, Algo.init] at h
  | first _ hpos0 _ hu0 _ _ ho0 hins0 htt0 =>
  have hu0 : s0.alg.unused = 1 := hu0
  cases d0 with
  | first _ hen hw ht hst hgl hor hcl =>
  rw [hsc0] at hw ht
  have iw : MapInv (setCellSize (setOrigin (init eig).window ⟨0, 0, 0⟩) (init eig).alg.cellSize) :=
    setOrigin_inv (n := emptyMap eig (1 / 4)) (init_inv eig 0 0 0 (by norm_num)) ⟨0, 0, 0⟩
  obtain ⟨e1, e2, -, -⟩ := enlarge_stored iw.wf iw.cs hen
  have gt : gaussians s0.temp = [cellOf (cellI eig) (exScan m)] := by
    rw [initializeMap_eq] at ht
    exact exScan_binned_in he m iw.wf (cs := 1 / 4) rfl (by norm_num) (fun p hp => (sc p hp).1) sq true ht
  have gw : gaussians s0.window = [cellOf (cellI eig) (exScan m)] := by
    rw [initializeMap_eq] at hw
    exact exScan_binned_in he m
      (n := { setCellSize (setOrigin (init eig).window ⟨0, 0, 0⟩) (init eig).alg.cellSize with grid := _ })
      (cs := 1 / 4) e1 e2 (by norm_num) (fun p hp => (sc p hp).1) sq true hw
  obtain ⟨mg, mm⟩ := exScan_mean he m
  have hm0 : ∀ c ∈ gaussians s0.temp, (c.mean 0, c.mean 1) = ((m : ℝ), (0 : ℝ)) := by
    intro c hc
    rw [gt, List.mem_singleton] at hc
    rw [hc, mm]
    rfl
  have ot : origin s0.temp = ⟨((0 : ℤ) : ℝ), 0, 0⟩ := by rw [inv0.frames.tempO, ho0]; simp
  have fo : FrameOk s0.temp := exFrame_in 0 m m1 (by omega) ot hm0
  obtain ⟨_, -, f0, -⟩ := (r0.inv he).2.full
  obtain ⟨inp1, e1', p1, s1, _, _, r1, hsc1, hm1, hmat1, hl1, c1, i1, mt1, cs1, d1⟩ :=
    r0.extend he (Algo.ahead_rigid ((2 : ℤ) : ℝ)) (exScan m) (fun _ => ⟨0, 0, 0⟩) [] (by simp) (by simp)
      (fun a order => hP _ a _ order) (by rw [cs0']; exact sc)
      (by rw [cs0', htt0, Matrix.one_mul, exScan_ahead]; exact sc7) fo (by simp)
  have hmv : Algo.movedEnough s0.alg (s0.alg.unused * inp1.alg.motion) := by
    rw [hu0, hm1, Matrix.one_mul, Algo.ahead_moved f0.minD f0.minR (by norm_num)]; norm_num
  have hfar : Algo.movedFar s0.alg (s0.alg.transTemp * inp1.alg.motion) := by
    unfold Algo.movedFar
    rw [htt0, hm1, Matrix.one_mul, mt0', Algo.displacement_ahead (by norm_num)]
    norm_num
  cases c1 with
  | first h => rw [i0] at h; cases h
  | idle _ h => exact absurd hmv h
  | matched _ _ h => rw [hmat1] at h; cases h
  | failed _ _ _ hpos1 _ hu1 gr =>
  rw [hm1] at r1
  have htt1 : s1.alg.transTemp = 1 ∧ getTransFromPose s1.alg.temp.origin = Algo.ahead (2 : ℤ) := by
    obtain ⟨ins, hins, -, ⟨-, -, -, h⟩ | ⟨-, -, h', h, -⟩⟩ := gr
    · exact absurd hfar h
    · refine ⟨h.1, ?_⟩
      rw [h', Matrix.mul_one] at hins
      rw [hins, hpos1 (hl1.2 rfl), hpos0, Matrix.one_mul, hm1]
  cases d1 with
  | failed _ mrg hwin =>
  cases mrg with
  | kept h => exact absurd hfar h
  | inserted _ hadd hcase htemp =>
  rcases hcase with ⟨-, hst1, hgl1, hor1, hcl1⟩ | ⟨h, -⟩
  swap
  · exact absurd (hl1.2 rfl) h
  rw [hsc1] at htemp
  have hst1' : s1.store = [{ s0.temp with timestamp := inp1.time }] := by rw [hst1, hst]; rfl
  have hgg : gaussians s1.global ≠ [] := by
    rw [hgl1]
    have hoff : ∀ c ∈ gaussians s0.temp, ∀ p, toWorld (origin s0.global) p = worldPos s0.temp c →
        OffLines s0.global.grid.cellSize p := by
      intro c hc p hp
      rw [inv0.mapped.globalO, toWorld_zero] at hp
      rw [hp, inv0.mapped.globalC]
      exact (fo.2 c hc).1
    have hcm : cellOf (cellI eig) (exScan m) ∈ gaussians s0.temp := by rw [gt]; exact List.mem_singleton_self _
    obtain ⟨d, -, hd, hdg, -⟩ := (C104_complete_traced he inv0.mapped.globalB inv0.frames.tempB (.inl rfl) hoff hadd
      (squareOf s0.global.grid.cellSize (worldPos s0.temp (cellOf (cellI eig) (exScan m))))).1
      ⟨_, hcm, _, by rw [inv0.mapped.globalO, toWorld_zero], rfl⟩
    obtain ⟨⟨_, inv1⟩, -⟩ := r1.inv he
    have wf := (inv1.mapped.globalB.inv he).wf
    rw [hgl1] at wf
    exact List.ne_nil_of_mem (mem_gaussians.2 ⟨(mem_validCells wf d).2 ⟨_, hd⟩, hdg⟩)
  obtain ⟨k1, k2⟩ := C110_algorithm he r1
  refine ⟨p0, _, p1, s1, r1, ?_, ?_, i1, cs1.trans cs0', hu1, mt1.trans mt0', htt1.1, ?_, ⟨_, hst1', ?_, inv0.frames.tempC.trans cs0', ?_, hm0⟩, ?_, ?_⟩
  · intro h
    rw [h] at k1
    exact hgg (List.map_eq_nil_iff.1 k1.nil_eq.symm)
  · intro h
    rw [h] at k2
    have : gaussians s1.window = [] := List.map_eq_nil_iff.1 k2.nil_eq.symm
    rw [hwin, gw] at this
    cases this
  · obtain ⟨⟨_, inv1⟩, -⟩ := r1.inv he
    rw [inv1.frames.tempO]; exact htt1.2
  · rw [show origin { s0.temp with timestamp := inp1.time } = origin s0.temp from rfl, ot]; simp
  · show gaussians s0.temp ≠ []
    rw [gt]
    simp
  · rw [cs0'] at htemp
    exact exScan_merged he m (fun p hp => (sc p hp).1) sq (setOrigin_inv (init_inv eig 0 0 0 (by norm_num)) _) rfl htemp
  · rw [cs0'] at htemp
    have ie : MapInv (setOrigin (emptyMap eig (1 / 4)) s1.alg.temp.origin) :=
      setOrigin_inv (init_inv eig 0 0 0 (by norm_num)) _
    intro c hc
    rw [← transformCloud_one (exScan m)] at htemp
    rcases (merged ie Algo.rigid_one htemp).2.2 c hc with ⟨c', hc', -⟩ | hs
    · rw [gaussians_init] at hc'
      cases hc'
    · have := seen_single (k := 0) (by simpa using Algo.ahead_zero.symm) hs
      simpa using this

theorem run_frame {eig : NDT.Eig} (he : NDT.EigOk eig) {P : Algo.Input → Prop}
    (hP : ∀ m a est order, P ⟨m, none, a, [], est, order⟩) :
    ∃ p₀ g p₁ s, Reach eig P [⟨.first, p₀, exScan 5⟩, ⟨.failed g (Algo.ahead (2 : ℤ)), p₁, exScan 5⟩] s ∧
      pclMap s ≠ [] ∧ pclWindow s ≠ [] ∧ s.alg.initialized = true ∧ s.alg.cellSize = 1 / 4 ∧
      s.alg.unused = 1 ∧ s.alg.maxTraveled = 3 / 2 ∧
      s.alg.transTemp = 1 ∧ getTransFromPose (origin s.temp) = Algo.ahead (2 : ℤ) ∧ (∃ f, s.store = [f] ∧ origin f = ⟨0, 0, 0⟩ ∧
        ∀ c ∈ gaussians f, (c.mean 0, c.mean 1) = (((5 : ℤ) : ℝ), (0 : ℝ))) ∧
      ∀ c ∈ gaussians s.temp, (c.mean 0, c.mean 1) = (((5 : ℤ) : ℝ), (0 : ℝ)) := by
  obtain ⟨p0, g, p1, s, h, h1, h2, h3, h4, h5, h6, h7, h8, ⟨f, hf, of, -, -, hfm⟩, -, htm⟩ :=
    run_frame_at he 5 (by norm_num) (by norm_num) hP
  exact ⟨p0, g, p1, s, h, h1, h2, h3, h4, h5, h6, h7, h8, ⟨f, hf, of, hfm⟩, htm⟩

/-- The hypotheses of C110, C111, C113-C115 are met, with points in both published maps. -/
example : ∃ eig, NDT.EigOk eig ∧ ∃ log s, Reach eig Algo.NoLoops log s ∧ (used log).length = 2 ∧
    pclMap s ≠ [] ∧ pclWindow s ≠ [] ∧ s.store.length = 1 := by
  obtain ⟨eig, he⟩ := NDT.exists_eig
  obtain ⟨p0, g, p1, s, h, h1, h2, -, -, -, -, -, -, ⟨f, hf, -⟩, -⟩ :=
    run_frame he (P := Algo.NoLoops) (fun _ _ _ _ => rfl)
  exact ⟨eig, he, _, s, h, rfl, h1, h2, by rw [hf]; rfl⟩

/-- The hypotheses of `C116_update_partial` are met by an update that closes a loop: two metres on, the second frame
is finished, a loop closure between the two frames is found, and the optimiser moves the second one by a metre. -/
example : ∃ eig, NDT.EigOk eig ∧ ∃ log s inp e p s', Reach eig (fun _ => True) log s ∧ Done eig inp s s' e ∧
    Reach eig (fun _ => True) (log ++ [⟨e, p, exScan 5⟩]) s' ∧ inp.alg.loops ≠ [] ∧ s'.store.length = 2 ∧
    s.store.length = 1 := by
  obtain ⟨eig, he⟩ := NDT.exists_eig
  obtain ⟨sc, -⟩ := exScan_ok 5 (by norm_num) (by norm_num)
  obtain ⟨sc7, -⟩ := exScan_ok 7 (by norm_num) (by norm_num)
  obtain ⟨p0, g, p1, s, h, -, -, hi, hcs, hu, hmt, htt, ot, ⟨f, hf, of, hfm⟩, htm⟩ :=
    run_frame he (P := fun _ => True) (fun _ _ _ _ => trivial)
  obtain ⟨_, -, fl, -⟩ := (h.inv he).2.full
  have fo : FrameOk s.temp := by
    have e1 : s.temp.ox = (2 : ℤ) := by
      have := congrFun (congrFun ot 0) 2
      simpa [Algo.ahead_eq, getTransFromPose, origin] using this
    have e2 : s.temp.oy = 0 := by
      have := congrFun (congrFun ot 1) 2
      simpa [Algo.ahead_eq, getTransFromPose, origin] using this
    refine ⟨by rw [e1, e2]; exact off_quarter 2, fun c hc => ?_⟩
    have : worldPos s.temp c = (((7 : ℤ) : ℝ), 0) := by
      unfold worldPos
      rw [htm c hc, ← act_trans, ot, Algo.ahead_eq]
      unfold act
      ext <;> simp
      norm_num
    rw [this, e1, e2]
    refine ⟨off_quarter 7, ?_⟩
    unfold RayLength
    norm_num
  obtain ⟨inp, e, p, s', _, _, r, hsc, hm, hmat, hl, c, -, -, -, d⟩ :=
    h.extend he (Algo.ahead_rigid ((2 : ℤ) : ℝ)) (exScan 5) (fun _ => ⟨((3 : ℤ) : ℝ), 0, 0⟩)
      [⟨0, 1, ⟨3, 0, 0⟩, 1⟩] (by simp) (by simp [hf]) (fun _ _ => trivial) (by rw [hcs]; exact sc)
      (by rw [hcs, htt, Matrix.one_mul, exScan_ahead]; exact sc7) fo (by
        intro _ i x hx
        rw [hf] at hx
        match i, hx with
        | 0, hx =>
          cases hx
          rw [if_pos rfl, of]
          refine exFrame_in 0 5 (by norm_num) (by norm_num) ?_ hfm
          simp [origin, setOrigin]
        | 1, hx =>
          cases hx
          rw [if_neg (by norm_num)]
          refine exFrame_in 3 5 (by norm_num) (by norm_num) ?_ htm
          simp [origin, setOrigin]
        | n + 2, hx => simp at hx)
  refine ⟨eig, he, _, s, inp, e, p, s', h, d, r, fun h0 => by simpa using hl.1 h0, ?_, by rw [hf]; rfl⟩
  have hmv : Algo.movedEnough s.alg (s.alg.unused * inp.alg.motion) := by
    rw [hu, hm, Matrix.one_mul, Algo.ahead_moved fl.minD fl.minR (by norm_num)]; norm_num
  have hfar : Algo.movedFar s.alg (s.alg.transTemp * inp.alg.motion) := by
    unfold Algo.movedFar
    rw [htt, hm, Matrix.one_mul, hmt, Algo.displacement_ahead (by norm_num)]
    norm_num
  cases c with
  | first h => rw [hi] at h; cases h
  | idle _ h => exact absurd hmv h
  | matched _ _ h => rw [hmat] at h; cases h
  | failed _ _ _ _ _ _ _ =>
  cases d with
  | failed _ mrg _ =>
  cases mrg with
  | kept h => exact absurd hfar h
  | inserted _ _ hcase _ =>
  rcases hcase with ⟨h, -⟩ | ⟨-, hst, -⟩
  · simpa using hl.1 h
  · rw [hst, sync_length, hf]; rfl

end Verif.Whole
