import Verif.World.Total

/-
Concrete maps: the hypotheses of C104-C106, C109-C111 are met; witnesses against C105.
-/
namespace Verif.World

open Verif Verif.Voxel Verif.NDTGrid Verif.Geo Matrix

theorem gaussians_singleton {n : Map} (hwf : WF n.grid) {q0 : ℤ × ℤ} {c : NDT.Cell}
    (h0 : content n.grid q0 = some c) (hg : c.gaussian = true)
    (h : ∀ q d, content n.grid q = some d → d.gaussian = true → q = q0) : gaussians n = [c] := by
  unfold gaussians
  rw [validCells_squares hwf, List.filter_filterMap]
  have hin : InExtent n.grid q0 := by
    by_contra hn
    rw [content_of_not_in hn] at h0
    cases h0
  have hp : (((List.range n.grid.cells.length).map (squareNo n.grid)).filterMap
      fun x => (content n.grid x).filter fun c => c.gaussian).Perm
      ([q0].filterMap fun x => (content n.grid x).filter fun c => c.gaussian) := by
    apply filterMap_perm
    · exact List.nodup_range.map fun i j hij => by rw [← slotNo_squareNo n.grid i, hij, slotNo_squareNo]
    · simp
    · intro q hq
      have : q = q0 := by
        cases hc : content n.grid q with
        | none => rw [hc] at hq; simp at hq
        | some d =>
          rw [hc] at hq
          apply h q d hc
          by_contra hn
          simp [Option.filter, hn] at hq
      subst this
      refine ⟨fun _ => List.mem_singleton_self _, fun _ => List.mem_map.2 ⟨slotNo n.grid q, ?_, squareNo_slotNo hin⟩⟩
      rw [List.mem_range, show n.grid.cells.length = _ from hwf]
      exact slotNo_lt hin
  have e : ([q0].filterMap fun x => (content n.grid x).filter fun c => c.gaussian) = [c] := by
    simp [h0, hg, Option.filter]
  rw [e] at hp
  exact List.perm_singleton.1 hp

theorem off_zero (x : ℝ) (h : ∀ k : ℤ, x ≠ ((k : ℝ) + 1 / 2) * 1) : OffLines (1 : ℝ) (x, 0) := by
  refine ⟨h, fun k hk => ?_⟩
  have h2 : (2 * k + 1 : ℝ) = 0 := by
    have : (0 : ℝ) = ((k : ℝ) + 1 / 2) * 1 := hk
    linarith
  have : 2 * k + 1 = 0 := by exact_mod_cast h2
  omega

theorem off_int (m : ℤ) (k : ℤ) : (m : ℝ) ≠ ((k : ℝ) + 1 / 2) * 1 := by
  intro hk
  have h2 : (2 * m : ℝ) = 2 * k + 1 := by linarith
  have : 2 * m = 2 * k + 1 := by exact_mod_cast h2
  omega

/-- The scan: 400 times the point `(m, 0, 0)`. -/
noncomputable def exScan (m : ℤ) : List NDT.Vec := List.replicate 400 ![(m : ℝ), 0, 0]

theorem exScan_off (m : ℤ) : ∀ p ∈ exScan m, OffLines (1 : ℝ) (head p) := by
  intro p hp
  rw [List.eq_of_mem_replicate hp]
  exact off_zero _ (off_int m)

theorem exScan_square (m : ℤ) : ∀ p ∈ exScan m, squareOf (1 : ℝ) (head p) = (m, 0) := by
  intro p hp
  rw [List.eq_of_mem_replicate hp]
  unfold squareOf head
  ext
  · simp only [cons_val_zero, div_one]
    rw [Int.floor_eq_iff]
    constructor <;> linarith
  · simp only [cons_val_one, cons_val_zero, div_one]
    rw [Int.ceil_eq_iff]
    constructor <;> norm_num

theorem exScan_mean {eig : NDT.Eig} (he : NDT.EigOk eig) (m : ℤ) :
    (cellOf (cellI eig) (exScan m)).gaussian = true ∧ (cellOf (cellI eig) (exScan m)).mean = ![(m : ℝ), 0, 0] := by
  have h6 : 6 ≤ (exScan m).length := by unfold exScan; rw [List.length_replicate]; norm_num
  obtain ⟨h1, h2⟩ := cellOf_real he (exScan m)
  refine ⟨h1.2 h6, ?_⟩
  rw [(h2 h6).1]
  unfold NDT.sampleMean exScan
  rw [List.sum_replicate, List.length_replicate]
  funext i
  fin_cases i <;> simp

/-- Binning a scan all of whose points are in one square. -/
theorem exScan_binned_in {eig : NDT.Eig} (he : NDT.EigOk eig) (m : ℤ) {n n' : Map} {cs : ℝ} {q0 : ℤ × ℤ}
    (hwf : WF n.grid) (hcs : n.grid.cellSize = cs) (h0 : 0 < cs) (hoff : ∀ p ∈ exScan m, OffLines cs (head p))
    (hsq : ∀ p ∈ exScan m, squareOf cs (head p) = q0) (traced : Bool)
    (h : initScan (cellI eig) n (exScan m) traced = .ok n') :
    gaussians n' = [cellOf (cellI eig) (exScan m)] := by
  obtain ⟨w, -, hc⟩ := C74_scan_binning_partial (cell_lawful eig) (cell_scan he) hwf
    (by rw [hcs]; exact h0) (by rw [hcs]; exact hoff) traced h
  rw [hcs] at hc
  have hall : (exScan m).filter (fun p => squareOf cs (head p) = q0) = exScan m := by
    rw [List.filter_eq_self]
    intro p hp
    simpa using hsq p hp
  obtain ⟨g1, -⟩ := exScan_mean he m
  have h0 := (hc q0 _).2 ⟨rfl, by rw [hall]; exact g1⟩
  rw [hall] at h0
  refine gaussians_singleton w h0.1 g1 fun q d hq hg => ?_
  by_contra hne
  obtain ⟨rfl, hg'⟩ := (hc q d).1 ⟨hq, hg⟩
  have hnil : (exScan m).filter (fun p => squareOf cs (head p) = q) = [] := by
    rw [List.filter_eq_nil_iff]
    intro p hp
    rw [hsq p hp]
    simpa using fun h => hne h.symm
  rw [hnil] at hg'
  have := (cellOf_real he []).1.1 hg'
  simp at this

/-- Binning the scan. -/
theorem exScan_binned {eig : NDT.Eig} (he : NDT.EigOk eig) (m : ℤ) {n n' : Map} (hwf : WF n.grid)
    (hcs : n.grid.cellSize = 1) (traced : Bool) (h : initScan (cellI eig) n (exScan m) traced = .ok n') :
    gaussians n' = [cellOf (cellI eig) (exScan m)] :=
  exScan_binned_in he m hwf hcs zero_lt_one (exScan_off m) (exScan_square m) traced h

/-- A map at any pose with one Gaussian at `(m, 0, 0)`. -/
theorem exMap {eig : NDT.Eig} (he : NDT.EigOk eig) (p : Pose) (m : ℤ) :
    ∃ n, Built eig true n ∧ origin n = p ∧ n.grid.cellSize = 1 ∧
      ∃ c, gaussians n = [c] ∧ c.mean = ![(m : ℝ), 0, 0] := by
  set n0 := setOrigin (NDTGrid.init (cellI eig) 0 0 0 1) p with hn0
  have b0 : Built eig true n0 := Built.setOrigin p (Built.init 0 0 0 zero_lt_one)
  obtain ⟨n', h'⟩ := C74_scan_total_partial (cell_scan he) (n := n0) (init_wf (cellI eig) 0 0 0 1) zero_lt_one
    (exScan_off m)
  have hi : initializeSimple eig n0 (exScan m) = .ok n' := by rw [initializeSimple_eq]; exact h'
  refine ⟨n', Built.initializeSimple _ b0 hi, ?_, ?_, _, exScan_binned he m (n := n0) (init_wf (cellI eig) 0 0 0 1) rfl false h',
    (exScan_mean he m).2⟩
  · unfold initScan at h'
    obtain ⟨g, -, h'⟩ := Res.bind_eq_ok.1 h'
    simp only [Bool.false_eq_true, if_false] at h'
    obtain ⟨a1, a2, a3, -⟩ := mergeCells_frame (clearGrid_inv (b0.inv he)).wf (clearGrid_inv (b0.inv he)).cs h'
    exact origin_eq a1 a2 a3
  · exact (C74_scan_binning_partial (cell_lawful eig) (cell_scan he) (n := n0) (init_wf (cellI eig) 0 0 0 1)
      zero_lt_one (exScan_off m) false h').2.1

theorem readd_filter (eig : NDT.Eig) : ∀ (l : List NDT.Cell) (g : Grid ℝ NDT.Cell),
    readd eig g l = readd eig g (l.filter fun c => c.gaussian) := by
  intro l
  induction l with
  | nil => intro g; rfl
  | cons c l ih =>
    intro g
    by_cases hg : c.gaussian = true
    · rw [List.filter_cons_of_pos (by simpa using hg)]
      simp only [readd, if_pos hg]
      exact congrArg _ (funext fun g => ih g)
    · rw [List.filter_cons_of_neg (by simpa using hg)]
      rw [← ih]
      simp only [readd, if_neg hg]

/-- Transforming a map with one Gaussian at the origin of the map, or by a mere translation. -/
theorem exTransform {eig : NDT.Eig} (he : NDT.EigOk eig) {b : Bool} {n : Map} (hn : Built eig b n) {t : Trans}
    {c : NDT.Cell} (hc : gaussians n = [c])
    (hoff : OffLines n.grid.cellSize (head ((rotZ (getAngle t)).mulVec c.mean))) :
    ∃ n' c', transform eig n t = .ok n' ∧ gaussians n' = [c'] ∧ c'.mean = (rotZ (getAngle t)).mulVec c.mean := by
  have hi := hn.inv he
  have hcm : c ∈ gaussians n := by rw [hc]; exact List.mem_singleton_self _
  obtain ⟨hv, hg⟩ := mem_gaussians.1 hcm
  obtain ⟨a1, -, -⟩ := rotated_spec he t (hi.ginv c hv) hg
  set R : Trans := !![t 0 0, t 0 1, 0; t 1 0, t 1 1, 0; t 2 0, t 2 1, t 2 2] with hR
  have hf : (transformCells eig R (getValidCells n.grid)).filter (fun c => c.gaussian) = [transformCell eig R c] := by
    unfold transformCells
    rw [List.filter_map]
    have : (getValidCells n.grid).filter ((fun c => c.gaussian) ∘ transformCell eig R) = gaussians n := by
      unfold gaussians
      apply List.filter_congr
      intro d hd
      exact (transformCell_spec he R (hi.ginv d hd)).2.1
    rw [this, hc]
    rfl
  have hg' : (transformCell eig R c).gaussian = true := ((transformCell_spec he R (hi.ginv c hv)).2.1).trans hg
  have hcl := clearGrid_inv hi
  obtain ⟨g, h1, w1, -, -, -, -, -, -, -, h2⟩ := addCell_spec (cellI eig).toCellOps hcl.wf hcl.cs
    (p := head (transformCell eig R c).mean)
    (OffLines.notOpen (by rw [a1]; exact hoff)) (transformCell eig R c) true
  have hre : readd eig (Voxel.clear n.grid) (transformCells eig R (getValidCells n.grid)) = .ok g := by
    rw [readd_filter, hf]
    simp only [readd, if_pos hg']
    rw [show addCell (cellI eig).toCellOps (Voxel.clear n.grid) (head (transformCell eig R c).mean)
      (transformCell eig R c) true = .ok g from h1]
    rfl
  have htr : transform eig n t = .ok (updateMeans (cellI eig) (setOrigin { n with grid := g }
        (transformPose (origin n) !![1, 0, t 0 2; 0, 1, t 1 2; t 2 0, t 2 1, t 2 2]))) := by
    unfold transform
    simp only
    rw [← hR, hre]
    rfl
  refine ⟨_, transformCell eig R c, htr, ?_, a1⟩
  have hcont : ∀ q, content g q = if q = squareOf n.grid.cellSize (head (transformCell eig R c).mean) then
      some (transformCell eig R c) else none := by
    intro q
    have := congrFun h2 q
    rw [this]
    unfold Function.update
    simp only [eq_rec_constant, dite_eq_ite]
    have e : ∀ q, content (Voxel.clear n.grid) q = none := fun q => clear_content _ _
    rw [show (Voxel.clear n.grid).cellSize = n.grid.cellSize from rfl]
    simp only [e]
    rfl
  refine gaussians_singleton (n := updateMeans (cellI eig) (setOrigin { n with grid := g }
        (transformPose (origin n) !![1, 0, t 0 2; 0, 1, t 1 2; t 2 0, t 2 1, t 2 2]))) w1
    (q0 := squareOf n.grid.cellSize (head (transformCell eig R c).mean)) ?_ hg' ?_
  · show content g _ = _
    rw [hcont, if_pos rfl]
  · intro q d hq _
    have hq' : content g q = some d := hq
    rw [hcont] at hq'
    split_ifs at hq' with h
    exact h

/-! ### Witnesses against C105 -/

theorem angle_of {a : ℝ} (h1 : -Real.pi < a) (h2 : a ≤ Real.pi) (x y : ℝ) :
    getAngle (getTransFromPose ⟨x, y, a⟩) = a := by
  have := congrArg Slam.Pose.th (pose_trans ⟨x, y, a⟩)
  exact this.trans (normalizeAngle_of_mem h1 h2)

/-- C105 fails for a map turned by π and a translation along x: in the frame of the map the Gaussian should
move from 0 to `(1, 0)`, which is `(-1, 0)` in the world; it moves to `(1, 0)`. -/
theorem C105_false_turned {eig : NDT.Eig} (he : NDT.EigOk eig) : ∃ n n' t c c', Built eig true n ∧ IsRigid t ∧
    transform eig n t = .ok n' ∧ gaussians n = [c] ∧ gaussians n' = [c'] ∧
    worldPos n' c' = (1, 0) ∧ toWorld (origin n) (act t (c.mean 0, c.mean 1)) = (-1, 0) := by
  obtain ⟨n, hb, ho, hcs, c, hc, hm⟩ := exMap he ⟨0, 0, Real.pi⟩ 0
  have hz : c.mean = 0 := by rw [hm]; funext i; fin_cases i <;> simp
  set t := getTransFromPose ⟨1, 0, 0⟩ with ht
  obtain ⟨n', c', h1, h2, h3⟩ := exTransform he hb (t := t) hc (by
    rw [hz, mulVec_zero, hcs]
    exact off_zero 0 (by simpa using off_int 0))
  have hr : IsRigid t := getTransFromPose_rigid _
  refine ⟨n, n', t, c, c', hb, hr, h1, hc, h2, ?_, ?_⟩
  · show toWorld (origin n') (head c'.mean) = _
    rw [h3, transform_pos hr h1, ho, hz, ht]
    unfold toWorld getTransFromPose
    ext <;> simp
  · rw [ho, hz, ht]
    unfold toWorld act getTransFromPose
    ext <;> simp

/-- Nor is `T` meant in the frame of the world: turning a map whose origin is `(1, 0)` by π about the origin of
the world should move its Gaussian to `(-1, 0)`; it stays. -/
theorem C105_false_world {eig : NDT.Eig} (he : NDT.EigOk eig) : ∃ n n' t c c', Built eig true n ∧ IsRigid t ∧
    transform eig n t = .ok n' ∧ gaussians n = [c] ∧ gaussians n' = [c'] ∧
    worldPos n' c' = (1, 0) ∧ act t (worldPos n c) = (-1, 0) := by
  obtain ⟨n, hb, ho, hcs, c, hc, hm⟩ := exMap he ⟨1, 0, 0⟩ 0
  have hz : c.mean = 0 := by rw [hm]; funext i; fin_cases i <;> simp
  set t := getTransFromPose ⟨0, 0, Real.pi⟩ with ht
  obtain ⟨n', c', h1, h2, h3⟩ := exTransform he hb (t := t) hc (by
    rw [hz, mulVec_zero, hcs]
    exact off_zero 0 (by simpa using off_int 0))
  have hr : IsRigid t := getTransFromPose_rigid _
  refine ⟨n, n', t, c, c', hb, hr, h1, hc, h2, ?_, ?_⟩
  · show toWorld (origin n') (head c'.mean) = _
    rw [h3, transform_pos hr h1, ho, hz, ht]
    unfold toWorld getTransFromPose
    ext <;> simp
  · unfold worldPos
    rw [ho, hz, ht]
    unfold toWorld act getTransFromPose
    ext <;> simp

/-- The hypotheses of `C105_transform_partial` are met, without fusion. -/
example : ∃ eig, NDT.EigOk eig ∧ ∃ n n' t, Built eig true n ∧ n.th = 0 ∧ IsRigid t ∧
    transform eig n t = .ok n' ∧ (gaussians n').length = (gaussians n).length ∧ gaussians n ≠ [] := by
  obtain ⟨eig, he⟩ := NDT.exists_eig
  obtain ⟨n, hb, ho, hcs, c, hc, hm⟩ := exMap he ⟨3, 4, 0⟩ 0
  have hz : c.mean = 0 := by rw [hm]; funext i; fin_cases i <;> simp
  obtain ⟨n', c', h1, h2, -⟩ := exTransform he hb (t := getTransFromPose ⟨1, 2, 3⟩) hc (by
    rw [hz, mulVec_zero, hcs]
    exact off_zero 0 (by simpa using off_int 0))
  exact ⟨eig, he, n, n', _, hb, congrArg Slam.Pose.th ho, getTransFromPose_rigid _, h1, by rw [h2, hc]; rfl,
    by rw [hc]; simp⟩

/-! ### Merging -/

/-- A ray that starts outside the grid does nothing. -/
theorem trace_outside {eig : NDT.Eig} {s : NDT.Vec} : ∀ {l : List NDT.Cell} {g : Grid ℝ NDT.Cell}, WF g →
    0 < g.cellSize → isInside g (head s) = false → traceAll (cellI eig) s g l = .ok g := by
  intro l
  induction l with
  | nil => intro g _ _ _; rfl
  | cons c l ih =>
    intro g hwf hcs h
    unfold traceAll
    split_ifs with hg
    · rw [(C10_ray_confined_partial (cellI eig).toCellOps hwf hcs (head s) (head ((cellI eig).mean c))).1 h]
      simp only [Res.bind_ok, updateRay]
      exact ih hwf hcs h
    · exact ih hwf hcs h

theorem exMergeTraced {eig : NDT.Eig} (he : NDT.EigOk eig) {b : Bool} {n g : Map} (hn : Built eig b n)
    (hout : ∀ p, toWorld (origin n) p = (g.ox, g.oy) → isInside n.grid p = false) :
    mergeGridTraced eig n g true true = mergeGrid eig n g true true := by
  have hi := hn.inv he
  unfold mergeGridTraced mergeGrid mergeTraced
  simp only [if_true]
  rw [trace_outside hi.wf hi.cs]
  · rfl
  · apply hout
    show toWorld (origin n) (act (transBtwFrames (origin g) (origin n)) (0, 0)) = _
    rw [(C78_frames (origin g) (origin n) (origin n)).1]
    unfold toWorld origin
    ext <;> simp

theorem far_outside (g : Grid ℝ NDT.Cell) (hcs : 0 < g.cellSize) {x y : ℝ}
    (hx : (g.right + 1 / 2) * g.cellSize < x) : isInside g (x, y) = false := by
  by_contra h
  have h' : isInside g (x, y) = true := by simpa using h
  rw [isInside_iff hcs] at h'
  have := h'.1.2
  rw [div_le_iff₀ hcs] at this
  simp only at this
  linarith

/-- The hypotheses of C104 are met: a map with one Gaussian is merged into another one, whose frame it does
not share. -/
theorem exMerged {eig : NDT.Eig} (he : NDT.EigOk eig) : ∃ n g n', Built eig true n ∧ Built eig true g ∧
    gaussians n ≠ [] ∧ gaussians g ≠ [] ∧ origin n ≠ origin g ∧
    (∀ c ∈ gaussians g, ∀ p, toWorld (origin n) p = worldPos g c → OffLines n.grid.cellSize p) ∧
    mergeGrid eig n g true true = .ok n' ∧ mergeGridTraced eig n g true true = .ok n' := by
  obtain ⟨n, bn, on, cn, c, hc, -⟩ := exMap he ⟨0, 0, 0⟩ 0
  obtain ⟨X, hX⟩ : ∃ X : ℤ, (n.grid.right + 1 / 2) * n.grid.cellSize < X ∧ 0 < X := by
    refine ⟨n.grid.right + 1, ?_, by positivity⟩
    rw [cn]; push_cast; linarith
  obtain ⟨g, bg, og, cg, d, hd, hm⟩ := exMap he ⟨(X : ℝ), 0, 0⟩ 1
  have hoff : ∀ c ∈ gaussians g, ∀ p, toWorld (origin n) p = worldPos g c → OffLines n.grid.cellSize p := by
    intro c hc p hp
    rw [hd, List.mem_singleton] at hc
    subst hc
    rw [on, toWorld_zero] at hp
    rw [hp, cn]
    unfold worldPos
    rw [og, hm]
    unfold toWorld
    simp only [cons_val_zero, cons_val_one, Real.cos_zero, Real.sin_zero]
    convert off_zero ((X + 1 : ℤ) : ℝ) (off_int (X + 1)) using 2
    · push_cast; ring
    · ring
  have hout : ∀ p, toWorld (origin n) p = (g.ox, g.oy) → isInside n.grid p = false := by
    intro p hp
    rw [on, toWorld_zero] at hp
    rw [hp]
    apply far_outside _ (by rw [cn]; norm_num)
    rw [show g.ox = (X : ℝ) from congrArg Slam.Pose.x og]
    exact hX.1
  obtain ⟨n', h'⟩ := C112_merge_partial he bn bg true hoff
  refine ⟨n, g, n', bn, bg, by rw [hc]; simp, by rw [hd]; simp, ?_, hoff, h', ?_⟩
  · rw [on, og]
    intro h
    have : (0 : ℝ) = X := congrArg Slam.Pose.x h
    have : (0 : ℤ) = X := by exact_mod_cast this
    omega
  · rw [exMergeTraced he bn hout]; exact h'

example : ∃ eig, NDT.EigOk eig ∧ ∃ n g n', Built eig true n ∧ Built eig true g ∧
    gaussians n ≠ [] ∧ gaussians g ≠ [] ∧ origin n ≠ origin g ∧
    (∀ c ∈ gaussians g, ∀ p, toWorld (origin n) p = worldPos g c → OffLines n.grid.cellSize p) ∧
    mergeGrid eig n g true true = .ok n' ∧ mergeGridTraced eig n g true true = .ok n' := by
  obtain ⟨eig, he⟩ := NDT.exists_eig
  exact ⟨eig, he, exMerged he⟩

/-! ### Window and mapper -/

theorem exScan_cell {eig : NDT.Eig} (he : NDT.EigOk eig) (m : ℤ) (hm : 2 ≤ |m|) (hm' : |m| < 2 ^ 63) (p : Pose) :
    ∃ n, initializeMap eig (setOrigin (NDTGrid.init (cellI eig) 0 0 0 1) p) (exScan m) = .ok n ∧ Built eig true n ∧
      origin n = p ∧ n.grid.cellSize = 1 ∧ ∃ c, gaussians n = [c] ∧ c.mean = ![(m : ℝ), 0, 0] := by
  set n0 := setOrigin (NDTGrid.init (cellI eig) 0 0 0 1) p with hn0
  have b0 : Built eig true n0 := Built.setOrigin p (Built.init 0 0 0 zero_lt_one)
  have hsq : ∀ q ∈ exScan m, squareOf n0.grid.cellSize (q 0, q 1) = (m, 0) := exScan_square m
  obtain ⟨n, h⟩ := C112_initialize_partial he b0 (ps := exScan m) (exScan_off m)
    (fun q hq => Or.inl (by rw [hsq q hq]; exact hm))
    (fun q hq => by rw [hsq q hq]; exact ⟨hm', by norm_num⟩)
  obtain ⟨-, h2, h3, -⟩ := scan_mem he (convex_univ) (b0.inv he) (fun _ _ => Set.mem_univ _) h
  refine ⟨n, h, Built.initialize _ b0 h, h2, h3, _, ?_, (exScan_mean he m).2⟩
  rw [initializeMap_eq] at h
  exact exScan_binned he m (n := n0) (init_wf (cellI eig) 0 0 0 1) rfl true h

/-- The hypotheses of `C74_initialize_partial` and `C74_initialize_simple_partial` can be met. -/
example : ∃ eig, NDT.EigOk eig ∧ ∃ n n', WF n.grid ∧ 0 < n.grid.cellSize ∧
    (∀ p ∈ exScan 3, OffLines n.grid.cellSize (head p)) ∧ initializeMap eig n (exScan 3) = .ok n' ∧
    gaussians n' ≠ [] := by
  obtain ⟨eig, he⟩ := NDT.exists_eig
  obtain ⟨n, h, -, -, -, c, hc, -⟩ := exScan_cell he 3 (by norm_num) (by norm_num) ⟨1, 2, 3⟩
  exact ⟨eig, he, setOrigin (NDTGrid.init (cellI eig) 0 0 0 1) ⟨1, 2, 3⟩, n, init_wf (cellI eig) 0 0 0 1, zero_lt_one, exScan_off 3, h, by rw [hc]; simp⟩

/-- C112 fails for a scan with points at the sensor, on whatever map. -/
theorem sensor_ub {eig : NDT.Eig} (he : NDT.EigOk eig) {n0 : Map} (hi : MapInv n0) :
    initializeMap eig n0 (exScan 0) = .ub .badCast := by
  have hcl := clearGrid_inv hi
  have hhead : ∀ p ∈ exScan 0, head p = ((0 : ℝ), (0 : ℝ)) := by
    intro p hp
    rw [List.eq_of_mem_replicate hp]
    simp [head]
  have hsq : ∀ p ∈ exScan 0, squareOf n0.grid.cellSize (head p) = (0, 0) := by
    intro p hp
    rw [hhead p hp, squareOf_iff hi.cs]
    have := hi.cs
    refine ⟨?_, ?_, ?_, ?_⟩ <;> norm_num <;> linarith
  obtain ⟨h1, h2⟩ := exScan_mean he 0
  rw [initializeMap_eq]
  unfold initScan
  obtain ⟨scan, hscan, w, -, hcont⟩ := createGrid_spec (cellI eig) n0.ox n0.oy n0.th (cs := n0.grid.cellSize)
    hi.cs (exScan 0) (fun p hp => by rw [hhead p hp]; exact off_origin hi.cs)
  rw [hscan, Res.bind_ok]
  have hp : ∀ q, pointsIn n0.grid.cellSize (exScan 0) q = if q = (0, 0) then exScan 0 else [] := by
    intro q
    unfold pointsIn
    split_ifs with hq
    · rw [List.filter_eq_self]
      intro p hp
      rw [hsq p hp, hq]
      simp
    · rw [List.filter_eq_nil_iff]
      intro p hp
      rw [hsq p hp]
      simpa using fun h => hq h.symm
  have hval : getValidCells scan.grid = [cellOf (cellI eig) (exScan 0)] := by
    have hg : gaussians scan = [cellOf (cellI eig) (exScan 0)] := by
      refine gaussians_singleton (n := scan) w (q0 := (0, 0)) ?_ h1 ?_
      · rw [hcont, hp, if_pos rfl]
        rw [if_neg (fun h => h.2 rfl)]
      · intro q d hq _
        rw [hcont] at hq
        by_contra hne
        rw [if_pos ⟨by rw [hp, if_neg hne], hne⟩] at hq
        cases hq
    rw [← hg]
    unfold gaussians
    symm
    rw [List.filter_eq_self]
    intro d hd
    obtain ⟨q, hq⟩ := (mem_validCells w d).1 hd
    rw [hcont] at hq
    by_cases hq0 : q = (0, 0)
    · rw [if_neg (by simp [hq0]), hp, if_pos hq0] at hq
      cases hq
      simpa using h1
    · rw [if_pos ⟨by rw [hp, if_neg hq0], hq0⟩] at hq
      cases hq
  simp only [if_true]
  unfold mergeTraced
  rw [hval]
  have hin : isInside (Voxel.clear n0.grid) (0, 0) = true := by
    rw [isInside_iff hcl.cs]
    have e1 : (0 : ℝ) ≤ (Voxel.clear n0.grid).left := Nat.cast_nonneg _
    have e2 : (0 : ℝ) ≤ (Voxel.clear n0.grid).right := Nat.cast_nonneg _
    have e3 : (0 : ℝ) ≤ (Voxel.clear n0.grid).up := Nat.cast_nonneg _
    have e4 : (0 : ℝ) ≤ (Voxel.clear n0.grid).down := Nat.cast_nonneg _
    simp only [zero_div]
    refine ⟨⟨?_, ?_⟩, ?_, ?_⟩ <;> linarith
  have hr := C10_false_zero_ray (cellI eig).toCellOps hcl.wf hcl.cs hin (OffLines.notEdge (off_origin hcl.cs))
  have e : head (![0, 0, 0] : NDT.Vec) = (0, 0) := rfl
  have e2 : head ((cellI eig).mean (cellOf (cellI eig) (exScan 0))) = (0, 0) := by
    show head (cellOf (cellI eig) (exScan 0)).mean = (0, 0)
    rw [h2]; simp [head]
  unfold traceAll
  rw [if_pos (by exact h1), e, e2]
  have hr' : rayTrace (cellI eig).toCellOps (Voxel.clear n0.grid) ((0 : ℝ), (0 : ℝ)) (0, 0) = .ub .badCast := hr
  simp only [hr']
  rfl

/-- C112 fails for a scan with points at the sensor. -/
theorem C112_false {eig : NDT.Eig} (he : NDT.EigOk eig) :
    initializeMap eig (NDTGrid.init (cellI eig) 0 0 0 1) (exScan 0) = .ub .badCast :=
  sensor_ub he (init_inv eig 0 0 0 zero_lt_one)

theorem getAngle_zero (x y : ℝ) : getAngle (getTransFromPose ⟨x, y, 0⟩) = 0 :=
  angle_of (by linarith [Real.pi_pos]) Real.pi_pos.le x y

/-- The hypotheses of C106 are met. -/
example : ∃ eig, NDT.EigOk eig ∧ ∃ w reg cumul w', Built eig true w ∧ w.th = 0 ∧ gaussians w ≠ [] ∧ IsRigid reg ∧
    updateWindow eig 1 w (exScan 3) reg = .ok (cumul, w') := by
  obtain ⟨eig, he⟩ := NDT.exists_eig
  obtain ⟨w, bw, ow, cw, d, hd, -⟩ := exMap he ⟨0, 0, 0⟩ 0
  set reg := getTransFromPose ⟨5, 0, 0⟩ with hreg
  have hr : IsRigid reg := getTransFromPose_rigid _
  obtain ⟨s0, h0, b0, o0, c0, c, hc, hm⟩ := exScan_cell he 3 (by norm_num) (by norm_num) (origin w)
  have hrot : (rotZ (getAngle reg)).mulVec c.mean = c.mean := by
    rw [hreg, getAngle_zero, rotZ_zero, one_mulVec]
  have h3 : head c.mean = (((3 : ℤ) : ℝ), 0) := by rw [hm]; rfl
  obtain ⟨s1, c1, h1, g1, m1⟩ := exTransform he b0 (t := reg) hc (by
    rw [hrot, c0, h3]; exact off_zero _ (off_int 3))
  have b1 : Built eig true s1 := Built.transform _ b0 h1
  have wp : worldPos s1 c1 = (((8 : ℤ) : ℝ), 0) := by
    show toWorld (origin s1) (head c1.mean) = _
    rw [m1, transform_pos hr h1, o0, ow, hm, hreg]
    unfold toWorld getTransFromPose
    ext <;> simp
    norm_num
  have og : (s1.ox, s1.oy) = (((5 : ℤ) : ℝ), 0) := by
    obtain ⟨a1, a2, -⟩ := transform_origin h1
    have e1 : s0.ox = 0 := congrArg Slam.Pose.x (o0.trans ow)
    have e2 : s0.oy = 0 := congrArg Slam.Pose.y (o0.trans ow)
    rw [a1, a2, e1, e2, hreg]
    unfold getTransFromPose
    ext <;> simp
  obtain ⟨w1, h2⟩ := C112_merge_traced_partial he bw b1 true
    (fun c' hc' p hp => by
      rw [g1, List.mem_singleton] at hc'
      rw [ow, toWorld_zero] at hp
      rw [hp, hc', wp, cw]
      exact off_zero _ (off_int 8))
    (fun s hs => by
      rw [ow, toWorld_zero] at hs
      rw [hs, og, cw]
      refine ⟨off_zero _ (off_int 5), fun c' hc' p hp => ?_⟩
      rw [g1, List.mem_singleton] at hc'
      rw [ow, toWorld_zero] at hp
      rw [hp, hc', wp]
      unfold RayLength
      norm_num)
  obtain ⟨r, h3⟩ := C112_move he (Built.mergeGridTraced true true bw b1 h2) (reg 0 2) (reg 1 2)
  refine ⟨eig, he, w, reg, !![reg 0 0, reg 0 1, r.1.1; reg 1 0, reg 1 1, r.1.2; reg 2 0, reg 2 1, reg 2 2], r.2, bw,
    congrArg Slam.Pose.th ow, by rw [hd]; simp, hr, ?_⟩
  unfold updateWindow
  simp only
  rw [h0, Res.bind_ok, h1, Res.bind_ok, h2, Res.bind_ok, h3]
  rfl

theorem off_quarter (m : ℤ) : OffLines (1 / 4 : ℝ) ((m : ℝ), 0) := by
  refine ⟨fun k hk => ?_, fun k hk => ?_⟩
  · have h2 : (8 * m : ℝ) = 2 * k + 1 := by
      have : (m : ℝ) = ((k : ℝ) + 1 / 2) * (1 / 4) := hk
      linarith
    have : 8 * m = 2 * k + 1 := by exact_mod_cast h2
    omega
  · have h2 : (0 : ℝ) = 2 * k + 1 := by
      have : (0 : ℝ) = ((k : ℝ) + 1 / 2) * (1 / 4) := hk
      linarith
    have : 0 = 2 * k + 1 := by exact_mod_cast h2
    omega

theorem exFrame_in {f : Map} (m k : ℤ) (hk : 0 < k) (hk' : k < 100) (ho : origin f = ⟨(m : ℝ), 0, 0⟩)
    (hm : ∀ c ∈ gaussians f, (c.mean 0, c.mean 1) = ((k : ℝ), 0)) : FrameOk f := by
  have h1 : f.ox = m := congrArg Slam.Pose.x ho
  have h2 : f.oy = 0 := congrArg Slam.Pose.y ho
  refine ⟨by rw [h1, h2]; exact off_quarter m, fun d hd => ?_⟩
  have e : worldPos f d = (((m + k : ℤ) : ℝ), 0) := by
    unfold worldPos
    rw [ho, hm d hd]
    unfold toWorld
    ext <;> simp
  rw [e, h1, h2]
  refine ⟨off_quarter _, ?_⟩
  have a1 : (1 : ℝ) ≤ k := by exact_mod_cast hk
  have a2 : (k : ℝ) < 100 := by exact_mod_cast hk'
  unfold RayLength
  simp only [Int.cast_add, add_sub_cancel_left, sub_self, abs_zero]
  rw [max_eq_left (abs_nonneg _), abs_of_pos (by linarith)]
  constructor
  · linarith
  · norm_num; linarith

theorem exFrame {f : Map} (m k : ℤ) (hk : 0 < k) (hk' : k < 100) {c : NDT.Cell} (ho : origin f = ⟨(m : ℝ), 0, 0⟩)
    (hc : gaussians f = [c]) (hm : c.mean = ![(k : ℝ), 0, 0]) : FrameOk f := by
  refine exFrame_in m k hk hk' ho fun d hd => ?_
  rw [hc, List.mem_singleton] at hd
  rw [hd, hm]
  simp

/-- The hypotheses of C109 and C110 are met: a frame is added, the optimiser moves it, the map is
recalculated. -/
example : ∃ eig, NDT.EigOk eig ∧ ∃ f m, Built eig true f ∧ gaussians f ≠ [] ∧
    (∀ o ∈ [MapOp.add f 0, .setOrigin 0 ⟨7, 0, 0⟩], o.Admissible eig) ∧
    MapOp.execAll eig id (Mapper.init eig) ([.add f 0, .setOrigin 0 ⟨7, 0, 0⟩] ++ [.recalc]) = .ok m := by
  obtain ⟨eig, he⟩ := NDT.exists_eig
  obtain ⟨f, bf, of, cf, c, hc, hm⟩ := exMap he ⟨((2 : ℤ) : ℝ), 0, 0⟩ 3
  have ha : ∀ o ∈ [MapOp.add f 0, .setOrigin 0 ⟨7, 0, 0⟩], o.Admissible eig := by
    intro o ho
    rcases List.mem_cons.1 ho with rfl | ho
    · exact ⟨true, bf⟩
    · rw [List.mem_singleton] at ho
      rw [ho]; trivial
  obtain ⟨m1, h1⟩ := (C112_mapper_partial he (sort := id) (fun _ => List.Perm.refl _) (ops := []) (by simp) rfl).1 f 0
    ⟨true, bf⟩ (exFrame 2 3 (by norm_num) (by norm_num) of hc hm)
  have hf1 : m1.frames = [{ f with timestamp := 0 }] := by
    obtain ⟨map, -, h3⟩ := Res.bind_eq_ok.1 h1
    cases h3
    rfl
  have h2 : MapOp.execAll eig id (Mapper.init eig) [.add f 0, .setOrigin 0 ⟨7, 0, 0⟩]
      = .ok (m1.setFrameOrigin 0 ⟨7, 0, 0⟩) := by
    simp only [MapOp.execAll, MapOp.exec]
    rw [h1]
    rfl
  obtain ⟨m, h3⟩ := (C112_mapper_partial he (sort := id) (fun _ => List.Perm.refl _) ha h2).2 (by
    unfold Mapper.setFrameOrigin; rw [hf1]; simp) (by
    intro g hg
    rw [show (m1.setFrameOrigin 0 ⟨7, 0, 0⟩).frames = [setOrigin { f with timestamp := 0 } ⟨7, 0, 0⟩] from by
      unfold Mapper.setFrameOrigin; rw [hf1]; rfl, List.mem_singleton] at hg
    subst hg
    refine exFrame 7 3 (by norm_num) (by norm_num) (c := c) ?_ hc hm
    unfold origin setOrigin
    norm_num)
  refine ⟨eig, he, f, m, bf, by rw [hc]; simp, ha, ?_⟩
  simp only [MapOp.execAll, MapOp.exec, List.cons_append, List.nil_append] at h2 ⊢
  rw [h1] at h2 ⊢
  simp only [Res.bind_ok] at h2 ⊢
  rw [h3]
  rfl

end Verif.World
