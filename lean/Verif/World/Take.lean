import Verif.World.Examples

/-
When the running window can take a scan.
-/
namespace Verif.World

open Verif Verif.Voxel Verif.NDTGrid Verif.Geo Matrix

/-- The points of a scan that fall into a square of a map at the sensor. -/
noncomputable def inScan (cs : ℝ) (scan : List NDT.Vec) (q : ℤ × ℤ) : List NDT.Vec :=
  scan.filter fun p => squareOf cs (head p) = q

/-- Mean of the points in a square, turned by the rotation of the registration. -/
noncomputable def turnedMean (cs : ℝ) (scan : List NDT.Vec) (reg : Trans) (q : ℤ × ℤ) : NDT.Vec :=
  (rotZ (getAngle reg)).mulVec (NDT.sampleMean (inScan cs scan q))

/-- Conditions on a scan and its registration `reg` in the frame of the window, in terms of the squares with at
least six points: turned by `reg` their means are on no border line; the robot is on no border line of the window;
what means of one square can be fused to is, in the frame of the window, on no border line and at least a cell (and
not absurdly far) from the robot. -/
structure TakeOk (cs : ℝ) (scan : List NDT.Vec) (reg : Trans) : Prop where
  turned : ∀ q, 6 ≤ (inScan cs scan q).length → OffLines cs (head (turnedMean cs scan reg q))
  start : OffLines cs (reg 0 2, reg 1 2)
  ends : ∀ q : ℤ × ℤ, ∀ v ∈ convexHull ℝ {x | ∃ q', 6 ≤ (inScan cs scan q').length ∧
      x = turnedMean cs scan reg q' ∧ squareOf cs (head x) = q},
    OffLines cs (v 0 + reg 0 2, v 1 + reg 1 2) ∧ RayLength cs (reg 0 2, reg 1 2) (v 0 + reg 0 2, v 1 + reg 1 2)

/-- Cells that are fused belong to the same square. -/
theorem readd_square {eig : NDT.Eig} {S : ℤ × ℤ → Set NDT.Vec} (hS : ∀ q, Convex ℝ (S q)) {cs : ℝ} :
    ∀ {l : List NDT.Cell} {g g' : Grid ℝ NDT.Cell}, WF g → 0 < g.cellSize → g.cellSize = cs → readd eig g l = .ok g' →
    (∀ c ∈ l, c.gaussian = true → OffLines cs (head c.mean) ∧ c.mean ∈ S (squareOf cs (head c.mean)) ∧ 0 < c.points) →
    (∀ q c, content g q = some c → c.mean ∈ S q ∧ 0 < c.points) →
    ∀ q c, content g' q = some c → c.mean ∈ S q ∧ 0 < c.points := by
  intro l
  induction l with
  | nil => intro g g' hwf _ _ h _ hq; cases h; exact hq
  | cons c l ih =>
    intro g g' hwf hcs hc0 h hl hq
    have hl' := fun d (hd : d ∈ l) => hl d (List.mem_cons_of_mem _ hd)
    unfold readd at h
    split_ifs at h with hg
    · obtain ⟨k1, k2, k3⟩ := hl c List.mem_cons_self hg
      obtain ⟨g1, h1', w1, c1, -, -, -, -, -, -, hcont⟩ := addCell_spec (cellI eig).toCellOps hwf hcs
        (p := head c.mean) (OffLines.notOpen (by rw [hc0]; exact k1)) c true
      rw [h1', Res.bind_ok] at h
      refine ih w1 (by rw [c1]; exact hcs) (c1.trans hc0) h hl' ?_
      intro q d hd
      rw [hcont, hc0] at hd
      by_cases hqe : q = squareOf cs (head c.mean)
      · subst hqe
        rw [Function.update_self] at hd
        have hd' := Option.some.inj hd
        rw [← hd']
        cases ho : content g (squareOf cs (head c.mean)) with
        | none => exact ⟨k2, k3⟩
        | some o =>
          have := merge_mem (eig := eig) (hS _) (hq _ o ho).1 k2 (hq _ o ho).2
          exact this
      · rw [Function.update_of_ne hqe] at hd
        exact hq q d hd
    · exact ih hwf hcs hc0 h hl' hq

/-- The running window takes a scan in order without undefined behaviour. -/
theorem updateWindow_total {eig : NDT.Eig} (he : NDT.EigOk eig) {b : Bool} {cs : ℝ} (hcs : 0 < cs) {w : Map}
    (hw : Built eig b w) (hwc : w.grid.cellSize = cs) (hth : w.th = 0) {ps : List NDT.Vec} {reg : Trans}
    (hoff : ∀ p ∈ ps, OffLines cs (p 0, p 1))
    (hfar : ∀ p ∈ ps, 2 ≤ |(squareOf cs (p 0, p 1)).1| ∨ 2 ≤ |(squareOf cs (p 0, p 1)).2|)
    (hnear : ∀ p ∈ ps, |(squareOf cs (p 0, p 1)).1| < 2 ^ 63 ∧ |(squareOf cs (p 0, p 1)).2| < 2 ^ 63)
    (ok : TakeOk cs ps reg) : ∃ r, updateWindow eig cs w ps reg = .ok r := by
  have be : Built eig true (setOrigin (NDTGrid.init (cellI eig) 0 0 0 cs) (origin w)) := .setOrigin _ (.init 0 0 0 hcs)
  obtain ⟨s0, h0⟩ := C112_initialize_partial he be (ps := ps) hoff hfar hnear
  have b0 : Built eig true s0 := .«initialize» ps be h0
  have i0 := b0.inv he
  obtain ⟨-, o0, c0, -⟩ := scan_mem he convex_univ (be.inv he) (fun _ _ => Set.mem_univ _) h0
  have c0 : s0.grid.cellSize = cs := c0
  have q0 := (C74_initialize_partial he (be.inv he).wf (be.inv he).cs (ps := ps) hoff h0).2
  -- the Gaussians of the scan
  have hmean : ∀ c ∈ gaussians s0, ∃ q, 6 ≤ (inScan cs ps q).length ∧
      (rotZ (getAngle reg)).mulVec c.mean = turnedMean cs ps reg q := by
    intro c hc
    obtain ⟨hv, hg⟩ := mem_gaussians.1 hc
    obtain ⟨q, hq⟩ := (mem_validCells i0.wf c).1 hv
    refine ⟨q, (q0 q).1.1 ⟨c, hq, hg⟩, ?_⟩
    unfold turnedMean
    rw [((q0 q).2 c hq hg).1]
    rfl
  have hturn : ∀ c ∈ gaussians s0, OffLines cs (head ((rotZ (getAngle reg)).mulVec c.mean)) := by
    intro c hc
    obtain ⟨q, h1, h2⟩ := hmean c hc
    rw [h2]; exact ok.turned q h1
  obtain ⟨s1, h1⟩ := C112_transform_partial he b0 (t := reg) (by
    intro c hc
    have := hturn c hc
    rw [c0]
    unfold head at this
    simpa [rotZ, dotProduct, Fin.sum_univ_three, sub_eq_add_neg] using this)
  have b1 : Built eig true s1 := .transform reg b0 h1
  -- what they are fused to
  have hfused : ∀ c ∈ gaussians s1, ∃ q : ℤ × ℤ, c.mean ∈ convexHull ℝ {x | ∃ q', 6 ≤ (inScan cs ps q').length ∧
      x = turnedMean cs ps reg q' ∧ squareOf cs (head x) = q} := by
    intro c hc
    obtain ⟨g, hg1, e1⟩ := transform_split h1
    have ic := clearGrid_inv i0
    have hcell : ∀ d ∈ transformCells eig !![reg 0 0, reg 0 1, 0; reg 1 0, reg 1 1, 0; reg 2 0, reg 2 1, reg 2 2]
        (getValidCells s0.grid), d.gaussian = true → OffLines cs (head d.mean) ∧
        d.mean ∈ convexHull ℝ {x | ∃ q', 6 ≤ (inScan cs ps q').length ∧
          x = turnedMean cs ps reg q' ∧ squareOf cs (head x) = squareOf cs (head d.mean)} ∧ 0 < d.points := by
      intro d hd hgd
      obtain ⟨c', hc', rfl⟩ := List.mem_map.1 hd
      have hu := i0.ginv c' hc'
      rw [(transformCell_spec he _ hu).2.1] at hgd
      obtain ⟨a1, -, a3⟩ := rotated_spec he reg hu hgd
      have hmem := mem_gaussians.2 ⟨hc', hgd⟩
      obtain ⟨q', k1, k2⟩ := hmean c' hmem
      rw [a1, a3]
      refine ⟨hturn c' hmem, subset_convexHull ℝ _ ⟨q', k1, k2, rfl⟩, ?_⟩
      have := (hu hgd).2.2.1
      omega
    have key := readd_square (eig := eig) (S := fun q => convexHull ℝ {x | ∃ q', 6 ≤ (inScan cs ps q').length ∧
      x = turnedMean cs ps reg q' ∧ squareOf cs (head x) = q}) (fun q => convex_convexHull ℝ _) ic.wf ic.cs c0 hg1 hcell
      (fun q c hq => by
        have hv := (mem_validCells ic.wf c).2 ⟨q, hq⟩
        rw [show getValidCells _ = [] from (clear_stored i0.wf).2.2] at hv
        cases hv)
    obtain ⟨hv, -⟩ := mem_gaussians.1 hc
    obtain ⟨q, hq⟩ := (mem_validCells (b1.inv he).wf c).1 hv
    refine ⟨q, (key q c ?_).1⟩
    rw [e1] at hq
    exact hq
  -- places in the window
  obtain ⟨o1, o2, o3⟩ := transform_origin h1
  have hs0 : s0.ox = w.ox ∧ s0.oy = w.oy ∧ s0.th = w.th :=
    ⟨congrArg Slam.Pose.x o0, congrArg Slam.Pose.y o0, congrArg Slam.Pose.th o0⟩
  have hth1 : s1.th = 0 := by
    rw [o3, hs0.2.2, hth]
    exact normalizeAngle_of_mem (by linarith [Real.pi_pos]) Real.pi_pos.le
  have hplace : ∀ p v : ℝ × ℝ, toWorld (origin w) p = toWorld (origin s1) v → p = (v.1 + reg 0 2, v.2 + reg 1 2) := by
    intro p v h
    unfold toWorld origin at h
    rw [hth, hth1, o1, o2, hs0.1, hs0.2.1] at h
    simp only [Real.cos_zero, Real.sin_zero, one_mul, zero_mul, sub_zero, zero_add, Prod.mk.injEq] at h
    ext
    · simp only; linarith [h.1]
    · simp only; linarith [h.2]
  have hstart : ∀ s, toWorld (origin w) s = (s1.ox, s1.oy) → s = (reg 0 2, reg 1 2) := by
    intro s h
    have := hplace s (0, 0) (by rw [h]; unfold toWorld origin; simp)
    simpa using this
  have hend : ∀ c ∈ gaussians s1, ∀ p, toWorld (origin w) p = worldPos s1 c →
      OffLines cs p ∧ RayLength cs (reg 0 2, reg 1 2) p := by
    intro c hc p hp
    obtain ⟨q, hq⟩ := hfused c hc
    rw [hplace p _ hp]
    exact ok.ends q _ hq
  obtain ⟨w1, h2⟩ := C112_merge_traced_partial he hw b1 true
    (fun c hc p hp => by rw [hwc]; exact (hend c hc p hp).1)
    (fun s hs => by
      rw [hstart s hs, hwc]
      exact ⟨ok.start, fun c hc p hp => (hend c hc p hp).2⟩)
  obtain ⟨r, h3⟩ := C112_move he (Built.mergeGridTraced true true hw b1 h2) (reg 0 2) (reg 1 2)
  refine ⟨(!![reg 0 0, reg 0 1, r.1.1; reg 1 0, reg 1 1, r.1.2; reg 2 0, reg 2 1, reg 2 2], r.2), ?_⟩
  unfold updateWindow
  simp only
  rw [h0, Res.bind_ok, h1, Res.bind_ok, h2, Res.bind_ok, h3, Res.bind_ok]

end Verif.World
