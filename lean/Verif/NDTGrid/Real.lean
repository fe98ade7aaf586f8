import Verif.NDTGrid.Props
import Verif.Cell.Props
import Mathlib.Algebra.Order.Archimedean.Real.Basic

/-
The NDT grid with the real cell type: `NDTGrid2D<NDTCell, PointType>`.
-/
namespace Verif.NDTGrid

open Verif Verif.Voxel

/-- `NDTCell` as the cell type of a grid (`NDTGrid2D<NDTCell, ..>`); the members are modelled in
`Verif.Cell.Model`. -/
noncomputable def cellI (eig : NDT.Eig) : CellI ℝ NDT.Cell where
  default := NDT.init
  merge := NDT.merge eig
  mean := NDT.Cell.mean
  setMean c m := { c with mean := m }
  gaussian := NDT.Cell.gaussian
  points := NDT.Cell.points
  occ := NDT.Cell.occ
  ray := NDT.rayUpdate
  addPoint := NDT.addPoint
  compute := NDT.computeGaussian eig

theorem ray_mean {c c' : NDT.Cell} {s e : NDT.Vec} {k : ℕ} (h : NDT.rayUpdate c s e k = .ok c')
    (hg : c'.gaussian = true) : c.gaussian = true ∧ c'.mean = c.mean := by
  unfold NDT.rayUpdate at h
  split_ifs at h with h1 h2
  · cases h
    rw [show _ = c.gaussian from rfl, h1] at hg
    cases hg
  · cases h
    exact ⟨hg, rfl⟩
  · obtain ⟨r, -, h⟩ := Res.map_eq_ok.1 h
    subst h
    exact ⟨by simpa using h1, rfl⟩

theorem rescale_mean (eig : NDT.Eig) (c : NDT.Cell) : (NDT.rescale eig c).mean = c.mean := rfl

theorem merge_mean (eig : NDT.Eig) {o c : NDT.Cell} (hc : c.gaussian = true) (hp : 2 < c.points)
    (ho : o.gaussian = true) : (NDT.merge eig o c).mean =
      (1 / ((c.points + o.points : ℕ) : ℝ)) • ((c.points : ℝ) • c.mean + (o.points : ℝ) • o.mean) := by
  unfold NDT.merge
  rw [if_neg (by omega), if_neg (by simp [hc]), if_pos ho]
  simp only
  split_ifs
  · rfl
  · rfl

theorem cell_lawful (eig : NDT.Eig) : Lawful (cellI eig) where
  default_gaussian := rfl
  mean_setMean _ _ := rfl
  gaussian_setMean _ _ := rfl
  ray _ _ _ _ _ h hg := ray_mean h hg
  merge o c hc hm := by
    change c.gaussian = true at hc
    change (NDT.merge eig o c).gaussian = true at hm
    change ∃ t : ℝ, 0 ≤ t ∧ t ≤ 1 ∧ (o.gaussian = false → t = 1) ∧
      ∀ i, (NDT.merge eig o c).mean i = (1 - t) * o.mean i + t * c.mean i
    by_cases hp : c.points ≤ 2
    · have e : NDT.merge eig o c = o := by unfold NDT.merge; rw [if_pos hp]
      rw [e] at hm ⊢
      refine ⟨0, le_rfl, zero_le_one, fun h => ?_, fun i => by ring⟩
      rw [h] at hm
      cases hm
    · by_cases ho : o.gaussian = true
      · have hpos : (0 : ℝ) < c.points := by
          have : 0 < c.points := by omega
          exact_mod_cast this
        have h0 : (0 : ℝ) ≤ o.points := Nat.cast_nonneg _
        refine ⟨c.points / (c.points + o.points), by positivity, ?_, fun h => ?_, fun i => ?_⟩
        · rw [div_le_one (by positivity)]; linarith
        · rw [h] at ho; cases ho
        · rw [merge_mean eig hc (by omega) ho]
          simp only [Pi.smul_apply, Pi.add_apply, smul_eq_mul]
          push_cast
          field_simp
          ring
      · have e : (NDT.merge eig o c).mean = c.mean := by
          unfold NDT.merge
          rw [if_neg hp, if_neg (by simp [hc]), if_neg ho]
        rw [e]
        exact ⟨1, zero_le_one, le_rfl, fun _ => rfl, fun i => by ring⟩

theorem fold_addPoint (l : List NDT.Vec) : ∀ c : NDT.Cell, l.foldl NDT.addPoint c =
    { c with pending := c.pending ++ l } := by
  induction l with
  | nil => intro c; simp
  | cons a l ih => intro c; rw [List.foldl_cons, ih]; simp [NDT.addPoint]

/-- A cell computed from a list of points is Gaussian exactly for six points or more; mean and count are
those of the points. -/
theorem cellOf_real {eig : NDT.Eig} (he : NDT.EigOk eig) (ps : List NDT.Vec) :
    ((cellOf (cellI eig) ps).gaussian = true ↔ 6 ≤ ps.length) ∧
    (6 ≤ ps.length → (cellOf (cellI eig) ps).mean = NDT.sampleMean ps ∧
      (cellOf (cellI eig) ps).points = ps.length) := by
  by_cases h : 6 ≤ ps.length
  · obtain ⟨h1, h2, h3, -⟩ := NDT.C22_mean_partial he ps h
    exact ⟨⟨fun _ => h, fun _ => h3⟩, fun _ => ⟨h1, h2⟩⟩
  · refine ⟨⟨fun hg => ?_, fun h' => absurd h' h⟩, fun h' => absurd h' h⟩
    have : (cellOf (cellI eig) ps).gaussian = false := by
      show (NDT.computeGaussian eig (ps.foldl NDT.addPoint NDT.init)).gaussian = false
      rw [fold_addPoint]
      exact (NDT.C24_false eig _ (by simp [NDT.init]; omega)).2
    rw [this] at hg
    cases hg

theorem cell_scan {eig : NDT.Eig} (he : NDT.EigOk eig) : LawfulScan (cellI eig) where
  empty := by
    have h := (cellOf_real he []).1
    by_contra hn
    have := h.1 (by simpa [cellI] using hn)
    simp at this
  mean ps hg i := by
    have h6 := (cellOf_real he ps).1.1 hg
    show (ps.length : ℝ) * (cellOf (cellI eig) ps).mean i = _
    rw [((cellOf_real he ps).2 h6).1, NDT.sampleMean_apply]
    have : (ps.length : ℝ) ≠ 0 := by
      have : 0 < ps.length := by omega
      exact_mod_cast ne_of_gt this
    unfold NDT.first
    field_simp

/-- C74 for `NDTCell`: after `initialize(scan)` a square holds a Gaussian exactly if at least six points of
the scan lie in it, and this Gaussian has the mean and the number of these points. -/
theorem C74_scan_ndt_partial {eig : NDT.Eig} (he : NDT.EigOk eig) {n n' : NGrid ℝ NDT.Cell}
    (hwf : WF n.grid) (hcs : 0 < n.grid.cellSize) {ps : List NDT.Vec}
    (hp : ∀ p ∈ ps, OffLines n.grid.cellSize (head p)) (traced : Bool)
    (h : initScan (cellI eig) n ps traced = .ok n') (q : ℤ × ℤ) :
    ((∃ c, content n'.grid q = some c ∧ c.gaussian = true) ↔
      6 ≤ (ps.filter fun p => squareOf n.grid.cellSize (head p) = q).length) ∧
    ∀ c, content n'.grid q = some c → c.gaussian = true →
      c.mean = NDT.sampleMean (ps.filter fun p => squareOf n.grid.cellSize (head p) = q) ∧
      c.points = (ps.filter fun p => squareOf n.grid.cellSize (head p) = q).length := by
  obtain ⟨-, -, hc⟩ := C74_scan_binning_partial (cell_lawful eig) (cell_scan he) hwf hcs hp traced h
  have hr := cellOf_real he (ps.filter fun p => squareOf n.grid.cellSize (head p) = q)
  constructor
  · constructor
    · rintro ⟨c, h1, h2⟩
      obtain ⟨rfl, h3⟩ := (hc q c).1 ⟨h1, h2⟩
      exact hr.1.1 h3
    · intro h6
      exact ⟨_, (hc q _).2 ⟨rfl, hr.1.2 h6⟩⟩
  · intro c h1 h2
    obtain ⟨rfl, h3⟩ := (hc q c).1 ⟨h1, h2⟩
    exact hr.2 (hr.1.1 h3)

/-- C14 for `NDTCell`, in short: no Gaussian that stays in the grid moves in the world. -/
theorem C14_move_ndt (eig : NDT.Eig) {n : NGrid ℝ NDT.Cell} (hwf : WF n.grid)
    (hcs : 0 < n.grid.cellSize) (hth : n.th = 0) (tx ty : ℝ) :
    ∃ r n', move (cellI eig) n tx ty = .ok (r, n') ∧
      (n'.ox + r.1, n'.oy + r.2) = (n.ox + tx, n.oy + ty) ∧
      ∀ q' c', content n'.grid q' = some c' → c'.gaussian = true →
        ∃ q c, content n.grid q = some c ∧ c.gaussian = true ∧
          worldMean (cellI eig) n' c' = worldMean (cellI eig) n c := by
  obtain ⟨r, n', h, ho, -, -, -, -, hext, mx, my, -, -, hcont⟩ :=
    (C14_move (cell_lawful eig) hwf hcs tx ty).1 (by rw [hth]; norm_num)
  refine ⟨r, n', h, ?_, ?_⟩
  · simp only [Prod.mk.injEq] at ho ⊢
    exact ⟨ho.1, ho.2.1⟩
  · intro q' c' hc' hg'
    have hin : InExtent n.grid q' := by
      rw [← hext]
      by_contra hn
      rw [content_of_not_in hn] at hc'
      cases hc'
    obtain ⟨hnone, hsome⟩ := hcont q' hin
    cases hc : content n.grid (q'.1 + mx, q'.2 + my) with
    | none =>
      rw [hnone.2 hc] at hc'
      cases hc'
    | some c =>
      obtain ⟨c1, h1, h2, h3, -⟩ := hsome c hc
      rw [hc'] at h1
      cases h1
      have hg : c.gaussian = true := by
        rw [← hg']
        exact h2.symm
      exact ⟨_, c, hc, hg, h3 hg⟩

/-- C71 for `NDTCell`. -/
theorem C71_ndt_partial (eig : NDT.Eig) (ox oy th : ℝ) {cs : ℝ} (hcs : 0 < cs)
    (hist : List (Op ℝ NDT.Cell)) (hoff : ∀ o ∈ hist, CellsOffLines (cellI eig) cs o.input)
    {n : NGrid ℝ NDT.Cell} (h : execAll (cellI eig) (init (cellI eig) ox oy th cs) hist = .ok n) :
    ∀ q c, content n.grid q = some c → c.gaussian = true → squareOf cs (c.mean 0, c.mean 1) = q :=
  (C71_gaussians_in_their_square_partial (cell_lawful eig) ox oy th hcs hist hoff h).2.2

/-- The hypotheses are met: a new grid, a scan of six points off the border lines, an eigenvalue solver as
required. -/
example : ∃ eig, NDT.EigOk eig ∧ ∃ (n : NGrid ℝ NDT.Cell) (ps : List NDT.Vec), WF n.grid ∧
    0 < n.grid.cellSize ∧ n.th = 0 ∧ 6 ≤ ps.length ∧
    (∀ p ∈ ps, OffLines n.grid.cellSize (head p)) ∧ ∃ n', initScan (cellI eig) n ps false = .ok n' := by
  obtain ⟨eig, he⟩ := NDT.exists_eig
  have hoff : ∀ p ∈ List.replicate 6 (0 : NDT.Vec), OffLines (1 : ℝ) (head p) := by
    intro p hp
    rw [List.eq_of_mem_replicate hp]
    have h0 : ∀ k : ℤ, (0 : ℝ) ≠ ((k : ℝ) + 1 / 2) * 1 := by
      intro k hk
      have h2 : (2 * k + 1 : ℝ) = 0 := by linarith
      have : 2 * k + 1 = 0 := by exact_mod_cast h2
      omega
    exact ⟨h0, h0⟩
  refine ⟨eig, he, init (cellI eig) 0 0 0 1, List.replicate 6 0, init_wf _ 0 0 0 1, zero_lt_one, rfl,
    by simp, hoff, ?_⟩
  exact C74_scan_total_partial (cell_scan he) (init_wf _ 0 0 0 1) zero_lt_one hoff

end Verif.NDTGrid
