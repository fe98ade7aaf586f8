import Verif.World.Free
import Verif.World.Fixed
import Verif.World.History
import Verif.Cell.Vanish

/-
C177 for maps: a Gaussian of the map that a merged map looks through is gone.
-/
namespace Verif.World

open Verif Verif.Voxel Verif.NDTGrid Verif.Geo Verif.Slam Matrix

/-! ### Lemmas -/

theorem swept_ne {g : Grid ℝ NDT.Cell} {s e : NDT.Vec} {q : ℤ × ℤ} (h : Swept g (head s) (head e) q) : s ≠ e := by
  rintro rfl
  obtain ⟨-, k, hk, -⟩ := h
  have : cellsBetween g.cellSize (head s) (head s) = 0 := by unfold cellsBetween; simp
  rw [this] at hk
  simp only [Int.floor_zero, Int.cast_zero] at hk
  have : (0 : ℝ) ≤ k := Nat.cast_nonneg k
  linarith

/-- One of the rays over a square looks through its Gaussian: the Gaussian is gone afterwards. -/
theorem cleared_through {eig : NDT.Eig} (he : NDT.EigOk eig) {g : Grid ℝ NDT.Cell} {s : NDT.Vec} {q : ℤ × ℤ}
    {M D : ℝ} (hM0 : 0 ≤ M) (hM : M ≤ 1 / 4) (hD : 1 / 10 ≤ D) : ∀ (cells : List NDT.Cell) {c : NDT.Cell}
    {o' : Option NDT.Cell}, NDT.Reach eig NDT.properRay c →
    (∃ d ∈ cells, d.gaussian = true ∧ 3 ≤ d.points ∧ Swept g (head s) (head d.mean) q ∧
      NDT.LooksThrough M D c s d.mean) →
    cleared (cellI eig) g s q (some c) cells = .ok o' → ∃ c', o' = some c' ∧ c'.gaussian = false := by
  have keep : ∀ (cells : List NDT.Cell) {c : NDT.Cell} {o' : Option NDT.Cell}, c.gaussian = false →
      cleared (cellI eig) g s q (some c) cells = .ok o' → ∃ c', o' = some c' ∧ c'.gaussian = false := by
    intro cells c o' hc h
    rw [cleared_free cells (some c) (by exact hc)] at h
    have h := Res.ok.inj h
    split_ifs at h
    · exact ⟨_, h.symm, hc⟩
    · exact ⟨_, h.symm, hc⟩
  intro cells
  induction cells with
  | nil => rintro c o' - ⟨d, hd, -⟩; cases hd
  | cons a cells ih =>
    rintro c o' hr ⟨d, hd, hdg, hdp, hds, hdl⟩ h
    unfold cleared at h
    by_cases ha : a.gaussian = true ∧ Swept g (head s) (head a.mean) q
    · rw [if_pos (by exact ha)] at h
      obtain ⟨c1, h1, h2⟩ := Res.bind_eq_ok.1 h
      have h1 : NDT.rayUpdate c s a.mean a.points = .ok c1 := h1
      have hr1 : NDT.Reach eig NDT.properRay c1 := .ray _ _ _ hr (swept_ne ha.2) h1
      rcases List.mem_cons.1 hd with rfl | hd
      · obtain ⟨c', k1, k2⟩ := NDT.C177_once he hr hM0 hM hD hdl hdp
        rw [h1] at k1
        cases k1
        exact keep _ k2 h2
      · obtain ⟨e1, e2, -⟩ := NDT.ray_place h1
        exact ih hr1 ⟨d, hd, hdg, hdp, hds, hdl.same e1 e2⟩ h2
    · rw [if_neg (by exact ha)] at h
      rcases List.mem_cons.1 hd with rfl | hd
      · exact absurd ⟨hdg, hds⟩ ha
      · exact ih hr ⟨d, hd, hdg, hdp, hds, hdl⟩ h

/-! ### C177 -/

/-- **C177**, maps: let the cell of square `q` of the map have any history.  If a merged map has a Gaussian behind the
square, in sight from its origin, and the line to it comes within half a standard deviation of the mean of the cell,
then after the merge the square holds no Gaussian (unless the merged map has one there itself). -/
theorem C177_map_partial {eig : NDT.Eig} (he : NDT.EigOk eig) {b b' : Bool} {n g n' : Map}
    (hn : Built eig b n) (hg : Built eig b' g) {resize : Bool}
    (hoff : ∀ c ∈ gaussians g, ∀ p, toWorld (origin n) p = worldPos g c → OffLines n.grid.cellSize p)
    (hs : ∀ s, toWorld (origin n) s = (g.ox, g.oy) → OffLines n.grid.cellSize s ∧
      ∀ c ∈ gaussians g, ∀ p, toWorld (origin n) p = worldPos g c → RayLength n.grid.cellSize s p)
    (h : mergeGridTraced eig n g true resize = .ok n') (q : ℤ × ℤ)
    (hq : ∀ c ∈ gaussians g, ∀ p, toWorld (origin n) p = worldPos g c → squareOf n.grid.cellSize p ≠ q)
    {c d : NDT.Cell} (hc : content n.grid q = some c) (hd : d ∈ gaussians g) (hsee : InSight n g d q)
    {M D : ℝ} (hM0 : 0 ≤ M) (hM : M ≤ 1 / 4) (hD : 1 / 10 ≤ D)
    (hl : ∀ s p, toWorld (origin n) s = (g.ox, g.oy) → toWorld (origin n) p = worldPos g d →
      NDT.LooksThrough M D c ![s.1, s.2, 0] ![p.1, p.2, d.mean 2]) :
    ∃ c', content n'.grid q = some c' ∧ c'.gaussian = false := by
  have hi := hn.inv he
  have gi := hg.inv he
  obtain ⟨d1, d2⟩ := merge_data he gi hoff hs
  unfold mergeGridTraced at h
  simp only [if_true] at h
  have hq' : ∀ c ∈ transformCells eig (transBtwFrames (origin g) (origin n)) (getValidCells g.grid),
      (cellI eig).gaussian c = true → squareOfMean (cellI eig) n.grid.cellSize c ≠ q := by
    intro c' hc' hgc he'
    obtain ⟨c, hc, rfl⟩ := List.mem_map.1 hc'
    rw [show (cellI eig).gaussian _ = _ from (transformCell_spec he _ (gi.ginv c hc)).2.1] at hgc
    exact hq c (mem_gaussians.2 ⟨hc, hgc⟩) _ (transformCell_place he (gi.ginv c hc) hgc) he'
  obtain ⟨hdv, hdg⟩ := mem_gaussians.1 hd
  have hgi := gi.ginv d hdv
  set tr := transBtwFrames (origin g) (origin n) with htr
  have hmain : cleared (cellI eig) n.grid ![(act tr (0, 0)).1, (act tr (0, 0)).2, 0] q (content n.grid q)
      (transformCells eig tr (getValidCells g.grid)) = .ok (content n'.grid q) :=
    (C135_merge_partial (cell_lawful eig) hi.wf hi.cs d1 d2 h q hq').1
  rw [hc] at hmain
  obtain ⟨-, t2, -, t4⟩ := transformCell_spec he tr hgi
  obtain ⟨t5, -, t6, -⟩ := t4 hdg
  refine cleared_through he hM0 hM hD _ ((hn.hist he).hist c ((mem_validCells hi.wf c).2 ⟨q, hc⟩))
    ⟨transformCell eig tr d, List.mem_map_of_mem hdv, t2.trans hdg, ?_, ?_, ?_⟩ hmain
  · rw [t6]; exact (hgi hdg).2.2.1
  · exact (inSight_iff (n := n) (g := g) he hgi hdg q).2 hsee
  · have hl' := hl _ (head (transformCell eig tr d).mean) (start_world n g) (transformCell_place he hgi hdg)
    have e2 : (transformCell eig tr d).mean 2 = d.mean 2 := by
      rw [t5]
      simp [rotZ, dotProduct, Fin.sum_univ_three]
    have e3 : (![(head (transformCell eig tr d).mean).1, (head (transformCell eig tr d).mean).2, d.mean 2] : NDT.Vec) =
        (transformCell eig tr d).mean := by
      rw [← e2]
      ext i
      fin_cases i <;> rfl
    rw [e3] at hl'
    exact hl'

/-- A map with a Gaussian of 400 points at its centre, and a merged map at the same place with a Gaussian three cells
away: the first is removed. -/
example : ∃ eig, NDT.EigOk eig ∧ ∃ n g n' c c', Built eig true n ∧ Built eig true g ∧
    mergeGridTraced eig n g true true = .ok n' ∧ content n.grid (0, 0) = some c ∧ c.gaussian = true ∧
    c.points = 400 ∧ content n'.grid (0, 0) = some c' ∧ c'.gaussian = false := by
  obtain ⟨eig, he⟩ := NDT.exists_eig
  obtain ⟨g, bg, og, cg, d, hd, hm⟩ := exMap he ⟨0, 0, 0⟩ 3
  obtain ⟨n, bn, on, cn, -, c, hc, hcm, hp, h0⟩ := exMap400 he ⟨0, 0, 0⟩
  have hw : worldPos g d = (3, 0) := by
    unfold worldPos
    rw [og, hm, toWorld_zero]
    simp
  have hgo : (g.ox, g.oy) = ((0 : ℝ), (0 : ℝ)) := by
    have h1 : g.ox = 0 := congrArg Slam.Pose.x og
    have h2 : g.oy = 0 := congrArg Slam.Pose.y og
    rw [h1, h2]
  have hoff3 : OffLines (1 : ℝ) (3, 0) := by
    have := off_zero ((3 : ℤ) : ℝ) (off_int 3)
    simpa using this
  have hoff0 : OffLines (1 : ℝ) (0, 0) := by
    have := off_zero ((0 : ℤ) : ℝ) (off_int 0)
    simpa using this
  have hoff : ∀ c ∈ gaussians g, ∀ p, toWorld (origin n) p = worldPos g c → OffLines n.grid.cellSize p := by
    intro c hc p hp
    rw [hd, List.mem_singleton] at hc
    subst hc
    rw [on, toWorld_zero, hw] at hp
    rw [hp, cn]
    exact hoff3
  have hs : ∀ s, toWorld (origin n) s = (g.ox, g.oy) → OffLines n.grid.cellSize s ∧
      ∀ c ∈ gaussians g, ∀ p, toWorld (origin n) p = worldPos g c → RayLength n.grid.cellSize s p := by
    intro s hs
    rw [on, toWorld_zero, hgo] at hs
    subst hs
    refine ⟨by rw [cn]; exact hoff0, fun c hc p hp => ?_⟩
    rw [hd, List.mem_singleton] at hc
    subst hc
    rw [on, toWorld_zero, hw] at hp
    subst hp
    rw [cn]
    unfold RayLength
    constructor <;> norm_num
  have hsq : squareOf (1 : ℝ) (0, 0) = (0, 0) := by
    unfold squareOf
    ext
    · simp only; rw [Int.floor_eq_iff]; norm_num
    · simp only; rw [Int.ceil_eq_iff]; norm_num
  obtain ⟨n', h'⟩ := C112_merge_traced_partial he bn bg true hoff hs
  obtain ⟨hcv, hcg⟩ := mem_gaussians.1 (show c ∈ gaussians n by rw [hc]; simp)
  have hext : InExtent n.grid (0, 0) := by
    by_contra hno
    rw [content_of_not_in hno] at h0
    cases h0
  obtain ⟨c', k1, k2⟩ := C177_map_partial he bn bg hoff hs h' (0, 0) (c := c) (d := d) (M := 0) (D := 1 / 10) (by
    intro c hc p hp
    rw [hd, List.mem_singleton] at hc
    subst hc
    rw [on, toWorld_zero, hw] at hp
    subst hp
    rw [cn]
    unfold squareOf
    intro h
    have h1 := congrArg Prod.fst h
    simp only at h1
    rw [Int.floor_eq_iff] at h1
    norm_num at h1) h0 (by rw [hd]; simp) (by
    refine ⟨(0, 0), (3, 0), by rw [on, toWorld_zero, hgo], by rw [on, toWorld_zero, hw], ?_, 0, ?_, Or.inl rfl, ?_⟩
    · rw [cn, hsq]; exact hext
    · rw [cn]
      have : (1 : ℤ) ≤ ⌊cellsBetween (1 : ℝ) (0, 0) (3, 0)⌋ := by
        rw [Int.le_floor]
        unfold cellsBetween
        norm_num
      have h2 : (1 : ℝ) ≤ ⌊cellsBetween (1 : ℝ) (0, 0) (3, 0)⌋ := by exact_mod_cast this
      simp only [Nat.cast_zero, zero_div]
      linarith
    · rw [cn]
      unfold halfStep
      simp only [Nat.cast_zero, zero_div, zero_mul, add_zero]
      exact hsq) le_rfl (by norm_num) le_rfl (by
    intro s p hs hp
    rw [on, toWorld_zero, hgo] at hs
    rw [on, toWorld_zero, hw] at hp
    subst hs
    subst hp
    have hz : d.mean 2 = 0 := by rw [hm]; rfl
    rw [hz]
    refine NDT.through_mean ((bn.inv he).ginv c hcv hcg).1 ?_ (-1) ?_ ?_
    · intro h
      have := congrFun h 0
      norm_num at this
    · rw [hcm]
      ext i
      fin_cases i <;> norm_num
    · rw [hcm]
      norm_num)
  exact ⟨eig, he, n, g, n', c, c', bn, bg, h', h0, hcg, hp, k1, k2⟩

end Verif.World
