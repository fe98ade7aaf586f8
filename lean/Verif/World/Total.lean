import Verif.World.Motion

/-
C112: when building a map is free of undefined behaviour.
-/
namespace Verif.World

open Verif Verif.Voxel Verif.NDTGrid Verif.Geo Matrix

/-- The end of a ray is neither too close to its start nor absurdly far: between 1 and 2^63 cells. -/
def RayLength (cs : ℝ) (s e : ℝ × ℝ) : Prop :=
  cs ≤ max |e.1 - s.1| |e.2 - s.2| ∧ max |e.1 - s.1| |e.2 - s.2| < 2 ^ 63 * cs

theorem OffLines.notEdge {g : Grid ℝ NDT.Cell} {p : ℝ × ℝ} (h : OffLines g.cellSize p) : ¬ OnEdge g p := by
  rintro (hk | hk)
  · exact h.1 g.right (by rw [hk]; push_cast; ring)
  · exact h.2 (-(g.down + 1)) (by rw [hk]; push_cast; ring)

/-- A ray update of a cell in order. -/
theorem ray_total {c : NDT.Cell} (h : NDT.GInv c) {s e : NDT.Vec} (hne : s ≠ e) (k : ℕ) :
    ∃ c', NDT.rayUpdate c s e k = .ok c' := by
  unfold NDT.rayUpdate
  split_ifs with h1 h2
  · exact ⟨_, rfl⟩
  · exact ⟨_, rfl⟩
  · obtain ⟨a1, a2, -⟩ := h (by simpa using h1)
    obtain ⟨lik, pt, hl, -⟩ := NDT.lineLik_ok a1 a2 hne
    rw [hl]
    exact ⟨_, rfl⟩

theorem updateRay_total {eig : NDT.Eig} {s e : NDT.Vec} (hne : s ≠ e) (k : ℕ) : ∀ (is : List ℕ)
    (l : List (Option NDT.Cell)), (∀ i ∈ is, (slot l i).isSome) → (∀ c ∈ l.filterMap id, NDT.GInv c) →
    ∃ l', updateRay (cellI eig) s e k is l = .ok l' := by
  intro is
  induction is with
  | nil => intro l _ _; exact ⟨l, rfl⟩
  | cons i is ih =>
    intro l hs hq
    obtain ⟨c, hc⟩ := Option.isSome_iff_exists.1 (hs i List.mem_cons_self)
    have hi : i < l.length := by
      by_contra hn
      rw [show slot l i = none from by simp [slot, List.getElem?_eq_none (not_lt.1 hn)]] at hc
      cases hc
    have hcm : c ∈ l.filterMap id := mem_valid_slot.2 ⟨i, hc⟩
    obtain ⟨c', hr⟩ := ray_total (hq c hcm) hne k
    obtain ⟨l', h'⟩ := ih (l.set i (some c')) (fun j hj => by
        rw [slot_set]
        split_ifs
        · rfl
        · exact hs j (List.mem_cons_of_mem _ hj))
      (fun d hd => by
        rcases (set_some hi hc c').2.2.2 d hd with h | rfl
        · exact hq d h
        · exact NDT.ginv_ray (hq c hcm) hr)
    refine ⟨l', ?_⟩
    simp only [updateRay]
    rw [readSlot_lt hi, Res.bind_ok, hc]
    simp only
    rw [show (cellI eig).ray c s e k = .ok c' from hr, Res.bind_ok, writeSlot_lt hi, Res.bind_ok]
    exact h'

theorem traceAll_total {eig : NDT.Eig} {s : NDT.Vec} : ∀ (l : List NDT.Cell) (n : Map), MapInv n →
    (isInside n.grid (head s) = true → OffLines n.grid.cellSize (head s) ∧
      ∀ c ∈ l, c.gaussian = true → RayLength n.grid.cellSize (head s) (head c.mean)) →
    ∃ g, traceAll (cellI eig) s n.grid l = .ok g := by
  intro l
  induction l with
  | nil => intro n _ _; exact ⟨_, rfl⟩
  | cons c l ih =>
    intro n hi h
    by_cases hg : c.gaussian = true
    · obtain ⟨vis, g1, hr, hsub⟩ : ∃ vis g1, rayTrace (cellI eig).toCellOps n.grid (head s) (head c.mean)
          = .ok (vis, g1) ∧ (vis ≠ [] → s ≠ c.mean) := by
        by_cases hin : isInside n.grid (head s) = true
        · obtain ⟨h1, h2⟩ := h hin
          obtain ⟨h3, h4⟩ := h2 c List.mem_cons_self hg
          obtain ⟨vis, g1, hr, -⟩ := (C10_ray_confined_partial (cellI eig).toCellOps hi.wf hi.cs (head s)
            (head c.mean)).2 hin (OffLines.notEdge h1) h3 h4
          refine ⟨vis, g1, hr, fun _ he => ?_⟩
          rw [he] at h3
          simp only [sub_self, abs_zero, max_self] at h3
          exact absurd hi.cs (not_lt.2 h3)
        · exact ⟨[], n.grid, (C10_ray_confined_partial (cellI eig).toCellOps hi.wf hi.cs (head s)
            (head c.mean)).1 (by simpa using hin), fun h => absurd rfl h⟩
      obtain ⟨cells, hu⟩ : ∃ cells, updateRay (cellI eig) s c.mean c.points vis g1.cells = .ok cells := by
        cases hv : vis with
        | nil => exact ⟨_, rfl⟩
        | cons i is =>
          rw [← hv]
          refine updateRay_total (hsub (by rw [hv]; simp)) _ _ _ (C11_ray_preserves _ _ _ _ _ _ hr).2.2.2.2.2.2.2 ?_
          obtain ⟨cells1, e1, e2, e3, e4⟩ := rayTrace_rel hr
          rw [show g1 = { n.grid with cells := cells1 } from e1]
          intro d hd'
          obtain ⟨i, hi'⟩ := mem_valid_slot.1 hd'
          cases hs : slot n.grid.cells i with
          | none => rw [e4 i d hs hi']; exact NDT.ginv_of_not rfl
          | some y =>
            have := e3 i y hs
            rw [show slot cells1 i = some d from hi'] at this
            cases this
            exact hi.ginv d (mem_valid_slot.2 ⟨i, hs⟩)
      have hone : traceAll (cellI eig) s n.grid [c] = .ok { g1 with cells := cells } := by
        unfold traceAll
        rw [if_pos (by exact hg), show rayTrace (cellI eig).toCellOps n.grid (head s) (head ((cellI eig).mean c))
          = .ok (vis, g1) from hr, Res.bind_ok]
        simp only
        rw [show updateRay (cellI eig) s ((cellI eig).mean c) ((cellI eig).points c) vis g1.cells = .ok cells from hu,
          Res.bind_ok]
        rfl
      obtain ⟨hb, -, -⟩ := traceAll_traced (cell_lawful eig) hone
      obtain ⟨g, h'⟩ := ih { n with grid := { g1 with cells := cells } } (traceAll_inv hi hone) (by
        intro hin
        have hin' : isInside n.grid (head s) = true := by
          have e := hb.isInside (head s)
          rw [← e]; exact hin
        obtain ⟨h1, h2⟩ := h hin'
        have ec : g1.cellSize = n.grid.cellSize := hb.cs
        simp only [ec]
        exact ⟨h1, fun d hd => h2 d (List.mem_cons_of_mem _ hd)⟩)
      refine ⟨g, ?_⟩
      unfold traceAll
      rw [if_pos (by exact hg), show rayTrace (cellI eig).toCellOps n.grid (head s) (head ((cellI eig).mean c))
          = .ok (vis, g1) from hr, Res.bind_ok]
      simp only
      rw [show updateRay (cellI eig) s ((cellI eig).mean c) ((cellI eig).points c) vis g1.cells = .ok cells from hu,
          Res.bind_ok]
      exact h'
    · obtain ⟨g, h'⟩ := ih n hi fun hin => ⟨(h hin).1, fun d hd => (h hin).2 d (List.mem_cons_of_mem _ hd)⟩
      refine ⟨g, ?_⟩
      unfold traceAll
      rw [if_neg (by exact hg)]
      exact h'

theorem mergeCells_total {eig : NDT.Eig} {n : Map} (hwf : WF n.grid) (hcs : 0 < n.grid.cellSize) {l : List NDT.Cell}
    (resize : Bool) (h : ∀ c ∈ l, c.gaussian = true → OffLines n.grid.cellSize (head c.mean)) :
    ∃ n', mergeCells (cellI eig) n l resize = .ok n' := by
  by_cases hr : resize = true ∨ n.initialized = false
  · obtain ⟨g, h', -⟩ := mergeCells_resize (cellI eig) hwf hcs l resize hr fun c hc hg => (h c hc hg).notOpen
    exact ⟨_, h'⟩
  · push Not at hr
    have h1 : resize = false := by simpa using hr.1
    subst h1
    obtain ⟨g, h', -⟩ := mergeCells_noresize (cellI eig) hwf hcs l (by simpa using hr.2)
      fun c hc hg _ => (h c hc hg).notOpen
    exact ⟨_, h'⟩

theorem mergeTraced_total {eig : NDT.Eig} {n : Map} (hi : MapInv n) {sx sy : ℝ} {l : List NDT.Cell} (resize : Bool)
    (h : ∀ c ∈ l, c.gaussian = true → OffLines n.grid.cellSize (head c.mean))
    (hr : isInside n.grid (sx, sy) = true → OffLines n.grid.cellSize (sx, sy) ∧
      ∀ c ∈ l, c.gaussian = true → RayLength n.grid.cellSize (sx, sy) (head c.mean)) :
    ∃ n', mergeTraced (cellI eig) n sx sy l resize = .ok n' := by
  obtain ⟨g, hg⟩ := traceAll_total (eig := eig) (s := ![sx, sy, 0]) l n hi hr
  have hi' := traceAll_inv hi hg
  obtain ⟨hb, -, -⟩ := traceAll_traced (cell_lawful eig) hg
  obtain ⟨n', h'⟩ := mergeCells_total (eig := eig) (n := { n with grid := g }) hi'.wf hi'.cs (l := l) resize
    (fun c hc hgc => by
      show OffLines g.cellSize _
      rw [hb.cs]; exact h c hc hgc)
  refine ⟨n', ?_⟩
  unfold mergeTraced
  rw [hg, Res.bind_ok]
  exact h'

theorem off_origin {cs : ℝ} (hcs : 0 < cs) : OffLines cs (0, 0) := by
  have : ∀ k : ℤ, (0 : ℝ) ≠ ((k : ℝ) + 1 / 2) * cs := by
    intro k hk
    have h1 : (k : ℝ) + 1 / 2 = 0 := by
      rcases mul_eq_zero.1 hk.symm with h | h
      · exact h
      · exact absurd h hcs.ne'
    have h2 : (2 * k + 1 : ℝ) = 0 := by linarith
    have : 2 * k + 1 = 0 := by exact_mod_cast h2
    omega
  exact ⟨this, this⟩

/-! ### C112 -/

/-- Merging a map is safe unless a Gaussian falls on a border line. -/
theorem C112_merge_partial {eig : NDT.Eig} (he : NDT.EigOk eig) {b b' : Bool} {n g : Map} (hn : Built eig b n)
    (hg : Built eig b' g) (resize : Bool)
    (hoff : ∀ c ∈ gaussians g, ∀ p, toWorld (origin n) p = worldPos g c → OffLines n.grid.cellSize p) :
    ∃ n', mergeGrid eig n g true resize = .ok n' := by
  have hi := hn.inv he
  have gi := hg.inv he
  unfold mergeGrid
  simp only [if_true]
  apply mergeCells_total hi.wf hi.cs
  intro c' hc' hgc
  obtain ⟨c, hc, rfl⟩ := List.mem_map.1 hc'
  rw [(transformCell_spec he _ (gi.ginv c hc)).2.1] at hgc
  exact hoff c (mem_gaussians.2 ⟨hc, hgc⟩) _ (transformCell_place he (gi.ginv c hc) hgc)

theorem mergeGridTraced_total {eig : NDT.Eig} (he : NDT.EigOk eig) {n g : Map}
    (hi : MapInv n) (gi : MapInv g) (resize : Bool)
    (hoff : ∀ c ∈ gaussians g, ∀ p, toWorld (origin n) p = worldPos g c → OffLines n.grid.cellSize p)
    (hs : ∀ s, toWorld (origin n) s = (g.ox, g.oy) → OffLines n.grid.cellSize s ∧
      ∀ c ∈ gaussians g, ∀ p, toWorld (origin n) p = worldPos g c → RayLength n.grid.cellSize s p) :
    ∃ n', mergeGridTraced eig n g true resize = .ok n' := by
  have hst : toWorld (origin n) (act (transBtwFrames (origin g) (origin n)) (0, 0)) = (g.ox, g.oy) := by
    rw [(C78_frames (origin g) (origin n) (origin n)).1]
    unfold toWorld origin
    ext <;> simp
  obtain ⟨h1, h2⟩ := hs _ hst
  unfold mergeGridTraced
  simp only [if_true]
  apply mergeTraced_total hi
  · intro c' hc' hgc
    obtain ⟨c, hc, rfl⟩ := List.mem_map.1 hc'
    rw [(transformCell_spec he _ (gi.ginv c hc)).2.1] at hgc
    exact hoff c (mem_gaussians.2 ⟨hc, hgc⟩) _ (transformCell_place he (gi.ginv c hc) hgc)
  · intro _
    refine ⟨h1, fun c' hc' hgc => ?_⟩
    obtain ⟨c, hc, rfl⟩ := List.mem_map.1 hc'
    rw [(transformCell_spec he _ (gi.ginv c hc)).2.1] at hgc
    exact h2 c (mem_gaussians.2 ⟨hc, hgc⟩) _ (transformCell_place he (gi.ginv c hc) hgc)

/-- Merging a map with ray tracing is safe unless a Gaussian or the sensor falls on a border line or a Gaussian
is closer than one cell to the sensor. -/
theorem C112_merge_traced_partial {eig : NDT.Eig} (he : NDT.EigOk eig) {b b' : Bool} {n g : Map}
    (hn : Built eig b n) (hg : Built eig b' g) (resize : Bool)
    (hoff : ∀ c ∈ gaussians g, ∀ p, toWorld (origin n) p = worldPos g c → OffLines n.grid.cellSize p)
    (hs : ∀ s, toWorld (origin n) s = (g.ox, g.oy) → OffLines n.grid.cellSize s ∧
      ∀ c ∈ gaussians g, ∀ p, toWorld (origin n) p = worldPos g c → RayLength n.grid.cellSize s p) :
    ∃ n', mergeGridTraced eig n g true resize = .ok n' :=
  mergeGridTraced_total he (hn.inv he) (hg.inv he) resize hoff hs

theorem readd_total {eig : NDT.Eig} : ∀ (l : List NDT.Cell) (g : Grid ℝ NDT.Cell), WF g → 0 < g.cellSize →
    (∀ c ∈ l, c.gaussian = true → OffLines g.cellSize (head c.mean)) → ∃ g', readd eig g l = .ok g' := by
  intro l
  induction l with
  | nil => intro g _ _ _; exact ⟨g, rfl⟩
  | cons c l ih =>
    intro g hwf hcs h
    simp only [readd]
    split_ifs with hg
    · obtain ⟨g1, h1, w1, c1, -⟩ := addCell_spec (cellI eig).toCellOps hwf hcs
        (h c List.mem_cons_self hg).notOpen c true
      obtain ⟨w2, c2, -⟩ := addCell_stored hwf hcs h1
      rw [h1, Res.bind_ok]
      apply ih g1 w2 (by rw [c2]; exact hcs)
      rw [c2]
      exact fun d hd => h d (List.mem_cons_of_mem _ hd)
    · exact ih g hwf hcs fun d hd => h d (List.mem_cons_of_mem _ hd)

/-- Transforming a map is safe unless a rotated Gaussian falls on a border line. -/
theorem C112_transform_partial {eig : NDT.Eig} (he : NDT.EigOk eig) {b : Bool} {n : Map} (hn : Built eig b n)
    {t : Trans} (hoff : ∀ c ∈ gaussians n, OffLines n.grid.cellSize
      (Real.cos (getAngle t) * c.mean 0 - Real.sin (getAngle t) * c.mean 1,
       Real.sin (getAngle t) * c.mean 0 + Real.cos (getAngle t) * c.mean 1)) :
    ∃ n', transform eig n t = .ok n' := by
  have hi := hn.inv he
  have hc := clearGrid_inv hi
  obtain ⟨g, h'⟩ := readd_total (eig := eig) (transformCells eig
    !![t 0 0, t 0 1, 0; t 1 0, t 1 1, 0; t 2 0, t 2 1, t 2 2] (getValidCells n.grid)) (Voxel.clear n.grid) hc.wf hc.cs
    (fun c' hc' hgc => by
      obtain ⟨c, hc, rfl⟩ := List.mem_map.1 hc'
      rw [(transformCell_spec he _ (hi.ginv c hc)).2.1] at hgc
      rw [(rotated_spec he t (hi.ginv c hc) hgc).1]
      have e : head ((rotZ (getAngle t)).mulVec c.mean) =
        (Real.cos (getAngle t) * c.mean 0 - Real.sin (getAngle t) * c.mean 1,
         Real.sin (getAngle t) * c.mean 0 + Real.cos (getAngle t) * c.mean 1) := by
        unfold head rotZ
        ext
        · simp [Matrix.mulVec, dotProduct, Fin.sum_univ_three]; ring
        · simp [Matrix.mulVec, dotProduct, Fin.sum_univ_three]
      rw [e]
      exact hoff c (mem_gaussians.2 ⟨hc, hgc⟩))
  unfold transform
  simp only
  rw [h']
  exact ⟨_, rfl⟩

/-- Moving a map is always safe. -/
theorem C112_move {eig : NDT.Eig} (he : NDT.EigOk eig) {b : Bool} {n : Map} (hn : Built eig b n) (tx ty : ℝ) :
    ∃ r, move (cellI eig) n tx ty = .ok r := by
  have hi := hn.inv he
  by_cases hth : |n.th| ≤ 1 / 10000000
  · obtain ⟨r', n1, mx, my, moved, h1, -⟩ := move_spec (cellI eig) hi.wf hi.cs hth tx ty
    exact ⟨_, h1⟩
  · unfold move
    rw [if_pos (not_le.1 hth)]
    exact ⟨_, rfl⟩

/-- Merging a scan made at the origin of the map. -/
theorem mergeScan_total {eig : NDT.Eig} (he : NDT.EigOk eig) {n : Map} (hi : MapInv n)
    {ps : List NDT.Vec} (hoff : ∀ p ∈ ps, OffLines n.grid.cellSize (p 0, p 1))
    (hfar : ∀ p ∈ ps, 2 ≤ |(squareOf n.grid.cellSize (p 0, p 1)).1| ∨ 2 ≤ |(squareOf n.grid.cellSize (p 0, p 1)).2|)
    (hnear : ∀ p ∈ ps, |(squareOf n.grid.cellSize (p 0, p 1)).1| < 2 ^ 63 ∧
      |(squareOf n.grid.cellSize (p 0, p 1)).2| < 2 ^ 63) :
    ∃ n', mergeCloudTraced eig n ps (origin n) true = .ok n' := by
  unfold mergeCloudTraced
  simp only
  rw [(C78_frames (origin n) (origin n) (origin n)).2.2.2.1, transformCloud_one]
  obtain ⟨scan, hscan, -⟩ := createGrid_spec (cellI eig) n.ox n.oy n.th hi.cs ps hoff
  obtain ⟨w, cs, hpl, ho, hcont⟩ := createGrid_placed (cell_scan he) hi.cs hoff hscan
  rw [hscan, Res.bind_ok]
  unfold mergeGridTraced
  simp only [Bool.false_eq_true, if_false]
  rw [show origin (setOrigin scan (origin n)) = origin n from rfl,
    (C78_frames (origin n) (origin n) (origin n)).2.2.2.1]
  have h0 : act (1 : Trans) (0, 0) = (0, 0) := by unfold act; ext <;> simp
  rw [h0]
  refine mergeTraced_total hi true ho fun _ => ⟨off_origin hi.cs, fun c hc hg => ?_⟩
  obtain ⟨q, hq⟩ := (mem_validCells w c).1 hc
  have hsq := hpl q c hq hg
  have hne : pointsIn n.grid.cellSize ps q ≠ [] := by
    intro h0
    have := hcont q
    rw [hq, h0] at this
    have hf : (cellOf (cellI eig) []).gaussian = false := by
      by_contra hn
      have := (cellOf_real he []).1.1 (by simpa using hn)
      simp at this
    have hg' : (cellI eig).gaussian c = true := hg
    have hf' : (cellI eig).gaussian (cellOf (cellI eig) []) = false := hf
    simp only [Option.filter, hg', hf', if_true, Bool.false_eq_true, if_false] at this
    cases this
  obtain ⟨p, hp⟩ := List.exists_mem_of_ne_nil _ hne
  obtain ⟨hp1, hp2⟩ := List.mem_filter.1 hp
  have hq' : squareOf n.grid.cellSize (p 0, p 1) = q := of_decide_eq_true hp2
  have f1 := hfar p hp1
  have f2 := hnear p hp1
  rw [hq'] at f1 f2
  unfold squareOfMean at hsq
  rw [cs, squareOf_iff hi.cs] at hsq
  have hm : head ((cellI eig).mean c) = (c.mean 0, c.mean 1) := rfl
  rw [hm] at hsq
  simp only at hsq
  obtain ⟨b1, b2, b3, b4⟩ := hsq
  obtain ⟨⟨l1, u1⟩, l2, u2⟩ := And.intro (abs_lt.1 f2.1) (abs_lt.1 f2.2)
  have l1' : (-(2 ^ 63 : ℝ) + 1) ≤ q.1 := by exact_mod_cast l1
  have u1' : (q.1 : ℝ) ≤ 2 ^ 63 - 1 := by
    have : q.1 ≤ 2 ^ 63 - 1 := by omega
    exact_mod_cast this
  have l2' : (-(2 ^ 63 : ℝ) + 1) ≤ q.2 := by exact_mod_cast l2
  have u2' : (q.2 : ℝ) ≤ 2 ^ 63 - 1 := by
    have : q.2 ≤ 2 ^ 63 - 1 := by omega
    exact_mod_cast this
  have hcs := hi.cs
  show RayLength n.grid.cellSize (0, 0) (c.mean 0, c.mean 1)
  unfold RayLength
  simp only [sub_zero]
  constructor
  · rcases f1 with h | h
    · refine le_trans ?_ (le_max_left _ _)
      rcases le_abs.1 h with h | h
      · have h' : (2 : ℝ) ≤ q.1 := by exact_mod_cast h
        refine le_trans ?_ (le_abs_self _)
        nlinarith
      · have h' : (2 : ℝ) ≤ -q.1 := by exact_mod_cast h
        refine le_trans ?_ (neg_le_abs _)
        nlinarith
    · refine le_trans ?_ (le_max_right _ _)
      rcases le_abs.1 h with h | h
      · have h' : (2 : ℝ) ≤ q.2 := by exact_mod_cast h
        refine le_trans ?_ (le_abs_self _)
        nlinarith
      · have h' : (2 : ℝ) ≤ -q.2 := by exact_mod_cast h
        refine le_trans ?_ (neg_le_abs _)
        nlinarith
  · apply max_lt <;> rw [abs_lt] <;> constructor <;> nlinarith

/-- Making a map from a scan is safe if the points are off the border lines and at least two squares away from
the square of the sensor. -/
theorem C112_initialize_partial {eig : NDT.Eig} (he : NDT.EigOk eig) {b : Bool} {n : Map} (hn : Built eig b n)
    {ps : List NDT.Vec} (hoff : ∀ p ∈ ps, OffLines n.grid.cellSize (p 0, p 1))
    (hfar : ∀ p ∈ ps, 2 ≤ |(squareOf n.grid.cellSize (p 0, p 1)).1| ∨ 2 ≤ |(squareOf n.grid.cellSize (p 0, p 1)).2|)
    (hnear : ∀ p ∈ ps, |(squareOf n.grid.cellSize (p 0, p 1)).1| < 2 ^ 63 ∧
      |(squareOf n.grid.cellSize (p 0, p 1)).2| < 2 ^ 63) :
    ∃ n', initializeMap eig n ps = .ok n' :=
  mergeScan_total he (clearGrid_inv (hn.inv he)) hoff hfar hnear

/-! ### Mapper -/

/-- A frame that a map with squares of 1/4 and its origin in the world origin can take. -/
def FrameOk (f : Map) : Prop :=
  OffLines (1 / 4) (f.ox, f.oy) ∧
    ∀ c ∈ gaussians f, OffLines (1 / 4) (worldPos f c) ∧ RayLength (1 / 4) (f.ox, f.oy) (worldPos f c)

theorem addToMap_total {eig : NDT.Eig} (he : NDT.EigOk eig) {m f : Map} (hm : MapInv m)
    (ho : origin m = ⟨0, 0, 0⟩) (hcs : m.grid.cellSize = 1 / 4) (hf : MapInv f) (h : FrameOk f) :
    ∃ m', addToMap eig m f = .ok m' := by
  refine mergeGridTraced_total he hm hf true ?_ ?_
  · intro c hc p hp
    rw [ho, toWorld_zero] at hp
    rw [hp, hcs]; exact (h.2 c hc).1
  · intro s hs
    rw [ho, toWorld_zero] at hs
    rw [hs, hcs]
    refine ⟨h.1, fun c hc p hp => ?_⟩
    rw [ho, toWorld_zero] at hp
    rw [hp]; exact (h.2 c hc).2

theorem addAll_total {eig : NDT.Eig} (he : NDT.EigOk eig) : ∀ (fs : List Map) (m : Map), MapInv m →
    origin m = ⟨0, 0, 0⟩ → m.grid.cellSize = 1 / 4 → (∀ f ∈ fs, MapInv f ∧ FrameOk f) →
    ∃ m', addAll eig m fs = .ok m' := by
  intro fs
  induction fs with
  | nil => intro m _ _ _ _; exact ⟨m, rfl⟩
  | cons f fs ih =>
    intro m hm ho hcs h
    obtain ⟨hf1, hf2⟩ := h f List.mem_cons_self
    obtain ⟨m1, h1⟩ := addToMap_total he hm ho hcs hf1 hf2
    obtain ⟨i1, o1, c1⟩ := addToMap_frame he hm hf1 h1
    unfold addAll
    rw [h1, Res.bind_ok]
    exact ih m1 i1 (o1.trans ho) (c1.trans hcs) fun f hf => h f (List.mem_cons_of_mem _ hf)

theorem addAll_frame {eig : NDT.Eig} (he : NDT.EigOk eig) : ∀ {fs : List Map} {m m' : Map}, MapInv m →
    (∀ f ∈ fs, MapInv f) → addAll eig m fs = .ok m' →
    origin m' = origin m ∧ m'.grid.cellSize = m.grid.cellSize := by
  intro fs
  induction fs with
  | nil => intro m m' _ _ h; cases h; exact ⟨rfl, rfl⟩
  | cons f fs ih =>
    intro m m' hm hf h
    unfold addAll at h
    obtain ⟨m1, h1, h⟩ := Res.bind_eq_ok.1 h
    obtain ⟨i1, o1, c1⟩ := addToMap_frame he hm (hf f List.mem_cons_self) h1
    obtain ⟨o2, c2⟩ := ih i1 (fun f h => hf f (List.mem_cons_of_mem _ h)) h
    exact ⟨o2.trans o1, c2.trans c1⟩

theorem execAll_frame {eig : NDT.Eig} (he : NDT.EigOk eig) {sort : List Map → List Map}
    (hsort : ∀ l, (sort l).Perm l) : ∀ {ops : List MapOp} {m m' : Mapper}, MapperInv m →
    (∀ o ∈ ops, o.Admissible eig) → MapOp.execAll eig sort m ops = .ok m' →
    origin m'.map = origin m.map ∧ m'.map.grid.cellSize = m.map.grid.cellSize := by
  intro ops
  induction ops with
  | nil => intro m m' _ _ h; cases h; exact ⟨rfl, rfl⟩
  | cons o os ih =>
    intro m m' hm ho h
    unfold MapOp.execAll at h
    obtain ⟨m1, h1, h⟩ := Res.bind_eq_ok.1 h
    have hi1 := exec_inv he hsort hm (ho o List.mem_cons_self) h1
    obtain ⟨o2, c2⟩ := ih hi1 (fun x hx => ho x (List.mem_cons_of_mem _ hx)) h
    have key : origin m1.map = origin m.map ∧ m1.map.grid.cellSize = m.map.grid.cellSize := by
      cases o with
      | add f t =>
        obtain ⟨b, hb⟩ := ho (.add f t) List.mem_cons_self
        obtain ⟨map, h2, h3⟩ := Res.bind_eq_ok.1 h1
        cases h3
        exact (addToMap_frame he hm.map (hb.inv he) h2).2
      | setOrigin i p => cases h1; exact ⟨rfl, rfl⟩
      | recalc =>
        obtain ⟨map, h2, h3⟩ := Res.bind_eq_ok.1 h1
        split_ifs at h3
        cases h3
        have hc : MapInv (NDTGrid.clear m.map) := by
          have := clearGrid_inv hm.map
          exact ⟨this.wf, this.cs, this.ginv⟩
        have := addAll_frame he hc (fun f hf => hm.frames f ((hsort _).mem_iff.1 hf)) h2
        exact ⟨this.1, this.2⟩
    exact ⟨o2.trans key.1, c2.trans key.2⟩

/-- C109, no frame is lost: after a recalculation, where a frame has a Gaussian and no frame merged later has one, the
map knows the square, and the Gaussian it has there, unless rays have erased it, is one of that frame; the frame merged
last is there in full.  (Gaussians exactly on border lines of the map are excluded.) -/
theorem C109_complete {eig : NDT.Eig} (he : NDT.EigOk eig) {sort : List Map → List Map}
    (hsort : ∀ l, (sort l).Perm l) {ops : List MapOp} (ho : ∀ o ∈ ops, o.Admissible eig) {m : Mapper}
    (h : MapOp.execAll eig sort (Mapper.init eig) (ops ++ [.recalc]) = .ok m)
    (hoff : ∀ f ∈ m.frames, ∀ c ∈ gaussians f, OffLines (1 / 4) (worldPos f c))
    {as bs : List Map} {f : Map} (hf : m.frames = as ++ f :: bs) {c : NDT.Cell} (hc : c ∈ gaussians f)
    (hlast : ∀ g ∈ bs, ∀ c' ∈ gaussians g, squareOf (1 / 4) (worldPos g c') ≠ squareOf (1 / 4) (worldPos f c)) :
    ∃ d, content m.map.grid (squareOf (1 / 4) (worldPos f c)) = some d ∧ (bs = [] → d.gaussian = true) ∧
      (d.gaussian = true → ∃ c2 ∈ gaussians f,
        squareOf (1 / 4) (worldPos f c2) = squareOf (1 / 4) (worldPos f c) ∧ SameInWorld f c2 m.map d) := by
  obtain ⟨m0, h0, h1⟩ := execAll_append h
  have hi := execAll_inv he hsort (mapperInit_inv eig) ho h0
  obtain ⟨o1, c1⟩ := execAll_frame he hsort (mapperInit_inv eig) ho h0
  obtain ⟨map, h2, h3⟩ := Res.bind_eq_ok.1 h1
  split_ifs at h3
  cases h3
  have hcl : MapInv (NDTGrid.clear m0.map) := by
    have := clearGrid_inv hi.map
    exact ⟨this.wf, this.cs, this.ginv⟩
  exact (addAll_complete he hcl o1 c1 (fun x hx => hi.frames x ((hsort _).mem_iff.1 hx)) hoff h2).2 as f bs hf c hc hlast

/-- C112 for the mapper: in every state, adding a frame and recalculating the map are safe if the frames
concerned are as required at their current poses (and there is at least one frame to recalculate from). -/
theorem C112_mapper_partial {eig : NDT.Eig} (he : NDT.EigOk eig) {sort : List Map → List Map}
    (hsort : ∀ l, (sort l).Perm l) {ops : List MapOp} (ho : ∀ o ∈ ops, o.Admissible eig) {m : Mapper}
    (h : MapOp.execAll eig sort (Mapper.init eig) ops = .ok m) :
    (∀ f t, (∃ b, Built eig b f) → FrameOk f → ∃ m', m.addFrame eig f t = .ok m') ∧
    (m.frames ≠ [] → (∀ f ∈ m.frames, FrameOk f) → ∃ m', m.recalc eig sort = .ok m') := by
  have hi := execAll_inv he hsort (mapperInit_inv eig) ho h
  obtain ⟨o1, c1⟩ := execAll_frame he hsort (mapperInit_inv eig) ho h
  constructor
  · rintro f t ⟨b, hb⟩ hf
    obtain ⟨m', h'⟩ := addToMap_total he hi.map o1 c1 (hb.inv he) hf
    unfold Mapper.addFrame
    rw [h']
    exact ⟨_, rfl⟩
  · intro hne hf
    have hc : MapInv (NDTGrid.clear m.map) := by
      have := clearGrid_inv hi.map
      exact ⟨this.wf, this.cs, this.ginv⟩
    obtain ⟨m', h'⟩ := addAll_total he (sort m.frames) (NDTGrid.clear m.map) hc o1 c1
      fun f h => ⟨hi.frames f ((hsort _).mem_iff.1 h), hf f ((hsort _).mem_iff.1 h)⟩
    unfold Mapper.recalc
    simp only
    rw [h', Res.bind_ok, if_neg (fun h0 => hne (by have := hsort m.frames; rw [h0] at this; exact this.symm.eq_nil))]
    exact ⟨_, rfl⟩

/-- C112 is false for a mapper without frames: recalculating its map dereferences a null pointer. -/
theorem C112_recalc_false (eig : NDT.Eig) {sort : List Map → List Map} (hsort : ∀ l, (sort l).Perm l) :
    (Mapper.init eig).recalc eig sort = .ub .nullDeref := by
  have h0 : sort (Mapper.init eig).frames = [] := (hsort _).eq_nil
  unfold Mapper.recalc
  simp only [h0, addAll, Res.bind_ok, if_true]

end Verif.World
