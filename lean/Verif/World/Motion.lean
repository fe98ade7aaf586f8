import Verif.World.Merge

/-
Properties of `transform` and of the running window.
-/
namespace Verif.World

open Verif Verif.Voxel Verif.NDTGrid Verif.Geo Matrix

/-! ### Means and convex sets -/

theorem batchMean_mem {S : Set NDT.Vec} (hS : Convex ℝ S) : ∀ {l : List NDT.Vec}, l ≠ [] →
    (∀ p ∈ l, p ∈ S) → NDT.batchMean l ∈ S := by
  intro l
  induction l with
  | nil => intro h; exact absurd rfl h
  | cons p l ih =>
    intro _ h
    by_cases hl : l = []
    · subst hl
      have := h p List.mem_cons_self
      unfold NDT.batchMean
      simpa using this
    · have h1 := ih hl fun q hq => h q (List.mem_cons_of_mem _ hq)
      have hpos : (0 : ℝ) < l.length := by exact_mod_cast List.length_pos_iff.2 hl
      have e : NDT.batchMean (p :: l) =
          (1 / (l.length + 1 : ℝ)) • p + (l.length / (l.length + 1 : ℝ)) • NDT.batchMean l := by
        unfold NDT.batchMean
        rw [List.sum_cons, List.length_cons, smul_add, smul_smul]
        congr 2
        · push_cast; ring
        · push_cast; field_simp
      rw [e]
      exact hS (h p List.mem_cons_self) h1 (by positivity) (by positivity) (by field_simp; ring)

theorem merge_mem {eig : NDT.Eig} {S : Set NDT.Vec} (hS : Convex ℝ S) {o c : NDT.Cell} (ho : o.mean ∈ S)
    (hc : c.mean ∈ S) (hp : 0 < o.points) : (NDT.merge eig o c).mean ∈ S ∧ 0 < (NDT.merge eig o c).points := by
  unfold NDT.merge
  split_ifs with h1 h2 h3
  · exact ⟨ho, hp⟩
  · exact ⟨ho, hp⟩
  · have hm : (1 / ((c.points + o.points : ℕ) : ℝ)) • ((c.points : ℝ) • c.mean + (o.points : ℝ) • o.mean) ∈ S := by
      rw [smul_add, smul_smul, smul_smul]
      have h4 : (0 : ℝ) < ((c.points + o.points : ℕ) : ℝ) := by exact_mod_cast (by omega : 0 < c.points + o.points)
      refine hS hc ho (by positivity) (by positivity) ?_
      rw [← mul_add, ← Nat.cast_add, one_div, inv_mul_cancel₀ (ne_of_gt h4)]
    have hcap : 0 < NDT.cap (c.points + o.points) := by
      unfold NDT.cap NDT.maxPoints
      split_ifs <;> omega
    simp only
    split_ifs
    · exact ⟨hm, hcap⟩
    · exact ⟨hm, hcap⟩
  · exact ⟨hc, by show 0 < c.points; omega⟩

theorem convex_preimage {S : Set (ℝ × ℝ)} (hS : Convex ℝ S) {f : NDT.Vec → ℝ × ℝ}
    (hf : ∀ (a b : ℝ) (u v : NDT.Vec), a + b = 1 → f (a • u + b • v) = a • f u + b • f v) :
    Convex ℝ {v | f v ∈ S} := by
  intro u hu v hv a b ha hb hab
  show f (a • u + b • v) ∈ S
  rw [hf a b u v hab]
  exact hS hu hv ha hb hab

theorem toWorld_affine (o : Pose) (a b : ℝ) (p q : ℝ × ℝ) (h : a + b = 1) :
    toWorld o (a • p + b • q) = a • toWorld o p + b • toWorld o q := by
  unfold toWorld
  have hb : b = 1 - a := by linarith
  subst hb
  ext <;> simp <;> ring

theorem act_affine (t : Trans) (a b : ℝ) (p q : ℝ × ℝ) (h : a + b = 1) :
    act t (a • p + b • q) = a • act t p + b • act t q := by
  unfold act
  have hb : b = 1 - a := by linarith
  subst hb
  ext <;> simp <;> ring

theorem head_affine (a b : ℝ) (u v : NDT.Vec) : head (a • u + b • v) = a • head u + b • head v := by
  unfold head; ext <;> simp

/-! ### Scans -/

theorem atan2_zero_one : atan2 0 1 = 0 := Complex.arg_one

theorem transformCloud_one (ps : List NDT.Vec) : transformCloud 1 ps = ps := by
  unfold transformCloud
  simp only
  rw [linear4_convert, translation4_convert]
  have ha : getAngle (1 : Trans) = 0 := by
    unfold getAngle
    simp [atan2_zero_one]
  rw [ha, rotZ_zero]
  conv_rhs => rw [← List.map_id ps]
  apply List.map_congr_left
  intro p _
  rw [one_mulVec]
  funext i
  fin_cases i <;> simp

/-- `initialize` here and in the model without poses are the same. -/
theorem initializeMap_eq (eig : NDT.Eig) (n : Map) (ps : List NDT.Vec) :
    initializeMap eig n ps = initScan (cellI eig) n ps true := by
  have h1 : transBtwFrames (origin n) (origin n) = 1 := (C78_frames (origin n) (origin n) (origin n)).2.2.2.1
  unfold initializeMap mergeCloudTraced initScan
  simp only
  rw [show origin { n with grid := Voxel.clear n.grid } = origin n from rfl, h1, transformCloud_one]
  refine congrArg _ (funext fun g => ?_)
  unfold mergeGridTraced
  simp only [if_true]
  rw [show origin { n with grid := Voxel.clear n.grid } = origin n from rfl,
    show origin (setOrigin g (origin n)) = origin n from rfl, h1]
  have : act (1 : Trans) (0, 0) = (0, 0) := by unfold act; ext <;> simp
  rw [this]
  rfl

theorem initializeSimple_eq (eig : NDT.Eig) (n : Map) (ps : List NDT.Vec) :
    initializeSimple eig n ps = initScan (cellI eig) n ps false := by
  have h1 : transBtwFrames (origin n) (origin n) = 1 := (C78_frames (origin n) (origin n) (origin n)).2.2.2.1
  unfold initializeSimple mergeCloud initScan
  simp only
  rw [show origin { n with grid := Voxel.clear n.grid } = origin n from rfl, h1, transformCloud_one]
  rfl

theorem initScan_origin {eig : NDT.Eig} {n n' : Map} (hwf : WF n.grid) (hcs : 0 < n.grid.cellSize)
    {ps : List NDT.Vec} {traced : Bool} (h : initScan (cellI eig) n ps traced = .ok n') : origin n' = origin n := by
  unfold initScan at h
  obtain ⟨g, -, h⟩ := Res.bind_eq_ok.1 h
  cases traced with
  | false =>
    simp only [Bool.false_eq_true, if_false] at h
    obtain ⟨a1, a2, a3, -, -⟩ := mergeCells_frame (n := { n with grid := Voxel.clear n.grid }) (clear_wf hwf) hcs h
    exact origin_eq a1 a2 a3
  | true =>
    simp only [if_true] at h
    obtain ⟨g1, -, w1, c1, h⟩ :=
      mergeTraced_split (n := { n with grid := Voxel.clear n.grid }) (cell_lawful eig) (clear_wf hwf) h
    have hcs1 : 0 < g1.cellSize := by rw [c1]; exact hcs
    obtain ⟨a1, a2, a3, -, -⟩ := mergeCells_frame (n := { n with grid := g1 }) w1 hcs1 h
    exact origin_eq a1 a2 a3

/-- C74 for the calls themselves: after `initialize(cloud)` on any map, at any pose, the square `q` of the map
has a Gaussian exactly if at least six points of the cloud lie in it, with the mean and the number of these
points; the map keeps its pose. Missing: points on border lines of the squares. -/
theorem C74_initialize_partial {eig : NDT.Eig} (he : NDT.EigOk eig) {n n' : Map}
    (hwf : WF n.grid) (hcs : 0 < n.grid.cellSize) {ps : List NDT.Vec}
    (hp : ∀ p ∈ ps, OffLines n.grid.cellSize (head p)) (h : initializeMap eig n ps = .ok n') :
    origin n' = origin n ∧ ∀ q : ℤ × ℤ,
    ((∃ c, content n'.grid q = some c ∧ c.gaussian = true) ↔
      6 ≤ (ps.filter fun p => squareOf n.grid.cellSize (head p) = q).length) ∧
    ∀ c, content n'.grid q = some c → c.gaussian = true →
      c.mean = NDT.sampleMean (ps.filter fun p => squareOf n.grid.cellSize (head p) = q) ∧
      c.points = (ps.filter fun p => squareOf n.grid.cellSize (head p) = q).length := by
  rw [initializeMap_eq] at h
  exact ⟨initScan_origin hwf hcs h, C74_scan_ndt_partial he hwf hcs hp true h⟩

/-- C74 for `initializeSimple`, likewise. -/
theorem C74_initialize_simple_partial {eig : NDT.Eig} (he : NDT.EigOk eig) {n n' : Map}
    (hwf : WF n.grid) (hcs : 0 < n.grid.cellSize) {ps : List NDT.Vec}
    (hp : ∀ p ∈ ps, OffLines n.grid.cellSize (head p)) (h : initializeSimple eig n ps = .ok n') :
    origin n' = origin n ∧ ∀ q : ℤ × ℤ,
    ((∃ c, content n'.grid q = some c ∧ c.gaussian = true) ↔
      6 ≤ (ps.filter fun p => squareOf n.grid.cellSize (head p) = q).length) ∧
    ∀ c, content n'.grid q = some c → c.gaussian = true →
      c.mean = NDT.sampleMean (ps.filter fun p => squareOf n.grid.cellSize (head p) = q) ∧
      c.points = (ps.filter fun p => squareOf n.grid.cellSize (head p) = q).length := by
  rw [initializeSimple_eq] at h
  exact ⟨initScan_origin hwf hcs h, C74_scan_ndt_partial he hwf hcs hp false h⟩

theorem createGrid_mem {eig : NDT.Eig} {S : Set NDT.Vec} (hS : Convex ℝ S) {ox oy th cs : ℝ} (hcs : 0 < cs)
    {ps : List NDT.Vec} (hps : ∀ p ∈ ps, p ∈ S) {n : Map}
    (h : createGrid (cellI eig) ox oy th cs ps = .ok n) :
    ∀ c ∈ getValidCells n.grid, c.gaussian = true → c.mean ∈ S := by
  refine (createGrid_all (I := cellI eig) (Q := fun c => c.gaussian = false ∧ ∀ p ∈ c.pending, p ∈ S)
    (Q' := fun c => c.gaussian = true → c.mean ∈ S) ⟨rfl, fun p hp => absurd hp List.not_mem_nil⟩ ps ?_ ?_ hcs h).2.2.2.2.2.2
  · rintro c p hp ⟨h1, h2⟩
    refine ⟨h1, fun q hq => ?_⟩
    rcases List.mem_append.1 hq with hq | hq
    · exact h2 q hq
    · rw [List.mem_singleton] at hq
      rw [hq]; exact hps p hp
  · rintro c ⟨h1, h2⟩ hg
    change (NDT.computeGaussian eig c).gaussian = true at hg
    show (NDT.computeGaussian eig c).mean ∈ S
    unfold NDT.computeGaussian at hg ⊢
    simp only at hg ⊢
    split_ifs at hg ⊢ with a1 a2
    · refine batchMean_mem hS ?_ h2
      intro hnil
      rw [hnil] at a2
      simp at a2

theorem scan_mem {eig : NDT.Eig} (he : NDT.EigOk eig) {S : Set NDT.Vec} (hS : Convex ℝ S) {n n' : Map}
    (hi : MapInv n) {ps : List NDT.Vec} (hps : ∀ p ∈ ps, p ∈ S) (h : initializeMap eig n ps = .ok n') :
    MapInv n' ∧ origin n' = origin n ∧ n'.grid.cellSize = n.grid.cellSize ∧
    ∀ c ∈ gaussians n', c.mean ∈ S := by
  have hi' : MapInv n' := mergeCloudTraced_inv he (clearGrid_inv hi) h
  rw [initializeMap_eq] at h
  unfold initScan at h
  obtain ⟨g, h1, h⟩ := Res.bind_eq_ok.1 h
  simp only [if_true] at h
  obtain ⟨g1, ht, w1, c1, h⟩ := mergeTraced_split (cell_lawful eig) (clearGrid_inv hi).wf h
  have c1' : g1.cellSize = n.grid.cellSize := c1
  have hcs1 : 0 < g1.cellSize := by rw [c1']; exact hi.cs
  obtain ⟨a1, a2, a3, -, a5⟩ := mergeCells_frame (n := { n with grid := g1 }) w1 hcs1 h
  have a6 := (mergeCells_all (I := cellI eig) (Q := fun _ => True) (n := { n with grid := g1 })
    (fun _ _ _ _ => trivial) w1 hcs1 h (fun _ _ _ => trivial) (fun _ _ => trivial)).2.1
  refine ⟨hi', origin_eq a1 a2 a3, a6.trans c1', fun c hc => ?_⟩
  obtain ⟨hv, hg⟩ := mem_gaussians.1 hc
  rcases a5 (Or.inl rfl) c hv with h | ⟨h, -⟩
  · obtain ⟨d, hd, -⟩ := traceAll_same ht c h hg
    rw [show getValidCells _ = [] from (clear_stored hi.wf).2.2] at hd
    cases hd
  · exact createGrid_mem hS hi.cs hps h1 c h hg

/-! ### C105: `transform` -/

theorem onlyRotate_angle (t : Trans) :
    getAngle !![t 0 0, t 0 1, 0; t 1 0, t 1 1, 0; t 2 0, t 2 1, t 2 2] = getAngle t := rfl

theorem transform_origin {eig : NDT.Eig} {n n' : Map} {t : Trans} (h : transform eig n t = .ok n') :
    n'.ox = n.ox + t 0 2 ∧ n'.oy = n.oy + t 1 2 ∧ n'.th = normalizeAngle n.th := by
  obtain ⟨g, -, rfl⟩ := transform_split h
  refine ⟨?_, ?_, ?_⟩
  · simp [updateMeans, setOrigin, transformPose, getPoseFromTransform, origin]
  · simp [updateMeans, setOrigin, transformPose, getPoseFromTransform, origin]
  · simp [updateMeans, setOrigin, transformPose, getPoseFromTransform, origin, getAngle, atan2_zero_one]

theorem rotated_spec {eig : NDT.Eig} (he : NDT.EigOk eig) (t : Trans) {c : NDT.Cell} (hu : NDT.GInv c)
    (hg : c.gaussian = true) :
    (transformCell eig !![t 0 0, t 0 1, 0; t 1 0, t 1 1, 0; t 2 0, t 2 1, t 2 2] c).mean =
      (rotZ (getAngle t)).mulVec c.mean ∧
    (transformCell eig !![t 0 0, t 0 1, 0; t 1 0, t 1 1, 0; t 2 0, t 2 1, t 2 2] c).cov =
      rotZ (getAngle t) * c.cov * (rotZ (getAngle t)).transpose ∧
    (transformCell eig !![t 0 0, t 0 1, 0; t 1 0, t 1 1, 0; t 2 0, t 2 1, t 2 2] c).points = c.points := by
  obtain ⟨-, -, -, h⟩ := transformCell_spec he
    !![t 0 0, t 0 1, 0; t 1 0, t 1 1, 0; t 2 0, t 2 1, t 2 2] hu
  obtain ⟨h1, h2, h3, -⟩ := h hg
  rw [onlyRotate_angle] at h1 h2
  refine ⟨?_, h2, h3⟩
  rw [h1]
  funext i
  fin_cases i <;> simp

theorem transform_mem {eig : NDT.Eig} (he : NDT.EigOk eig) {S : Set NDT.Vec} (hS : Convex ℝ S) {n n' : Map}
    (hi : MapInv n) {t : Trans} (hps : ∀ c ∈ gaussians n, (rotZ (getAngle t)).mulVec c.mean ∈ S)
    (h : transform eig n t = .ok n') : ∀ c ∈ getValidCells n'.grid, c.mean ∈ S := by
  obtain ⟨g, h1, rfl⟩ := transform_split h
  have hc := clearGrid_inv hi
  have q := readd_all (Q := fun c => c.mean ∈ S ∧ 0 < c.points)
    (fun o c ho hc => merge_mem hS ho.1 hc.1 ho.2) hc.wf hc.cs h1
  refine fun c hc => ((q ?_ ?_).2.2 c hc).1
  · intro c hc' hg
    obtain ⟨d, hd, rfl⟩ := List.mem_map.1 hc'
    have hu := hi.ginv d hd
    rw [(transformCell_spec he _ hu).2.1] at hg
    obtain ⟨a1, -, a3⟩ := rotated_spec he t hu hg
    rw [a1, a3]
    have := (hu hg).2.2.1
    exact ⟨hps d (mem_gaussians.2 ⟨hd, hg⟩), by omega⟩
  · intro c hc'
    rw [show getValidCells _ = [] from (clear_stored hi.wf).2.2] at hc'
    cases hc'

theorem rotated_count {eig : NDT.Eig} (he : NDT.EigOk eig) {n : Map} (hi : MapInv n) (t : Trans) :
    ((transformCells eig t (getValidCells n.grid)).filter fun c => c.gaussian).length = (gaussians n).length := by
  unfold transformCells gaussians
  rw [List.filter_map, List.length_map]
  congr 1
  apply List.filter_congr
  intro c hc
  exact (transformCell_spec he t (hi.ginv c hc)).2.1

/-- If no Gaussians were fused, the new ones are the rotated old ones. -/
theorem transform_exact {eig : NDT.Eig} (he : NDT.EigOk eig) {n n' : Map} (hi : MapInv n) {t : Trans}
    (h : transform eig n t = .ok n') : (gaussians n').length ≤ (gaussians n).length ∧
    ((gaussians n').length = (gaussians n).length → ∀ c', c' ∈ gaussians n' ↔ ∃ c ∈ gaussians n,
      c' = transformCell eig !![t 0 0, t 0 1, 0; t 1 0, t 1 1, 0; t 2 0, t 2 1, t 2 2] c) := by
  obtain ⟨g, h1, rfl⟩ := transform_split h
  have hc := clearGrid_inv hi
  obtain ⟨b1, b2⟩ := readd_count hc.wf hc.cs h1
  rw [rotated_count he hi, show getValidCells _ = [] from (clear_stored hi.wf).2.2] at b1 b2
  simp only [List.length_nil, Nat.zero_add] at b1 b2
  generalize hx : updateMeans (cellI eig) (setOrigin { n with grid := g }
    (transformPose (origin n) !![1, 0, t 0 2; 0, 1, t 1 2; t 2 0, t 2 1, t 2 2])) = x
  have hxg : x.grid = g := by rw [← hx]; rfl
  have hle : (gaussians x).length ≤ (getValidCells g).length := by
    unfold gaussians
    rw [hxg]
    exact List.length_filter_le _ _
  refine ⟨hle.trans b1, fun he' c' => ?_⟩
  have b3 := b2 (by omega) c'
  rw [mem_gaussians, hxg, b3]
  constructor
  · rintro ⟨hv | ⟨hv, -⟩, hg⟩
    · cases hv
    · obtain ⟨c, hc', rfl⟩ := List.mem_map.1 hv
      rw [(transformCell_spec he _ (hi.ginv c hc')).2.1] at hg
      exact ⟨c, mem_gaussians.2 ⟨hc', hg⟩, rfl⟩
  · rintro ⟨c, hc', rfl⟩
    obtain ⟨h2, h3⟩ := mem_gaussians.1 hc'
    have e := ((transformCell_spec he !![t 0 0, t 0 1, 0; t 1 0, t 1 1, 0; t 2 0, t 2 1, t 2 2]
      (hi.ginv c h2)).2.1).trans h3
    exact ⟨Or.inr ⟨List.mem_map_of_mem h2, e⟩, e⟩

theorem act_rotate {t : Trans} (ht : IsRigid t) (v : NDT.Vec) :
    head ((rotZ (getAngle t)).mulVec v) = (t 0 0 * v 0 + t 0 1 * v 1, t 1 0 * v 0 + t 1 1 * v 1) := by
  obtain ⟨h1, h2, h3, -, -, -⟩ := (isRigid_iff t).1 ht
  obtain ⟨hc, hs⟩ := atan2_cos_sin h1
  unfold head
  ext <;> simp [rotZ, dotProduct, Fin.sum_univ_three, getAngle, hc, hs, h2, h3]

/-- The new position of a Gaussian in the world: turned in the frame of the map, then shifted by the
translation along the axes of the world. -/
theorem transform_pos {eig : NDT.Eig} {n n' : Map} {t : Trans} (ht : IsRigid t)
    (h : transform eig n t = .ok n') (v : NDT.Vec) :
    toWorld (origin n') (head ((rotZ (getAngle t)).mulVec v)) =
      ((toWorld (origin n) (t 0 0 * v 0 + t 0 1 * v 1, t 1 0 * v 0 + t 1 1 * v 1)).1 + t 0 2,
       (toWorld (origin n) (t 0 0 * v 0 + t 0 1 * v 1, t 1 0 * v 0 + t 1 1 * v 1)).2 + t 1 2) := by
  obtain ⟨o1, o2, o3⟩ := transform_origin h
  rw [act_rotate ht]
  unfold toWorld origin
  rw [o1, o2, o3, cos_normalizeAngle, sin_normalizeAngle]
  ext <;> simp only <;> ring

theorem transform_pos_zero {eig : NDT.Eig} {n n' : Map} {t : Trans} (ht : IsRigid t) (hth : n.th = 0)
    (h : transform eig n t = .ok n') (v : NDT.Vec) :
    toWorld (origin n') (head ((rotZ (getAngle t)).mulVec v)) = toWorld (origin n) (act t (v 0, v 1)) := by
  rw [transform_pos ht h]
  unfold toWorld origin act
  rw [hth]
  ext <;> simp <;> ring

/-- C105, for a map whose axes are parallel to those of the world: `transform(T)` leaves every Gaussian where
`T` (in the frame of the map) takes Gaussians of the map: all are within the convex hull of the images, and
if none were fused they are exactly the images, with turned covariances.
Missing: maps turned against the world (see the witnesses below). -/
theorem C105_transform_partial {eig : NDT.Eig} (he : NDT.EigOk eig) {b : Bool} {n n' : Map} (hn : Built eig b n)
    (hth : n.th = 0) {t : Trans} (ht : IsRigid t) (h : transform eig n t = .ok n') :
    (∀ c' ∈ gaussians n', worldPos n' c' ∈ convexHull ℝ
      {x | ∃ c ∈ gaussians n, x = toWorld (origin n) (act t (c.mean 0, c.mean 1))}) ∧
    ((gaussians n').length = (gaussians n).length →
      (∀ c' ∈ gaussians n', ∃ c ∈ gaussians n,
        worldPos n' c' = toWorld (origin n) (act t (c.mean 0, c.mean 1)) ∧ c'.mean 2 = c.mean 2 ∧
        worldCov n' c' = rotZ (getAngle t) * worldCov n c * (rotZ (getAngle t)).transpose ∧
        c'.points = c.points) ∧
      (∀ c ∈ gaussians n, ∃ c' ∈ gaussians n',
        worldPos n' c' = toWorld (origin n) (act t (c.mean 0, c.mean 1)) ∧ c'.mean 2 = c.mean 2 ∧
        worldCov n' c' = rotZ (getAngle t) * worldCov n c * (rotZ (getAngle t)).transpose ∧
        c'.points = c.points)) := by
  have hi := hn.inv he
  obtain ⟨-, -, o3⟩ := transform_origin h
  have hth' : n'.th = 0 := by
    rw [o3, hth]
    exact normalizeAngle_of_mem (by have := Real.pi_pos; linarith) (le_of_lt Real.pi_pos)
  have img : ∀ c ∈ gaussians n, ∀ c', c' = transformCell eig
      !![t 0 0, t 0 1, 0; t 1 0, t 1 1, 0; t 2 0, t 2 1, t 2 2] c →
      worldPos n' c' = toWorld (origin n) (act t (c.mean 0, c.mean 1)) ∧ c'.mean 2 = c.mean 2 ∧
        worldCov n' c' = rotZ (getAngle t) * worldCov n c * (rotZ (getAngle t)).transpose ∧
        c'.points = c.points := by
    rintro c hc c' rfl
    obtain ⟨hv, hg⟩ := mem_gaussians.1 hc
    obtain ⟨a1, a2, a3⟩ := rotated_spec he t (hi.ginv c hv) hg
    refine ⟨?_, ?_, ?_, a3⟩
    · show toWorld (origin n') (head _) = _
      rw [a1, transform_pos_zero ht hth h]
    · rw [a1]
      simp [rotZ, dotProduct, Fin.sum_univ_three]
    · unfold worldCov
      rw [a2, hth, hth', rotZ_zero]
      simp
  refine ⟨fun c' hc' => ?_, fun hlen => ⟨fun c' hc' => ?_, fun c hc => ?_⟩⟩
  · refine transform_mem he (S := {v | toWorld (origin n') (head v) ∈ convexHull ℝ
      {x | ∃ c ∈ gaussians n, x = toWorld (origin n) (act t (c.mean 0, c.mean 1))}}) ?_ hi ?_ h c'
      (mem_gaussians.1 hc').1
    · refine convex_preimage (f := fun v => toWorld (origin n') (head v)) (convex_convexHull ℝ _)
        fun a b u v hab => ?_
      rw [head_affine, toWorld_affine _ _ _ _ _ hab]
    · intro c hc
      apply subset_convexHull
      exact ⟨c, hc, transform_pos_zero ht hth h c.mean⟩
  · obtain ⟨c, hc, e⟩ := ((transform_exact he hi h).2 hlen c').1 hc'
    exact ⟨c, hc, img c hc c' e⟩
  · exact ⟨_, ((transform_exact he hi h).2 hlen _).2 ⟨c, hc, rfl⟩, img c hc _ rfl⟩

/-! ### C106: the running window -/

theorem shift_same {eig : NDT.Eig} {n n' : Map} (hth : n.th = 0) (hth' : n'.th = n.th) {c : NDT.Cell}
    (hg : c.gaussian = true) : (shiftCell (cellI eig) ![n.ox - n'.ox, n.oy - n'.oy, 0] c).gaussian = true ∧
    SameInWorld n c n' (shiftCell (cellI eig) ![n.ox - n'.ox, n.oy - n'.oy, 0] c) := by
  have e : shiftCell (cellI eig) ![n.ox - n'.ox, n.oy - n'.oy, 0] c =
      { c with mean := c.mean + ![n.ox - n'.ox, n.oy - n'.oy, 0] } := by
    unfold shiftCell
    rw [if_pos (show (cellI eig).gaussian c = true from hg)]
    rfl
  rw [e]
  refine ⟨hg, ?_, ?_, ?_, rfl⟩
  · unfold worldPos toWorld origin
    rw [hth', hth]
    ext <;> simp <;> ring
  · simp
  · unfold worldCov
    rw [hth']

theorem shift_gaussian {eig : NDT.Eig} {d : NDT.Vec} {c : NDT.Cell}
    (h : (shiftCell (cellI eig) d c).gaussian = true) : c.gaussian = true := by
  unfold shiftCell at h
  split_ifs at h with h1
  · exact h1
  · exact h

/-- Moving a map parallel to the world leaves its Gaussians where they are. -/
theorem move_world {eig : NDT.Eig} {n n' : Map} (hi : MapInv n) (hth : n.th = 0) {tx ty : ℝ} {r : ℝ × ℝ}
    (h : move (cellI eig) n tx ty = .ok (r, n')) :
    n'.th = n.th ∧ n'.ox + r.1 = n.ox + tx ∧ n'.oy + r.2 = n.oy + ty ∧
    ∀ c' ∈ gaussians n', ∃ c ∈ gaussians n, SameInWorld n c n' c' := by
  have hth' : n'.th = n.th := (move_all (I := cellI eig) (Q := fun _ => True) (Q' := fun _ => True) hi.wf hi.cs h
    (fun _ _ => trivial) (fun _ _ _ => trivial) (fun _ _ => trivial)).2.2.1
  have q := move_all (I := cellI eig) (Q := fun c => c ∈ getValidCells n.grid)
    (Q' := fun c' => c'.gaussian = true → ∃ c ∈ gaussians n, SameInWorld n c n' c') hi.wf hi.cs h
  have q1 : ∀ c ∈ getValidCells n.grid,
      (shiftCell (cellI eig) ![n.ox - n'.ox, n.oy - n'.oy, 0] c).gaussian = true →
      ∃ d ∈ gaussians n, SameInWorld n d n' (shiftCell (cellI eig) ![n.ox - n'.ox, n.oy - n'.oy, 0] c) := by
    intro c hc hg
    have hg' := shift_gaussian hg
    exact ⟨c, mem_gaussians.2 ⟨hc, hg'⟩, (shift_same hth hth' hg').2⟩
  have q2 : n' = n → ∀ c ∈ getValidCells n.grid, c.gaussian = true →
      ∃ d ∈ gaussians n, SameInWorld n d n' c := by
    rintro rfl c hc hg
    exact ⟨c, mem_gaussians.2 ⟨hc, hg⟩, SameInWorld.refl _ _⟩
  obtain ⟨-, -, -, h1, h2, -, q⟩ := q q1 q2 (fun c hc => hc)
  refine ⟨hth', h1, h2, fun c' hc' => ?_⟩
  obtain ⟨hv, hg⟩ := mem_gaussians.1 hc'
  exact q c' hv hg

/-- C106: one step of the running window.  The pose of the robot (the pose of the window times the
accumulated position) is the one the matcher found; the window keeps its orientation; every Gaussian of the
new window is an old one that did not move in the world, or lies in the convex hull of the scan as seen from
the pose the matcher found. -/
theorem C106_window {eig : NDT.Eig} (he : NDT.EigOk eig) {b : Bool} {cs : ℝ} (hcs : 0 < cs) {w w' : Map}
    (hw : Built eig b w) (hth : w.th = 0) {ps : List NDT.Vec} {reg cumul : Trans} (hr : IsRigid reg)
    (h : updateWindow eig cs w ps reg = .ok (cumul, w')) :
    getTransFromPose (origin w') * cumul = getTransFromPose (origin w) * reg ∧ w'.th = 0 ∧
    Built eig true w' ∧
    ∀ c' ∈ gaussians w', (∃ c ∈ gaussians w, SameInWorld w c w' c') ∨
      worldPos w' c' ∈ convexHull ℝ {x | ∃ p ∈ ps, x = toWorld (origin w) (act reg (p 0, p 1))} := by
  have hi := hw.inv he
  unfold updateWindow at h
  simp only at h
  obtain ⟨s0, h0, h⟩ := Res.bind_eq_ok.1 h
  obtain ⟨s1, h1, h⟩ := Res.bind_eq_ok.1 h
  obtain ⟨w1, h2, h⟩ := Res.bind_eq_ok.1 h
  obtain ⟨⟨r, w2⟩, h3, h⟩ := Res.bind_eq_ok.1 h
  have he' := Res.ok.inj h
  obtain ⟨e1, e2⟩ := Prod.mk.inj he'
  simp only at e2
  subst e2
  have bempty : Built eig true (setOrigin (NDTGrid.init (cellI eig) 0 0 0 cs) (origin w)) :=
    Built.setOrigin _ (Built.init 0 0 0 hcs)
  have bs0 : Built eig true s0 := .«initialize» ps bempty h0
  have bs1 : Built eig true s1 := .transform reg bs0 h1
  have bw1 : Built eig true w1 := .mergeGridTraced true true hw bs1 h2
  have bw2 : Built eig true w2 := .move _ _ bw1 h3
  have hi1 := bw1.inv he
  obtain ⟨o1, s1s⟩ := mergeTraced_sound he hi (bs1.inv he) (Or.inl rfl) h2
  have hth1 : w1.th = 0 := by rw [show w1.th = w.th from congrArg Slam.Pose.th o1, hth]
  obtain ⟨m1, m2, m3, m4⟩ := move_world hi1 hth1 h3
  have hth2 : w2.th = 0 := m1.trans hth1
  have ox1 : w1.ox = w.ox := congrArg Slam.Pose.x o1
  have oy1 : w1.oy = w.oy := congrArg Slam.Pose.y o1
  refine ⟨?_, hth2, bw2, ?_⟩
  · rw [← e1]
    rw [ox1] at m2
    rw [oy1] at m3
    obtain ⟨-, -, -, g1, g2, g3⟩ := (isRigid_iff reg).1 hr
    unfold getTransFromPose origin
    rw [hth2, hth]
    apply mat_ext <;>
      simp [Matrix.mul_apply, Fin.sum_univ_three, g1, g2, g3] <;> linarith
  · intro c' hc'
    obtain ⟨c1, hc1, sc1⟩ := m4 c' hc'
    rcases s1s c1 hc1 with ⟨c, hc, sc⟩ | ⟨c, hc, sc⟩
    · exact Or.inl ⟨c, hc, sc.trans sc1⟩
    · right
      rw [(sc.trans sc1).pos]
      have io : ∀ S : Set NDT.Vec, Convex ℝ S → (∀ p ∈ ps, p ∈ S) → ∀ c ∈ gaussians s0, c.mean ∈ S :=
        fun S hS hps => (scan_mem he hS (bempty.inv he) hps h0).2.2.2
      have os0 : origin s0 = origin w :=
        (scan_mem he convex_univ (bempty.inv he) (fun _ _ => Set.mem_univ _) h0).2.1
      have hth0 : s0.th = 0 := by rw [show s0.th = w.th from congrArg Slam.Pose.th os0, hth]
      have hull : convexHull ℝ {x | ∃ c ∈ gaussians s0, x = toWorld (origin s0) (act reg (c.mean 0, c.mean 1))} ⊆
          convexHull ℝ {x | ∃ p ∈ ps, x = toWorld (origin w) (act reg (p 0, p 1))} := by
        apply convexHull_min _ (convex_convexHull ℝ _)
        rintro x ⟨d, hd, rfl⟩
        rw [os0]
        refine io {v | toWorld (origin w) (act reg (head v)) ∈
          convexHull ℝ {x | ∃ p ∈ ps, x = toWorld (origin w) (act reg (p 0, p 1))}} ?_ ?_ d hd
        · refine convex_preimage (f := fun v => toWorld (origin w) (act reg (head v)))
            (convex_convexHull ℝ _) fun a b u v hab => ?_
          rw [head_affine, act_affine _ _ _ _ _ hab, toWorld_affine _ _ _ _ _ hab]
        · intro p hp
          exact subset_convexHull ℝ _ ⟨p, hp, rfl⟩
      exact hull ((C105_transform_partial he bs0 hth0 hr h1).1 c hc)

end Verif.World
