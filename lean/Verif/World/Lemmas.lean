import Verif.World.Spec
import Verif.World.Stored

/-
Helper lemmas on maps with poses.
-/
namespace Verif.World

open Verif Verif.Voxel Verif.NDTGrid Verif.Geo Matrix

/-! ### Rotations about the z axis -/

theorem rotZ_mul (a b : ℝ) : rotZ a * rotZ b = rotZ (a + b) := by
  apply mat_ext <;>
    simp [rotZ, Matrix.mul_apply, Fin.sum_univ_three, Real.cos_add, Real.sin_add] <;> ring

theorem rotZ_same {a b : ℝ} (h : SameAngle a b) : rotZ a = rotZ b := by
  unfold rotZ; rw [h.cos, h.sin]

theorem rotZ_zero : rotZ 0 = 1 := by
  apply mat_ext <;> simp [rotZ]

theorem rotZ_transpose (a : ℝ) : (rotZ a).transpose = rotZ (-a) := by
  apply mat_ext <;> simp [rotZ, Matrix.transpose_apply]

theorem rotZ_orth (a : ℝ) : rotZ a * (rotZ a).transpose = 1 := by
  rw [rotZ_transpose, rotZ_mul, add_neg_cancel, rotZ_zero]

theorem linear4_convert (t : Trans) : linear4 (convertFromTransform t) = rotZ (getAngle t) := by
  apply mat_ext <;> simp [linear4, convertFromTransform, planar4, rotZ, getPoseFromTransform]

theorem translation4_convert (t : Trans) : translation4 (convertFromTransform t) = ![t 0 2, t 1 2, 0] := by
  funext i
  fin_cases i <;> simp [translation4, convertFromTransform, planar4, getPoseFromTransform]

/-- The space transform made from a rigid planar transform acts on the first two coordinates like it. -/
theorem convert_act {t : Trans} (h : IsRigid t) (v : NDT.Vec) :
    head ((rotZ (getAngle t)).mulVec v + ![t 0 2, t 1 2, 0]) = act t (head v) ∧
    ((rotZ (getAngle t)).mulVec v + ![t 0 2, t 1 2, 0]) 2 = v 2 := by
  obtain ⟨h1, h2, h3, -, -, -⟩ := (isRigid_iff t).1 h
  obtain ⟨hc, hs⟩ := atan2_cos_sin h1
  constructor
  · unfold head act
    ext <;> simp [rotZ, dotProduct, Fin.sum_univ_three, getAngle, hc, hs, h2, h3]
  · simp [rotZ, dotProduct, Fin.sum_univ_three]

/-! ### Cells -/

theorem usable_iff (c : NDT.Cell) : Usable c ↔ NDT.GInv c := by
  unfold Usable NDT.GInv NDT.Conditioned
  constructor
  · intro h hg
    obtain ⟨h1, h2, h3, h4⟩ := h hg
    refine ⟨h1, h2, h3, fun x y hxy => ?_⟩
    have := h4 y x hxy.symm
    linarith
  · intro h hg
    obtain ⟨h1, h2, h3, h4⟩ := h hg
    refine ⟨h1, h2, h3, fun x y hxy => ?_⟩
    have := h4 y x hxy.symm
    linarith

theorem conditioned_rot {A r : NDT.Mat} (hA : NDT.Conditioned A) (hr : r * r.transpose = 1) :
    NDT.Conditioned (r * A * r.transpose) := by
  have hq : ∀ x : NDT.Vec, x ⬝ᵥ (r * A * r.transpose).mulVec x =
      (r.transpose.mulVec x) ⬝ᵥ A.mulVec (r.transpose.mulVec x) := by
    intro x
    rw [← mulVec_mulVec, ← mulVec_mulVec, dotProduct_mulVec, ← mulVec_transpose]
  have hn : ∀ x : NDT.Vec, (r.transpose.mulVec x) ⬝ᵥ (r.transpose.mulVec x) = x ⬝ᵥ x := by
    intro x
    rw [dotProduct_mulVec, ← mulVec_transpose, Matrix.transpose_transpose, mulVec_mulVec, hr, one_mulVec]
  intro x y hxy
  rw [hq, hq]
  exact hA _ _ (by rw [hn, hn, hxy])

/-- What `transform` does to a usable cell. -/
theorem transformCell_spec {eig : NDT.Eig} (he : NDT.EigOk eig) (t : Trans) {c : NDT.Cell} (hu : NDT.GInv c) :
    NDT.GInv (transformCell eig t c) ∧ (transformCell eig t c).gaussian = c.gaussian ∧
    (c.gaussian = false → transformCell eig t c = c) ∧
    (c.gaussian = true →
      (transformCell eig t c).mean = (rotZ (getAngle t)).mulVec c.mean + ![t 0 2, t 1 2, 0] ∧
      (transformCell eig t c).cov = rotZ (getAngle t) * c.cov * (rotZ (getAngle t)).transpose ∧
      (transformCell eig t c).points = c.points ∧ (transformCell eig t c).occ = c.occ) := by
  unfold transformCell
  simp only
  rw [linear4_convert, translation4_convert]
  refine ⟨NDT.ginv_transform he hu (rotZ_orth _), ?_, ?_, ?_⟩
  · unfold NDT.transform
    split_ifs with h
    · rw [h]; rfl
    · rfl
  · intro h
    unfold NDT.transform
    rw [if_neg (by simp [h])]
  · intro h
    obtain ⟨h1, -, -, h4⟩ := hu h
    unfold NDT.transform
    rw [if_pos h]
    refine ⟨rfl, ?_, rfl, rfl⟩
    refine NDT.rescale_id (c := { c with mean := _, cov := _ }) he ?_ (conditioned_rot h4 (rotZ_orth _))
    have hs := h1.isHermitian
    rw [Matrix.IsHermitian, Matrix.conjTranspose_eq_transpose_of_trivial] at hs
    simp only [Matrix.transpose_mul, Matrix.transpose_transpose, hs, Matrix.mul_assoc]

theorem angle_between (a b : Pose) : SameAngle (b.th + getAngle (transBtwFrames a b)) a.th := by
  have h : getTransFromPose (compose b (getPoseFromTransform (transBtwFrames a b))) = getTransFromPose a := by
    rw [← trans_mul, trans_pose (C78_frames a b a).2.1, transBtwFrames_eq, ← Matrix.mul_assoc,
      trans_mul_inv, Matrix.one_mul]
  exact (samePose_of_trans h).2.2

/-- Bringing a cell into the frame of another map does not change it in the world. -/
theorem transformCell_world {eig : NDT.Eig} (he : NDT.EigOk eig) {g n : Map} {c : NDT.Cell}
    (hu : NDT.GInv c) (hg : c.gaussian = true) :
    SameInWorld g c n (transformCell eig (transBtwFrames (origin g) (origin n)) c) := by
  obtain ⟨-, -, -, h⟩ := transformCell_spec he (transBtwFrames (origin g) (origin n)) hu
  obtain ⟨h1, h2, h3, -⟩ := h hg
  obtain ⟨a1, a2⟩ := convert_act (C78_frames (origin g) (origin n) (origin n)).2.1 c.mean
  refine ⟨?_, ?_, ?_, h3⟩
  · show toWorld (origin n) (head _) = _
    rw [h1, a1, (C78_frames (origin g) (origin n) (origin n)).1]
    rfl
  · rw [h1, a2]
  · have e : rotZ n.th * rotZ (getAngle (transBtwFrames (origin g) (origin n))) = rotZ g.th := by
      rw [rotZ_mul]
      exact rotZ_same (angle_between (origin g) (origin n))
    unfold worldCov
    rw [h2, ← e, Matrix.transpose_mul]
    simp only [Matrix.mul_assoc]

theorem ray_same {c c' : NDT.Cell} {s e : NDT.Vec} {k : ℕ} (h : NDT.rayUpdate c s e k = .ok c')
    (hg : c'.gaussian = true) : c.gaussian = true ∧ c'.mean = c.mean ∧ c'.cov = c.cov ∧ c'.points = c.points := by
  unfold NDT.rayUpdate at h
  split_ifs at h with h1 h2
  · cases h
    rw [show _ = c.gaussian from rfl, h1] at hg
    cases hg
  · cases h
    exact ⟨hg, rfl, rfl, rfl⟩
  · obtain ⟨r, -, h⟩ := Res.map_eq_ok.1 h
    subst h
    exact ⟨by simpa using h1, rfl, rfl, rfl⟩

/-! ### Gaussians of a map -/

theorem mem_gaussians {n : Map} {c : NDT.Cell} :
    c ∈ gaussians n ↔ c ∈ getValidCells n.grid ∧ c.gaussian = true := by
  unfold gaussians; simp

theorem gaussians_eq (eig : NDT.Eig) (n : Map) : gaussians n = gaussianCells (cellI eig) n.grid := rfl

/-- Same frame: same origin. -/
theorem origin_eq {n n' : Map} (h1 : n'.ox = n.ox) (h2 : n'.oy = n.oy) (h3 : n'.th = n.th) :
    origin n' = origin n := by
  unfold origin; rw [h1, h2, h3]

theorem SameInWorld.refl (n : Map) (c : NDT.Cell) : SameInWorld n c n c := ⟨rfl, rfl, rfl, rfl⟩

theorem SameInWorld.trans {n n' n'' : Map} {c c' c'' : NDT.Cell} (h : SameInWorld n c n' c')
    (h' : SameInWorld n' c' n'' c'') : SameInWorld n c n'' c'' :=
  ⟨h'.pos.trans h.pos, h'.height.trans h.height, h'.cov.trans h.cov, h'.points.trans h.points⟩

theorem SameInWorld.of_eq {n n' : Map} {c c' : NDT.Cell} (ho : origin n' = origin n) (hm : c'.mean = c.mean)
    (hc : c'.cov = c.cov) (hp : c'.points = c.points) : SameInWorld n c n' c' := by
  have hth : n'.th = n.th := congrArg Slam.Pose.th ho
  refine ⟨?_, by rw [hm], ?_, hp⟩
  · unfold worldPos; rw [ho, hm]
  · unfold worldCov; rw [hth, hc]

/-- Ray tracing leaves the Gaussians that survive it as they were. -/
theorem traceAll_same {eig : NDT.Eig} {s : NDT.Vec} {cells : List NDT.Cell} {g g' : Grid ℝ NDT.Cell}
    (h : traceAll (cellI eig) s g cells = .ok g') :
    ∀ c' ∈ getValidCells g', c'.gaussian = true → ∃ c ∈ getValidCells g, c.gaussian = true ∧
      c'.mean = c.mean ∧ c'.cov = c.cov ∧ c'.points = c.points := by
  refine traceAll_all (I := cellI eig) (Q := fun c' => c'.gaussian = true → ∃ c ∈ getValidCells g,
    c.gaussian = true ∧ c'.mean = c.mean ∧ c'.cov = c.cov ∧ c'.points = c.points) ?_ ?_ h ?_
  · intro hg; cases hg
  · intro c s e k c' hc hr hg
    obtain ⟨h1, h2, h3, h4⟩ := ray_same hr hg
    obtain ⟨d, hd, a1, a2, a3, a4⟩ := hc h1
    exact ⟨d, hd, a1, h2.trans a2, h3.trans a3, h4.trans a4⟩
  · intro c hc hg
    exact ⟨c, hc, hg, rfl, rfl, rfl⟩

/-! ### Invariant of all maps -/

/-- Well-formed grid, positive cell size, all Gaussians usable. -/
structure MapInv (n : Map) : Prop where
  wf : WF n.grid
  cs : 0 < n.grid.cellSize
  ginv : ∀ c ∈ getValidCells n.grid, NDT.GInv c

theorem ginv_cells {eig : NDT.Eig} (he : NDT.EigOk eig) {l : List NDT.Cell} (h : ∀ c ∈ l, NDT.GInv c) (b : Bool)
    (t : Trans) : ∀ c ∈ (if b then transformCells eig t l else l), NDT.GInv c := by
  intro c hc
  cases b with
  | false => exact h c (by simpa using hc)
  | true =>
    simp only [if_true] at hc
    obtain ⟨d, hd, rfl⟩ := List.mem_map.1 hc
    exact (transformCell_spec he t (h d hd)).1

theorem mergeCells_inv {eig : NDT.Eig} (he : NDT.EigOk eig) {n n' : Map} (hn : MapInv n) {l : List NDT.Cell}
    (hl : ∀ c ∈ l, NDT.GInv c) {resize : Bool} (h : mergeCells (cellI eig) n l resize = .ok n') : MapInv n' := by
  obtain ⟨w, c, q⟩ := mergeCells_all (I := cellI eig) (Q := NDT.GInv)
    (fun o c ho hc => NDT.ginv_merge he ho hc) hn.wf hn.cs h (fun c hc _ => hl c hc) hn.ginv
  exact ⟨w, by rw [c]; exact hn.cs, q⟩

theorem traceAll_inv {eig : NDT.Eig} {n : Map} (hn : MapInv n) {s : NDT.Vec} {l : List NDT.Cell}
    {g : Grid ℝ NDT.Cell} (h : traceAll (cellI eig) s n.grid l = .ok g) : MapInv { n with grid := g } := by
  obtain ⟨hb, -, ht⟩ := traceAll_traced (cell_lawful eig) h
  refine ⟨hb.wf ht hn.wf, by show 0 < g.cellSize; rw [hb.cs]; exact hn.cs, ?_⟩
  exact traceAll_all (I := cellI eig) (Q := NDT.GInv) (NDT.ginv_of_not rfl)
    (fun c s e k c' hc hr => NDT.ginv_ray hc hr) h hn.ginv

theorem mergeGrid_inv {eig : NDT.Eig} (he : NDT.EigOk eig) {n g n' : Map} (hn : MapInv n) (hg : MapInv g)
    {tr rs : Bool} (h : mergeGrid eig n g tr rs = .ok n') : MapInv n' :=
  mergeCells_inv he hn (ginv_cells he hg.ginv _ _) h

theorem mergeGridTraced_inv {eig : NDT.Eig} (he : NDT.EigOk eig) {n g n' : Map} (hn : MapInv n) (hg : MapInv g)
    {tr rs : Bool} (h : mergeGridTraced eig n g tr rs = .ok n') : MapInv n' := by
  unfold mergeGridTraced at h
  obtain ⟨g1, h1, -, -, h⟩ := mergeTraced_split (cell_lawful eig) hn.wf h
  exact mergeCells_inv he (traceAll_inv hn h1) (ginv_cells he hg.ginv _ _) h

theorem createGrid_inv {eig : NDT.Eig} (he : NDT.EigOk eig) {ox oy th cs : ℝ} (hcs : 0 < cs)
    {ps : List NDT.Vec} {n : Map} (h : createGrid (cellI eig) ox oy th cs ps = .ok n) : MapInv n := by
  obtain ⟨w, c, -, -, -, -, q⟩ := createGrid_all (I := cellI eig) (Q := NDT.GInv) (Q' := NDT.GInv)
    (NDT.ginv_of_not rfl) ps (fun c p _ hc => hc) (fun c hc => NDT.ginv_compute he hc) hcs h
  exact ⟨w, by rw [c]; exact hcs, q⟩

theorem setOrigin_inv {n : Map} (h : MapInv n) (p : Pose) : MapInv (setOrigin n p) := ⟨h.wf, h.cs, h.ginv⟩

theorem mergeCloud_inv {eig : NDT.Eig} (he : NDT.EigOk eig) {n n' : Map} (hn : MapInv n) {ps : List NDT.Vec}
    {p : Pose} {rs : Bool} (h : mergeCloud eig n ps p rs = .ok n') : MapInv n' := by
  unfold mergeCloud at h
  simp only at h
  obtain ⟨g, h1, h⟩ := Res.bind_eq_ok.1 h
  exact mergeGrid_inv he hn (createGrid_inv he hn.cs h1) h

theorem mergeCloudTraced_inv {eig : NDT.Eig} (he : NDT.EigOk eig) {n n' : Map} (hn : MapInv n)
    {ps : List NDT.Vec} {p : Pose} {rs : Bool} (h : mergeCloudTraced eig n ps p rs = .ok n') : MapInv n' := by
  unfold mergeCloudTraced at h
  simp only at h
  obtain ⟨g, h1, h⟩ := Res.bind_eq_ok.1 h
  exact mergeGridTraced_inv he hn (setOrigin_inv (createGrid_inv he hn.cs h1) _) h

theorem clearGrid_inv {n : Map} (h : MapInv n) : MapInv { n with grid := Voxel.clear n.grid } := by
  obtain ⟨w, c, e⟩ := clear_stored h.wf
  exact ⟨w, by show 0 < (Voxel.clear n.grid).cellSize; rw [c]; exact h.cs,
    fun c hc => by rw [show getValidCells _ = [] from e] at hc; cases hc⟩

theorem readd_all {eig : NDT.Eig} {Q : NDT.Cell → Prop} (hm : ∀ o c, Q o → Q c → Q (NDT.merge eig o c)) :
    ∀ {l : List NDT.Cell} {g g' : Grid ℝ NDT.Cell}, WF g → 0 < g.cellSize → readd eig g l = .ok g' →
    (∀ c ∈ l, c.gaussian = true → Q c) → (∀ c ∈ getValidCells g, Q c) →
    WF g' ∧ g'.cellSize = g.cellSize ∧ ∀ c ∈ getValidCells g', Q c := by
  intro l
  induction l with
  | nil => intro g g' hwf _ h _ hq; cases h; exact ⟨hwf, rfl, hq⟩
  | cons c l ih =>
    intro g g' hwf hcs h hl hq
    have hl' : ∀ d ∈ l, d.gaussian = true → Q d := fun d hd => hl d (List.mem_cons_of_mem _ hd)
    unfold readd at h
    split_ifs at h with hg
    · obtain ⟨g1, h1, h⟩ := Res.bind_eq_ok.1 h
      obtain ⟨w1, c1, hs⟩ := addCell_stored hwf hcs h1
      have hQc := hl c List.mem_cons_self hg
      have hq1 : ∀ d ∈ getValidCells g1, Q d := by
        intro d hd
        rcases hs with ⟨-, hs⟩ | ⟨o, ho, -, -, hs⟩
        · rcases (hs d).1 hd with h | rfl
          · exact hq d h
          · exact hQc
        · rcases hs d hd with h | rfl
          · exact hq d h
          · exact hm _ _ (hq o ho) hQc
      obtain ⟨w2, c2, q2⟩ := ih w1 (by rw [c1]; exact hcs) h hl' hq1
      exact ⟨w2, c2.trans c1, q2⟩
    · exact ih hwf hcs h hl' hq

/-- If no two cells were fused, the cells are exactly those handed over. -/
theorem readd_count {eig : NDT.Eig} : ∀ {l : List NDT.Cell} {g g' : Grid ℝ NDT.Cell}, WF g → 0 < g.cellSize →
    readd eig g l = .ok g' →
    (getValidCells g').length ≤ (getValidCells g).length + (l.filter fun c => c.gaussian).length ∧
    ((getValidCells g').length = (getValidCells g).length + (l.filter fun c => c.gaussian).length →
      ∀ d, d ∈ getValidCells g' ↔ d ∈ getValidCells g ∨ (d ∈ l ∧ d.gaussian = true)) := by
  intro l
  induction l with
  | nil => intro g g' hwf _ h; cases h; exact ⟨by simp, fun _ d => by simp⟩
  | cons c l ih =>
    intro g g' hwf hcs h
    unfold readd at h
    split_ifs at h with hg
    · obtain ⟨g1, h1, h⟩ := Res.bind_eq_ok.1 h
      obtain ⟨w1, c1, hs⟩ := addCell_stored hwf hcs h1
      obtain ⟨i1, i2⟩ := ih w1 (by rw [c1]; exact hcs) h
      rw [List.filter_cons_of_pos (by simpa using hg), List.length_cons]
      rcases hs with ⟨e, hs⟩ | ⟨o, ho, e, -, hs⟩
      · refine ⟨by omega, fun he d => ?_⟩
        rw [i2 (by omega) d, hs d, List.mem_cons]
        constructor
        · rintro ((h | rfl) | h)
          · exact Or.inl h
          · exact Or.inr ⟨Or.inl rfl, hg⟩
          · exact Or.inr ⟨Or.inr h.1, h.2⟩
        · rintro (h | ⟨rfl | h, h'⟩)
          · exact Or.inl (Or.inl h)
          · exact Or.inl (Or.inr rfl)
          · exact Or.inr ⟨h, h'⟩
      · exact ⟨by omega, fun he => by omega⟩
    · obtain ⟨i1, i2⟩ := ih hwf hcs h
      rw [List.filter_cons_of_neg (by simpa using hg)]
      refine ⟨i1, fun he d => ?_⟩
      rw [i2 he d, List.mem_cons]
      constructor
      · rintro (h | h)
        · exact Or.inl h
        · exact Or.inr ⟨Or.inr h.1, h.2⟩
      · rintro (h | ⟨rfl | h, h'⟩)
        · exact Or.inl h
        · exact absurd h' hg
        · exact Or.inr ⟨h, h'⟩

theorem transform_split {eig : NDT.Eig} {n n' : Map} {t : Trans} (h : transform eig n t = .ok n') :
    ∃ g, readd eig (Voxel.clear n.grid) (transformCells eig
        !![t 0 0, t 0 1, 0; t 1 0, t 1 1, 0; t 2 0, t 2 1, t 2 2] (getValidCells n.grid)) = .ok g ∧
      n' = updateMeans (cellI eig) (setOrigin { n with grid := g }
        (transformPose (origin n) !![1, 0, t 0 2; 0, 1, t 1 2; t 2 0, t 2 1, t 2 2])) := by
  unfold transform at h
  simp only at h
  obtain ⟨g, h1, h⟩ := Res.bind_eq_ok.1 h
  exact ⟨g, h1, (Res.ok.inj h).symm⟩

theorem transform_inv {eig : NDT.Eig} (he : NDT.EigOk eig) {n n' : Map} (hn : MapInv n) {t : Trans}
    (h : transform eig n t = .ok n') : MapInv n' := by
  obtain ⟨g, h1, rfl⟩ := transform_split h
  have hc := clearGrid_inv hn
  obtain ⟨w, c, q⟩ := readd_all (Q := NDT.GInv) (fun o c ho hc => NDT.ginv_merge he ho hc) hc.wf hc.cs h1
    (fun c hc' _ => ginv_cells he hn.ginv true _ c hc') hc.ginv
  exact ⟨w, by show 0 < g.cellSize; rw [c]; exact hc.cs, q⟩

theorem move_inv {eig : NDT.Eig} {n n' : Map} (hn : MapInv n) {tx ty : ℝ} {r : ℝ × ℝ}
    (h : move (cellI eig) n tx ty = .ok (r, n')) : MapInv n' := by
  obtain ⟨w, c, -, -, -, -, q⟩ := move_all (I := cellI eig) (Q := NDT.GInv) (Q' := NDT.GInv) hn.wf hn.cs h
    (fun c hc => by
      unfold shiftCell
      split_ifs
      · exact hc
      · exact hc) (fun _ c hc => hc) hn.ginv
  exact ⟨w, by rw [c]; exact hn.cs, q⟩

theorem init_valid (eig : NDT.Eig) (ox oy th cs : ℝ) :
    getValidCells (NDTGrid.init (cellI eig) ox oy th cs).grid = [NDT.init] := rfl

theorem init_inv (eig : NDT.Eig) (ox oy th : ℝ) {cs : ℝ} (hcs : 0 < cs) :
    MapInv (NDTGrid.init (cellI eig) ox oy th cs) := by
  refine ⟨init_wf _ ox oy th cs, hcs, fun c hc => ?_⟩
  rw [init_valid, List.mem_singleton] at hc
  rw [hc]; exact NDT.ginv_of_not rfl

/-- Every map that can be built satisfies the invariant, and its search structures list its Gaussians. -/
theorem Built.inv {eig : NDT.Eig} (he : NDT.EigOk eig) {b : Bool} {n : Map} (h : Built eig b n) : MapInv n := by
  induction h with
  | init ox oy th hcs => exact init_inv eig ox oy th hcs
  | setOrigin p _ ih => exact setOrigin_inv ih p
  | setTimestamp t _ ih => exact ⟨ih.wf, ih.cs, ih.ginv⟩
  | clear _ ih =>
    have := clearGrid_inv ih
    exact ⟨this.wf, this.cs, this.ginv⟩
  | enlarge a b c d _ h ih =>
    obtain ⟨w, c, -, m⟩ := enlarge_stored ih.wf ih.cs h
    exact ⟨w, by show 0 < _; rw [c]; exact ih.cs, fun x hx => ih.ginv x ((m x).1 hx)⟩
  | mergeGrid tr rs _ _ h ih1 ih2 => exact mergeGrid_inv he ih1 ih2 h
  | mergeGridTraced tr rs _ _ h ih1 ih2 => exact mergeGridTraced_inv he ih1 ih2 h
  | mergeCloud ps p rs _ h ih => exact mergeCloud_inv he ih h
  | mergeCloudTraced ps p rs _ h ih => exact mergeCloudTraced_inv he ih h
  | «initialize» ps _ h ih => exact mergeCloudTraced_inv he (clearGrid_inv ih) h
  | initializeSimple ps _ h ih => exact mergeCloud_inv he (clearGrid_inv ih) h
  | transform t _ h ih => exact transform_inv he ih h
  | move tx ty _ h ih => exact move_inv ih h
  | coarser cs _ h ih =>
    unfold NDTGrid.coarser at h
    simp only at h
    refine mergeCells_inv he (init_inv eig 0 0 0 ?_) ih.ginv h
    have := ih.cs
    split_ifs with hc
    · exact this
    · linarith

end Verif.World
