import Verif.Whole.Invariant
import Verif.World.Area
import Verif.NDTGrid.Mapper

/-
Helper lemmas for the size of the running window.
-/
namespace Verif.Whole

open Verif Verif.Geo Verif.NDTGrid Verif.World Verif.Voxel

/-- Vectors whose ground coordinates lie in a disc around the origin. -/
def disc (R : ℝ) : Set NDT.Vec := {v | v 0 ^ 2 + v 1 ^ 2 ≤ R ^ 2}

theorem disc_convex (R : ℝ) : Convex ℝ (disc R) := by
  intro u hu v hv a b ha hb hab
  have hu : u 0 ^ 2 + u 1 ^ 2 ≤ R ^ 2 := hu
  have hv : v 0 ^ 2 + v 1 ^ 2 ≤ R ^ 2 := hv
  show (a * u 0 + b * v 0) ^ 2 + (a * u 1 + b * v 1) ^ 2 ≤ R ^ 2
  have hb' : b = 1 - a := by linarith
  subst hb'
  have e : a * (u 0 ^ 2 + u 1 ^ 2) + (1 - a) * (v 0 ^ 2 + v 1 ^ 2) -
      ((a * u 0 + (1 - a) * v 0) ^ 2 + (a * u 1 + (1 - a) * v 1) ^ 2) =
      a * (1 - a) * ((u 0 - v 0) ^ 2 + (u 1 - v 1) ^ 2) := by ring
  have h1 : 0 ≤ a * (1 - a) * ((u 0 - v 0) ^ 2 + (u 1 - v 1) ^ 2) := by positivity
  have h2 : a * (u 0 ^ 2 + u 1 ^ 2) ≤ a * R ^ 2 := mul_le_mul_of_nonneg_left hu ha
  have h3 : (1 - a) * (v 0 ^ 2 + v 1 ^ 2) ≤ (1 - a) * R ^ 2 := mul_le_mul_of_nonneg_left hv hb
  linarith

theorem disc_rot {R : ℝ} {v : NDT.Vec} (h : v ∈ disc R) (a : ℝ) : (rotZ a).mulVec v ∈ disc R := by
  have h : v 0 ^ 2 + v 1 ^ 2 ≤ R ^ 2 := h
  show ((rotZ a).mulVec v 0) ^ 2 + ((rotZ a).mulVec v 1) ^ 2 ≤ R ^ 2
  have e0 : (rotZ a).mulVec v 0 = Real.cos a * v 0 - Real.sin a * v 1 := by
    simp [rotZ, Matrix.mulVec, dotProduct, Fin.sum_univ_three]; ring
  have e1 : (rotZ a).mulVec v 1 = Real.sin a * v 0 + Real.cos a * v 1 := by
    simp [rotZ, Matrix.mulVec, dotProduct, Fin.sum_univ_three]
  rw [e0, e1]
  have hs := Real.sin_sq_add_cos_sq a
  have : (Real.cos a * v 0 - Real.sin a * v 1) ^ 2 + (Real.sin a * v 0 + Real.cos a * v 1) ^ 2 =
      (Real.sin a ^ 2 + Real.cos a ^ 2) * (v 0 ^ 2 + v 1 ^ 2) := by ring
  rw [this, hs, one_mul]
  exact h

theorem disc_box {R : ℝ} (hR : 0 ≤ R) {v : NDT.Vec} (h : v ∈ disc R) : |v 0| ≤ R ∧ |v 1| ≤ R := by
  have h : v 0 ^ 2 + v 1 ^ 2 ≤ R ^ 2 := h
  exact ⟨abs_le_of_sq_le_sq (by nlinarith [sq_nonneg (v 1)]) hR, abs_le_of_sq_le_sq (by nlinarith [sq_nonneg (v 0)]) hR⟩

/-! ### Bounds -/

theorem minMax_bound {B : ℝ} (hB : 0 ≤ B) {ps : List (ℝ × ℝ)} (h : ∀ p ∈ ps, |p.1| ≤ B ∧ |p.2| ≤ B) :
    -B ≤ (minMax ps).minx ∧ -B ≤ (minMax ps).miny ∧ (minMax ps).maxx ≤ B ∧ (minMax ps).maxy ≤ B := by
  unfold minMax
  have key : ∀ (ps : List (ℝ × ℝ)) (b : Bounds ℝ), (∀ p ∈ ps, |p.1| ≤ B ∧ |p.2| ≤ B) →
      (-B ≤ b.minx ∧ -B ≤ b.miny ∧ b.maxx ≤ B ∧ b.maxy ≤ B) →
      -B ≤ (ps.foldl boundsStep b).minx ∧ -B ≤ (ps.foldl boundsStep b).miny ∧
        (ps.foldl boundsStep b).maxx ≤ B ∧ (ps.foldl boundsStep b).maxy ≤ B := by
    intro ps
    induction ps with
    | nil => intro b _ hb; exact hb
    | cons p ps ih =>
      intro b hp hb
      refine ih _ (fun q hq => hp q (List.mem_cons_of_mem _ hq)) ?_
      obtain ⟨h1, h2⟩ := hp p List.mem_cons_self
      rw [abs_le] at h1 h2
      unfold boundsStep
      simp only
      refine ⟨?_, ?_, ?_, ?_⟩ <;> split_ifs <;> linarith
  exact key ps _ h ⟨by simpa using hB, by simpa using hB, by simpa using hB, by simpa using hB⟩

/-- Number of cells to one side that reach the distance `B`. -/
noncomputable def side (cs B : ℝ) : ℕ := ⌈B / cs - 1 / 2⌉.toNat

theorem needed_le {cs B : ℝ} (hcs : 0 < cs) {b : Bounds ℝ}
    (h : -B ≤ b.minx ∧ -B ≤ b.miny ∧ b.maxx ≤ B ∧ b.maxy ≤ B) :
    needed cs b ≤ (side cs B, side cs B, side cs B, side cs B) := by
  obtain ⟨h1, h2, h3, h4⟩ := h
  have key : ∀ x : ℝ, x ≤ B → ⌈x / cs - 1 / 2⌉.toNat ≤ side cs B := by
    intro x hx
    refine Int.toNat_le_toNat (Int.ceil_le_ceil ?_)
    have := div_le_div_of_nonneg_right hx hcs.le
    linarith
  exact ⟨key _ (by linarith), key _ h3, key _ h4, key _ (by linarith)⟩

theorem needed_radius (cs r : ℝ) : needed cs ⟨-r, -r, r, r⟩ = (side cs r, side cs r, side cs r, side cs r) := by
  unfold needed side
  simp only [neg_neg]

theorem side_mono {cs : ℝ} (hcs : 0 < cs) {a b : ℝ} (h : a ≤ b) : side cs a ≤ side cs b := by
  refine Int.toNat_le_toNat (Int.ceil_le_ceil ?_)
  have := div_le_div_of_nonneg_right h hcs.le
  linarith

theorem side_lt {cs B : ℝ} (hcs : 0 < cs) (hB : 0 ≤ B) : ((side cs B : ℝ) + 1 / 2) * cs < B + cs := by
  have h0 : 0 ≤ B / cs := div_nonneg hB hcs.le
  have h : (side cs B : ℝ) + 1 / 2 < B / cs + 1 := by
    unfold side
    rcases le_or_gt ⌈B / cs - 1 / 2⌉ 0 with h | h
    · rw [Int.toNat_of_nonpos h]
      push_cast
      linarith
    · have : ((⌈B / cs - 1 / 2⌉.toNat : ℕ) : ℝ) = (⌈B / cs - 1 / 2⌉ : ℝ) := by
        exact_mod_cast Int.toNat_of_nonneg h.le
      rw [this]
      have := Int.ceil_lt_add_one (B / cs - 1 / 2)
      linarith
  have := mul_lt_mul_of_pos_right h hcs
  have e : (B / cs + 1) * cs = B + cs := by field_simp
  linarith

theorem le_side {cs B : ℝ} (hcs : 0 < cs) : B ≤ ((side cs B : ℝ) + 1 / 2) * cs := by
  have h : B / cs ≤ (side cs B : ℝ) + 1 / 2 := by
    unfold side
    have h1 := Int.le_ceil (B / cs - 1 / 2)
    have h2 : ((⌈B / cs - 1 / 2⌉ : ℤ) : ℝ) ≤ ((⌈B / cs - 1 / 2⌉.toNat : ℕ) : ℝ) := by
      exact_mod_cast Int.self_le_toNat _
    linarith
  rw [div_le_iff₀ hcs] at h
  exact h

/-! ### Extents after the steps of the algorithm -/

theorem mergeTraced_ext {eig : NDT.Eig} {n n' : Map} (hi : MapInv n) {sx sy : ℝ} {cells : List NDT.Cell}
    (h : mergeTraced (cellI eig) n sx sy cells true = .ok n') {B : ℝ} (hB : 0 ≤ B)
    (hc : ∀ c ∈ cells, |c.mean 0| ≤ B ∧ |c.mean 1| ≤ B) :
    n'.grid.cellSize = n.grid.cellSize ∧ extOf n.grid ≤ extOf n'.grid ∧
    extOf n'.grid ≤ extOf n.grid ⊔
      (side n.grid.cellSize B, side n.grid.cellSize B, side n.grid.cellSize B, side n.grid.cellSize B) := by
  obtain ⟨-, c, e, -⟩ := addToMap_ext (I := cellI eig) (cell_lawful eig) (m := n) (f := ⟨sx, sy, cells⟩) hi.wf hi.cs h
  rw [e]
  refine ⟨c, le_sup_left, sup_le_sup_left (needed_le hi.cs (minMax_bound hB ?_)) _⟩
  intro p hp
  obtain ⟨d, hd, rfl⟩ := List.mem_map.1 hp
  exact hc d hd

theorem createGrid_disc {eig : NDT.Eig} {R : ℝ} {ox oy th cs : ℝ} (hcs : 0 < cs)
    {ps : List NDT.Vec} (hps : ∀ p ∈ ps, p ∈ disc R) {n : Map}
    (h : createGrid (cellI eig) ox oy th cs ps = .ok n) :
    ∀ c ∈ getValidCells n.grid, c.mean ∈ disc R := by
  have h0 : (0 : NDT.Vec) ∈ disc R := by
    show (0 : ℝ) ^ 2 + 0 ^ 2 ≤ R ^ 2
    nlinarith [sq_nonneg R]
  refine (createGrid_all (I := cellI eig)
    (Q := fun c => (c.mean = 0 ∧ c.gaussian = false) ∧ ∀ p ∈ c.pending, p ∈ disc R)
    (Q' := fun c => c.mean ∈ disc R) ⟨⟨rfl, rfl⟩, fun p hp => absurd hp List.not_mem_nil⟩ ps ?_ ?_ hcs h).2.2.2.2.2.2
  · rintro c p hp ⟨h1, h2⟩
    refine ⟨h1, fun q hq => ?_⟩
    rcases List.mem_append.1 hq with hq | hq
    · exact h2 q hq
    · rw [List.mem_singleton] at hq
      rw [hq]; exact hps p hp
  · rintro c ⟨⟨h1, hg⟩, h2⟩
    show (NDT.computeGaussian eig c).mean ∈ disc R
    unfold NDT.computeGaussian
    simp only [hg, if_true]
    split_ifs with a1 a2
    · show c.mean ∈ disc R
      rw [h1]; exact h0
    · show c.mean ∈ disc R
      rw [h1]; exact h0
    · refine batchMean_mem (disc_convex R) ?_ h2
      intro hnil
      rw [hnil] at a2
      simp at a2

/-- The square extent of `N` cells to each side. -/
abbrev square (N : ℕ) : Ext := (N, N, N, N)

theorem initialize_ext {eig : NDT.Eig} {n n' : Map} (hi : MapInv n) {R : ℝ} (hR : 0 ≤ R) {ps : List NDT.Vec}
    (hps : ∀ p ∈ ps, p ∈ disc R) (h : initializeMap eig n ps = .ok n') :
    n'.grid.cellSize = n.grid.cellSize ∧ extOf n.grid ≤ extOf n'.grid ∧
    extOf n'.grid ≤ extOf n.grid ⊔ square (side n.grid.cellSize R) := by
  rw [initializeMap_eq] at h
  unfold initScan at h
  obtain ⟨g, h1, h⟩ := Res.bind_eq_ok.1 h
  simp only [if_true] at h
  exact mergeTraced_ext (clearGrid_inv hi) h hR fun c hc => disc_box hR (createGrid_disc hi.cs hps h1 c hc)

theorem move_ext {eig : NDT.Eig} {n n' : Map} (hi : MapInv n) {tx ty : ℝ} {r : ℝ × ℝ}
    (h : move (cellI eig) n tx ty = .ok (r, n')) :
    n'.grid.cellSize = n.grid.cellSize ∧ extOf n'.grid = extOf n.grid := by
  unfold move at h
  split_ifs at h
  · cases h; exact ⟨rfl, rfl⟩
  · simp only at h
    split_ifs at h
    · obtain ⟨g, h1, h⟩ := Res.bind_eq_ok.1 h
      obtain ⟨g', h2, -, e1, e2, e3, e4, e5, -⟩ := translate_spec hi.wf (-(axisSteps n.grid.cellSize tx))
        (-(axisSteps n.grid.cellSize ty)) true
      rw [h1] at h2
      cases h2
      cases h
      simp only [if_true, add_zero] at e1 e2 e3 e4
      refine ⟨e5, ?_⟩
      unfold extOf updateMeans
      simp only [e1, e2, e3, e4]
    · cases h; exact ⟨rfl, rfl⟩

theorem move_rest {eig : NDT.Eig} {n n' : Map} (hi : MapInv n) (hth : n.th = 0) {tx ty : ℝ} {r : ℝ × ℝ}
    (h : move (cellI eig) n tx ty = .ok (r, n')) : |r.1| < n.grid.cellSize ∧ |r.2| < n.grid.cellSize := by
  obtain ⟨a1, a2⟩ := axisSteps_spec hi.cs tx
  obtain ⟨b1, b2⟩ := axisSteps_spec hi.cs ty
  unfold move at h
  rw [if_neg (by rw [hth]; norm_num)] at h
  split_ifs at h
  simp only at h
  split_ifs at h with h0
  · obtain ⟨g, h1, h⟩ := Res.bind_eq_ok.1 h
    cases h
    exact ⟨a1, b1⟩
  · cases h
    push Not at h0
    rw [a2 (not_lt.2 h0.1)] at a1
    rw [b2 (not_lt.2 h0.2)] at b1
    simpa using And.intro a1 b1

theorem updateWindow_ext {eig : NDT.Eig} (he : NDT.EigOk eig) {cs : ℝ} (hcs : 0 < cs) {w w' : Map} (hw : MapInv w)
    (hwc : w.grid.cellSize = cs) (hth : w.th = 0) {R T : ℝ} (hR : 0 ≤ R) {ps : List NDT.Vec} (hps : ∀ p ∈ ps, p ∈ disc R)
    {reg cumul : Trans} (hT : |reg 0 2| ≤ T ∧ |reg 1 2| ≤ T)
    (h : updateWindow eig cs w ps reg = .ok (cumul, w')) :
    w'.grid.cellSize = cs ∧ extOf w.grid ≤ extOf w'.grid ∧ extOf w'.grid ≤ extOf w.grid ⊔ square (side cs (R + T)) ∧
    |w.ox + reg 0 2 - w'.ox| < cs ∧ |w.oy + reg 1 2 - w'.oy| < cs := by
  unfold updateWindow at h
  simp only at h
  obtain ⟨s0, h0, h⟩ := Res.bind_eq_ok.1 h
  obtain ⟨s1, h1, h⟩ := Res.bind_eq_ok.1 h
  obtain ⟨w1, h2, h⟩ := Res.bind_eq_ok.1 h
  obtain ⟨⟨r, w2⟩, h3, h⟩ := Res.bind_eq_ok.1 h
  obtain ⟨-, e2⟩ := Prod.mk.inj (Res.ok.inj h)
  simp only at e2
  subst e2
  have ie : MapInv (setOrigin (NDTGrid.init (cellI eig) 0 0 0 cs) (origin w)) := setOrigin_inv (init_inv eig 0 0 0 hcs) _
  obtain ⟨i0, o0, -, m0⟩ := scan_mem he (disc_convex R) ie hps h0
  have i1 := transform_inv he i0 h1
  have m1 := transform_mem he (disc_convex R) i0 (t := reg) (fun c hc => disc_rot (m0 c hc) _) h1
  have i2 := mergeGridTraced_inv he hw i1 h2
  have ho1 := transform_origin h1
  have hs0 : s0.ox = w.ox ∧ s0.oy = w.oy ∧ s0.th = w.th :=
    ⟨congrArg Slam.Pose.x o0, congrArg Slam.Pose.y o0, congrArg Slam.Pose.th o0⟩
  have hT0 : 0 ≤ T := le_trans (abs_nonneg _) hT.1
  obtain ⟨om, cm⟩ := mergeGridTraced_keeps hw h2
  unfold mergeGridTraced at h2
  simp only [if_true] at h2
  have tb : transBtwFrames (origin s1) (origin w) = !![1, 0, reg 0 2; 0, 1, reg 1 2; 0, 0, 1] := by
    have a1 : origin s1 = ⟨w.ox + reg 0 2, w.oy + reg 1 2, 0⟩ := by
      unfold origin
      rw [ho1.1, ho1.2.1, ho1.2.2, hs0.1, hs0.2.1, hs0.2.2, hth,
        normalizeAngle_of_mem (by linarith [Real.pi_pos]) Real.pi_pos.le]
    have a2 : origin w = ⟨w.ox, w.oy, 0⟩ := by unfold origin; rw [hth]
    rw [transBtwFrames_eq, trans_inv, a1, a2]
    apply mat_ext <;> simp [getTransFromPose, invPose, Matrix.mul_apply, Fin.sum_univ_three]
  rw [tb] at h2
  obtain ⟨c2, l2, u2⟩ := mergeTraced_ext hw h2 (B := R + T) (by linarith) (by
    intro c hc
    obtain ⟨d, hd, rfl⟩ := List.mem_map.1 hc
    obtain ⟨b0, b1⟩ := disc_box hR (m1 d hd)
    obtain ⟨-, -, q1, q2⟩ := transformCell_spec he !![1, 0, reg 0 2; 0, 1, reg 1 2; 0, 0, 1] (i1.ginv d hd)
    cases hg : d.gaussian with
    | false =>
      rw [q1 hg]
      exact ⟨by linarith, by linarith⟩
    | true =>
      obtain ⟨q3, -⟩ := q2 hg
      have ha : getAngle !![1, 0, reg 0 2; 0, 1, reg 1 2; 0, 0, 1] = 0 := by
        unfold getAngle
        simpa using atan2_zero_one
      rw [ha, rotZ_zero, Matrix.one_mulVec] at q3
      rw [q3]
      constructor
      · show |d.mean 0 + _| ≤ _
        refine (abs_add_le _ _).trans (add_le_add b0 ?_)
        simpa using hT.1
      · show |d.mean 1 + _| ≤ _
        refine (abs_add_le _ _).trans (add_le_add b1 ?_)
        simpa using hT.2)
  obtain ⟨c3, e3⟩ := move_ext i2 h3
  have hth1 : w1.th = 0 := by rw [show w1.th = w.th from congrArg Slam.Pose.th om, hth]
  obtain ⟨r1, r2⟩ := move_rest i2 hth1 h3
  obtain ⟨-, k1, k2, -⟩ := move_world i2 hth1 h3
  have ox1 : w1.ox = w.ox := congrArg Slam.Pose.x om
  have oy1 : w1.oy = w.oy := congrArg Slam.Pose.y om
  rw [c2, hwc] at r1 r2
  rw [hwc] at u2
  refine ⟨c3.trans (c2.trans hwc), by rw [e3]; exact l2, by rw [e3]; exact u2, ?_, ?_⟩
  · rwa [show w.ox + reg 0 2 - w2.ox = r.1 by rw [ox1] at k1; linarith]
  · rwa [show w.oy + reg 1 2 - w2.oy = r.2 by rw [oy1] at k2; linarith]

end Verif.Whole
