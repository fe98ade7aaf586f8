import Verif.Whole.Window
import Verif.World.HistoryProps

/-
When the running window keeps a Gaussian, and when it never gets one.
-/
namespace Verif.Whole

open Verif Verif.Geo Verif.NDTGrid Verif.World Verif.Voxel

/-! ### Specification -/

/-- `Series eig Q s log s'`: updates lead from `s` to `s'` (with changes of the parameters in between); `Q` holds of each update and
the state it is made in. -/
inductive Series (eig : NDT.Eig) (Q : State → Input → Prop) (s : State) : List Entry → State → Prop
  | refl : Series eig Q s [] s
  | setDistance {log s'} (d : ℝ) : Series eig Q s log s' → Series eig Q s log (setDistance s' d)
  | setRadius {log s'} (r : ℝ) : Series eig Q s log s' → Series eig Q s log (setRadius s' r)
  | update {log s' inp o s''} : Series eig Q s log s' → Q s' inp → Admissible s' inp →
      update eig inp s' = .ok (o, s'') → Series eig Q s (log ++ [⟨o.1, o.2, inp.scan⟩]) s''

/-- The scan has at least six points in one square of a map at the sensor, and no point is on a border line. -/
def HasEcho (scan : List NDT.Vec) : Prop :=
  (∀ p ∈ scan, OffLines (1 / 4 : ℝ) (head p)) ∧ ∃ q, 6 ≤ (inScan (1 / 4) scan q).length

/-- The sensor has range `R`; a successful match finds the robot at most `T` from the origin of the window, with a scan that has six
points in a square. -/
structure Sighted (R T : ℝ) (inp : Input) : Prop where
  range : InRange R inp.scan
  near : NearWindow T inp.alg
  echo : inp.alg.matcher ≠ none → HasEcho inp.scan

/-- Without a Gaussian in the running window the matcher has no target, and does not succeed. -/
def NeedsTarget (s : State) (inp : Input) : Prop := gaussians s.window = [] → inp.alg.matcher = none

/-! ### Lemmas -/

variable {eig : NDT.Eig}

theorem Series.runs {Q : State → Input → Prop} {P : Algo.Input → Prop} (hQ : ∀ s inp, Q s inp → P inp.alg) {s s' : State}
    {log : List Entry} (h : Series eig Q s log s') : Runs eig P s log s' := by
  induction h with
  | refl => exact .refl
  | setDistance d _ ih => exact .setDistance d ih
  | setRadius r _ ih => exact .setRadius r ih
  | update _ hq adm hu ih => exact .update ih (hQ _ _ hq) adm hu

theorem readd_alive (he : NDT.EigOk eig) : ∀ {l : List NDT.Cell} {g g' : Grid ℝ NDT.Cell}, WF g → 0 < g.cellSize →
    readd eig g l = .ok g' → (∀ c ∈ l, Hist eig c) → (∀ c ∈ getValidCells g, Hist eig c ∧ c.gaussian = true) →
    ((∃ c ∈ l, c.gaussian = true) ∨ getValidCells g ≠ []) →
    (∀ c ∈ getValidCells g', c.gaussian = true) ∧ getValidCells g' ≠ [] := by
  intro l
  induction l with
  | nil =>
    intro g g' _ _ h _ hg hne
    cases h
    exact ⟨fun c hc => (hg c hc).2, hne.resolve_left (by simp)⟩
  | cons c l ih =>
    intro g g' hwf hcs h hl hg hne
    have hl' := fun d (hd : d ∈ l) => hl d (List.mem_cons_of_mem _ hd)
    unfold readd at h
    split_ifs at h with hgc
    · obtain ⟨g1, h1, h⟩ := Res.bind_eq_ok.1 h
      obtain ⟨w1, c1, hs⟩ := addCell_stored hwf hcs h1
      have hc := hl c List.mem_cons_self
      refine ih w1 (by rw [c1]; exact hcs) h hl' ?_ (Or.inr ?_)
      · rcases hs with ⟨-, hs⟩ | ⟨o, ho, -, -, hs⟩
        · intro d hd
          rcases (hs d).1 hd with hd | rfl
          · exact hg d hd
          · exact ⟨hc, hgc⟩
        · intro d hd
          rcases hs d hd with hd | hd
          · exact hg d hd
          · rw [if_pos rfl] at hd
            have hd : d = NDT.merge eig o c := hd
            obtain ⟨o1, o2⟩ := hg o ho
            rw [hd]
            exact ⟨.merge o1 hc, ((NDT.C121_confirmed he o1 o2).2.2 c hc hgc).2⟩
      · rcases hs with ⟨-, hs⟩ | ⟨o, ho, -, hs, -⟩
        · exact List.ne_nil_of_mem ((hs c).2 (Or.inr rfl))
        · exact List.ne_nil_of_mem hs
    · refine ih hwf hcs h hl' hg ?_
      rcases hne with ⟨d, hd, hgd⟩ | hne
      · rcases List.mem_cons.1 hd with rfl | hd
        · exact absurd hgd hgc
        · exact Or.inl ⟨d, hd, hgd⟩
      · exact Or.inr hne

/-- `transform` does not lose all Gaussians. -/
theorem transform_alive (he : NDT.EigOk eig) {b : Bool} {n n' : Map} (hn : Built eig b n) {t : Trans}
    (h : transform eig n t = .ok n') (hne : gaussians n ≠ []) : gaussians n' ≠ [] := by
  have hi := hn.hist he
  obtain ⟨g, h1, rfl⟩ := transform_split h
  have hc := clearGrid_hist hi
  obtain ⟨c, hg⟩ := List.exists_mem_of_ne_nil _ hne
  obtain ⟨hv, hg⟩ := mem_gaussians.1 hg
  obtain ⟨k1, k2⟩ := readd_alive he hc.wf hc.cs h1 (hist_cells hi.hist true _)
    (fun c hc' => by rw [show getValidCells _ = [] from (clear_stored hi.wf).2.2] at hc'; cases hc')
    (Or.inl ⟨_, List.mem_map_of_mem hv, ((transformCell_spec he _ ((hn.inv he).ginv c hv)).2.1).trans hg⟩)
  obtain ⟨d, hd⟩ := List.exists_mem_of_ne_nil _ k2
  exact List.ne_nil_of_mem (mem_gaussians.2 ⟨hd, k1 d hd⟩)

/-- A scan with an echo leaves a Gaussian in the map. -/
theorem initialize_alive (he : NDT.EigOk eig) {n n' : Map} (hi : MapInv n) (hcs : n.grid.cellSize = 1 / 4) {ps : List NDT.Vec}
    (hp : HasEcho ps) (h : initializeMap eig n ps = .ok n') (hi' : MapInv n') : gaussians n' ≠ [] := by
  obtain ⟨hoff, q, hq⟩ := hp
  obtain ⟨c, hc, hg⟩ := (((C74_initialize_partial he hi.wf hi.cs (by rw [hcs]; exact hoff) h).2 q).1).2 (by rw [hcs]; exact hq)
  exact List.ne_nil_of_mem (mem_gaussians.2 ⟨(mem_validCells hi'.wf c).2 ⟨q, hc⟩, hg⟩)

theorem not_open {g : Grid ℝ NDT.Cell} (hcs : g.cellSize = 1 / 4) {N : ℕ} (h : square N ≤ extOf g) {p : ℝ × ℝ}
    (hx : |p.1| < (N + 1 / 2) * (1 / 4)) (hy : |p.2| < (N + 1 / 2) * (1 / 4)) : ¬ OnOpenBorder g p := by
  obtain ⟨-, h2, -, h4⟩ := h
  have h2 : (N : ℝ) ≤ g.right := by exact_mod_cast h2
  have h4 : (N : ℝ) ≤ g.down := by exact_mod_cast h4
  rw [abs_lt] at hx hy
  rintro (⟨k, hk⟩ | ⟨k, hk⟩)
  · have k0 : (0 : ℝ) ≤ k := Nat.cast_nonneg k
    rw [hcs] at hk
    linarith [hx.2]
  · have k0 : (0 : ℝ) ≤ k := Nat.cast_nonneg k
    rw [hcs] at hk
    linarith [hy.1]

/-- Merging Gaussians which are within the window leaves Gaussians at their squares. -/
theorem mergeTraced_alive {n n' : Map} (hi : MapInv n) (hcs : n.grid.cellSize = 1 / 4) {N : ℕ} (hN : square N ≤ extOf n.grid)
    {sx sy : ℝ} {l : List NDT.Cell}
    (hl : ∀ c ∈ l, c.gaussian = true → |c.mean 0| < (N + 1 / 2) * (1 / 4) ∧ |c.mean 1| < (N + 1 / 2) * (1 / 4))
    (h : mergeTraced (cellI eig) n sx sy l true = .ok n') {c : NDT.Cell} (hc : c ∈ l) (hg : c.gaussian = true) :
    ∃ d, content n'.grid (squareOf (1 / 4) (head c.mean)) = some d ∧ d.gaussian = true := by
  obtain ⟨t, ht, w1, c1, h⟩ := mergeTraced_split (cell_lawful eig) hi.wf h
  have ct : t.cellSize = 1 / 4 := c1.trans hcs
  obtain ⟨hb, -, -⟩ := traceAll_traced (cell_lawful eig) ht
  have hext : extOf t = extOf n.grid := by
    unfold extOf
    rw [hb.left, hb.right, hb.up, hb.down]
  obtain ⟨g', e, -, -, -, -, -, -, hc', -⟩ := mergeCells_resize (cellI eig) (n := { n with grid := t }) w1
    (by show 0 < t.cellSize; rw [ct]; norm_num) l true (Or.inl rfl) (fun d hd hgd => by
      obtain ⟨a1, a2⟩ := hl d hd hgd
      exact not_open ct (by rw [hext]; exact hN) a1 a2)
  have h' : mergeCells (cellI eig) { n with grid := t } l true = .ok n' := h
  rw [h'] at e
  have hmem : c ∈ inSquare (cellI eig) (1 / 4 : ℝ) l (squareOf (1 / 4) (head c.mean)) := mem_inSquare.2 ⟨hc, hg, rfl⟩
  obtain ⟨y, hy⟩ : ∃ y, (inSquare (cellI eig) (1 / 4 : ℝ) l (squareOf (1 / 4) (head c.mean))).getLast? = some y :=
    ⟨_, List.getLast?_eq_getLast_of_ne_nil (List.ne_nil_of_mem hmem)⟩
  obtain ⟨-, gy, -⟩ := mem_inSquare.1 (List.mem_of_getLast? hy)
  refine ⟨y, ?_, gy⟩
  rw [Res.ok.inj e]
  show content g' _ = _
  rw [hc' _]
  show ((inSquare (cellI eig) t.cellSize _ _).getLast?).or _ = _
  rw [ct, hy, Option.some_or]

/-- The window after a successful match holds a Gaussian of the scan. -/
theorem updateWindow_alive (he : NDT.EigOk eig) {b : Bool} {w w' : Map} (hw : Built eig b w) (hwc : w.grid.cellSize = 1 / 4)
    (hth : w.th = 0) {R T : ℝ} (hR : 0 ≤ R) (hT0 : 1 / 4 ≤ T) {N : ℕ} (hN : square N ≤ extOf w.grid)
    (hfit : R + T < (N + 1 / 2) * (1 / 4)) {ps : List NDT.Vec} (hps : ∀ p ∈ ps, p ∈ disc R) (hecho : HasEcho ps)
    {reg cumul : Trans} (hT : |reg 0 2| ≤ T ∧ |reg 1 2| ≤ T)
    (h : updateWindow eig (1 / 4) w ps reg = .ok (cumul, w')) : gaussians w' ≠ [] := by
  have hi := hw.inv he
  unfold updateWindow at h
  simp only at h
  obtain ⟨s0, h0, h⟩ := Res.bind_eq_ok.1 h
  obtain ⟨s1, h1, h⟩ := Res.bind_eq_ok.1 h
  obtain ⟨w1, h2, h⟩ := Res.bind_eq_ok.1 h
  obtain ⟨⟨r, w2⟩, h3, h⟩ := Res.bind_eq_ok.1 h
  obtain ⟨-, e2⟩ := Prod.mk.inj (Res.ok.inj h)
  simp only at e2
  subst e2
  have be : Built eig true (setOrigin (NDTGrid.init (cellI eig) 0 0 0 (1 / 4)) (origin w)) :=
    .setOrigin _ (.init 0 0 0 (by norm_num))
  have b0 : Built eig true s0 := .«initialize» ps be h0
  obtain ⟨i0, o0, -, m0⟩ := scan_mem he (disc_convex R) (be.inv he) hps h0
  have n0 := initialize_alive he (be.inv he) rfl hecho h0 i0
  have i1 := transform_inv he i0 h1
  have m1 := transform_mem he (disc_convex R) i0 (t := reg) (fun c hc => disc_rot (m0 c hc) _) h1
  have n1 := transform_alive he b0 h1 n0
  have i2 := mergeGridTraced_inv he hi i1 h2
  have ho1 := transform_origin h1
  have hs0 : s0.ox = w.ox ∧ s0.oy = w.oy ∧ s0.th = w.th :=
    ⟨congrArg Slam.Pose.x o0, congrArg Slam.Pose.y o0, congrArg Slam.Pose.th o0⟩
  obtain ⟨om, cm⟩ := mergeGridTraced_keeps hi h2
  have tb : transBtwFrames (origin s1) (origin w) = !![1, 0, reg 0 2; 0, 1, reg 1 2; 0, 0, 1] := by
    have a1 : origin s1 = ⟨w.ox + reg 0 2, w.oy + reg 1 2, 0⟩ := by
      unfold origin
      rw [ho1.1, ho1.2.1, ho1.2.2, hs0.1, hs0.2.1, hs0.2.2, hth,
        normalizeAngle_of_mem (by linarith [Real.pi_pos]) Real.pi_pos.le]
    have a2 : origin w = ⟨w.ox, w.oy, 0⟩ := by unfold origin; rw [hth]
    rw [transBtwFrames_eq, trans_inv, a1, a2]
    apply mat_ext <;> simp [getTransFromPose, invPose, Matrix.mul_apply, Fin.sum_univ_three]
  have place : ∀ d ∈ getValidCells s1.grid, d.gaussian = true →
      (transformCell eig !![1, 0, reg 0 2; 0, 1, reg 1 2; 0, 0, 1] d).mean 0 = d.mean 0 + reg 0 2 ∧
      (transformCell eig !![1, 0, reg 0 2; 0, 1, reg 1 2; 0, 0, 1] d).mean 1 = d.mean 1 + reg 1 2 := by
    intro d hd hg
    obtain ⟨-, -, -, q2⟩ := transformCell_spec he !![1, 0, reg 0 2; 0, 1, reg 1 2; 0, 0, 1] (i1.ginv d hd)
    obtain ⟨q3, -⟩ := q2 hg
    have ha : getAngle !![1, 0, reg 0 2; 0, 1, reg 1 2; 0, 0, 1] = 0 := by
      unfold getAngle
      simpa using atan2_zero_one
    rw [ha, rotZ_zero, Matrix.one_mulVec] at q3
    rw [q3]
    simp
  unfold mergeGridTraced at h2
  simp only [if_true] at h2
  rw [tb] at h2
  have l1 : extOf w.grid ≤ extOf w1.grid := by
    obtain ⟨-, -, e, -⟩ := addToMap_ext (I := cellI eig) (cell_lawful eig) (m := w) (f := ⟨_, _, _⟩) hi.wf hi.cs h2
    rw [e]
    exact le_sup_left
  obtain ⟨d, hd⟩ := List.exists_mem_of_ne_nil _ n1
  obtain ⟨hdv, hdg⟩ := mem_gaussians.1 hd
  obtain ⟨c, hc, hcg⟩ := mergeTraced_alive hi hwc hN (fun x hx hgx => by
    obtain ⟨y, hy, rfl⟩ := List.mem_map.1 hx
    rw [(transformCell_spec he _ (i1.ginv y hy)).2.1] at hgx
    obtain ⟨p1, p2⟩ := place y hy hgx
    obtain ⟨b0, b1⟩ := disc_box hR (m1 y hy)
    rw [p1, p2]
    exact ⟨((abs_add_le _ _).trans (add_le_add b0 hT.1)).trans_lt hfit,
      ((abs_add_le _ _).trans (add_le_add b1 hT.2)).trans_lt hfit⟩) h2
    (List.mem_map_of_mem hdv) (((transformCell_spec he _ (i1.ginv d hdv)).2.1).trans hdg)
  obtain ⟨p1, p2⟩ := place d hdv hdg
  obtain ⟨b0, b1⟩ := disc_box hR (m1 d hdv)
  have hth1 : w1.th = 0 := by rw [show w1.th = w.th from congrArg Slam.Pose.th om, hth]
  have cw1 : w1.grid.cellSize = 1 / 4 := cm.trans hwc
  obtain ⟨r', n1', mx, my, moved, k1, kr, kx, ky, -, -, -, -, -, kwf, kbox, kno, kyes⟩ := move_spec (cellI eig) i2.wf i2.cs
    (by rw [hth1]; norm_num) (reg 0 2) (reg 1 2)
  rw [h3] at k1
  obtain ⟨rfl, rfl⟩ := Prod.mk.inj (Res.ok.inj k1)
  have hwf2 : WF w2.grid := kwf
  by_cases hm : moved
  · obtain ⟨-, hcont⟩ := kyes hm
    have hq := squareOf_shift (cs := (1 / 4 : ℝ)) (by norm_num)
      (head (transformCell eig !![1, 0, reg 0 2; 0, 1, reg 1 2; 0, 0, 1] d).mean) mx my
    rw [cw1, kr] at kx ky
    rw [cw1] at hcont
    simp only at kx ky
    have hcov : InExtent w1.grid ((squareOf (1 / 4 : ℝ) (head (transformCell eig !![1, 0, reg 0 2; 0, 1, reg 1 2; 0, 0, 1] d).mean)).1 - mx,
        (squareOf (1 / 4 : ℝ) (head (transformCell eig !![1, 0, reg 0 2; 0, 1, reg 1 2; 0, 0, 1] d).mean)).2 - my) := by
      rw [← hq]
      have := covers_square (n := w1) cw1 (hN.trans l1)
        (x := (head (transformCell eig !![1, 0, reg 0 2; 0, 1, reg 1 2; 0, 0, 1] d).mean).1 + -(mx * (1 / 4)))
        (y := (head (transformCell eig !![1, 0, reg 0 2; 0, 1, reg 1 2; 0, 0, 1] d).mean).2 + -(my * (1 / 4))) (by
          show |(transformCell eig _ d).mean 0 + _| < _
          rw [p1, show d.mean 0 + reg 0 2 + -(mx * (1 / 4)) = d.mean 0 + (reg 0 2 - mx * (1 / 4)) by ring]
          rw [cw1] at kx
          exact ((abs_add_le _ _).trans (add_le_add b0 (kx.le.trans hT0))).trans_lt hfit) (by
          show |(transformCell eig _ d).mean 1 + _| < _
          rw [p2, show d.mean 1 + reg 1 2 + -(my * (1 / 4)) = d.mean 1 + (reg 1 2 - my * (1 / 4)) by ring]
          rw [cw1] at ky
          exact ((abs_add_le _ _).trans (add_le_add b1 (ky.le.trans hT0))).trans_lt hfit)
      unfold Covers at this
      rwa [cw1] at this
    have h4 := hcont _ hcov
    simp only [sub_add_cancel] at h4
    rw [show ((squareOf (1 / 4 : ℝ) (head (transformCell eig !![1, 0, reg 0 2; 0, 1, reg 1 2; 0, 0, 1] d).mean)).1,
      (squareOf (1 / 4 : ℝ) (head (transformCell eig !![1, 0, reg 0 2; 0, 1, reg 1 2; 0, 0, 1] d).mean)).2) =
      squareOf (1 / 4 : ℝ) (head (transformCell eig !![1, 0, reg 0 2; 0, 1, reg 1 2; 0, 0, 1] d).mean) from rfl, hc] at h4
    refine List.ne_nil_of_mem (mem_gaussians.2 ⟨(mem_validCells hwf2 _).2 ⟨_, h4⟩, ?_⟩)
    exact (shiftCell_gaussian (cell_lawful eig) _ c).trans hcg
  · obtain ⟨-, -, rfl⟩ := kno hm
    exact List.ne_nil_of_mem (mem_gaussians.2 ⟨(mem_validCells hwf2 _).2 ⟨_, hc⟩, hcg⟩)

end Verif.Whole
