import Verif.Match.Reference

/-
C174: how the running window loses its last Gaussian.
-/
namespace Verif.Match

open Verif Verif.Geo Verif.World Verif.NDTGrid Verif.Voxel Verif.Whole

variable {eig : NDT.Eig}

/-! ### Specification -/

/-- No square of a map at the sensor gets six points of the scan, and no point is on a border line. -/
def NoEcho (scan : List NDT.Vec) : Prop :=
  (∀ p ∈ scan, OffLines (1 / 4 : ℝ) (head p)) ∧ ∀ q, (inScan (1 / 4) scan q).length < 6

/-- The robot drives along the x axis through open space: sensor of range `R`; a match finds the robot between a cell and `T` ahead of the
origin of the window, with a scan that has nowhere six points in a square. -/
structure Passing (R T : ℝ) (inp : Input) : Prop where
  range : InRange R inp.scan
  near : NearWindow T inp.alg
  ahead : ∀ r, inp.alg.matcher = some r → 1 / 4 ≤ convertToTransform r 0 2
  poor : inp.alg.matcher ≠ none → NoEcho inp.scan

def isMatch : Algo.Event → Bool
  | .matched .. => true
  | _ => false

/-- Number of successful matches. -/
def matches_ (log : List Entry) : ℕ := log.countP fun e => isMatch e.event

/-! ### Lemmas -/

theorem traceAll_none {s : Fin 3 → ℝ} {g : Grid ℝ NDT.Cell} : ∀ {l : List NDT.Cell}, (∀ c ∈ l, c.gaussian = false) →
    traceAll (cellI eig) s g l = .ok g := by
  intro l
  induction l with
  | nil => intro _; rfl
  | cons c l ih =>
    intro h
    unfold traceAll
    have hc : (cellI eig).gaussian c = false := h c List.mem_cons_self
    rw [if_neg (by rw [hc]; simp)]
    exact ih fun d hd => h d (List.mem_cons_of_mem _ hd)

/-- Merging cells without Gaussian does not change what is where. -/
theorem mergeTraced_none {n n' : Map} (hi : MapInv n) {sx sy : ℝ} {l : List NDT.Cell} (hl : ∀ c ∈ l, c.gaussian = false)
    (h : mergeTraced (cellI eig) n sx sy l true = .ok n') (q : ℤ × ℤ) : content n'.grid q = content n.grid q := by
  unfold mergeTraced at h
  rw [traceAll_none hl, Res.bind_ok] at h
  obtain ⟨g', e, -, -, -, -, -, -, hc', -⟩ := mergeCells_resize (cellI eig) (n := { n with grid := n.grid }) hi.wf hi.cs l true
    (Or.inl rfl) (fun d hd hgd => by
      have hgd : d.gaussian = true := hgd
      rw [hl d hd] at hgd
      cases hgd)
  rw [h] at e
  rw [Res.ok.inj e]
  show content g' q = _
  rw [hc' q]
  have hin : inSquare (cellI eig) n.grid.cellSize l q = [] := by
    refine List.eq_nil_iff_forall_not_mem.2 fun x hx => ?_
    obtain ⟨hx, hg, -⟩ := mem_inSquare.1 hx
    have hg : x.gaussian = true := hg
    rw [hl x hx] at hg
    cases hg
  show ((inSquare (cellI eig) n.grid.cellSize l q).getLast?).or _ = _
  rw [hin]
  rfl

/-- A match with a scan without echo only shifts the window. -/
theorem updateWindow_poor (he : NDT.EigOk eig) {b : Bool} {w w' : Map} (hw : Built eig b w) (hwc : w.grid.cellSize = 1 / 4)
    (hth : w.th = 0) {ps : List NDT.Vec} (hps : NoEcho ps) {reg cumul : Trans}
    (h : updateWindow eig (1 / 4) w ps reg = .ok (cumul, w')) :
    ∃ mx my : ℤ, w'.ox = w.ox + mx * (1 / 4) ∧ w'.oy = w.oy + my * (1 / 4) ∧
      |reg 0 2 - mx * (1 / 4)| < 1 / 4 ∧ |reg 1 2 - my * (1 / 4)| < 1 / 4 ∧
      ∀ q d, content w'.grid q = some d → d.gaussian = true →
        ∃ d', content w.grid (q.1 + mx, q.2 + my) = some d' ∧ d'.gaussian = true := by
  have hi := hw.inv he
  unfold updateWindow at h
  simp only at h
  obtain ⟨s0, h0, h⟩ := Res.bind_eq_ok.1 h
  obtain ⟨s1, h1, h⟩ := Res.bind_eq_ok.1 h
  obtain ⟨w1, h2, h⟩ := Res.bind_eq_ok.1 h
  obtain ⟨⟨r, w2⟩, h3, h⟩ := Res.bind_eq_ok.1 h
  obtain ⟨-, e2⟩ := Prod.mk.inj (Res.ok.inj h)
  simp only at e2
  subst e2
  have ie : MapInv (setOrigin (NDTGrid.init (cellI eig) 0 0 0 (1 / 4)) (origin w)) :=
    setOrigin_inv (init_inv eig 0 0 0 (by norm_num)) _
  have i0 := (scan_mem he convex_univ ie (fun _ _ => Set.mem_univ _) h0).1
  have g0 : gaussians s0 = [] := by
    refine List.eq_nil_iff_forall_not_mem.2 fun c hc => ?_
    obtain ⟨hv, hg⟩ := mem_gaussians.1 hc
    obtain ⟨q, hq⟩ := (mem_validCells i0.wf c).1 hv
    have := (((C74_initialize_partial he ie.wf ie.cs hps.1 h0).2 q).1).1 ⟨c, hq, hg⟩
    exact absurd this (not_le.2 (hps.2 q))
  have i1 := transform_inv he i0 h1
  have m1 := transform_mem he convex_empty i0 (t := reg) (by rw [g0]; simp) h1
  have i2 := mergeGridTraced_inv he hi i1 h2
  obtain ⟨om, cm⟩ := mergeGridTraced_keeps hi h2
  unfold mergeGridTraced at h2
  simp only [if_true] at h2
  have hcont := mergeTraced_none hi (l := transformCells eig (transBtwFrames (origin s1) (origin w)) (getValidCells s1.grid)) (by
    intro c hc
    obtain ⟨d, hd, -⟩ := List.mem_map.1 hc
    exact absurd (m1 d hd) (Set.notMem_empty _)) h2
  have cw1 : w1.grid.cellSize = 1 / 4 := cm.trans hwc
  have hth1 : w1.th = 0 := by rw [show w1.th = w.th from congrArg Slam.Pose.th om, hth]
  obtain ⟨r', n1', mx, my, moved, k1, kr, kx, ky, kox, koy, -, -, -, kwf, kbox, kno, kyes⟩ := move_spec (cellI eig) i2.wf i2.cs
    (by rw [hth1]; norm_num) (reg 0 2) (reg 1 2)
  rw [h3] at k1
  obtain ⟨rfl, rfl⟩ := Prod.mk.inj (Res.ok.inj k1)
  rw [cw1] at kr kx ky kox koy
  rw [kr] at kx ky
  refine ⟨mx, my, ?_, ?_, kx, ky, fun q d hd hg => ?_⟩
  · rw [kox, show w1.ox = w.ox from congrArg Slam.Pose.x om]
  · rw [koy, show w1.oy = w.oy from congrArg Slam.Pose.y om]
  · by_cases hm : moved
    · obtain ⟨-, hc⟩ := kyes hm
      have hin : InExtent w1.grid q := by
        by_contra hn
        rw [content_of_not_in (fun hx => hn ((kbox.inExtent q).1 hx))] at hd
        cases hd
      rw [hc q hin, hcont] at hd
      obtain ⟨d', hd', rfl⟩ := Option.map_eq_some_iff.1 hd
      refine ⟨d', hd', ?_⟩
      exact (shiftCell_gaussian (cell_lawful eig) _ d').symm.trans hg
    · obtain ⟨rfl, rfl, rfl⟩ := kno hm
      rw [hcont] at hd
      exact ⟨d, by simpa using hd, hg⟩

theorem square_le {M N : ℕ} (h : M ≤ N) : square M ≤ square N := ⟨h, h, h, h⟩

/-! ### C174 -/

/-- The window forgets: a robot that drives through open space, with successful matches, has nothing left to match against once it has
made as many matches as the window is cells wide.  `C174_lost` is a run that meets the hypotheses. -/
theorem C174_forgets (he : NDT.EigOk eig) {R T : ℝ} (hR : 0 ≤ R) (hT : 0 ≤ T) {P : Algo.Input → Prop} {s0 s1 s : State}
    (h0 : Reach eig P [] s0) {inp : Input} {o : Algo.Event × Pose} (adm : Admissible s0 inp)
    (h1 : Whole.update eig inp s0 = .ok (o, s1)) (hrange : InRange R inp.scan) (hnear : NearWindow T inp.alg)
    {log : List Entry} (h : Series eig (fun _ i => Passing R T i) s1 log s)
    (hn : 8 * max s0.radius (R + T) + 1 ≤ matches_ log) : gaussians s.window = [] := by
  have h0' : Reach eig (NearWindow T) [] s0 := fresh_any h0 rfl
  have h01 : Reach eig (NearWindow T) [⟨o.1, o.2, inp.scan⟩] s1 := .update h0' hnear adm h1
  have hall : ∀ log s, Series eig (fun _ i => Passing R T i) s1 log s → ∀ e ∈ log, InRange R e.scan := by
    intro log s h
    induction h with
    | refl => simp
    | setDistance d _ ih => exact ih
    | setRadius r _ ih => exact ih
    | update _ hq _ _ ih =>
      intro e he
      rcases List.mem_append.1 he with he | he
      · exact ih e he
      · rw [List.mem_singleton.1 he]
        exact hq.range
  have ext : ∀ log s, Series eig (fun _ i => Passing R T i) s1 log s → s.alg.initialized = true ∧
      extOf s.window.grid ≤ square (side (1 / 4) (max s0.radius (R + T))) := by
    intro log s h
    obtain ⟨k1, -, k2⟩ := run_ext he hR (fun _ h => h) h0' hnear adm h1 (h.runs (P := NearWindow T) fun _ _ h => h.near) hrange
      (hall log s h)
    refine ⟨k1, k2.trans (sup_le (sup_le ?_ ?_) ?_)⟩ <;> refine square_le (side_mono (by norm_num) ?_)
    · exact le_max_left _ _
    · exact le_trans (by linarith) (le_max_right _ _)
    · exact le_max_right _ _
  have key : ∀ log s, Series eig (fun _ i => Passing R T i) s1 log s → ∀ q d, content s.window.grid q = some d → d.gaussian = true →
      ∃ q' d', content s1.window.grid q' = some d' ∧ q.1 + matches_ log ≤ q'.1 := by
    intro log s h
    induction h with
    | refl => exact fun q d hd _ => ⟨q, d, hd, by simp [matches_]⟩
    | setDistance d _ ih => exact ih
    | setRadius r _ ih => exact ih
    | @update log s' inp' o' s'' hr hq adm' hu ih =>
      intro q d hd hg
      have hreach := (hr.runs (P := NearWindow T) fun _ _ h => h.near).reach h01
      obtain ⟨⟨b, inv⟩, -⟩ := hreach.inv he
      obtain ⟨-, hdn, -⟩ := update_spec he inv.full adm'.alg (inv.window.winB.inv he) inv.window.winO inv.window.winC hu
      have hth : s'.window.th = 0 := by
        have := inv.full.win.th
        rw [← inv.window.winO] at this
        exact this
      have cell := hreach.cell he
      obtain ⟨ev, po⟩ := o'
      have count : matches_ (log ++ [(⟨ev, po, inp'.scan⟩ : Entry)]) = matches_ log + if isMatch ev = true then 1 else 0 := by
        unfold matches_
        rw [List.countP_append, List.countP_singleton]
      simp only at hdn ⊢
      rw [count]
      cases hdn with
      | first h0 => rw [(ext _ _ hr).1] at h0; cases h0
      | idle _ _ hw => rw [hw] at hd; simpa [isMatch] using ih q d hd hg
      | failed _ _ hw => rw [hw] at hd; simpa [isMatch] using ih q d hd hg
      | @matched g m q0 r cumul _ hmat _ _ hw =>
        rw [cell] at hw
        obtain ⟨mx, my, -, -, hx, -, hc⟩ := updateWindow_poor he inv.window.winB (inv.window.winC.trans cell) hth
          (hq.poor (by rw [hmat]; simp)) hw
        obtain ⟨d', hd', hg'⟩ := hc q d hd hg
        obtain ⟨q', d2, h2, h3⟩ := ih _ d' hd' hg'
        refine ⟨q', d2, h2, ?_⟩
        have h4 := hq.ahead r hmat
        rw [abs_lt] at hx
        have h5 : (0 : ℝ) < mx := by linarith [hx.2]
        have h6 : 0 < mx := by exact_mod_cast h5
        simp only [isMatch, if_true]
        push_cast
        simp only at h3
        omega
  refine List.eq_nil_iff_forall_not_mem.2 fun c hc => ?_
  have hreach := (h.runs (P := NearWindow T) fun _ _ h => h.near).reach h01
  obtain ⟨⟨b, inv⟩, -⟩ := hreach.inv he
  obtain ⟨hv, hg⟩ := mem_gaussians.1 hc
  obtain ⟨q, hq⟩ := (mem_validCells (inv.window.winB.inv he).wf c).1 hv
  obtain ⟨q', d', h2, h3⟩ := key _ _ h q c hq hg
  have inq : InExtent s.window.grid q := by
    by_contra hn
    rw [content_of_not_in hn] at hq
    cases hq
  have inq' : InExtent s1.window.grid q' := by
    by_contra hn
    rw [content_of_not_in hn] at h2
    cases h2
  obtain ⟨-, e1⟩ := ext _ _ h
  obtain ⟨-, e2⟩ := ext _ _ (.refl)
  have l1 : s.window.grid.left ≤ side (1 / 4) (max s0.radius (R + T)) := e1.1
  have l2 : s1.window.grid.right ≤ side (1 / 4) (max s0.radius (R + T)) := e2.2.1
  have l3 : matches_ log ≤ 2 * side (1 / 4) (max s0.radius (R + T)) := by
    have := inq.1
    have := inq'.2.1
    omega
  have l4 := side_lt (cs := (1 / 4 : ℝ)) (B := max s0.radius (R + T)) (by norm_num) (le_max_of_le_right (by linarith))
  have l5 : ((matches_ log : ℕ) : ℝ) ≤ 2 * (side (1 / 4) (max s0.radius (R + T)) : ℕ) := by exact_mod_cast l3
  linarith

/-! ### A drive through open space -/

/-- What is known of the drive after each of its updates. -/
structure PassRun (s : State) (k : ℤ) : Prop where
  init : s.alg.initialized = true
  unused : s.alg.unused = 1
  far : s.alg.maxTraveled = 3 / 2
  trans : s.alg.transTemp = 1
  position : s.alg.position = Algo.ahead k
  window : s.alg.window = ⟨k, 0, 0⟩
  last : s.alg.lastMatcherPose = ⟨k, 0, 0⟩
  frame : FrameOk s.temp

theorem noEcho_nil : NoEcho [] := ⟨by simp, fun q => by simp [inScan]⟩

theorem pass_first (he : NDT.EigOk eig) {T : ℝ} : ∃ inp p s1, Admissible (Whole.init eig) inp ∧ inp.scan = exScan 5 ∧
    NearWindow T inp.alg ∧ Whole.update eig inp (Whole.init eig) = .ok ((.first, p), s1) ∧ PassRun s1 0 ∧
    gaussians s1.window ≠ [] := by
  have h0 : Reach eig (NearWindow T) [] (Whole.init eig) := .init
  obtain ⟨inp, ⟨ev, p⟩, s1, hp, ⟨hsc, -⟩, adm, hu, hgs, fo, hw, hl, ht, hn, hi, -⟩ :=
    first_run he h0 (fun m a est order r hr => by cases hr) rfl
  obtain ⟨⟨b, inv⟩, -⟩ := h0.inv he
  obtain ⟨ha, -⟩ := update_spec he inv.full adm.alg (inv.window.winB.inv he) inv.window.winO inv.window.winC hu
  have ha : Algo.update inp.alg (Whole.init eig).alg = .ok ((ev, p), s1.alg) := ha
  obtain ⟨e, p', a', b', hu2, -, -, -, -, -, hmax, scs⟩ := Algo.update_step inv.full adm.alg
  rw [ha] at hu2
  have h2 := Res.ok.inj hu2
  simp only [Prod.mk.injEq] at h2
  obtain ⟨⟨rfl, rfl⟩, rfl⟩ := h2
  cases scs with
  | idle h => simp [Whole.init, Algo.init] at h
  | failed h => simp [Whole.init, Algo.init] at h
  | matched h => simp [Whole.init, Algo.init] at h
  | first _ hpos =>
  refine ⟨inp, p, s1, adm, hsc, hp, hu, ⟨hi, hn, hmax, ht, ?_, by simpa using hw, by simpa using hl, fo⟩, by rw [hgs]; simp⟩
  rw [hpos]
  simpa using Algo.ahead_zero.symm

theorem pass_next (he : NDT.EigOk eig) {P : Algo.Input → Prop}
    (hP : ∀ m a est order, P ⟨m, some (convertFromTransform (Algo.ahead (2 : ℤ))), a, [], est, order⟩) {log : List Entry}
    {s : State} (h : Reach eig P log s) {k : ℤ} (hb : PassRun s k) :
    ∃ inp g m q p s', Admissible s inp ∧ inp.scan = [] ∧ inp.alg.matcher = some (convertFromTransform (Algo.ahead (2 : ℤ))) ∧ P inp.alg ∧
      Whole.update eig inp s = .ok ((.matched g m q, p), s') ∧ PassRun s' (k + 2) := by
  obtain ⟨⟨b, inv⟩, -⟩ := h.inv he
  have cell := h.cell he
  obtain ⟨a, ha, -⟩ := fresh_two s.alg.engine.graph
  have hconv : convertToTransform (convertFromTransform (Algo.ahead (2 : ℤ))) = Algo.ahead (2 : ℤ) :=
    C44_round_trips.2.2.2.2.2.2.2.1 _ (Algo.ahead_rigid _)
  set inp : Input := ⟨⟨Algo.ahead (2 : ℤ), some (convertFromTransform (Algo.ahead (2 : ℤ))), a, [], fun _ => ⟨0, 0, 0⟩,
    List.range (s.alg.engine.graph.nodes.length + 1)⟩, [], 0, s.order ++ [s.store.length]⟩ with hinp
  have adm : Admissible s inp := by
    refine ⟨⟨Algo.ahead_rigid _, ?_, by simp [hinp], ?_, by simp [hinp], List.Perm.refl _⟩, List.Perm.refl _⟩
    · intro r hr
      cases hr
      rw [hconv]
      exact Algo.ahead_rigid _
    · intro x hx
      rw [List.mem_singleton.1 hx]
      exact ha
  have tk : ∀ j : ℤ, getTransFromPose (⟨(j : ℝ), 0, 0⟩ : Pose) = Algo.ahead j := by
    intro j
    rw [Algo.ahead_eq]
    ext i j
    fin_cases i <;> fin_cases j <;> simp [getTransFromPose]
  have mulk : ∀ i j : ℤ, Algo.ahead i * Algo.ahead j = Algo.ahead ((i + j : ℤ) : ℝ) := by
    intro i j
    rw [Algo.ahead_eq, Algo.ahead_eq, Algo.ahead_eq]
    ext i j
    fin_cases i <;> fin_cases j <;> simp [Matrix.mul_apply, Fin.sum_univ_three, add_comm]
  have hpose : getPoseFromTransform (getTransFromPose s.alg.window * Algo.ahead (2 : ℤ)) = ⟨((k + 2 : ℤ) : ℝ), 0, 0⟩ := by
    rw [hb.window, tk, mulk, ← tk]
    exact (C44_round_trips.1 _).trans (by
      rw [normalizeAngle_of_mem (by linarith [Real.pi_pos]) Real.pi_pos.le])
  have hinv : ∀ i : ℤ, (Algo.ahead (i : ℝ))⁻¹ * Algo.ahead ((i + 2 : ℤ) : ℝ) = Algo.ahead (2 : ℤ) := by
    intro i
    rw [← mulk, ← Matrix.mul_assoc, Matrix.nonsing_inv_mul _ (by
      rw [Algo.ahead_eq, Matrix.det_fin_three]; simp), Matrix.one_mul]
  have safe : Safe s inp := by
    refine ⟨(fun p hp => by cases hp), (fun p hp => by cases hp), hb.frame, by simp [hinp], ?_⟩
    intro r hr
    cases hr
    rw [hconv, cell]
    have hno : ∀ q, ¬ 6 ≤ (inScan (1 / 4) ([] : List NDT.Vec) q).length := fun q => by simp [inScan]
    refine ⟨fun q hq => absurd hq (hno q), ?_, fun q v hv => ?_⟩
    · have := off_quarter 2
      simpa [Algo.ahead_eq] using this
    · rw [show {x | ∃ q', 6 ≤ (inScan (1 / 4) inp.scan q').length ∧ x = turnedMean (1 / 4) inp.scan (Algo.ahead (2 : ℤ)) q' ∧
        squareOf (1 / 4) (head x) = q} = ∅ from Set.eq_empty_iff_forall_notMem.2 fun x hx => by
          obtain ⟨q', h6, -⟩ := hx
          exact hno q' h6, convexHull_empty] at hv
      exact absurd hv (Set.notMem_empty _)
  obtain ⟨⟨ev, p⟩, s', hu⟩ := C116_update_partial he h adm safe
  have h' := Reach.update h (hP _ _ _ _) adm hu
  obtain ⟨⟨b2, inv2⟩, -⟩ := h'.inv he
  obtain ⟨ha1, hd, -⟩ := update_spec he inv.full adm.alg (inv.window.winB.inv he) inv.window.winO inv.window.winC hu
  have ha1 : Algo.update inp.alg s.alg = .ok ((ev, p), s'.alg) := ha1
  obtain ⟨_, -, fl, -⟩ := (h.inv he).2.full
  obtain ⟨e, p', a', b', hu2, -, hi', -, -, -, hmax, scs⟩ := Algo.update_step inv.full adm.alg
  rw [ha1] at hu2
  have h2 := Res.ok.inj hu2
  simp only [Prod.mk.injEq] at h2
  obtain ⟨⟨rfl, rfl⟩, rfl⟩ := h2
  have hmv : Algo.movedEnough s.alg (s.alg.unused * inp.alg.motion) := by
    rw [hb.unused, Matrix.one_mul]
    exact (Algo.ahead_moved fl.minD fl.minR (by norm_num)).2 (by norm_num)
  cases scs with
  | first h => rw [hb.init] at h; cases h
  | idle _ h => exact absurd hmv h
  | failed _ _ h => cases h
  | @matched m q _ _ hm hq hpos hl hun gr =>
    cases hm
    rw [hconv, hpose] at hq
    have hinc : (getTransFromPose s.alg.lastMatcherPose)⁻¹ * getTransFromPose q = Algo.ahead (2 : ℤ) := by
      rw [hb.last, hq, tk, tk, hinv]
    rw [hinc] at hpos gr
    have hfar : Algo.movedFar s.alg (s.alg.transTemp * Algo.ahead (2 : ℤ)) := by
      unfold Algo.movedFar
      rw [hb.trans, Matrix.one_mul, hb.far, Algo.displacement_ahead (by norm_num)]
      norm_num
    have hposk : s'.alg.position = Algo.ahead ((k + 2 : ℤ) : ℝ) := by rw [hpos rfl, hb.position, mulk]
    have htt : s'.alg.transTemp = 1 ∧ getTransFromPose s'.alg.temp.origin = Algo.ahead ((k + 2 : ℤ) : ℝ) := by
      obtain ⟨ins, hins, -, ⟨-, -, -, h⟩ | ⟨-, -, h', h, -⟩⟩ := gr
      · exact absurd hfar h
      · refine ⟨h.1, ?_⟩
        rw [h', Matrix.mul_one] at hins
        rw [hins, hposk]
    cases hd with
    | @matched _ _ _ r cumul _ hmat hq' mrg hw =>
    cases hmat
    rw [hconv, cell] at hw
    rw [hinc] at mrg
    have hth : s.window.th = 0 := by
      have := inv.full.win.th
      rw [← inv.window.winO] at this
      exact this
    obtain ⟨mx, my, ox, oy, hx, hy, -⟩ := updateWindow_poor he inv.window.winB (inv.window.winC.trans cell) hth noEcho_nil hw
    have e0 : (Algo.ahead ((2 : ℤ) : ℝ)) 0 2 = 2 := by rw [Algo.ahead_eq]; simp
    have e1 : (Algo.ahead ((2 : ℤ) : ℝ)) 1 2 = 0 := by rw [Algo.ahead_eq]; simp
    rw [e0, abs_lt] at hx
    rw [e1, abs_lt] at hy
    have mx8 : mx = 8 := by
      have h1 : (mx : ℝ) < 9 := by linarith [hx.1]
      have h2 : (7 : ℝ) < mx := by linarith [hx.2]
      have h1 : mx < 9 := by exact_mod_cast h1
      have h2 : 7 < mx := by exact_mod_cast h2
      omega
    have my0 : my = 0 := by
      have h1 : (my : ℝ) < 1 := by linarith [hy.1]
      have h2 : (-1 : ℝ) < my := by linarith [hy.2]
      have h1 : my < 1 := by exact_mod_cast h1
      have h2 : -1 < my := by exact_mod_cast h2
      omega
    have wo : origin s.window = ⟨(k : ℝ), 0, 0⟩ := inv.window.winO.trans hb.window
    have hwin : s'.alg.window = ⟨((k + 2 : ℤ) : ℝ), 0, 0⟩ := by
      rw [← inv2.window.winO]
      have t2 : s'.window.th = 0 := by
        have := inv2.full.win.th
        rw [← inv2.window.winO] at this
        exact this
      unfold origin
      rw [ox, oy, t2, mx8, my0, show s.window.ox = k from congrArg Slam.Pose.x wo, show s.window.oy = 0 from congrArg Slam.Pose.y wo]
      push_cast
      norm_num
    cases mrg with
    | kept h => exact absurd hfar h
    | inserted _ hadd hcase htemp =>
    have ie : MapInv (setOrigin (emptyMap eig s.alg.cellSize) s'.alg.temp.origin) :=
      setOrigin_inv (init_inv eig 0 0 0 (by rw [cell]; norm_num)) _
    have fo : FrameOk s'.temp := by
      refine (frame_ahead (k + 2) 5 (by norm_num) (by norm_num) (by rw [inv2.frames.tempO]; exact htt.2) fun c hc => ?_).2.2
      rw [show inp.scan = [] from rfl, ← transformCloud_one ([] : List NDT.Vec)] at htemp
      rcases (merged ie Algo.rigid_one htemp).2.2 c hc with ⟨c', hc', -⟩ | hs
      · rw [gaussians_init] at hc'
        cases hc'
      · simp [SeenFrom] at hs
    exact ⟨inp, _, _, _, _, _, adm, rfl, rfl, hP _ _ _ _, hu, hi', hun, hmax.trans hb.far, htt.1, hposk, hwin, hl.trans hq, fo⟩

/-- A good start does not help: the first scan gives the window a Gaussian; then the robot drives on, two metres per update, and every update
is matched against what is in the window, until nothing is in it; from then on no scan is matched any more, whatever the sensor sees. -/
theorem C174_lost (he : NDT.EigOk eig) : ∃ inp p s1 log s, Admissible (Whole.init eig) inp ∧ HasEcho inp.scan ∧
    Whole.update eig inp (Whole.init eig) = .ok ((.first, p), s1) ∧ gaussians s1.window ≠ [] ∧
    Series eig (fun s i => Passing 5 2 i ∧ NeedsTarget s i) s1 log s ∧ (∀ e ∈ log, ∃ g m q, e.event = .matched g m q) ∧
    gaussians s.window = [] ∧
    ∀ log' s', Series eig NeedsTarget s log' s' →
      gaussians s'.window = [] ∧ ∀ e ∈ log', (∃ m, e.event = .idle m) ∨ ∃ g m, e.event = .failed g m := by
  obtain ⟨inp, p, s1, adm, hsc, hnear, hu, hb, hne⟩ := pass_first he (T := 2)
  have h1 : Reach eig (NearWindow 2) _ s1 := .update .init hnear adm hu
  have hrange : InRange 5 inp.scan := by rw [hsc]; exact exScan_range
  have hcm : convertToTransform (convertFromTransform (Algo.ahead (2 : ℤ))) = Algo.ahead (2 : ℤ) :=
    C44_round_trips.2.2.2.2.2.2.2.1 _ (Algo.ahead_rigid _)
  have near : ∀ m a est order, NearWindow 2 ⟨m, some (convertFromTransform (Algo.ahead (2 : ℤ))), a, [], est, order⟩ := by
    intro m a est order r hr
    cases hr
    rw [Algo.ahead_eq]
    simp [convertFromTransform, planar4, getPoseFromTransform]
  have drive : ∀ n : ℕ, ∃ log s, Series eig (fun s i => Passing 5 2 i ∧ NeedsTarget s i) s1 log s ∧
      (∀ e ∈ log, ∃ g m q, e.event = .matched g m q) ∧ s.alg.initialized = true ∧
      (gaussians s.window = [] ∨ PassRun s (2 * n) ∧ matches_ log = n) := by
    intro n
    induction n with
    | zero => exact ⟨[], s1, .refl, by simp, hb.init, Or.inr ⟨by simpa using hb, rfl⟩⟩
    | succ n ih =>
      obtain ⟨log, s, a1, a2, a3, a4⟩ := ih
      by_cases hg : gaussians s.window = []
      · exact ⟨log, s, a1, a2, a3, Or.inl hg⟩
      obtain ⟨hr, hc⟩ := a4.resolve_left hg
      obtain ⟨inp', g, m, q, p', s', adm', hsc', hmat, hp', hu', hb'⟩ := pass_next he near
        ((a1.runs (P := NearWindow 2) fun _ _ h => h.1.near).reach h1) hr
      refine ⟨_, s', .update a1 ⟨⟨(by rw [hsc']; intro p hp; cases hp), hp', fun r hr => ?_, fun _ => by rw [hsc']; exact noEcho_nil⟩,
        fun h => absurd h hg⟩ adm' hu', fun e hm => ?_, hb'.init, Or.inr ⟨?_, ?_⟩⟩
      · rw [hmat] at hr
        cases hr
        rw [hcm, Algo.ahead_eq]
        show (1 / 4 : ℝ) ≤ ((2 : ℤ) : ℝ)
        norm_num
      · rcases List.mem_append.1 hm with hm | hm
        · exact a2 e hm
        · rw [List.mem_singleton.1 hm]
          exact ⟨g, m, q, rfl⟩
      · rw [show (2 * ((n + 1 : ℕ) : ℤ)) = 2 * n + 2 by push_cast; ring]
        exact hb'
      · unfold matches_ at hc ⊢
        rw [List.countP_append, hc, List.countP_singleton]
        simp [isMatch]
  obtain ⟨n, hn⟩ := exists_nat_ge (8 * max (Whole.init eig).radius (5 + 2) + 1)
  obtain ⟨log, s, a1, a2, a3, a4⟩ := drive n
  have hpass : ∀ {log s}, Series eig (fun s i => Passing 5 2 i ∧ NeedsTarget s i) s1 log s → Series eig (fun _ i => Passing 5 2 i) s1 log s := by
    intro log s h
    induction h with
    | refl => exact .refl
    | setDistance d _ ih => exact .setDistance d ih
    | setRadius r _ ih => exact .setRadius r ih
    | update _ hq adm hu ih => exact .update ih hq.1 adm hu
  have hend : gaussians s.window = [] := by
    rcases a4 with h | ⟨-, hc⟩
    · exact h
    · exact C174_forgets he (by norm_num) (by norm_num) (P := NearWindow 2) .init adm hu hrange hnear (hpass a1) (by rw [hc]; exact hn)
  have hreach := (a1.runs (P := NearWindow 2) fun _ _ h => h.1.near).reach h1
  exact ⟨inp, p, s1, log, s, adm, by rw [hsc]; exact exScan_echo, hu, hne, a1, a2, hend, fun log' s' h =>
    C174_stuck he hreach a3 hend h⟩

end Verif.Match
