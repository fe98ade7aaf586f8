import Verif.Match.Search
import Verif.Whole.Blind

/-
C174: what incremental matches are made against.
-/
namespace Verif.Match

open Verif Verif.Geo Verif.World Verif.NDTGrid Verif.Whole
open Verif.Score (Tree TreeOk OffLayer sortTree sortTree_ok)

variable {eig : NDT.Eig} {tree : Tree}

/-! ### Lemmas -/

theorem fresh_any {P P' : Algo.Input → Prop} {log : List Entry} {s : State} (h : Reach eig P log s) (hl : log = []) :
    Reach eig P' [] s := by
  induction h with
  | init => exact .init
  | setDistance d _ ih => exact .setDistance d (ih hl)
  | setRadius r _ ih => exact .setRadius r (ih hl)
  | update => simp at hl

/-- The Gaussians of a window that has taken its first scan. -/
theorem first_window (he : NDT.EigOk eig) {P : Algo.Input → Prop} {s0 s1 : State} (h0 : Reach eig P [] s0) {inp : Input}
    {o : Algo.Event × Pose} (adm : Admissible s0 inp) (h1 : Whole.update eig inp s0 = .ok (o, s1)) :
    (HasEcho inp.scan → gaussians s1.window ≠ []) ∧ (inp.scan = [] → gaussians s1.window = []) := by
  obtain ⟨⟨b, inv⟩, ir⟩ := h0.inv he
  have hi0 := h0.fresh rfl
  obtain ⟨hu', hd, hc, -, hwc⟩ := update_spec he inv.full adm.alg (inv.window.winB.inv he) inv.window.winO
    inv.window.winC h1
  have cell := h0.cell he
  obtain ⟨ev, po⟩ := o
  simp only at hd
  cases hd with
  | idle h => rw [hi0] at h; cases h
  | failed h => rw [hi0] at h; cases h
  | matched h => rw [hi0] at h; cases h
  | @first g _ hg hw _ _ _ _ _ =>
    obtain ⟨-, -, w0, -⟩ := inv.start hi0
    rw [w0, cell] at hg hw
    have ib : MapInv (setCellSize (setOrigin (emptyMap eig (1 / 4)) ⟨0, 0, 0⟩) (1 / 4)) :=
      setOrigin_inv (n := emptyMap eig (1 / 4)) (init_inv eig 0 0 0 (by norm_num)) ⟨0, 0, 0⟩
    obtain ⟨k1, k2, -, k3⟩ := enlarge_stored ib.wf ib.cs hg
    have ig : MapInv { setCellSize (setOrigin (emptyMap eig (1 / 4)) ⟨0, 0, 0⟩) (1 / 4) with grid := g } :=
      ⟨k1, by show 0 < g.cellSize; rw [k2]; exact ib.cs, fun x hx => ib.ginv x ((k3 x).1 hx)⟩
    refine ⟨fun hecho => ?_, fun hnil => ?_⟩
    · exact initialize_alive he ig k2 hecho hw (scan_mem he convex_univ ig (fun _ _ => Set.mem_univ _) hw).1
    · refine List.eq_nil_iff_forall_not_mem.2 fun c hc => ?_
      exact Set.notMem_empty _ ((scan_mem he convex_empty ig (by rw [hnil]; simp) hw).2.2.2 c hc)

/-! ### C174 -/

/-- C174, for a sensor of range `R`, matches within `T` of the origin of the window, and a radius that is larger than both together: if the
first scan has six points in a square, and so has every scan that is matched, then at any time the running window holds a Gaussian.
Missing: other scans (see `C174_false`). -/
theorem C174_target_partial (he : NDT.EigOk eig) {R T : ℝ} (hR : 0 ≤ R) (hT : 1 / 4 ≤ T) {P : Algo.Input → Prop} {s0 s1 s : State}
    (h0 : Reach eig P [] s0) {inp : Input} {o : Algo.Event × Pose} (adm : Admissible s0 inp)
    (h1 : Whole.update eig inp s0 = .ok (o, s1)) (hs1 : Sighted R T inp) (hecho : HasEcho inp.scan) (hfit : R + T < s0.radius)
    {log : List Entry} (h : Series eig (fun _ i => Sighted R T i) s1 log s) : gaussians s.window ≠ [] := by
  have h0' : Reach eig (NearWindow T) [] s0 := fresh_any h0 rfl
  have h01 : Reach eig (NearWindow T) [⟨o.1, o.2, inp.scan⟩] s1 := .update h0' hs1.near adm h1
  have key : gaussians s.window ≠ [] ∧ ∀ e ∈ log, InRange R e.scan := by
    induction h with
    | refl => exact ⟨(first_window he h0 adm h1).1 hecho, by simp⟩
    | setDistance d _ ih => exact ih
    | setRadius r _ ih => exact ih
    | @update log s' inp' o' s'' hr hq adm' hu ih =>
      obtain ⟨ih1, ih2⟩ := ih
      have hruns := hr.runs (P := NearWindow T) fun _ _ h => h.near
      refine ⟨?_, fun e he => ?_⟩
      · obtain ⟨hin, hext, -⟩ := run_ext he hR (fun _ h => h) h0' hs1.near adm h1 hruns hs1.range ih2
        have hreach := hruns.reach h01
        obtain ⟨⟨b, inv⟩, -⟩ := hreach.inv he
        obtain ⟨-, hd, -⟩ := update_spec he inv.full adm'.alg (inv.window.winB.inv he) inv.window.winO inv.window.winC hu
        have hth : s'.window.th = 0 := by
          have := inv.full.win.th
          rw [← inv.window.winO] at this
          exact this
        have cell := hreach.cell he
        obtain ⟨ev, po⟩ := o'
        simp only at hd
        cases hd with
        | first h0 => rw [hin] at h0; cases h0
        | idle _ _ hw => rw [hw]; exact ih1
        | failed _ _ hw => rw [hw]; exact ih1
        | @matched g m q r cumul _ hmat hq' _ hw =>
          rw [cell] at hw
          exact updateWindow_alive he inv.window.winB (inv.window.winC.trans cell) hth hR hT hext
            (hfit.trans_le (le_side (by norm_num))) hq.range (hq.echo (by rw [hmat]; simp)) (hq.near r hmat) hw
      · rcases List.mem_append.1 he with he | he
        · exact ih2 e he
        · rw [List.mem_singleton.1 he]
          exact hq.range
  exact key.1

/-- C174, definedness: in such runs, and for windows off border lines, incremental matches have no undefined score, whatever the scan, and
end within 0.4 of the guess. -/
theorem C174_defined_partial (he : NDT.EigOk eig) {R T : ℝ} (hR : 0 ≤ R) (hT : 1 / 4 ≤ T) {P : Algo.Input → Prop} {s0 s1 s : State}
    (h0 : Reach eig P [] s0) {inp : Input} {o : Algo.Event × Pose} (adm : Admissible s0 inp)
    (h1 : Whole.update eig inp s0 = .ok (o, s1)) (hs1 : Sighted R T inp) (hecho : HasEcho inp.scan) (hfit : R + T < s0.radius)
    {log : List Entry} (h : Series eig (fun _ i => Sighted R T i) s1 log s) {layers : List (ℝ × Newton.FittingParams)}
    (hlen : layers.length = 4) (hot : ∀ l ∈ layers, OffLayer l.1 s.window) (htree : TreeOk tree) (source out : List Pt)
    (solve : ℝ × Newton.FittingParams → Newton.Score → Option Newton.Vec) (report : Newton.Report) {guess : Trans}
    (hg : IsRigid guess) :
    ∃ envs, List.Forall₂ (fun l env => IsLayer eig tree source out s.window l.1 l.2 env ∧ env.solve = solve l) layers envs ∧
      ∃ r v w, Newton.ndtTransformation Newton.frontEnd envs report guess = some r ∧
        Newton.Describes v guess ∧ Newton.Describes w r.final ∧ Newton.dist w v ≤ 0.4 := by
  have h01 : Reach eig (fun _ => True) [⟨o.1, o.2, inp.scan⟩] s1 := .update (fresh_any h0 rfl) trivial adm h1
  obtain ⟨⟨b, inv⟩, -⟩ := ((h.runs (P := fun _ => True) fun _ _ _ => trivial).reach h01).inv he
  exact C172_incremental_partial he inv.window.winB hlen hot (C174_target_partial he hR hT h0 adm h1 hs1 hecho hfit h) htree
    source out solve report hg

/-- Without a target the matcher never gets one: from a state whose running window has no Gaussian, no later scan is ever matched or
reaches the window, however good the scans are. -/
theorem C174_stuck (he : NDT.EigOk eig) {P : Algo.Input → Prop} {log0 : List Entry} {s s' : State} (h0 : Reach eig P log0 s)
    (hi : s.alg.initialized = true) (hw : gaussians s.window = []) {log : List Entry} (h : Series eig NeedsTarget s log s') :
    gaussians s'.window = [] ∧ ∀ e ∈ log, (∃ m, e.event = .idle m) ∨ ∃ g m, e.event = .failed g m := by
  have h0' : Reach eig (fun _ => True) log0 s := by
    clear hi hw h
    induction h0 with
    | init => exact .init
    | setDistance d _ ih => exact .setDistance d ih
    | setRadius r _ ih => exact .setRadius r ih
    | update _ _ adm hu ih => exact .update ih trivial adm hu
  have key : s'.alg.initialized = true ∧ gaussians s'.window = [] ∧
      ∀ e ∈ log, (∃ m, e.event = .idle m) ∨ ∃ g m, e.event = .failed g m := by
    induction h with
    | refl => exact ⟨hi, hw, by simp⟩
    | setDistance d _ ih => exact ih
    | setRadius r _ ih => exact ih
    | @update log s1 inp o s2 hr hq adm hu ih =>
      obtain ⟨i1, i2, i3⟩ := ih
      have hreach := (hr.runs (P := fun _ => True) fun _ _ _ => trivial).reach h0'
      obtain ⟨⟨b, inv⟩, -⟩ := hreach.inv he
      obtain ⟨hu', hd, -⟩ := update_spec he inv.full adm.alg (inv.window.winB.inv he) inv.window.winO inv.window.winC hu
      obtain ⟨e, p, a', b', hu2, -, hi', -⟩ := Algo.update_step inv.full adm.alg
      rw [hu'] at hu2
      have e3 : s2.alg = a' := congrArg Prod.snd (Res.ok.inj hu2)
      refine ⟨by rw [e3]; exact hi', ?_⟩
      obtain ⟨ev, po⟩ := o
      simp only at hd
      have last : ∀ x, ((∃ m, x = Algo.Event.idle m) ∨ ∃ g m, x = Algo.Event.failed g m) → ∀ e ∈ log ++ [(⟨x, po, inp.scan⟩ : Entry)],
          (∃ m, e.event = .idle m) ∨ ∃ g m, e.event = .failed g m := by
        intro x hx e hm
        rcases List.mem_append.1 hm with hm | hm
        · exact i3 e hm
        · rw [List.mem_singleton.1 hm]
          exact hx
      cases hd with
      | first h0 => rw [i1] at h0; cases h0
      | idle _ _ hw => exact ⟨by rw [hw]; exact i2, last _ (Or.inl ⟨_, rfl⟩)⟩
      | failed _ _ hw => exact ⟨by rw [hw]; exact i2, last _ (Or.inr ⟨_, _, rfl⟩)⟩
      | matched _ hmat => rw [hq i2] at hmat; cases hmat
  exact key.2

/-! ### A blind start -/

open Verif.Voxel in
/-- What is known of the run with a blind start after each of its updates. -/
structure BlindRun (s : State) (k : ℤ) : Prop where
  init : s.alg.initialized = true
  unused : s.alg.unused = 1
  far : s.alg.maxTraveled = 3 / 2
  trans : s.alg.transTemp = 1
  cell : s.alg.cellSize = 1 / 4
  place : getTransFromPose (origin s.temp) = Algo.ahead k
  temp : ∀ c ∈ gaussians s.temp, (c.mean 0, c.mean 1) = (((5 : ℤ) : ℝ), (0 : ℝ))

theorem blind_first (he : NDT.EigOk eig) : ∃ inp p s1, Admissible (Whole.init eig) inp ∧ inp.scan = [] ∧
    Whole.update eig inp (Whole.init eig) = .ok ((.first, p), s1) ∧ BlindRun s1 0 := by
  have g0 : gaussians (Whole.init eig).temp = [] := gaussians_init eig (1 / 4) ⟨0, 0, 0⟩
  have none_ok : ∀ c, ScanOk c [] := fun _ p hp => by cases hp
  obtain ⟨inp, e0, p0, s0, _, _, adm, hu, -, hsc0, -, -, -, c0, i0, mt0, cs0, d0⟩ :=
    Reach.extend_update he (P := fun _ => True) .init Algo.rigid_one [] (fun _ => ⟨0, 0, 0⟩) [] (by simp) (by simp)
      (fun a order => trivial) (none_ok _) (none_ok _)
      (exFrame_in 0 5 (by norm_num) (by norm_num) (by simp [origin, Whole.init, emptyMap, NDTGrid.init]) (by rw [g0]; simp)) (by simp)
  have r0 : Reach eig (fun _ => True) _ s0 := .update .init trivial adm hu
  obtain ⟨⟨b1, inv0⟩, -⟩ := r0.inv he
  cases c0 with
  | idle h => simp [Whole.init, Algo.init] at h
  | failed h => simp [Whole.init, Algo.init] at h
  | matched h => simp [Whole.init, Algo.init] at h
  | first _ hpos0 _ hu0 _ _ ho0 hins0 htt0 =>
  refine ⟨inp, p0, s0, adm, hsc0, hu, i0, hu0, mt0, htt0, cs0, ?_, ?_⟩
  · rw [inv0.frames.tempO, ho0, trans_zero]
    simpa using Algo.ahead_zero.symm
  · cases d0 with
    | first _ _ _ ht =>
    have ib : MapInv (setCellSize (setOrigin (emptyMap eig (1 / 4)) ⟨0, 0, 0⟩) (1 / 4)) :=
      setOrigin_inv (n := emptyMap eig (1 / 4)) (init_inv eig 0 0 0 (by norm_num)) ⟨0, 0, 0⟩
    rw [hsc0] at ht
    intro c hc
    exact absurd ((scan_mem he convex_empty ib (by simp) ht).2.2.2 c hc) (Set.notMem_empty _)

theorem blind_next (he : NDT.EigOk eig) {P : Algo.Input → Prop} (hP : ∀ v a est order, P ⟨v, none, a, [], est, order⟩) {log : List Entry}
    {s : State} (h : Reach eig P log s) {k : ℤ} (hb : BlindRun s k) :
    ∃ inp g p s', Admissible s inp ∧ inp.scan = exScan 5 ∧ inp.alg.matcher = none ∧ P inp.alg ∧
      Whole.update eig inp s = .ok ((.failed g (Algo.ahead (2 : ℤ)), p), s') ∧ BlindRun s' (k + 2) := by
  obtain ⟨sc, sq⟩ := exScan_ok 5 (by omega) (by omega)
  obtain ⟨sc7, -⟩ := exScan_ok (2 + 5) (by omega) (by omega)
  obtain ⟨⟨b, inv⟩, -⟩ := h.inv he
  obtain ⟨_, -, fl, -⟩ := (h.inv he).2.full
  obtain ⟨-, -, fo⟩ := frame_ahead k 5 (by norm_num) (by norm_num) hb.place hb.temp
  obtain ⟨inp, e2, p2, s2, _, _, adm, hu, hp, hsc2, hm2, hmat2, hl2, c2, i2, mt2, cs2, d2⟩ :=
    h.extend_update he (Algo.ahead_rigid ((2 : ℤ) : ℝ)) (exScan 5) (fun _ => ⟨0, 0, 0⟩) [] (by simp) (by simp)
      (fun a order => hP _ _ _ _) (by rw [hb.cell]; exact sc)
      (by rw [hb.cell, hb.trans, Matrix.one_mul, exScan_ahead]; exact sc7) fo (by simp)
  have r2 := Reach.update h hp adm hu
  obtain ⟨⟨b2, inv2⟩, -⟩ := r2.inv he
  have hmv : Algo.movedEnough s.alg (s.alg.unused * inp.alg.motion) := by
    rw [hb.unused, hm2, Matrix.one_mul, Algo.ahead_moved fl.minD fl.minR (by norm_num)]; norm_num
  have hfar : Algo.movedFar s.alg (s.alg.transTemp * inp.alg.motion) := by
    unfold Algo.movedFar
    rw [hb.trans, hm2, Matrix.one_mul, hb.far, Algo.displacement_ahead (by norm_num)]
    norm_num
  cases c2 with
  | first h => rw [hb.init] at h; cases h
  | idle _ h => exact absurd hmv h
  | matched _ _ h => rw [hmat2] at h; cases h
  | failed _ _ _ hpos2 _ hu2 gr =>
  have hpos : s.alg.position = Algo.ahead k := by
    rw [inv.full.alg.pos, hb.trans, Matrix.mul_one, ← inv.frames.tempO, hb.place]
  have htt2 : s2.alg.transTemp = 1 ∧ getTransFromPose s2.alg.temp.origin = Algo.ahead ((k + 2 : ℤ) : ℝ) := by
    obtain ⟨ins, hins, -, ⟨-, -, -, h⟩ | ⟨-, -, h', h, -⟩⟩ := gr
    · exact absurd hfar h
    · refine ⟨h.1, ?_⟩
      rw [h', Matrix.mul_one] at hins
      rw [hins, hpos2 (hl2.2 rfl), hpos, hm2, Algo.ahead_eq, Algo.ahead_eq, Algo.ahead_eq]
      ext i j
      fin_cases i <;> fin_cases j <;> simp [Matrix.mul_apply, Fin.sum_univ_three, add_comm]
  cases d2 with
  | failed _ mrg hwin =>
  cases mrg with
  | kept h => exact absurd hfar h
  | inserted _ hadd hcase htemp =>
  rw [hsc2, hb.cell] at htemp
  rw [hm2] at hu
  refine ⟨inp, _, p2, s2, adm, hsc2, hmat2, hp, hu, i2, hu2, mt2.trans hb.far, htt2.1, cs2.trans hb.cell, ?_, ?_⟩
  · rw [inv2.frames.tempO]
    exact htt2.2
  · have ie : MapInv (setOrigin (emptyMap eig (1 / 4)) s2.alg.temp.origin) :=
      setOrigin_inv (init_inv eig 0 0 0 (by norm_num)) _
    intro c hc
    rw [← transformCloud_one (exScan 5)] at htemp
    rcases (merged ie Algo.rigid_one htemp).2.2 c hc with ⟨c', hc', -⟩ | hs
    · rw [gaussians_init] at hc'
      cases hc'
    · have := seen_single (k := 0) (by simpa using Algo.ahead_zero.symm) hs
      simpa using this

theorem exScan_echo : HasEcho (exScan 5) := by
  obtain ⟨sc, sq⟩ := exScan_ok 5 (by omega) (by omega)
  refine ⟨fun p hp => (sc p hp).1, (4 * 5, 0), ?_⟩
  unfold inScan
  rw [List.filter_eq_self.2 fun p hp => decide_eq_true (sq p hp)]
  unfold exScan
  rw [List.length_replicate]
  norm_num

/-- Negation of C174 in general: if the very first scan has no echo, then, with a matcher that needs a target, no scan is matched in the rest
of the run, whatever the sensor sees; and there are runs of any length in which it sees enough in every scan. -/
theorem C174_false (he : NDT.EigOk eig) : ∃ inp p s1, Admissible (Whole.init eig) inp ∧ inp.scan = [] ∧
    Whole.update eig inp (Whole.init eig) = .ok ((.first, p), s1) ∧
    (∀ log s, Series eig NeedsTarget s1 log s →
      gaussians s.window = [] ∧ ∀ e ∈ log, (∃ m, e.event = .idle m) ∨ ∃ g m, e.event = .failed g m) ∧
    ∀ n : ℕ, ∃ log s, Series eig NeedsTarget s1 log s ∧ log.length = n ∧
      ∀ e ∈ log, HasEcho e.scan ∧ ∃ g, e.event = .failed g (Algo.ahead (2 : ℤ)) := by
  obtain ⟨inp, p, s1, adm, hnil, hu, hb⟩ := blind_first he
  have h1 : Reach eig (fun _ => True) _ s1 := .update .init trivial adm hu
  refine ⟨inp, p, s1, adm, hnil, hu, fun log s h =>
    C174_stuck he h1 hb.init ((first_window he (P := fun _ => True) .init adm hu).2 hnil) h, fun n => ?_⟩
  suffices h : ∃ log s, Series eig NeedsTarget s1 log s ∧ log.length = n ∧ BlindRun s (2 * n) ∧
      ∀ e ∈ log, HasEcho e.scan ∧ ∃ g, e.event = .failed g (Algo.ahead (2 : ℤ)) by
    obtain ⟨log, s, a, b, -, c⟩ := h
    exact ⟨log, s, a, b, c⟩
  induction n with
  | zero => exact ⟨[], s1, .refl, rfl, by simpa using hb, by simp⟩
  | succ n ih =>
    obtain ⟨log, s, a1, a2, a3, a4⟩ := ih
    obtain ⟨inp', g, p', s', adm', hsc, hmat, -, hu', hb'⟩ := blind_next he (P := fun _ => True) (fun _ _ _ _ => trivial)
      ((a1.runs (P := fun _ => True) fun _ _ _ => trivial).reach h1) a3
    refine ⟨_, s', .update a1 (fun _ => hmat) adm' hu', by rw [List.length_append, a2]; rfl, ?_, fun e hm => ?_⟩
    · rw [show (2 * ((n + 1 : ℕ) : ℤ)) = 2 * n + 2 by push_cast; ring]
      exact hb'
    · rcases List.mem_append.1 hm with hm | hm
      · exact a4 e hm
      · rw [List.mem_singleton.1 hm]
        exact ⟨by show HasEcho inp'.scan; rw [hsc]; exact exScan_echo, g, rfl⟩

/-- The hypotheses of C174 are met by a run with a successful match a metre ahead, in a window of radius 7 (sensor range 5). -/
example : ∃ eig, NDT.EigOk eig ∧ ∃ (s0 s1 s : State) (inp : Input) (o : Algo.Event × Pose) (log : List Entry),
    Reach eig (NearWindow 1) [] s0 ∧ Admissible s0 inp ∧ Whole.update eig inp s0 = .ok (o, s1) ∧ Sighted 5 1 inp ∧ HasEcho inp.scan ∧
    5 + 1 < s0.radius ∧ Series eig (fun _ i => Sighted 5 1 i) s1 log s ∧ ∃ e ∈ log, ∃ g m q, e.event = .matched g m q := by
  obtain ⟨eig, he⟩ := NDT.exists_eig
  have h0 : Reach eig (NearWindow 1) [] (Whole.setRadius (Whole.init eig) 7) := .setRadius 7 .init
  have hr : InRange 5 (exScan 5) := by
    intro p hp
    rw [List.eq_of_mem_replicate hp]
    simp
  obtain ⟨inp, o, s1, inp1, g, m, q, p, s, hp, hsc, adm, hu, hp1, hsc1, adm1, hu1, -⟩ := matched_step he h0
    (fun m a est order r hr => by cases hr) rfl rfl (fun m a est order r hr => by
      cases hr
      rw [Algo.ahead_eq]
      simp [convertFromTransform, planar4, getPoseFromTransform])
  refine ⟨eig, he, _, s1, s, inp, o, _, h0, adm, hu, ⟨by rw [hsc.1]; exact hr, hp, fun _ => by rw [hsc.1]; exact exScan_echo⟩,
    by rw [hsc.1]; exact exScan_echo, ?_, .update .refl ⟨by rw [hsc1]; exact hr, hp1, fun _ => by rw [hsc1]; exact exScan_echo⟩ adm1 hu1,
    _, List.mem_append_right _ (List.mem_singleton_self _), g, m, q, rfl⟩
  show (5 : ℝ) + 1 < 7
  norm_num

end Verif.Match
