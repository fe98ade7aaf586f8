import Verif.Whole.Window
import Verif.Algo.Used

/-
Vocabulary and helper lemmas for C165: the memory taken by the frames.
-/
namespace Verif.Whole

open Verif Verif.Geo Verif.NDTGrid Verif.World Verif.Voxel

/-! ### Specification vocabulary -/

/-- `Drive eig P D D' log s`: as `Reach`, and in every update the generation distance lies between `D` and `D'`. -/
inductive Drive (eig : NDT.Eig) (P : Algo.Input → Prop) (D D' : ℝ) : List Entry → State → Prop
  | init : Drive eig P D D' [] (init eig)
  | setDistance {log s} (d : ℝ) : Drive eig P D D' log s → Drive eig P D D' log (setDistance s d)
  | setRadius {log s} (r : ℝ) : Drive eig P D D' log s → Drive eig P D D' log (setRadius s r)
  | update {log s inp o s'} : Drive eig P D D' log s → P inp.alg → Admissible s inp →
      D ≤ s.alg.maxTraveled → s.alg.maxTraveled ≤ D' →
      update eig inp s = .ok (o, s') → Drive eig P D D' (log ++ [⟨o.1, o.2, inp.scan⟩]) s'

/-- One step along the way: its length so far, and the pose the matcher found last. -/
noncomputable def wayStep (w : ℝ × Pose) (e : Entry) : ℝ × Pose :=
  match e.event with
  | .failed _ m => (w.1 + Algo.dist2 0 0 (m 0 2) (m 1 2), w.2)
  | .matched _ _ p => (w.1 + Algo.dist2 w.2.x w.2.y p.x p.y, p)
  | _ => w

/-- Length of the way the robot went according to the scans that were used: from one pose found by the matcher to
the next, and what the odometry says for the scans that could not be matched. -/
noncomputable def way (log : List Entry) : ℝ := (log.foldl wayStep (0, ⟨0, 0, 0⟩)).1

/-- The frames in memory: the stored ones and the active one. -/
def framesInMemory (s : State) : List Map := s.store ++ [s.temp]

/-! ### Lemmas -/

theorem Drive.reach {eig : NDT.Eig} {P : Algo.Input → Prop} {D D' : ℝ} {log : List Entry} {s : State}
    (h : Drive eig P D D' log s) : Reach eig P log s := by
  induction h with
  | init => exact .init
  | setDistance d _ ih => exact .setDistance d ih
  | setRadius r _ ih => exact .setRadius r ih
  | update _ hp adm _ _ hu ih => exact .update ih hp adm hu

theorem hypot_add (a b x y : ℝ) : Real.sqrt ((a + x) ^ 2 + (b + y) ^ 2) ≤
    Real.sqrt (a ^ 2 + b ^ 2) + Real.sqrt (x ^ 2 + y ^ 2) := by
  have h (u v : ℝ) : Real.sqrt (u ^ 2 + v ^ 2) = ‖(⟨u, v⟩ : ℂ)‖ := by
    rw [Complex.norm_def, Complex.normSq_apply]
    congr 1
    ring
  rw [h, h, h]
  have : (⟨a + x, b + y⟩ : ℂ) = ⟨a, b⟩ + ⟨x, y⟩ := by apply Complex.ext <;> simp
  rw [this]
  exact norm_add_le _ _

theorem displacement_mul {a b : Trans} (ha : IsRigid a) (hb : IsRigid b) :
    getDisplacement (a * b) ≤ getDisplacement a + getDisplacement b := by
  obtain ⟨h1, h2, h3, -⟩ := (isRigid_iff a).1 ha
  obtain ⟨-, -, -, -, -, g⟩ := (isRigid_iff b).1 hb
  unfold getDisplacement
  have e0 : (a * b) 0 2 = a 0 2 + (a 0 0 * b 0 2 - a 1 0 * b 1 2) := by
    simp [Matrix.mul_apply, Fin.sum_univ_three, g, h3]; ring
  have e1 : (a * b) 1 2 = a 1 2 + (a 1 0 * b 0 2 + a 0 0 * b 1 2) := by
    simp [Matrix.mul_apply, Fin.sum_univ_three, g, h2]; ring
  rw [e0, e1]
  refine (hypot_add _ _ _ _).trans (le_of_eq ?_)
  congr 2
  linear_combination (b 0 2 ^ 2 + b 1 2 ^ 2) * h1

theorem displacement_between (p q : Pose) :
    getDisplacement ((getTransFromPose p)⁻¹ * getTransFromPose q) = Algo.dist2 p.x p.y q.x q.y := by
  have hr : IsRigid ((getTransFromPose p)⁻¹ * getTransFromPose q) := by
    rw [trans_inv]
    exact rigid_mul (getTransFromPose_rigid _) (getTransFromPose_rigid _)
  have h := (Algo.displacement_frame p ((getTransFromPose p)⁻¹ * getTransFromPose q)).resolve_right
    (not_not_intro ((isRigid_iff _).1 hr).2.2.2.2.2)
  rw [h, ← Matrix.mul_assoc, trans_mul_inv, Matrix.one_mul]
  rfl

theorem way_snoc (log : List Entry) (e : Entry) :
    (log ++ [e]).foldl wayStep (0, ⟨0, 0, 0⟩) = wayStep (log.foldl wayStep (0, ⟨0, 0, 0⟩)) e := by
  simp [List.foldl_append]

theorem displacement_one : getDisplacement 1 = 0 := by
  unfold getDisplacement
  simp

theorem displacement_nonneg (t : Trans) : 0 ≤ getDisplacement t := Real.sqrt_nonneg _

/-- Every node costs a piece of the way of at least the generation distance. -/
theorem Drive.nodes {eig : NDT.Eig} (he : NDT.EigOk eig) {P : Algo.Input → Prop} {D D' : ℝ} {log : List Entry}
    {s : State} (h : Drive eig P D D' log s) :
    (log.foldl wayStep (0, ⟨0, 0, 0⟩)).2 = s.alg.lastMatcherPose ∧
    (s.store.length : ℝ) * D + getDisplacement s.alg.transTemp ≤ way log := by
  induction h with
  | init =>
    refine ⟨rfl, ?_⟩
    show ((0 : ℕ) : ℝ) * D + getDisplacement 1 ≤ 0
    rw [displacement_one]; simp
  | setDistance d _ ih => exact ih
  | setRadius r _ ih => exact ih
  | @update log s inp o s' hd hp adm hD hD' hu ih =>
    obtain ⟨⟨b, inv⟩, -⟩ := hd.reach.inv he
    obtain ⟨⟨b2, inv2⟩, -⟩ := (Reach.update hd.reach hp adm hu).inv he
    obtain ⟨ha, -⟩ := update_spec he inv.full adm.alg (inv.window.winB.inv he) inv.window.winO inv.window.winC hu
    obtain ⟨e, p, a', b', hu2, f', -, -, -, -, -, sc⟩ := Algo.update_step inv.full adm.alg
    rw [ha] at hu2
    have h2 := Res.ok.inj hu2
    simp only [Prod.mk.injEq] at h2
    obtain ⟨ho, rfl⟩ := h2
    have hl : s.store.length = b.poses.length := inv.frames.len
    have hl' : s'.store.length = b'.poses.length := by
      rw [inv2.frames.len, ← inv2.full.alg.engine.nodesLen, f'.alg.engine.nodesLen]
    have hev : o.1 = e := by rw [ho]
    obtain ⟨ih1, ih2⟩ := ih
    have ih2 : (s.store.length : ℝ) * D + getDisplacement s.alg.transTemp ≤
      (log.foldl wayStep (0, ⟨0, 0, 0⟩)).1 := ih2
    have key : ∀ inc, IsRigid inc → Algo.Grown inp.alg inc s.alg s'.alg b b' →
        (s'.store.length : ℝ) * D + getDisplacement s'.alg.transTemp ≤
          (s.store.length : ℝ) * D + getDisplacement s.alg.transTemp + getDisplacement inc := by
      intro inc hinc g
      have ht := displacement_mul inv.full.alg.temp hinc
      obtain ⟨ins, -, -, ⟨hb, -, ht', hf⟩ | ⟨hb, -, -, ⟨ht', -⟩, hf⟩⟩ := g
      · rw [hl', hb, ← hl, ht']
        linarith
      · have hlen : b'.poses.length = b.poses.length + 1 := by
          rw [hb]
          unfold Algo.inserted
          simp only
          rw [Algo.length_optimised]
          simp
        rw [hl', hlen, ← hl, ht', displacement_one]
        unfold Algo.movedFar at hf
        rw [abs_of_nonneg (displacement_nonneg _)] at hf
        push_cast
        linarith
    unfold way
    rw [way_snoc]
    cases sc with
    | first h0 _ hm _ hb hn _ _ ht =>
      have e1 : wayStep (log.foldl wayStep (0, ⟨0, 0, 0⟩)) ⟨o.1, o.2, inp.scan⟩ =
        log.foldl wayStep (0, ⟨0, 0, 0⟩) := by unfold wayStep; rw [hev]
      obtain ⟨hlog, -⟩ := inv.start h0
      rw [e1, hm, hl', hb, hn, ht, displacement_one, hlog]
      exact ⟨rfl, by simp⟩
    | idle _ _ _ hm _ hb _ ht =>
      have e1 : wayStep (log.foldl wayStep (0, ⟨0, 0, 0⟩)) ⟨o.1, o.2, inp.scan⟩ =
        log.foldl wayStep (0, ⟨0, 0, 0⟩) := by unfold wayStep; rw [hev]
      rw [e1, hm, hl', hb, ← hl, ht]
      exact ⟨ih1, ih2⟩
    | failed _ _ _ _ hm _ g =>
      have e1 : wayStep (log.foldl wayStep (0, ⟨0, 0, 0⟩)) ⟨o.1, o.2, inp.scan⟩ =
          ((log.foldl wayStep (0, ⟨0, 0, 0⟩)).1 + getDisplacement inp.alg.motion,
            (log.foldl wayStep (0, ⟨0, 0, 0⟩)).2) := by
        have e2 : getDisplacement inp.alg.motion = Algo.dist2 0 0 (inp.alg.motion 0 2) (inp.alg.motion 1 2) := by
          unfold Algo.dist2 getDisplacement
          simp
        generalize log.foldl wayStep (0, ⟨0, 0, 0⟩) = w
        rw [e2]
        unfold wayStep
        rw [hev]
      rw [e1, hm]
      have := key _ adm.alg.motion g
      exact ⟨ih1, by simp only; linarith⟩
    | @matched m q _ _ _ _ _ hm _ g =>
      have e1 : wayStep (log.foldl wayStep (0, ⟨0, 0, 0⟩)) ⟨o.1, o.2, inp.scan⟩ =
          ((log.foldl wayStep (0, ⟨0, 0, 0⟩)).1 + Algo.dist2 s.alg.lastMatcherPose.x s.alg.lastMatcherPose.y q.x q.y, q) := by
        rw [← ih1]
        generalize log.foldl wayStep (0, ⟨0, 0, 0⟩) = w
        unfold wayStep
        rw [hev]
      rw [e1, hm]
      have := key _ (by rw [trans_inv]; exact rigid_mul (getTransFromPose_rigid _) (getTransFromPose_rigid _)) g
      rw [displacement_between] at this
      exact ⟨rfl, by simp only; linarith⟩

/-! ### Extents of the frames -/

theorem mergeCloud_ext {eig : NDT.Eig} {n n' : Map} (hi : MapInv n) {B : ℝ} (hB : 0 ≤ B) {ps : List NDT.Vec}
    (hps : ∀ p ∈ ps, p ∈ disc B) {o : Pose} (ho : o = origin n) (h : mergeCloudTraced eig n ps o true = .ok n') :
    extOf n'.grid ≤ extOf n.grid ⊔ square (side n.grid.cellSize B) := by
  subst ho
  unfold mergeCloudTraced at h
  simp only at h
  obtain ⟨g, h1, h⟩ := Res.bind_eq_ok.1 h
  rw [Algo.transBtw_self, transformCloud_one] at h1
  unfold mergeGridTraced at h
  simp only [Bool.false_eq_true, if_false] at h
  exact (mergeTraced_ext hi h hB fun c hc => disc_box hB (createGrid_disc hi.cs hps h1 c hc)).2.2

theorem transformCloud_disc {R D : ℝ} (hR : 0 ≤ R) {t : Trans} (ht : getDisplacement t ≤ D)
    {ps : List NDT.Vec} (hps : ∀ p ∈ ps, p ∈ disc R) : ∀ p ∈ transformCloud t ps, p ∈ disc (R + D) := by
  intro p hp
  unfold transformCloud at hp
  simp only at hp
  obtain ⟨q, hq, rfl⟩ := List.mem_map.1 hp
  rw [linear4_convert, translation4_convert]
  have h1 : ((rotZ (getAngle t)).mulVec q 0) ^ 2 + ((rotZ (getAngle t)).mulVec q 1) ^ 2 ≤ R ^ 2 :=
    disc_rot (hps q hq) _
  have hD : 0 ≤ D := le_trans (displacement_nonneg t) ht
  have h2 := hypot_add ((rotZ (getAngle t)).mulVec q 0) ((rotZ (getAngle t)).mulVec q 1) (t 0 2) (t 1 2)
  have h3 : Real.sqrt (((rotZ (getAngle t)).mulVec q 0) ^ 2 + ((rotZ (getAngle t)).mulVec q 1) ^ 2) ≤ R :=
    Real.sqrt_le_iff.2 ⟨hR, h1⟩
  have h4 : Real.sqrt ((t 0 2) ^ 2 + (t 1 2) ^ 2) ≤ D := ht
  have h5 := (Real.sqrt_le_iff.1 (h2.trans (add_le_add h3 h4))).2
  show ((rotZ (getAngle t)).mulVec q 0 + (![t 0 2, t 1 2, 0] : NDT.Vec) 0) ^ 2 +
    ((rotZ (getAngle t)).mulVec q 1 + (![t 0 2, t 1 2, 0] : NDT.Vec) 1) ^ 2 ≤ (R + D) ^ 2
  simpa using h5

theorem square_le {a b : ℕ} (h : a ≤ b) : square a ≤ square b := ⟨h, h, h, h⟩

theorem mem_sync {e : Slam.State Algo.Frame} {l : List Map} {f : Map} (h : f ∈ sync e l) :
    ∃ f' ∈ l, f.grid = f'.grid := by
  unfold sync at h
  obtain ⟨i, hi, rfl⟩ := List.mem_mapIdx.1 h
  refine ⟨l[i], List.getElem_mem _, ?_⟩
  split <;> rfl

theorem Drive.extents {eig : NDT.Eig} (he : NDT.EigOk eig) {P : Algo.Input → Prop} {D D' R : ℝ} (hR : 0 ≤ R)
    (hD' : 0 ≤ D') {log : List Entry} {s : State} (h : Drive eig P D D' log s) (hs : ∀ e ∈ log, InRange R e.scan) :
    ∀ f ∈ framesInMemory s, extOf f.grid ≤ square (side (1 / 4) (R + D')) := by
  have hmem : ∀ (s : State), (∀ f ∈ framesInMemory s, extOf f.grid ≤ square (side (1 / 4) (R + D'))) ↔
      (∀ f ∈ s.store, extOf f.grid ≤ square (side (1 / 4) (R + D'))) ∧
        extOf s.temp.grid ≤ square (side (1 / 4) (R + D')) := by
    intro s
    unfold framesInMemory
    constructor
    · intro h
      exact ⟨fun f hf => h f (List.mem_append_left _ hf), h _ (List.mem_append_right _ (List.mem_singleton_self _))⟩
    · rintro ⟨h1, h2⟩ f hf
      rcases List.mem_append.1 hf with hf | hf
      · exact h1 f hf
      · rw [List.mem_singleton.1 hf]; exact h2
  have hempty : ∀ cs : ℝ, extOf (emptyMap eig cs).grid ≤ square (side (1 / 4) (R + D')) := by
    intro cs
    rw [show extOf (emptyMap eig cs).grid = (0, 0, 0, 0) from rfl]
    exact ⟨Nat.zero_le _, Nat.zero_le _, Nat.zero_le _, Nat.zero_le _⟩
  induction h with
  | init =>
    refine (hmem _).2 ⟨?_, hempty _⟩
    intro f hf
    cases hf
  | setDistance d _ ih => exact ih hs
  | setRadius r _ ih => exact ih hs
  | @update log s inp o s' hd hp adm hD hDD hu ih =>
    have hsc : InRange R inp.scan := hs ⟨o.1, o.2, inp.scan⟩ (by simp)
    obtain ⟨i1, i2⟩ := (hmem s).1 (ih fun e he => hs e (List.mem_append_left _ he))
    obtain ⟨⟨b, inv⟩, -⟩ := hd.reach.inv he
    obtain ⟨⟨b2, inv2⟩, -⟩ := (Reach.update hd.reach hp adm hu).inv he
    have cell := hd.reach.cell he
    obtain ⟨-, hdone, -⟩ := update_spec he inv.full adm.alg (inv.window.winB.inv he) inv.window.winO
      inv.window.winC hu
    have tcell : s.temp.grid.cellSize = 1 / 4 := inv.frames.tempC.trans cell
    have hRD : side (1 / 4) R ≤ side (1 / 4) (R + D') := side_mono (by norm_num) (by linarith)
    refine (hmem s').2 ?_
    have key : ∀ inc, Merged eig inp inc s s' →
        (∀ f ∈ s'.store, extOf f.grid ≤ square (side (1 / 4) (R + D'))) ∧
        extOf s'.temp.grid ≤ square (side (1 / 4) (R + D')) := by
      intro inc hm
      cases hm with
      | kept hf hc hst =>
        rw [hst]
        refine ⟨i1, ?_⟩
        unfold Algo.movedFar at hf
        rw [not_lt, abs_of_nonneg (displacement_nonneg _)] at hf
        have := mergeCloud_ext (inv.frames.tempB.inv he) (by linarith : 0 ≤ R + D')
          (transformCloud_disc hR (hf.trans hDD) hsc) rfl hc
        rw [tcell] at this
        exact this.trans (sup_le i2 le_rfl)
      | inserted _ _ hcases htemp =>
        constructor
        · have hall : ∀ f ∈ s.store ++ [{ s.temp with timestamp := inp.time }],
              extOf f.grid ≤ square (side (1 / 4) (R + D')) := by
            intro f hf
            rcases List.mem_append.1 hf with hf | hf
            · exact i1 f hf
            · rw [List.mem_singleton.1 hf]; exact i2
          rcases hcases with ⟨-, hst, -⟩ | ⟨-, hst, -⟩
          · rw [hst]; exact hall
          · rw [hst]
            intro f hf
            obtain ⟨f', hf', e⟩ := mem_sync hf
            rw [e]; exact hall f' hf'
        · rw [cell] at htemp
          have ie : MapInv (setOrigin (emptyMap eig (1 / 4)) s'.alg.temp.origin) :=
            setOrigin_inv (init_inv eig 0 0 0 (by norm_num)) _
          have := mergeCloud_ext ie hR hsc (o := s'.alg.temp.origin) rfl htemp
          exact this.trans (sup_le (hempty (1 / 4)) (square_le hRD))
    obtain ⟨ev, po⟩ := o
    simp only at hdone
    cases hdone with
    | first h0 _ _ ht hst =>
      obtain ⟨-, t0, -, s0⟩ := inv.start h0
      rw [hst]
      refine ⟨i1, ?_⟩
      rw [t0, cell] at ht
      have ie : MapInv (setCellSize (setOrigin (emptyMap eig (1 / 4)) ⟨0, 0, 0⟩) (1 / 4)) :=
        setOrigin_inv (n := emptyMap eig (1 / 4)) (init_inv eig 0 0 0 (by norm_num)) ⟨0, 0, 0⟩
      have := (initialize_ext ie hR hsc ht).2.2
      exact this.trans (sup_le (hempty (1 / 4)) (square_le hRD))
    | idle _ ht _ hst => rw [hst, ht]; exact ⟨i1, i2⟩
    | failed _ hm _ => exact key _ hm
    | matched _ _ _ hm _ => exact key _ hm

theorem cells_le {g : Voxel.Grid ℝ NDT.Cell} (wf : WF g) {B : ℝ} (hB : 0 ≤ B)
    (u : extOf g ≤ square (side (1 / 4) B)) : (g.cells.length : ℝ) ≤ (8 * B + 2) ^ 2 := by
  have hN := side_lt (cs := 1 / 4) (by norm_num) hB
  unfold WF at wf
  rw [wf]
  obtain ⟨u1, u2, u3, u4⟩ := u
  have u1 : (g.left : ℝ) ≤ side (1 / 4) B := by exact_mod_cast u1
  have u2 : (g.right : ℝ) ≤ side (1 / 4) B := by exact_mod_cast u2
  have u3 : (g.up : ℝ) ≤ side (1 / 4) B := by exact_mod_cast u3
  have u4 : (g.down : ℝ) ≤ side (1 / 4) B := by exact_mod_cast u4
  unfold Grid.width Grid.height
  push_cast
  rw [sq]
  have k1 : (0 : ℝ) ≤ g.left := Nat.cast_nonneg _
  have k2 : (0 : ℝ) ≤ g.right := Nat.cast_nonneg _
  have k3 : (0 : ℝ) ≤ g.up := Nat.cast_nonneg _
  have k4 : (0 : ℝ) ≤ g.down := Nat.cast_nonneg _
  exact mul_le_mul (by linarith) (by linarith) (by linarith) (by linarith)

end Verif.Whole
