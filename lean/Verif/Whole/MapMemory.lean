import Verif.Whole.MemoryProps

/-
Vocabulary and helper lemmas for C170: the memory taken by the map.
-/
namespace Verif.Whole

open Verif Verif.Geo Verif.NDTGrid Verif.World Verif.Voxel

/-! ### Specification vocabulary -/

/-- `Stays eig P D' B log s`: as `Reach`, in every update the generation distance is at most `D'`, and after every
update all frames, as they are placed at that time, lie within the distance `B` of the start. -/
inductive Stays (eig : NDT.Eig) (P : Algo.Input → Prop) (D' B : ℝ) : List Entry → State → Prop
  | init : Stays eig P D' B [] (init eig)
  | setDistance {log s} (d : ℝ) : Stays eig P D' B log s → Stays eig P D' B log (setDistance s d)
  | setRadius {log s} (r : ℝ) : Stays eig P D' B log s → Stays eig P D' B log (setRadius s r)
  | update {log s inp o s'} : Stays eig P D' B log s → P inp.alg → Admissible s inp → s.alg.maxTraveled ≤ D' →
      update eig inp s = .ok (o, s') → (∀ f ∈ framesInMemory s', f.ox ^ 2 + f.oy ^ 2 ≤ B ^ 2) →
      Stays eig P D' B (log ++ [⟨o.1, o.2, inp.scan⟩]) s'

/-! ### Lemmas -/

theorem Stays.reach {eig : NDT.Eig} {P : Algo.Input → Prop} {D' B : ℝ} {log : List Entry} {s : State}
    (h : Stays eig P D' B log s) : Reach eig P log s := by
  induction h with
  | init => exact .init
  | setDistance d _ ih => exact .setDistance d ih
  | setRadius r _ ih => exact .setRadius r ih
  | update _ hp adm _ hu _ ih => exact .update ih hp adm hu

theorem zero_disc (R : ℝ) : (0 : NDT.Vec) ∈ disc R := by
  show (0 : ℝ) ^ 2 + 0 ^ 2 ≤ R ^ 2
  nlinarith [sq_nonneg R]

theorem ray_mean {c c' : NDT.Cell} {s e : NDT.Vec} {k : ℕ} (h : NDT.rayUpdate c s e k = .ok c') :
    c'.mean = c.mean ∨ c'.mean = 0 := by
  unfold NDT.rayUpdate at h
  split_ifs at h
  · cases h; exact Or.inl rfl
  · cases h; exact Or.inl rfl
  · obtain ⟨r, -, rfl⟩ := Res.map_eq_ok.1 h
    exact Or.inl rfl

/-- A scan merged into a frame: the means stay in a disc around the origin of the frame. -/
theorem mergeCloud_disc {eig : NDT.Eig} {n n' : Map} (hi : MapInv n) {B : ℝ}
    (hn : ∀ c ∈ getValidCells n.grid, c.mean ∈ disc B) {ps : List NDT.Vec}
    (hps : ∀ p ∈ ps, p ∈ disc B) {o : Pose} (ho : o = origin n) (h : mergeCloudTraced eig n ps o true = .ok n') :
    ∀ c ∈ getValidCells n'.grid, c.mean ∈ disc B := by
  subst ho
  unfold mergeCloudTraced at h
  simp only at h
  obtain ⟨g, h1, h⟩ := Res.bind_eq_ok.1 h
  rw [Algo.transBtw_self, transformCloud_one] at h1
  unfold mergeGridTraced at h
  simp only [Bool.false_eq_true, if_false] at h
  obtain ⟨g1, ht, w1, c1, h⟩ := mergeTraced_split (cell_lawful eig) hi.wf h
  have hcs1 : 0 < g1.cellSize := by rw [c1]; exact hi.cs
  obtain ⟨-, -, -, -, a5⟩ := mergeCells_frame (n := { n with grid := g1 }) w1 hcs1 h
  intro c hc
  rcases a5 (Or.inl rfl) c hc with h | ⟨h, -⟩
  · refine traceAll_all (I := cellI eig) (Q := fun c => c.mean ∈ disc B) (zero_disc B) ?_ ht hn c h
    intro c s e k c' hc hr
    rcases ray_mean hr with h | h
    · show c'.mean ∈ disc B
      rw [h]; exact hc
    · show c'.mean ∈ disc B
      rw [h]; exact zero_disc B
  · exact createGrid_disc hi.cs hps h1 c h

theorem empty_disc (eig : NDT.Eig) (cs B : ℝ) : ∀ c ∈ getValidCells (emptyMap eig cs).grid, c.mean ∈ disc B := by
  intro c hc
  rw [show getValidCells (emptyMap eig cs).grid = [NDT.init] from init_valid eig 0 0 0 cs] at hc
  rw [List.mem_singleton.1 hc]
  exact zero_disc B

/-- A frame added to the map. -/
theorem addToMap_square {eig : NDT.Eig} (he : NDT.EigOk eig) {m f m' : Map} (hm : MapInv m) (hf : MapInv f)
    (ho : origin m = ⟨0, 0, 0⟩) (hcs : m.grid.cellSize = 1 / 4) {B r : ℝ} (hB : 0 ≤ B) (hr : 0 ≤ r)
    (hfo : f.ox ^ 2 + f.oy ^ 2 ≤ B ^ 2) (hfm : ∀ c ∈ getValidCells f.grid, c.mean ∈ disc r)
    (h : World.addToMap eig m f = .ok m') :
    extOf m'.grid ≤ extOf m.grid ⊔ square (side (1 / 4) (r + B)) := by
  unfold World.addToMap mergeGridTraced at h
  simp only [if_true] at h
  have := (mergeTraced_ext hm h (B := r + B) (by linarith) (by
    intro c hc
    obtain ⟨d, hd, rfl⟩ := List.mem_map.1 hc
    have hdm := hfm d hd
    refine disc_box (by linarith) ?_
    obtain ⟨-, -, q1, q2⟩ := transformCell_spec he (transBtwFrames (origin f) (origin m)) (hf.ginv d hd)
    cases hg : d.gaussian with
    | false =>
      rw [q1 hg]
      have hdm : d.mean 0 ^ 2 + d.mean 1 ^ 2 ≤ r ^ 2 := hdm
      show d.mean 0 ^ 2 + d.mean 1 ^ 2 ≤ (r + B) ^ 2
      nlinarith
    | true =>
      obtain ⟨q3, -⟩ := q2 hg
      rw [q3]
      have e : transBtwFrames (origin f) (origin m) = getTransFromPose (origin f) := by
        rw [transBtwFrames_eq, ho, trans_inv]
        apply mat_ext <;> simp [getTransFromPose, invPose, Matrix.mul_apply, Fin.sum_univ_three]
      rw [e]
      set a := getAngle (getTransFromPose (origin f))
      have h1 : ((rotZ a).mulVec d.mean 0) ^ 2 + ((rotZ a).mulVec d.mean 1) ^ 2 ≤ r ^ 2 := disc_rot hdm _
      have t0 : getTransFromPose (origin f) 0 2 = f.ox := by simp [getTransFromPose, origin]
      have t1 : getTransFromPose (origin f) 1 2 = f.oy := by simp [getTransFromPose, origin]
      rw [t0, t1]
      have h2 := hypot_add ((rotZ a).mulVec d.mean 0) ((rotZ a).mulVec d.mean 1) f.ox f.oy
      have h3 : Real.sqrt (((rotZ a).mulVec d.mean 0) ^ 2 + ((rotZ a).mulVec d.mean 1) ^ 2) ≤ r :=
        Real.sqrt_le_iff.2 ⟨hr, h1⟩
      have h4 : Real.sqrt (f.ox ^ 2 + f.oy ^ 2) ≤ B := Real.sqrt_le_iff.2 ⟨hB, hfo⟩
      have h5 := (Real.sqrt_le_iff.1 (h2.trans (add_le_add h3 h4))).2
      show ((rotZ a).mulVec d.mean 0 + (![f.ox, f.oy, 0] : NDT.Vec) 0) ^ 2 +
        ((rotZ a).mulVec d.mean 1 + (![f.ox, f.oy, 0] : NDT.Vec) 1) ^ 2 ≤ (r + B) ^ 2
      simpa using h5)).2.2
  rwa [hcs] at this

theorem addAll_square {eig : NDT.Eig} (he : NDT.EigOk eig) {B r : ℝ} (hB : 0 ≤ B) (hr : 0 ≤ r) :
    ∀ {fs : List Map} {m m' : Map}, MapInv m → origin m = ⟨0, 0, 0⟩ → m.grid.cellSize = 1 / 4 →
    (∀ f ∈ fs, MapInv f ∧ f.ox ^ 2 + f.oy ^ 2 ≤ B ^ 2 ∧ ∀ c ∈ getValidCells f.grid, c.mean ∈ disc r) →
    World.addAll eig m fs = .ok m' → extOf m'.grid ≤ extOf m.grid ⊔ square (side (1 / 4) (r + B)) := by
  intro fs
  induction fs with
  | nil => intro m m' _ _ _ _ h; cases h; exact le_sup_left
  | cons f fs ih =>
    intro m m' hm ho hcs hf h
    unfold World.addAll at h
    obtain ⟨m1, h1, h⟩ := Res.bind_eq_ok.1 h
    obtain ⟨f1, f2, f3⟩ := hf f List.mem_cons_self
    obtain ⟨i1, o1, c1⟩ := addToMap_frame he hm f1 h1
    have e1 := addToMap_square he hm f1 ho hcs hB hr f2 f3 h1
    have e2 := ih i1 (o1.trans ho) (c1.trans hcs) (fun x hx => hf x (List.mem_cons_of_mem _ hx)) h
    exact e2.trans (sup_le e1 le_sup_right)

/-- Where the means of all frames lie, and how far the map reaches. -/
theorem Stays.extents {eig : NDT.Eig} (he : NDT.EigOk eig) {P : Algo.Input → Prop} {D' B R : ℝ} (hR : 0 ≤ R)
    (hD' : 0 ≤ D') (hB : 0 ≤ B) {log : List Entry} {s : State} (h : Stays eig P D' B log s)
    (hs : ∀ e ∈ log, InRange R e.scan) :
    (∀ f ∈ framesInMemory s, f.ox ^ 2 + f.oy ^ 2 ≤ B ^ 2) ∧
    (∀ f ∈ framesInMemory s, ∀ c ∈ getValidCells f.grid, c.mean ∈ disc (R + D')) ∧
    extOf s.global.grid ≤ square (side (1 / 4) (R + D' + B)) := by
  have hRD : 0 ≤ R + D' := by linarith
  have hmem : ∀ (s : State), (∀ f ∈ framesInMemory s, ∀ c ∈ getValidCells f.grid, c.mean ∈ disc (R + D')) ↔
      (∀ f ∈ s.store, ∀ c ∈ getValidCells f.grid, c.mean ∈ disc (R + D')) ∧
        ∀ c ∈ getValidCells s.temp.grid, c.mean ∈ disc (R + D') := by
    intro s
    unfold framesInMemory
    constructor
    · intro h
      exact ⟨fun f hf => h f (List.mem_append_left _ hf), h _ (List.mem_append_right _ (List.mem_singleton_self _))⟩
    · rintro ⟨h1, h2⟩ f hf
      rcases List.mem_append.1 hf with hf | hf
      · exact h1 f hf
      · rw [List.mem_singleton.1 hf]; exact h2
  induction h with
  | init =>
    refine ⟨?_, ?_, ⟨Nat.zero_le _, Nat.zero_le _, Nat.zero_le _, Nat.zero_le _⟩⟩
    · intro f hf
      rw [List.mem_singleton.1 (show f ∈ [emptyMap eig (1 / 4)] from hf)]
      show (0 : ℝ) ^ 2 + 0 ^ 2 ≤ B ^ 2
      nlinarith [sq_nonneg B]
    · intro f hf
      rw [List.mem_singleton.1 (show f ∈ [emptyMap eig (1 / 4)] from hf)]
      exact empty_disc eig _ _
  | setDistance d _ ih => exact ih hs
  | setRadius r _ ih => exact ih hs
  | @update log s inp o s' hd hp adm hDD hu hpl ih =>
    have hsc : InRange R inp.scan := hs ⟨o.1, o.2, inp.scan⟩ (by simp)
    have hsc' : ∀ p ∈ inp.scan, p ∈ disc (R + D') := by
      intro p hp
      have h1 : p 0 ^ 2 + p 1 ^ 2 ≤ R ^ 2 := hsc p hp
      show p 0 ^ 2 + p 1 ^ 2 ≤ (R + D') ^ 2
      nlinarith
    obtain ⟨ip, im, ig⟩ := ih fun e he => hs e (List.mem_append_left _ he)
    obtain ⟨i1, i2⟩ := (hmem s).1 im
    obtain ⟨⟨b, inv⟩, -⟩ := hd.reach.inv he
    obtain ⟨⟨b2, inv2⟩, -⟩ := (Reach.update hd.reach hp adm hu).inv he
    have cell := hd.reach.cell he
    obtain ⟨-, hdone, -⟩ := update_spec he inv.full adm.alg (inv.window.winB.inv he) inv.window.winO
      inv.window.winC hu
    have itemp := inv.frames.tempB.inv he
    refine ⟨hpl, ?_⟩
    rw [hmem s']
    have key : ∀ inc, Merged eig inp inc s s' →
        ((∀ f ∈ s'.store, ∀ c ∈ getValidCells f.grid, c.mean ∈ disc (R + D')) ∧
        ∀ c ∈ getValidCells s'.temp.grid, c.mean ∈ disc (R + D')) ∧
        extOf s'.global.grid ≤ square (side (1 / 4) (R + D' + B)) := by
      intro inc hm
      cases hm with
      | kept hf hc hst hgl =>
        rw [hst, hgl]
        refine ⟨⟨i1, ?_⟩, ig⟩
        unfold Algo.movedFar at hf
        rw [not_lt, abs_of_nonneg (displacement_nonneg _)] at hf
        exact mergeCloud_disc itemp i2 (transformCloud_disc hR (hf.trans hDD) hsc) rfl hc
      | @inserted g _ hg hcases htemp =>
        have eg := addToMap_square he (inv.mapped.globalB.inv he) itemp inv.mapped.globalO inv.mapped.globalC hB hRD
          (ip s.temp (by unfold framesInMemory; simp)) i2 hg
        have eg' : extOf g.grid ≤ square (side (1 / 4) (R + D' + B)) := eg.trans (sup_le ig le_rfl)
        obtain ⟨gi, go, gc⟩ := addToMap_frame he (inv.mapped.globalB.inv he) itemp hg
        have hall : ∀ f ∈ s.store ++ [{ s.temp with timestamp := inp.time }],
            ∀ c ∈ getValidCells f.grid, c.mean ∈ disc (R + D') := by
          intro f hf
          rcases List.mem_append.1 hf with hf | hf
          · exact i1 f hf
          · rw [List.mem_singleton.1 hf]; exact i2
        have hst' : ∀ f ∈ s'.store, ∀ c ∈ getValidCells f.grid, c.mean ∈ disc (R + D') := by
          rcases hcases with ⟨-, hst, -⟩ | ⟨-, hst, -⟩
          · rw [hst]; exact hall
          · rw [hst]
            intro f hf
            obtain ⟨f', hf', e⟩ := mem_sync hf
            rw [e]; exact hall f' hf'
        refine ⟨⟨hst', ?_⟩, ?_⟩
        · rw [cell] at htemp
          have ie : MapInv (setOrigin (emptyMap eig (1 / 4)) s'.alg.temp.origin) :=
            setOrigin_inv (init_inv eig 0 0 0 (by norm_num)) _
          exact mergeCloud_disc ie (empty_disc eig _ _) hsc' (o := s'.alg.temp.origin) rfl htemp
        · rcases hcases with ⟨-, -, hgl, -⟩ | ⟨-, -, -, -, hadd, -⟩
          · rw [hgl]; exact eg'
          · have ci : MapInv (NDTGrid.clear g) := by
              have := clearGrid_inv gi
              exact ⟨this.wf, this.cs, this.ginv⟩
            have := addAll_square he hB hRD ci (go.trans inv.mapped.globalO) (gc.trans inv.mapped.globalC) (by
              intro f hf
              obtain ⟨i, -, hi⟩ := List.mem_filterMap.1 hf
              have hmf := List.mem_of_getElem? hi
              exact ⟨(inv2.frames.storeB f hmf).inv he, hpl f (List.mem_append_left _ hmf), hst' f hmf⟩) hadd
            exact this.trans (sup_le eg' le_rfl)
    obtain ⟨ev, po⟩ := o
    simp only at hdone
    cases hdone with
    | first h0 _ _ ht hst hgl =>
      obtain ⟨-, t0, -, s0⟩ := inv.start h0
      refine ⟨⟨?_, ?_⟩, ?_⟩
      · rw [hst]; exact i1
      · rw [t0, cell] at ht
        have ie : MapInv (setCellSize (setOrigin (emptyMap eig (1 / 4)) ⟨0, 0, 0⟩) (1 / 4)) :=
          setOrigin_inv (n := emptyMap eig (1 / 4)) (init_inv eig 0 0 0 (by norm_num)) ⟨0, 0, 0⟩
        unfold initializeMap at ht
        refine mergeCloud_disc (clearGrid_inv ie) ?_ hsc' rfl ht
        intro c hc
        rw [show getValidCells _ = [] from (clear_stored ie.wf).2.2] at hc
        cases hc
      · rw [hgl]; exact ig
    | idle _ ht _ hst hgl => rw [hst, ht, hgl]; exact ⟨⟨i1, i2⟩, ig⟩
    | failed _ hm _ => exact key _ hm
    | matched _ _ _ hm _ => exact key _ hm

/-! ### Without loop closures -/

theorem Stays.mono {eig : NDT.Eig} {P : Algo.Input → Prop} {D' B B' : ℝ} (hB : 0 ≤ B) (hBB : B ≤ B')
    {log : List Entry} {s : State} (h : Stays eig P D' B log s) : Stays eig P D' B' log s := by
  induction h with
  | init => exact .init
  | setDistance d _ ih => exact .setDistance d ih
  | setRadius r _ ih => exact .setRadius r ih
  | update _ hp adm hd hu hpl ih =>
    exact .update ih hp adm hd hu fun f hf => (hpl f hf).trans (by nlinarith)

theorem displacement_pose (p : Pose) : getDisplacement (getTransFromPose p) = Real.sqrt (p.x ^ 2 + p.y ^ 2) := by
  unfold getDisplacement
  simp [getTransFromPose]

theorem wayStep_le (w : ℝ × Pose) (e : Entry) : w.1 ≤ (wayStep w e).1 := by
  unfold wayStep
  split
  · exact le_add_of_nonneg_right (Real.sqrt_nonneg _)
  · exact le_add_of_nonneg_right (Real.sqrt_nonneg _)
  · exact le_rfl

/-- Without loop closures no frame is farther from the start than the way driven. -/
theorem Drive.stays {eig : NDT.Eig} (he : NDT.EigOk eig) {P : Algo.Input → Prop} (hP : ∀ i, P i → i.loops = [])
    {D D' : ℝ} {log : List Entry} {s : State} (h : Drive eig P D D' log s) :
    0 ≤ way log ∧ Stays eig P D' (way log) log s ∧ getDisplacement s.alg.position ≤ way log ∧
    ∀ f ∈ framesInMemory s, Real.sqrt (f.ox ^ 2 + f.oy ^ 2) ≤ way log := by
  have hmem : ∀ (s : State) (w : ℝ), (∀ f ∈ s.store, Real.sqrt (f.ox ^ 2 + f.oy ^ 2) ≤ w) →
      Real.sqrt (s.temp.ox ^ 2 + s.temp.oy ^ 2) ≤ w → ∀ f ∈ framesInMemory s, Real.sqrt (f.ox ^ 2 + f.oy ^ 2) ≤ w := by
    intro s w h1 h2 f hf
    rcases List.mem_append.1 hf with hf | hf
    · exact h1 f hf
    · rw [List.mem_singleton.1 hf]; exact h2
  induction h with
  | init =>
    have hw : way [] = 0 := rfl
    rw [hw]
    refine ⟨le_rfl, .init, ?_, ?_⟩
    · show getDisplacement 1 ≤ 0
      rw [displacement_one]
    · intro f hf
      rw [List.mem_singleton.1 (show f ∈ [emptyMap eig (1 / 4)] from hf)]
      show Real.sqrt ((0 : ℝ) ^ 2 + 0 ^ 2) ≤ 0
      simp
  | setDistance d _ ih => exact ⟨ih.1, .setDistance d ih.2.1, ih.2.2⟩
  | setRadius r _ ih => exact ⟨ih.1, .setRadius r ih.2.1, ih.2.2⟩
  | @update log s inp o s' hd hp adm hD hDD hu ih =>
    obtain ⟨ih0, ih1, ih2, ih3⟩ := ih
    have hl := hP _ hp
    obtain ⟨⟨b, inv⟩, -⟩ := hd.reach.inv he
    obtain ⟨⟨b2, inv2⟩, -⟩ := (Reach.update hd.reach hp adm hu).inv he
    obtain ⟨ha, hdone, -⟩ := update_spec he inv.full adm.alg (inv.window.winB.inv he) inv.window.winO
      inv.window.winC hu
    obtain ⟨e, p, a', b', hu2, f', -, -, -, -, -, sc⟩ := Algo.update_step inv.full adm.alg
    rw [ha] at hu2
    have h2 := Res.ok.inj hu2
    simp only [Prod.mk.injEq] at h2
    obtain ⟨ho, rfl⟩ := h2
    have hev : o.1 = e := by rw [ho]
    have hfold := (hd.nodes he).1
    have hw : way log ≤ way (log ++ [⟨o.1, o.2, inp.scan⟩]) := by
      unfold way
      rw [way_snoc]
      exact wayStep_le _ _
    suffices hh : getDisplacement s'.alg.position ≤ way (log ++ [⟨o.1, o.2, inp.scan⟩]) ∧
        (∀ f ∈ s'.store, Real.sqrt (f.ox ^ 2 + f.oy ^ 2) ≤ way log) ∧
        Real.sqrt (s'.temp.ox ^ 2 + s'.temp.oy ^ 2) ≤ way (log ++ [⟨o.1, o.2, inp.scan⟩]) by
      obtain ⟨h1, h2, h3⟩ := hh
      have h4 := hmem s' _ (fun f hf => (h2 f hf).trans hw) h3
      have hpos := ih0.trans hw
      exact ⟨hpos, .update (ih1.mono ih0 hw) hp adm hDD hu
        fun f hf => (Real.sqrt_le_iff.1 (h4 f hf)).2, h1, h4⟩
    have hstore : ∀ f ∈ s.store, Real.sqrt (f.ox ^ 2 + f.oy ^ 2) ≤ way log :=
      fun f hf => ih3 f (List.mem_append_left _ hf)
    have htemp : Real.sqrt (s.temp.ox ^ 2 + s.temp.oy ^ 2) ≤ way log :=
      ih3 _ (List.mem_append_right _ (List.mem_singleton_self _))
    have horig : Real.sqrt (s'.temp.ox ^ 2 + s'.temp.oy ^ 2) = getDisplacement (getTransFromPose s'.alg.temp.origin) := by
      rw [displacement_pose, ← inv2.frames.tempO]; rfl
    have horig0 : Real.sqrt (s.temp.ox ^ 2 + s.temp.oy ^ 2) = getDisplacement (getTransFromPose s.alg.temp.origin) := by
      rw [displacement_pose, ← inv.frames.tempO]; rfl
    have key : ∀ inc, IsRigid inc → s'.alg.position = s.alg.position * inc → Merged eig inp inc s s' →
        Algo.Grown inp.alg inc s.alg s'.alg b b' →
        way log + getDisplacement inc ≤ way (log ++ [⟨o.1, o.2, inp.scan⟩]) →
        getDisplacement s'.alg.position ≤ way (log ++ [⟨o.1, o.2, inp.scan⟩]) ∧
        (∀ f ∈ s'.store, Real.sqrt (f.ox ^ 2 + f.oy ^ 2) ≤ way log) ∧
        Real.sqrt (s'.temp.ox ^ 2 + s'.temp.oy ^ 2) ≤ way (log ++ [⟨o.1, o.2, inp.scan⟩]) := by
      intro inc hinc hpos hm hg hway
      have h1 : getDisplacement s'.alg.position ≤ way (log ++ [⟨o.1, o.2, inp.scan⟩]) := by
        rw [hpos]
        have := displacement_mul (Algo.rigid_pos inv.full.alg) hinc
        linarith
      refine ⟨h1, ?_, ?_⟩
      · cases hm with
        | kept _ _ hst => rw [hst]; exact hstore
        | inserted _ _ hc =>
          rcases hc with ⟨-, hst, -⟩ | ⟨hne, -⟩
          · rw [hst]
            intro f hf
            rcases List.mem_append.1 hf with hf | hf
            · exact hstore f hf
            · rw [List.mem_singleton.1 hf]; exact htemp
          · exact absurd hl hne
      · obtain ⟨ins, -, -, ⟨-, ht, -⟩ | ⟨-, -, -, ⟨ht, -⟩, -⟩⟩ := hg
        · rw [horig, ht]
          rw [horig0] at htemp
          exact htemp.trans hw
        · rw [horig]
          have := f'.alg.pos
          rw [ht, Matrix.mul_one] at this
          rw [← this]; exact h1
    obtain ⟨ev, po⟩ := o
    simp only at hdone hev
    subst hev
    cases sc with
    | first h0 hp0 _ _ _ _ hto =>
      refine ⟨?_, ?_, ?_⟩
      · rw [hp0, displacement_one]; exact ih0.trans hw
      · cases hdone with
        | first _ _ _ _ hst => rw [hst]; exact hstore
      · rw [horig, hto, displacement_pose]
        simpa using ih0.trans hw
    | idle _ _ hp0 _ _ _ hto =>
      refine ⟨?_, ?_, ?_⟩
      · rw [hp0]; exact ih2.trans hw
      · cases hdone with
        | idle _ _ _ hst => rw [hst]; exact hstore
      · rw [horig, hto, ← horig0]; exact htemp.trans hw
    | failed _ _ _ hp0 _ _ g =>
      cases hdone with
      | failed _ hm _ =>
        refine key _ adm.alg.motion (hp0 hl) hm g ?_
        unfold way
        rw [way_snoc]
        generalize log.foldl wayStep (0, ⟨0, 0, 0⟩) = w
        have e2 : getDisplacement inp.alg.motion = Algo.dist2 0 0 (inp.alg.motion 0 2) (inp.alg.motion 1 2) := by
          unfold Algo.dist2 getDisplacement
          simp
        rw [e2]
        exact le_rfl
    | @matched m q _ _ _ hq hp0 _ _ g =>
      cases hdone with
      | matched _ _ _ hm _ =>
        refine key _ (by rw [trans_inv]; exact rigid_mul (getTransFromPose_rigid _) (getTransFromPose_rigid _)) (hp0 hl) hm g ?_
        rw [displacement_between]
        unfold way
        rw [way_snoc, ← hfold]
        generalize log.foldl wayStep (0, ⟨0, 0, 0⟩) = w
        exact le_rfl

end Verif.Whole
