import Verif.Match.Real

/-
C173: the loop search on the maps of a run.  Here the matches of the loop detector (`Loop.Env.matcher`, arbitrary in C129 and
with arbitrary scores in C134) are those of `Verif/Match/Real.lean`, on the frames the run has stored.
-/
namespace Verif.Match

open Verif Verif.Geo Verif.World Verif.NDTGrid
open Verif.Score (Tree TreeOk OffLayer d2dLayerScore sortTree sortTree_ok)

/-! ### Specification -/

/-- What the surroundings decide in one match: sorting function, distribution over the threads, solver of the Newton systems,
and the report that the matcher has left from its last use. -/
structure Freedom where
  sort : List Corr.Voxel → List Corr.Voxel
  schedule : List (List ℕ)
  solve : ℝ → Newton.FittingParams → Newton.Score → Option Newton.Vec
  report : Newton.Report

/-- `std::sort` sorts, and the threads share the rotations of the search window. -/
def Freedom.Ok (m : Matcher) (f : Freedom) : Prop :=
  Corr.IsSort f.sort ∧ ∃ n, Corr.RotationCount m.corr n ∧ Corr.ValidSchedule f.schedule n

/-- The loop matches of the detector between the frames `store` and the newest frame are those of the loop matcher with the
threshold `limit` on these maps, with no undefined score in them; `free` is what the surroundings decide in each match. -/
def RealSearch (eig : NDT.Eig) (tree : Tree) (limit : ℝ) (free : ℕ → ℕ → Freedom) (env : Loop.Env) (store : List Map)
    (newest : Map) : Prop :=
  ∃ m, Configured limit m ∧ ∀ (k i : ℕ) (src : Map), store[i]? = some src →
    (free k i).Ok m ∧ ∃ s, IsMatch eig tree m src newest s ∧ s.sort = (free k i).sort ∧ s.schedule = (free k i).schedule ∧
      s.report = (free k i).report ∧ (∀ size param, (s.layer size param).solve = (free k i).solve size param) ∧
      ∀ guess, IsRigid guess → ∃ junk, matchFrames m s junk guess = some (.ok (env.matcher k i store.length guess))

/-- In no layer of the loop matcher a Gaussian of the map is on a border line. -/
def OffLoop (limit : ℝ) (f : Map) : Prop := ∀ m, Configured limit m → ∀ size ∈ m.layers.sizes, OffLayer size f

/-! ### Lemmas -/

variable {eig : NDT.Eig} {tree : Tree} {limit : ℝ}

/-- Result of a match that ends. -/
noncomputable def resultOf : Run Loop.MatchResult → Loop.MatchResult
  | some (.ok r) => r
  | _ => ⟨false, 1, 1⟩

theorem RealSearch.described {free : ℕ → ℕ → Freedom} {env : Loop.Env} {store : List Map} {newest : Map}
    (h : RealSearch eig tree limit free env store newest) (h0 : 0 < newest.grid.cellSize) (h1 : newest.grid.cellSize ≤ 1) :
    Described limit env store newest := by
  obtain ⟨m, hm, h⟩ := h
  refine ⟨m, hm, fun k i src hsrc => ?_⟩
  obtain ⟨⟨hs, hn⟩, s, hi, e1, e2, -, -, hr⟩ := h k i src hsrc
  exact ⟨s, ⟨by rw [hi.cell]; exact h0, by rw [hi.cell]; exact h1.trans (by norm_num), by rw [e1]; exact hs, by rw [e2]; exact hn⟩,
    hi.source, hi.target, hi.cell, hr⟩

/-! ### C173 -/

/-- C173 (definedness), for frames with a Gaussian and off border lines: in every run, whatever the surroundings decide in the matches, the
loop search for the current frame is one on the stored maps, with no undefined score. -/
theorem C173_defined_partial (he : NDT.EigOk eig) {log : List Whole.Entry} {st : Whole.State}
    (h : Whole.Own .tolerant eig log st) (hl0 : 0 < limit) (hl : limit ≤ 0.6) (hoff : ∀ f ∈ st.store ++ [st.temp], OffLoop limit f)
    (hne : gaussians st.temp ≠ []) (htree : TreeOk tree) (free : ℕ → ℕ → Freedom)
    (hfree : ∀ m, Configured limit m → ∀ k i, (free k i).Ok m) (env : Loop.Env) :
    ∃ matcher, RealSearch eig tree limit free { env with matcher := matcher } st.store st.temp := by
  obtain ⟨i1, -⟩ := h.inv he
  obtain ⟨⟨b, inv⟩, -⟩ := i1.inv he
  have hcell : st.temp.grid.cellSize = 1 / 4 := by rw [inv.frames.tempC, i1.cell he]
  obtain ⟨m, hm⟩ := configured_exists hl0 (hl.trans_lt (by norm_num))
  have key : ∀ k i src, st.store[i]? = some src → ∃ s, IsMatch eig tree m src st.temp s ∧ s.sort = (free k i).sort ∧
      s.schedule = (free k i).schedule ∧ s.report = (free k i).report ∧
      (∀ size param, (s.layer size param).solve = (free k i).solve size param) ∧
      ∀ guess, IsRigid guess → ∃ r, matchFrames m s 1 guess = some (.ok r) := by
    intro k i src hsrc
    have hmem := List.mem_of_getElem? hsrc
    obtain ⟨hs, hn⟩ := hfree m hm k i
    obtain ⟨s, a1, a2, a3, a4, a5, a6⟩ := C172_loop_partial he (inv.frames.storeB src hmem) inv.frames.tempB hm
      (fun z hz => hoff src (List.mem_append_left _ hmem) m hm z hz)
      (fun z hz => hoff st.temp (List.mem_append_right _ (List.mem_singleton_self _)) m hm z hz) hne htree
      (by rw [hcell]; norm_num) hl hs hn (free k i).solve (free k i).report
    exact ⟨s, a1, a2, a3, a4, a5, fun guess hg => (a6 guess hg).imp fun r hr => hr.2.1 1⟩
  haveI : Nonempty Scene := ⟨⟨[], [], 0, fun _ _ => ⟨fun _ => .zero, fun _ => .zero, fun _ => none⟩, id, [], ⟨false, 1, 1, 1⟩⟩⟩
  choose! s hs using key
  refine ⟨fun k i _ g => resultOf (matchFrames m (s k i ((st.store[i]?).getD st.temp)) 1 g), m, hm, fun k i src hsrc => ?_⟩
  obtain ⟨a1, a2, a3, a4, a5, a6⟩ := hs k i src hsrc
  refine ⟨hfree m hm k i, s k i src, a1, a2, a3, a4, a5, fun guess hg => ⟨1, ?_⟩⟩
  obtain ⟨r, hr⟩ := a6 guess hg
  simp only [hsrc, Option.getD_some]
  rw [hr]
  rfl

/-- C173 (soundness): the constraints that an update with such a search adds are the odometry constraint of the finished frame and loop
constraints which join it to an older frame.
Missing: as in C134. -/
theorem C173_joins_partial (he : NDT.EigOk eig) {d : Whole.Outer} {log : List Whole.Entry} {st st' : Whole.State}
    {out : Algo.Event × Pose} (h : Whole.Own .tolerant eig log st) (adm : Whole.AdmissibleOwn st d)
    (hu : Whole.updateOwn .tolerant eig d st = .ok (out, st')) (hl : limit ≤ 0.6) {free : ℕ → ℕ → Freedom}
    (hr : RealSearch eig tree limit free d.env st.store st.temp) :
    Whole.bookOf st' = Whole.bookOf st ∨
    ∃ cs, (Whole.bookOf st').cons = (Whole.grown st).cons ++ cs ∧
      ∀ c ∈ cs, c.2.2.2 = .loop ∧ c.1 = st.store.length ∧
        ∃ src, st.store[c.2.1]? = some src ∧ Joins limit src st.temp c.2.2.1 := by
  obtain ⟨i1, -⟩ := h.inv he
  obtain ⟨⟨b, inv⟩, -⟩ := i1.inv he
  have hcell : st.temp.grid.cellSize = 1 / 4 := by rw [inv.frames.tempC, i1.cell he]
  exact C134_joins_partial he h adm hu hl (hr.described (by rw [hcell]; norm_num) (by rw [hcell]; norm_num))

/-! ### A run with a blind sensor -/

open Verif.Whole Verif.Voxel in
theorem frame_ahead {f : Map} (k m : ℤ) (h1 : 0 < m) (h2 : m < 100) (ho : getTransFromPose (origin f) = Algo.ahead k)
    (hm : ∀ c ∈ gaussians f, (c.mean 0, c.mean 1) = ((m : ℝ), (0 : ℝ))) :
    f.ox = k ∧ f.oy = 0 ∧ FrameOk f := by
  have e1 : f.ox = k := by
    have := congrFun (congrFun ho 0) 2
    simpa [Algo.ahead_eq, getTransFromPose, origin] using this
  have e2 : f.oy = 0 := by
    have := congrFun (congrFun ho 1) 2
    simpa [Algo.ahead_eq, getTransFromPose, origin] using this
  refine ⟨e1, e2, by rw [e1, e2]; exact off_quarter k, fun c hc => ?_⟩
  have : worldPos f c = (((k + m : ℤ) : ℝ), 0) := by
    unfold worldPos
    rw [hm c hc, ← act_trans, ho, Algo.ahead_eq]
    unfold act
    ext <;> simp [add_comm]
  rw [this, e1, e2]
  refine ⟨off_quarter _, ?_⟩
  have h1' : (0 : ℝ) < m := by exact_mod_cast h1
  have h2' : (m : ℝ) < 100 := by exact_mod_cast h2
  have e3 : |((k + m : ℤ) : ℝ) - (k : ℝ)| = m := by
    push_cast
    rw [add_sub_cancel_left, abs_of_pos h1']
  have h1'' : (1 : ℝ) ≤ m := by exact_mod_cast h1
  unfold RayLength
  simp only [e3, sub_self, abs_zero]
  rw [max_eq_left h1'.le]
  constructor <;> linarith

open Verif.Whole Verif.Voxel in
theorem blind_state (he : NDT.EigOk eig) : ∃ log s2, Reach eig Algo.NoLoops log s2 ∧ s2.alg.initialized = true ∧ s2.alg.unused = 1 ∧
    s2.alg.maxTraveled = 3 / 2 ∧ s2.alg.transTemp = 1 ∧ getTransFromPose (origin s2.temp) = Algo.ahead (4 : ℤ) ∧ gaussians s2.temp = [] ∧
    ∃ f g, s2.store = [f, g] ∧ origin f = ⟨0, 0, 0⟩ ∧ f.grid.cellSize = 1 / 4 ∧ gaussians f ≠ [] ∧
      (∀ c ∈ gaussians f, (c.mean 0, c.mean 1) = (((5 : ℤ) : ℝ), (0 : ℝ))) ∧
      ∀ c ∈ gaussians g, (c.mean 0, c.mean 1) = (((5 : ℤ) : ℝ), (0 : ℝ)) := by
  obtain ⟨p0, g, p1, s, h, -, -, hi, hcs, hu, hmt, htt, ot, ⟨f, hf, of, hcf, hgf, hfm⟩, -, htm⟩ :=
    run_frame_at he 5 (by norm_num) (by norm_num) (P := Algo.NoLoops) (fun _ _ _ _ => rfl)
  obtain ⟨⟨b, inv⟩, -⟩ := h.inv he
  obtain ⟨_, -, fl, -⟩ := (h.inv he).2.full
  obtain ⟨-, -, fo⟩ := frame_ahead 2 5 (by norm_num) (by norm_num) ot htm
  have none_ok : ∀ c, ScanOk c [] := fun _ p hp => by cases hp
  have none_tr : ∀ t, transformCloud t [] = [] := fun _ => rfl
  obtain ⟨inp, e2, p2, s2, _, _, r2, hsc2, hm2, hmat2, hl2, c2, i2, mt2, cs2, d2⟩ :=
    h.extend he (Algo.ahead_rigid ((2 : ℤ) : ℝ)) [] (fun _ => ⟨0, 0, 0⟩) [] (by simp) (by simp)
      (fun a order => rfl) (none_ok _) (by rw [none_tr]; exact none_ok _) fo (by simp)
  have hmv : Algo.movedEnough s.alg (s.alg.unused * inp.alg.motion) := by
    rw [hu, hm2, Matrix.one_mul, Algo.ahead_moved fl.minD fl.minR (by norm_num)]; norm_num
  have hfar : Algo.movedFar s.alg (s.alg.transTemp * inp.alg.motion) := by
    unfold Algo.movedFar
    rw [htt, hm2, Matrix.one_mul, hmt, Algo.displacement_ahead (by norm_num)]
    norm_num
  cases c2 with
  | first h => rw [hi] at h; cases h
  | idle _ h => exact absurd hmv h
  | matched _ _ h => rw [hmat2] at h; cases h
  | failed _ _ _ hpos2 _ hu2 gr =>
  have hpos : s.alg.position = Algo.ahead (2 : ℤ) := by
    rw [inv.full.alg.pos, htt, Matrix.mul_one, ← inv.frames.tempO, ot]
  have htt2 : s2.alg.transTemp = 1 ∧ getTransFromPose s2.alg.temp.origin = Algo.ahead (4 : ℤ) := by
    obtain ⟨ins, hins, -, ⟨-, -, -, h⟩ | ⟨-, -, h', h, -⟩⟩ := gr
    · exact absurd hfar h
    · refine ⟨h.1, ?_⟩
      rw [h', Matrix.mul_one] at hins
      rw [hins, hpos2 (hl2.2 rfl), hpos, hm2, Algo.ahead_eq, Algo.ahead_eq]
      ext i j
      fin_cases i <;> fin_cases j <;> simp [Matrix.mul_apply, Fin.sum_univ_three]
      norm_num
  cases d2 with
  | failed _ mrg hwin =>
  cases mrg with
  | kept h => exact absurd hfar h
  | inserted _ hadd hcase htemp =>
  rcases hcase with ⟨-, hst2, -⟩ | ⟨h, -⟩
  swap
  · exact absurd (hl2.2 rfl) h
  rw [hsc2] at htemp
  obtain ⟨⟨b2, inv2⟩, -⟩ := r2.inv he
  have hg2 : gaussians s2.temp = [] := by
    have ie : MapInv (setOrigin (emptyMap eig s.alg.cellSize) s2.alg.temp.origin) :=
      setOrigin_inv (init_inv eig 0 0 0 (by rw [hcs]; norm_num)) _
    rw [← transformCloud_one ([] : List NDT.Vec)] at htemp
    refine List.eq_nil_iff_forall_not_mem.2 fun c hc => ?_
    rcases (merged ie Algo.rigid_one htemp).2.2 c hc with ⟨c', hc', -⟩ | hs
    · rw [gaussians_init] at hc'
      cases hc'
    · simp [SeenFrom] at hs
  have hst2' : s2.store = [f, { s.temp with timestamp := inp.time }] := by rw [hst2, hf]; rfl
  exact ⟨_, s2, r2, i2, hu2, mt2.trans hmt, htt2.1, by rw [inv2.frames.tempO]; exact htt2.2, hg2, f, _, hst2', of, hcf, hgf, hfm, htm⟩

open Verif.Whole Verif.Voxel in
/-- A run that has finished two frames, the first with Gaussians, and drives on without any echo: the current frame has no Gaussian.
Whatever the loop search does, the next update ends normally and finishes this frame. -/
theorem blind_run (he : NDT.EigOk eig) : ∃ log st, Own .tolerant eig log st ∧ st.store.length = 2 ∧
    (∃ f, st.store[0]? = some f ∧ f.grid.cellSize = 1 / 4 ∧ gaussians f ≠ [] ∧ ∀ c ∈ gaussians f, (c.mean 0, c.mean 1) = (((5 : ℤ) : ℝ), (0 : ℝ))) ∧
    gaussians st.temp = [] ∧ (∀ x, (bookOf st).poses[0]? = some x → x.1 = ⟨0, 0, 0⟩) ∧
    st.alg.temp.origin.x = 4 ∧ st.alg.temp.origin.y = 0 ∧
    ∀ env, ∃ d out st', d.env = env ∧ AdmissibleOwn st d ∧ updateOwn .tolerant eig d st = .ok (out, st') ∧
      st'.store.length = 3 := by
  obtain ⟨log, s2, r2, i2, hu2, mt2, htt2, ho, hg2, f, g, hst2', of, hcf, hgf, hfm, htm⟩ := blind_state he
  obtain ⟨⟨b2, inv2⟩, -⟩ := r2.inv he
  obtain ⟨_, -, fl2, -⟩ := (r2.inv he).2.full
  have none_ok : ∀ c, ScanOk c [] := fun _ p hp => by cases hp
  obtain ⟨o1, o2, fo2⟩ := frame_ahead (f := s2.temp) 4 5 (by norm_num) (by norm_num) ho
    (by rw [hg2]; intro c hc; cases hc)
  have own := Own.of_noLoops he r2
  have hn : s2.store.length = b2.poses.length := by rw [(C115_frames he r2).1, ← inv2.full.alg.engine.nodesLen]
  refine ⟨_, s2, own, by rw [hst2']; rfl, ⟨f, by rw [hst2']; rfl, hcf, hgf, hfm⟩, hg2, ?_, ?_, ?_, ?_⟩
  · intro x hx
    rw [bookOf_eq inv2.full.alg.engine] at hx
    rw [← of]
    exact (inv2.frames.orig 0 f x (by rw [hst2']; rfl) hx).symm
  · rw [← inv2.frames.tempO, ← show ((4 : ℤ) : ℝ) = 4 by norm_num]; exact o1
  · rw [← inv2.frames.tempO]; exact o2
  intro env
  obtain ⟨a, ha, -⟩ := fresh_two s2.alg.engine.graph
  obtain ⟨l, h1, h2, h3⟩ := fresh_many s2.alg.engine.graph a
  set d : Outer := ⟨Algo.ahead ((2 : ℤ) : ℝ), none, a, l, env, fun _ => ⟨((3 : ℤ) : ℝ), 0, 0⟩,
    List.range (s2.alg.engine.graph.nodes.length + 1), [], 0, s2.order ++ [s2.store.length]⟩ with hd
  have adm : AdmissibleOwn s2 d := by
    refine ⟨Algo.ahead_rigid _, by simp [hd], h2, h1.ge, ?_, List.Perm.refl _, List.Perm.refl _⟩
    intro x hx
    rcases List.mem_cons.1 hx with rfl | hx
    · exact ha
    · exact h3 x hx
  have safe : ∀ loops, Safe s2 (d.withLoops loops) := by
    intro loops
    refine ⟨none_ok _, none_ok _, fo2, ?_, by simp [hd, Outer.withLoops]⟩
    intro _ i x hx
    rw [hst2'] at hx
    match i, hx with
    | 0, hx =>
      cases hx
      rw [if_pos rfl, of]
      refine exFrame_in 0 5 (by norm_num) (by norm_num) ?_ hfm
      simp [origin, setOrigin]
    | 1, hx =>
      cases hx
      rw [if_neg (by norm_num)]
      refine exFrame_in 3 5 (by norm_num) (by norm_num) ?_ htm
      simp [origin, setOrigin, hd, Outer.withLoops]
    | 2, hx =>
      cases hx
      rw [if_neg (by norm_num)]
      refine exFrame_in 3 5 (by norm_num) (by norm_num) ?_ (by
        show ∀ c ∈ gaussians s2.temp, _
        rw [hg2]; intro c hc; cases hc)
      simp [origin, setOrigin, hd, Outer.withLoops]
    | n + 3, hx => simp at hx
  obtain ⟨out, s', hs'⟩ := C129_total_partial he own adm safe
  refine ⟨d, out, s', rfl, adm, hs', ?_⟩
  obtain ⟨j1, j2⟩ := own.inv he
  obtain ⟨adm', hu', -⟩ := own_step he j1 j2 adm hs'
  have hfar2 : Algo.movedFar s2.alg (s2.alg.transTemp * d.motion) := by
    unfold Algo.movedFar
    rw [htt2, Matrix.one_mul, mt2, Algo.displacement_ahead (by norm_num)]
    norm_num
  obtain ⟨ha, -⟩ := update_spec he inv2.full adm'.alg (inv2.window.winB.inv he) inv2.window.winO inv2.window.winC hu'
  obtain ⟨e, p, a', b', hu3, full', -, -, -, -, -, sc⟩ := Algo.update_step inv2.full adm'.alg
  rw [ha] at hu3
  have e3 : s'.alg = a' := congrArg Prod.snd (Res.ok.inj hu3)
  subst e3
  have hmv2 : Algo.movedEnough s2.alg (s2.alg.unused * d.motion) := by
    rw [hu2, Matrix.one_mul, Algo.ahead_moved fl2.minD fl2.minR (by norm_num)]; norm_num
  have r' := Reach.update j1 trivial adm' hu'
  rw [(C115_frames he r').1, full'.alg.engine.nodesLen]
  cases sc with
  | first h => rw [i2] at h; cases h
  | idle _ h => exact absurd hmv2 h
  | matched _ _ h => cases h
  | failed _ _ _ _ _ _ g =>
    obtain ⟨ins, -, -, ⟨-, -, -, h⟩ | ⟨rfl, -⟩⟩ := g
    · exact absurd hfar2 h
    · unfold Algo.inserted
      simp only
      rw [Algo.length_optimised, List.length_append, ← hn, hst2']
      rfl

/-- The cell sizes of the layers of the loop matcher. -/
theorem loop_sizes {m : Matcher} (h : Configured limit m) : m.layers.sizes = [2, 1, 1 / 2, 1 / 4] := by
  obtain ⟨m0, h0, h1⟩ := h
  unfold scanmatcher Matcher.setRejectionLimit at h0
  rw [(Robust.C57_limit 0.6).1 (by norm_num), Res.map_ok, Res.map_ok] at h0
  have h0 := Res.ok.inj h0
  unfold Matcher.setRejectionLimit at h1
  by_cases hl : 0 < limit ∧ limit < 1
  · rw [(Robust.C57_limit limit).1 hl, Res.map_ok] at h1
    have h1 := Res.ok.inj h1
    subst h0 h1
    show ((Newton.Layers.new 0.55).setCellSize 0.25).sizes = _
    have hn : (Newton.Layers.new 0.55).sizes = [2, 1, 1 / 2, 1 / 4] ∧ (Newton.Layers.new 0.55).count = 4 := by
      unfold Newton.Layers.new Newton.Layers.initParams Newton.Layers.initCellSizes
      rw [if_neg (by simp)]
      refine ⟨?_, rfl⟩
      show (List.range 4).reverse.map (fun i => (0.25 : ℝ) * 2 ^ i) = _
      norm_num [List.range_succ]
    have hr : (Newton.Layers.new 0.55).initCellSizes 0.25 = (false, Newton.Layers.new 0.55) := by
      unfold Newton.Layers.initCellSizes
      refine if_pos ⟨by rw [hn.1]; simp, ?_, by rw [hn.1, hn.2]; rfl⟩
      rw [hn.1]
      simp
      norm_num
    unfold Newton.Layers.setCellSize
    rw [hr]
    exact hn.1
  · rw [(Robust.C57_limit limit).2 hl] at h1
    cases h1

theorem off_loop {f : Map} (hcs : f.grid.cellSize = 1 / 4) (hm : ∀ c ∈ gaussians f, (c.mean 0, c.mean 1) = (((4 : ℤ) : ℝ), (0 : ℝ))) :
    OffLoop limit f := by
  intro m hc size hz c hg
  rw [loop_sizes hc] at hz
  have key : ∀ a k : ℤ, (4 * (a : ℝ)) ≠ (k + 1 / 2) * max size f.grid.cellSize := by
    intro a k h
    rw [hcs] at h
    rcases List.mem_cons.1 hz with rfl | hz
    · rw [max_eq_left (by norm_num)] at h
      have : ((4 * a : ℤ) : ℝ) = ((2 * k + 1 : ℤ) : ℝ) := by push_cast; linarith
      have := Int.cast_injective this
      omega
    rcases List.mem_cons.1 hz with rfl | hz
    · rw [max_eq_left (by norm_num)] at h
      have : ((8 * a : ℤ) : ℝ) = ((2 * k + 1 : ℤ) : ℝ) := by push_cast; linarith
      have := Int.cast_injective this
      omega
    rcases List.mem_cons.1 hz with rfl | hz
    · rw [max_eq_left (by norm_num)] at h
      have : ((16 * a : ℤ) : ℝ) = ((2 * k + 1 : ℤ) : ℝ) := by push_cast; linarith
      have := Int.cast_injective this
      omega
    · rw [List.mem_singleton.1 hz, max_self] at h
      have : ((32 * a : ℤ) : ℝ) = ((2 * k + 1 : ℤ) : ℝ) := by push_cast; linarith
      have := Int.cast_injective this
      omega
  have e := hm c hg
  show OffLines _ (c.mean 0, c.mean 1)
  rw [e]
  refine ⟨fun k => ?_, fun k => ?_⟩
  · have := key 1 k; simpa using this
  · have := key 0 k; simpa using this

open Verif.Whole in
/-- Negation of C173 for frames without a Gaussian, with a search tree that cannot be asked when it is empty: there is a run
(with a sensor that has no echo any more) whose next update finishes a frame and has it matched with the first one, if the minimal distance
of the loop search is 0 (and the memory that is never initialised happens to be 0) and the maximal one more than 4 m; but whatever the surroundings decide, no loop search on these maps is without
undefined scores. -/
theorem C173_false (he : NDT.EigOk eig) (htree : ∀ p k, tree [] p k = .ub .nullDeref) :
    ∃ log st, Own .tolerant eig log st ∧
      (∀ env : Loop.Env, env.minDist = 0 → env.junk = 0 → 4 < env.maxDist → ∃ d out st', d.env = env ∧ AdmissibleOwn st d ∧
        updateOwn .tolerant eig d st = .ok (out, st') ∧ st'.store.length = st.store.length + 1 ∧
        0 ∈ Loop.tried env (grown st)) ∧
      ∀ free env, ¬ RealSearch eig tree limit free env st.store st.temp := by
  obtain ⟨log, st, own, hlen, ⟨f, hf, hcell, hgf, hfm⟩, hg, hp0, hx, hy, hup⟩ := blind_run he
  obtain ⟨i1, i2⟩ := own.inv he
  obtain ⟨⟨b, inv⟩, -⟩ := i1.inv he
  refine ⟨log, st, own, ?_, ?_⟩
  · intro env e1 e2 e3
    obtain ⟨d, out, st', hd, adm, hu, hl'⟩ := hup env
    refine ⟨d, out, st', hd, adm, hu, by rw [hl', hlen], ?_⟩
    have hbl : b.poses.length = 2 := by rw [← inv.frames.len, hlen]
    rw [bookOf_eq inv.full.alg.engine] at hp0
    rw [grown_eq inv.full.alg.engine]
    have hget : b.poses[0]? = some b.poses[0] := List.getElem?_eq_getElem _
    have hc : Loop.Candidate env (insertedBook st.alg b) 0 := by
      refine ⟨(st.alg.temp.origin, st.alg.temp), b.poses[0], ?_, ?_, ?_, ?_⟩
      · simp [insertedBook]
      · simp [insertedBook, hbl]
      · rw [hp0 _ hget, Complex.dist_eq_re_im]
        simp only [Loop.place, hx, hy]
        rw [show ((4 : ℝ) - 0) ^ 2 + (0 - 0) ^ 2 = 4 ^ 2 by norm_num, Real.sqrt_sq (by norm_num)]
        exact e3
      · rw [e1, e2, zero_add]
        refine Finset.sum_nonneg fun j _ => ?_
        unfold Loop.leg
        rcases List.find? _ _ with _ | c
        · exact le_rfl
        · exact norm_nonneg _
    unfold Loop.tried
    have h2 : (insertedBook st.alg b).poses.length - 1 = 2 := by simp [insertedBook, hbl]
    rw [h2]
    rw [List.take_of_length_le]
    · exact List.mem_filter.2 ⟨by simp, by simpa using hc⟩
    · exact (List.length_filter_le _ _).trans (by simp)
  · rintro free env ⟨m, hm, h⟩
    obtain ⟨-, s, hs, -⟩ := h 0 0 f hf
    have fB := inv.frames.storeB f (List.mem_of_getElem? hf)
    refine C172_false he fB inv.frames.tempB ⟨1 / 4, by rw [loop_sizes hm]; simp, ?_⟩ hgf hg htree s hs
    intro c hc
    rw [hcell, max_self]
    show OffLines _ (c.mean 0, c.mean 1)
    rw [hfm c hc]
    exact off_quarter 5

/-! ### The hypotheses can be met -/

/-- A run in which the current frame and a stored one have a Gaussian, off the border lines, and a loop search on them. -/
example : ∃ eig, NDT.EigOk eig ∧ ∃ log st free env, Whole.Own .tolerant eig log st ∧ st.store.length = 1 ∧
    (∀ f ∈ st.store ++ [st.temp], OffLoop 0.6 f ∧ gaussians f ≠ []) ∧
    RealSearch eig sortTree 0.6 free env st.store st.temp := by
  obtain ⟨eig, he⟩ := NDT.exists_eig
  obtain ⟨p0, g, p1, st, h, -, -, -, -, -, -, -, -, ⟨f, hf, -, hcf, hgf, hfm⟩, htn, htm⟩ :=
    Whole.run_frame_at he 4 (by norm_num) (by norm_num) (P := Algo.NoLoops) (fun _ _ _ _ => rfl)
  have own := Whole.Own.of_noLoops he h
  obtain ⟨⟨b, inv⟩, -⟩ := h.inv he
  have hct : st.temp.grid.cellSize = 1 / 4 := by rw [inv.frames.tempC, h.cell he]
  have hall : ∀ x ∈ st.store ++ [st.temp], OffLoop 0.6 x ∧ gaussians x ≠ [] := by
    intro x hx
    rw [hf] at hx
    rcases List.mem_cons.1 hx with rfl | hx
    · exact ⟨off_loop hcf hfm, hgf⟩
    · rw [List.mem_singleton.1 hx]
      exact ⟨off_loop hct htm, htn⟩
  obtain ⟨m, hm⟩ := configured_exists (limit := 0.6) (by norm_num) (by norm_num)
  obtain ⟨sch, hp⟩ := crossing_plausible hm
  obtain ⟨mt, hr⟩ := C173_defined_partial he own (by norm_num) le_rfl (fun x hx => (hall x hx).1) htn sortTree_ok.1
    (fun _ _ => ⟨(crossing sch).sort, (crossing sch).schedule, fun _ _ _ => none, ⟨false, 1, 1, 1⟩⟩) (fun m' hm' _ _ => ⟨hp.sort, by
      have := hp.schedule
      rw [(configured hm).2.2.2.1] at this
      rw [(configured hm').2.2.2.1]
      exact this⟩) (Whole.exSearch false)
  exact ⟨eig, he, _, st, _, _, own, by rw [hf]; rfl, hall, hr⟩

end Verif.Match
