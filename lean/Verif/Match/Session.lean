import Verif.Match.Props
import Verif.Launch.Props

/-
The loop matcher in the launched program.
-/
namespace Verif.Match

open Verif Verif.Geo Verif.World

variable {m : Matcher} {s : Scene} {limit : ℝ} {eig : NDT.Eig} {rnd : ℝ → ℝ} {srv : Launch.Server}

/-- Means of the Gaussian cells of a frame (`getMeans`, ndt_grid2d.h:278-281), as points of the plane. -/
def points (f : Map) : List Pt := f.means.map NDTGrid.head

/-- The loop matches of the detector between the frames `store` and the newest frame are those of the loop matcher with
the threshold `limit`. -/
def Described (limit : ℝ) (env : Loop.Env) (store : List Map) (newest : Map) : Prop :=
  ∃ m, Configured limit m ∧ ∀ (k i : ℕ) (src : Map), store[i]? = some src →
    ∃ s, Plausible m s ∧ s.source = points src ∧ s.target = points newest ∧ s.cell = newest.grid.cellSize ∧
      ∀ guess, IsRigid guess → ∃ junk, matchFrames m s junk guess = some (.ok (env.matcher k i store.length guess))

/-- The relative pose joins the frames: at least the share `limit` of the number of means of `tgt` is the number of means
of `src` which, moved by it, are within half a metre (in each direction) of a mean of `tgt`; and it is shorter than 9.66 m. -/
def Joins (limit : ℝ) (src tgt : Map) (p : Pose) : Prop :=
  limit * (points tgt).length ≤ overlap (1 / 2) (points src) (points tgt) (getTransFromPose p) ∧
    Real.sqrt (p.x ^ 2 + p.y ^ 2) < 9.66

/-! ### Such matches exist -/

/-- The report of a finished alignment. -/
noncomputable def reportOf : Run Newton.Report → Newton.Report
  | some (.ok r) => r
  | _ => ⟨false, 1, 1, 1⟩

/-- The transform of a finished search. -/
noncomputable def foundOf : Run (Pose × Trans) → Trans
  | some (.ok r) => r.2
  | _ => 1

/-- The score; NaN behaves like 0.7 for thresholds up to this value. -/
noncomputable def scoreOf : Res (Option ℝ) → ℝ
  | .ok (some x) => x
  | _ => 0.7

theorem scoreOf_above (sc : Option ℝ) : above sc 0.7 ↔ scoreOf (.ok sc) > 0.7 := by
  rcases sc with _ | x <;> simp [above, scoreOf]

theorem scoreOf_below (sc : Option ℝ) (hl : limit ≤ 0.7) : below sc limit ↔ scoreOf (.ok sc) < limit := by
  rcases sc with _ | x <;> simp [below, scoreOf, hl]

theorem scoreOf_above' {sc : Option ℝ} (h : sc ≠ none) (b : ℝ) : above sc b ↔ scoreOf (.ok sc) > b := by
  rcases sc with _ | x
  · exact absurd rfl h
  · simp [above, scoreOf]

/-- Whether the score is NaN does not depend on the transform. -/
theorem proof_nan (hp : Plausible m s) {t t' : Trans} {sc sc' : Option ℝ}
    (h : proofTransform (m.setInputTarget s) s t = .ok sc) (h' : proofTransform (m.setInputTarget s) s t' = .ok sc') :
    sc = none ↔ sc' = none := by
  obtain ⟨table, f, e, hb⟩ := Corr.built_of_sharp hp.pos hp.sharp s.target
  choose v hv hv0 using hb.ptScore hp.pos
  have key : ∀ {t : Trans} {sc : Option ℝ}, proofTransform (m.setInputTarget s) s t = .ok sc →
      (sc = none ↔ s.source ≠ [] ∧ s.target = []) := by
    intro t sc h
    unfold proofTransform at h
    rw [show (m.setInputTarget s).cell = s.cell from rfl, e, Res.bind_ok] at h
    unfold Corr.Table.getScore at h
    rw [Corr.accumulate (v := v) _ 0 fun a _ => hv a, Res.map_ok] at h
    have h := Res.ok.inj h
    unfold Corr.Table.ratio at h
    rw [hb.targets] at h
    split_ifs at h with h1 h2
    · subst h; simp_all
    · subst h; simp_all
    · subst h; simp_all
  rw [key h, key h']

/-- The registrations of the scene, as the launched program uses them. -/
noncomputable def matching (m : Matcher) (s : Scene) : Launch.Matching where
  env :=
    { d2d := fun g =>
        let r := reportOf (d2dAlign (m.setInputTarget s) s s.report (convertToTransform g))
        ⟨r.converged, convertFromTransform r.final, g⟩
      corr := fun g =>
        let t := foundOf (Corr.computeTransformation (m.setInputTarget s).corr s.sort s.schedule s.source s.target
          (convertToTransform g))
        ⟨true, convertFromTransform t, g⟩
      proof := fun g => scoreOf (proofTransform (m.setInputTarget s) s (convertToTransform g))
      one := 1 }
  junk := 1

/-- The outcome of the direct match does not depend on what the matcher did before. -/
theorem d2d_fresh (r r' : Newton.Report) (guess : Trans) {a b : Newton.Report}
    (ha : d2dAlign (m.setInputTarget s) s r guess = some (.ok a))
    (hb : d2dAlign (m.setInputTarget s) s r' guess = some (.ok b)) : a.converged = b.converged ∧ a.final = b.final := by
  unfold d2dAlign Newton.d2dTransformation at ha hb
  generalize layersOf (m.setInputTarget s) s = l at ha hb
  cases l with
  | nil =>
    simp only [Newton.computeLayers, Option.map_some] at ha hb
    cases ha
    cases hb
    exact ⟨rfl, rfl⟩
  | cons env l =>
    simp only [Newton.computeLayers] at ha hb
    rcases h : Newton.d2dLoop (m.setInputTarget s).newton env (Newton.matToVec guess) 0 with _ | _ | ⟨x, k, sc⟩
    · rw [h] at ha hb
      simp only [Option.map_some] at ha hb
      cases ha
      cases hb
      exact ⟨rfl, rfl⟩
    · rw [h] at ha
      cases ha
    · rw [h] at ha hb
      simp only at ha hb
      rw [ha] at hb
      cases hb
      exact ⟨rfl, rfl⟩

/-- For thresholds up to 0.7 the launched program, with these registrations, matches as the model of the whole matcher
does. -/
theorem matching_describes (h : Configured limit m) (hp : Plausible m s) (hl : limit ≤ 0.7) {guess : Trans}
    (hg : IsRigid guess) (junk : Trans) :
    matchFrames m s junk guess = some (.ok (Launch.matchLoop limit (matching m s) guess)) := by
  have rt : ∀ {t : Trans}, IsRigid t → convertToTransform (convertFromTransform t) = t := fun ht =>
    C44_round_trips.2.2.2.2.2.2.2.1 _ ht
  obtain ⟨hm, -⟩ := configured h
  have hm' : (m.setInputTarget s).limit = limit := hm
  obtain ⟨first, e1, r1, -⟩ := d2d_ok h s s.report hg
  obtain ⟨score, e2⟩ := proof_ok hp first.final
  obtain ⟨best, e3, -⟩ := corr_ok h hp guess
  have rb : IsRigid (Corr.vecToMat best) := getTransFromPose_rigid _
  obtain ⟨second, e4, r4, -⟩ := d2d_ok h s first rb
  obtain ⟨second', e4', -⟩ := d2d_ok h s s.report rb
  obtain ⟨c4, f4⟩ := d2d_fresh _ _ _ e4 e4'
  obtain ⟨score2, e5⟩ := proof_ok hp second.final
  have n12 := proof_nan hp e2 e5
  unfold matchFrames computeTransformation Launch.matchLoop Robust.scanMatch Robust.computeTransformation
  rw [rt hg, e1, Run.bind_ok, e2, Run.bind_ok]
  simp only [matching, rt hg, e1, reportOf, rt r1, e2, scoreOf_above]
  by_cases h1 : first.converged = true ∧ scoreOf (.ok score) > 0.7
  · rw [if_neg (not_not.2 h1), if_neg (not_not.2 h1)]
    unfold verify Robust.verify
    simp only [rt r1, e2, Run.bind_ok, hm', scoreOf_below _ hl]
    have hlt : ¬ scoreOf (.ok score) < limit := by linarith [h1.2]
    rw [if_neg hlt, if_neg hlt]
    simp
  · rw [if_pos h1, if_pos h1, e3, Run.bind_ok, e4, Run.bind_ok]
    simp only [foundOf, rt rb, e4', Bool.true_eq_false, if_false, ← c4, ← f4]
    by_cases h2 : second.converged = false
    · rw [if_pos h2, if_pos h2]
      simp [Run.bind_ok]
    · rw [if_neg h2, if_neg h2]
      unfold verify Robust.verify
      simp only [rt r4, e5, Run.bind_ok, hm', scoreOf_below _ hl]
      by_cases h3 : scoreOf (.ok score2) < limit
      · have hn : score ≠ none := by
          rw [ne_eq, n12]
          rintro rfl
          simp only [scoreOf] at h3
          linarith
        rw [if_pos h3, if_pos h3]
        simp only [scoreOf_above' hn]
        by_cases h4 : scoreOf (.ok score) > 0.6
        · rw [if_pos h4, if_pos h4]
          simp
        · rw [if_neg h4, if_neg h4]
          simp
      · rw [if_neg h3, if_neg h3]
        simp

/-- For every pair of frames with cells of 0.25 m there are such matches. -/
theorem described_exists (h0 : 0 < limit) (hl : limit ≤ 0.7) (store : List Map) (newest : Map)
    (hc : newest.grid.cellSize = 1 / 4) (layer : ℕ → ℕ → ℝ → Newton.FittingParams → Newton.Env) :
    ∃ mt : ℕ → ℕ → ℕ → Launch.Matching, ∀ env : Loop.Env,
      env.matcher = (fun k i j g => Launch.matchLoop limit (mt k i j) g) → Described limit env store newest := by
  obtain ⟨m, hm⟩ := configured_exists h0 (hl.trans_lt (by norm_num))
  obtain ⟨-, -, -, hcorr, -⟩ := configured hm
  obtain ⟨n, hn⟩ := Corr.rotationCount_exists m.corr (by rw [hcorr]; norm_num)
  refine ⟨fun k i _ => matching m ⟨((store[i]?).map points).getD [], points newest, newest.grid.cellSize, layer k i,
    Corr.sortVoxels, [List.range n], ⟨false, 1, 1, 1⟩⟩, fun env he => ⟨m, hm, fun k i src hsrc => ?_⟩⟩
  have hp : Plausible m ⟨((store[i]?).map points).getD [], points newest, newest.grid.cellSize, layer k i,
      Corr.sortVoxels, [List.range n], ⟨false, 1, 1, 1⟩⟩ := by
    refine ⟨by rw [hc]; norm_num, by rw [hc]; norm_num, Corr.isSort_sortVoxels, n, hn, ?_⟩
    simp [Corr.ValidSchedule]
  refine ⟨_, hp, by simp [hsrc], rfl, rfl, fun guess hg => ⟨1, ?_⟩⟩
  rw [he]
  exact matching_describes hm hp hl hg 1

/-! ### C134 -/

theorem turnOnly_rigid (p q : Pose) : IsRigid (Loop.turnOnly p q) := getTransFromPose_rigid ⟨0, 0, q.th - p.th⟩

/-- **C134**: with a threshold up to 0.6, the constraints an update adds are the odometry constraint of the finished
frame and loop constraints which join it to an older frame.
Missing: larger thresholds (C131); the share of the means of the older frame (C132); the strict reading of the standard
(`C129_false`). -/
theorem C134_joins_partial (he : NDT.EigOk eig) {d : Whole.Outer} {log : List Whole.Entry} {st st' : Whole.State}
    {out : Algo.Event × Pose} (h : Whole.Own .tolerant eig log st) (adm : Whole.AdmissibleOwn st d)
    (hu : Whole.updateOwn .tolerant eig d st = .ok (out, st')) (hl : limit ≤ 0.6)
    (hd : Described limit d.env st.store st.temp) :
    Whole.bookOf st' = Whole.bookOf st ∨
    ∃ cs, (Whole.bookOf st').cons = (Whole.grown st).cons ++ cs ∧
      ∀ c ∈ cs, c.2.2.2 = .loop ∧ c.1 = st.store.length ∧
        ∃ src, st.store[c.2.1]? = some src ∧ Joins limit src st.temp c.2.2.1 := by
  obtain ⟨i1, -⟩ := h.inv he
  obtain ⟨⟨b, inv⟩, -⟩ := i1.inv he
  have hcell : st.temp.grid.cellSize = 1 / 4 := by rw [inv.frames.tempC, i1.cell he]
  have hlen : (Whole.grown st).poses.length - 1 = st.store.length := by
    rw [inv.frames.len, Whole.grown_eq inv.full.alg.engine]
    simp [Whole.insertedBook]
  obtain ⟨m, hm, hd⟩ := hd
  rcases Whole.C129_search_partial he h adm hu with ⟨-, e⟩ | ⟨-, e, -⟩
  · exact .inl e
  refine .inr ⟨_, e, ?_⟩
  intro c hc
  unfold Whole.loopConstraints at hc
  obtain ⟨x, hx, rfl⟩ := List.mem_map.1 hc
  unfold Loop.closures at hx
  obtain ⟨⟨i, k⟩, hi, hx⟩ := List.mem_filterMap.1 hx
  have him : i ∈ Loop.tried d.env (Whole.grown st) := by
    have := List.mem_map_of_mem (f := Prod.fst) hi
    rwa [List.zipIdx_map_fst] at this
  unfold Loop.tried at him
  have him := List.mem_of_mem_take him
  obtain ⟨hr, hcand⟩ := List.mem_filter.1 him
  have hlt := List.mem_range.1 (List.mem_reverse.1 hr)
  obtain ⟨p, q, hp, hq, -⟩ := (@of_decide_eq_true _ (_) hcand : Loop.Candidate _ _ _)
  simp only at hx
  unfold Loop.answer at hx
  rw [hp, hq] at hx
  simp only [Option.bind_some] at hx
  split_ifs at hx with hsucc
  cases hx
  rw [hlen] at hlt hsucc ⊢
  refine ⟨rfl, rfl, st.store[i], List.getElem?_eq_getElem hlt, ?_⟩
  obtain ⟨s, pl, e1, e2, e3, hs⟩ := hd k i _ (List.getElem?_eq_getElem hlt)
  have hg := turnOnly_rigid p.1 q.1
  obtain ⟨junk, hj⟩ := hs _ hg
  have hr : IsRigid (d.env.matcher k i st.store.length (Loop.turnOnly p.1 q.1)).trans := by
    obtain ⟨r, h1, h2⟩ := (C131_ends_partial hm pl hg).2 (hl.trans (by norm_num))
    rw [h2 junk] at hj
    rw [← Res.ok.inj (Option.some.inj hj)]
    exact h1
  have o := (C132_overlap_partial hm pl hl (by rw [e3, hcell]; norm_num) hg hj hsucc).2.1
  have w := ((C133_reach hm pl (hl.trans (by norm_num)) hg hj).2 rfl rfl).1
  generalize (d.env.matcher k i st.store.length (Loop.turnOnly p.1 q.1)).trans = t at hr o w
  constructor
  · simp only
    rw [C44_round_trips.2.2.1 _ hr, ← e1, ← e2]
    rw [e3, hcell] at o
    norm_num at o ⊢
    exact o
  · exact w

/-- The hypotheses are met: an update that finishes the second frame, with the loop matcher described here (and any
score functions). -/
example (layer : ℕ → ℕ → ℝ → Newton.FittingParams → Newton.Env) : ∃ eig, NDT.EigOk eig ∧ ∃ log st d out st',
    Whole.Own .tolerant eig log st ∧ Whole.AdmissibleOwn st d ∧ Whole.updateOwn .tolerant eig d st = .ok (out, st') ∧
    Described 0.6 d.env st.store st.temp ∧ st.store.length = 1 ∧ st'.store.length = 2 := by
  obtain ⟨eig, he⟩ := NDT.exists_eig
  obtain ⟨log, st, own, hf, -, -, -, hx⟩ := Whole.frame_run he
  obtain ⟨i1, -⟩ := own.inv he
  obtain ⟨⟨b, inv⟩, -⟩ := i1.inv he
  obtain ⟨mt, hmt⟩ := described_exists (limit := 0.6) (by norm_num) (by norm_num) st.store st.temp
    (by rw [inv.frames.tempC, i1.cell he]) layer
  obtain ⟨d, out, st', hd, adm, hu, hlen⟩ := hx ⟨0, 10, fun _ _ => 0, fun k i j g => Launch.matchLoop 0.6 (mt k i j) g, 0, 0⟩
  exact ⟨eig, he, log, st, d, out, st', own, adm, hu, hmt _ (by rw [hd]), hf, hlen⟩

/-- The same for the launched program and the threshold given to it. -/
theorem C134_launched_partial (he : NDT.EigOk eig) {P : Launch.Step → Prop} {log : List Whole.Entry} {a a' : Launch.Alg}
    {d : Launch.Step} {out : Algo.Event × Pose} (h : Launch.Session .tolerant eig rnd srv P log a)
    (adm : Whole.AdmissibleOwn a.state (d.outer a)) (hu : Launch.update .tolerant eig d a = .ok (out, a'))
    (hl : Launch.number rnd srv "loop_score_threshold" 0.6 ≤ 0.6)
    (hd : Described (Launch.number rnd srv "loop_score_threshold" 0.6) (d.outer a).env a.state.store a.state.temp) :
    Whole.bookOf a'.state = Whole.bookOf a.state ∨
    ∃ cs, (Whole.bookOf a'.state).cons = (Whole.grown a.state).cons ++ cs ∧
      ∀ c ∈ cs, c.2.2.2 = .loop ∧ c.1 = a.state.store.length ∧ ∃ src, a.state.store[c.2.1]? = some src ∧
        Joins (Launch.number rnd srv "loop_score_threshold" 0.6) src a.state.temp c.2.2.1 :=
  C134_joins_partial he h.own.1 adm (Launch.update_settings hu).1 hl hd

end Verif.Match
