import Verif.Match.Lemmas
import Verif.Pose.Props
import Verif.Loop.Spec

/-
Properties of the loop matcher as a whole.
-/
namespace Verif.Match

open Verif Verif.Geo

variable {m : Matcher} {s : Scene} {limit : ℝ}

/-! ### A scene for the witnesses -/

/-- Five pairs of points that agree, 2.5 cm apart, in a target of seven, with ten source points far away. -/
noncomputable def crossing (schedule : List (List ℕ)) : Scene where
  source := (List.range 5).map (fun k : ℕ => ((k : ℝ) - 0.025, 0)) ++ (List.range 10).map fun k : ℕ => ((k : ℝ) + 100, 0)
  target := (-10, -10) :: (10, 10) :: (List.range 5).map fun k : ℕ => ((k : ℝ), 0)
  cell := 0.25
  layer := fun _ _ => Newton.bowl
  sort := Corr.sortVoxels
  schedule := schedule
  report := ⟨false, 1, 1, 1⟩

/-- The guess for it. -/
noncomputable def crossingGuess : Trans := getTransFromPose ⟨0.025, 0, 0⟩

theorem crossing_plausible (h : Configured limit m) : ∃ sch, Plausible m (crossing sch) := by
  obtain ⟨-, -, -, hc, -⟩ := configured h
  obtain ⟨n, hn⟩ := Corr.rotationCount_exists m.corr (by rw [hc]; norm_num)
  refine ⟨[List.range n], by norm_num [crossing], by norm_num [crossing], Corr.isSort_sortVoxels, n, hn, ?_⟩
  unfold Corr.ValidSchedule
  simp [crossing]

/-- A step across the top of the bowl. -/
theorem bowl_flip (cfg : Newton.Config) (he : cfg.eps = 0.1) {e : ℝ} (h : e = 1 ∨ e = -1) :
    Newton.newtonStep cfg Newton.bowl ![e * 0.025, 0, 0] =
      .next ![-e * 0.025, 0, 0] 0.05 (Newton.bowl.calcScore ![e * 0.025, 0, 0]) := by
  have ee : e * e = 1 := by rcases h with rfl | rfl <;> norm_num
  have e0 : |e| = 1 := by rcases h with rfl | rfl <;> norm_num
  have hnorm : Newton.norm (-![e * 0.025, 0, 0] : Newton.Vec) = 0.025 := by
    have := Newton.norm_smul (![1, 0, 0] : Newton.Vec) (-(e * 0.025))
    have h1 : Newton.norm (![1, 0, 0] : Newton.Vec) = 1 := by simp [Newton.norm, Newton.dot]
    have h2 : (-![e * 0.025, 0, 0] : Newton.Vec) = fun k => (![1, 0, 0] : Newton.Vec) k * -(e * 0.025) := by
      funext k; fin_cases k <;> simp
    rw [h2, this, h1, abs_neg, abs_mul, e0]
    norm_num
  have hn : Newton.norm (-![e * 0.025, 0, 0] : Newton.Vec) ≠ 0 := by rw [hnorm]; norm_num
  rw [Newton.newtonStep_eval (by rw [he]; norm_num) (Newton.bowl_solve _) hn]
  simp only [hnorm, he]
  have hdir : (fun k => (-![e * 0.025, 0, 0] : Newton.Vec) k / 0.025) = ![-e, 0, 0] := by
    funext k; fin_cases k <;> simp; ring
  have hg : (Newton.bowl.calcScore ![e * 0.025, 0, 0]).gradient = ![-(e * 0.025), 0, 0] := by
    show -(![e * 0.025, 0, 0] : Newton.Vec) = _
    funext k; fin_cases k <;> simp
  have hdot : Newton.dot (![-(e * 0.025), 0, 0] : Newton.Vec) ![-e, 0, 0] = 0.025 := by
    simp [Newton.dot]
    linear_combination 0.025 * ee
  have hlen : max (min (0.025 : ℝ) cfg.stepSize) (0.1 / 2) = 0.05 := by
    rw [max_eq_right ((min_le_left _ _).trans (by norm_num))]; norm_num
  rw [hdir, hg, hdot, if_neg (by norm_num), hlen]
  congr 1
  unfold Newton.ascent
  rw [hdot, if_neg (by norm_num)]
  funext k; fin_cases k <;> simp; ring

theorem matToVec_flip (x : ℝ) : Newton.matToVec (getTransFromPose ⟨x, 0, 0⟩) = ![x, 0, 0] := by
  unfold Newton.matToVec
  rw [pose_trans]
  simp [normalized, normalizeAngle, atan2]
  exact Complex.arg_one

theorem flip_loop (cfg : Newton.Config) (he : cfg.eps = 0.1) {e : ℝ} (h : e = 1 ∨ e = -1) :
    Newton.d2dLoop cfg Newton.bowl (Newton.matToVec (getTransFromPose ⟨e * 0.025, 0, 0⟩)) 0 =
      .ok ![-e * 0.025, 0, 0] 1 (Newton.bowl.calcScore ![e * 0.025, 0, 0]) := by
  rw [matToVec_flip]
  unfold Newton.d2dLoop
  rw [bowl_flip cfg he h]
  simp only
  rw [if_pos (Or.inr ⟨by norm_num, by rw [he]; norm_num [abs_of_pos]⟩)]

theorem vecToMat_flip (x : ℝ) : Newton.vecToMat ![x, 0, 0] = getTransFromPose ⟨x, 0, 0⟩ := by
  unfold Newton.vecToMat
  simp

/-- The direct match returns the guess. -/
theorem crossing_d2d (h : Configured limit m) (sch : List (List ℕ)) (r : Newton.Report) :
    ∃ r', d2dAlign (m.setInputTarget (crossing sch)) (crossing sch) r crossingGuess = some (.ok r') ∧
      r'.converged = true ∧ r'.final = crossingGuess := by
  obtain ⟨-, -, -, -, hn, h1, h2⟩ := configured h
  have hn' : (m.setInputTarget (crossing sch)).newton = ⟨0.1, 0.1, 10⟩ := hn
  have hL : layersOf (m.setInputTarget (crossing sch)) (crossing sch) =
      [Newton.bowl, Newton.bowl, Newton.bowl, Newton.bowl] := by
    have hl := layersOf_length h (crossing sch)
    have : layersOf (m.setInputTarget (crossing sch)) (crossing sch) = List.replicate 4 Newton.bowl := by
      apply List.eq_replicate_iff.2
      refine ⟨hl, ?_⟩
      intro b hb
      unfold layersOf at hb
      obtain ⟨l, -, e⟩ := List.mem_map.1 hb
      exact e.symm
    exact this
  unfold d2dAlign
  rw [hL, hn']
  have a := flip_loop ⟨0.1, 0.1, 10⟩ rfl (e := 1) (.inl rfl)
  have b := flip_loop ⟨0.1, 0.1, 10⟩ rfl (e := -1) (.inr rfl)
  rw [one_mul] at a
  rw [neg_neg, one_mul] at b
  unfold Newton.d2dTransformation crossingGuess
  simp only [Newton.computeLayers, a, vecToMat_flip, b]
  exact ⟨_, rfl, rfl, rfl⟩

theorem act_crossing (p : Pt) : act crossingGuess p = (p.1 + 0.025, p.2) := by
  unfold crossingGuess act getTransFromPose
  simp

theorem crossing_moved (sch : List (List ℕ)) : (crossing sch).source.map (act crossingGuess) =
    (List.range 5).map (fun k : ℕ => ((k : ℝ), 0)) ++ (List.range 10).map fun k : ℕ => ((k : ℝ) + 100.025, 0) := by
  unfold crossing
  simp only [List.map_append, List.map_map]
  congr 1
  · apply List.map_congr_left
    intro k _
    simp [act_crossing]
  · apply List.map_congr_left
    intro k _
    simp only [Function.comp, act_crossing]
    norm_num
    ring

/-- The score of the guess: five matching points of seven. -/
theorem crossing_score {sch : List (List ℕ)} (hp : Plausible m (crossing sch)) :
    proofTransform (m.setInputTarget (crossing sch)) (crossing sch) crossingGuess = .ok (some (5 / 7)) := by
  classical
  obtain ⟨table, f, e, hb⟩ := Corr.built_of_sharp hp.pos hp.sharp (crossing sch).target
  obtain ⟨table', e', -, h1, h2, -⟩ := Corr.C63_table_partial (crossing sch).target hp.pos hp.sharp
  rw [e] at e'
  cases e'
  unfold proofTransform
  rw [show (m.setInputTarget (crossing sch)).cell = (crossing sch).cell from rfl, e, Res.bind_ok, crossing_moved]
  unfold Corr.Table.getScore
  rw [Corr.accumulate (v := fun p : Pt => if p.1 < 50 then 100 else 0) _ 0, Res.map_ok]
  · unfold Corr.Table.ratio
    have ht : table.targets = 7 := by rw [hb.targets]; simp [crossing]
    rw [if_neg (by simp), if_neg (by rw [ht]; norm_num), ht]
    congr 2
    simp [List.range_succ, Corr.OCCUPIED]
    norm_num
  · intro p hp'
    rcases List.mem_append.1 hp' with hp' | hp'
    · obtain ⟨k, hk, rfl⟩ := List.mem_map.1 hp'
      have hk : (k : ℝ) < 5 := by exact_mod_cast List.mem_range.1 hk
      have hk0 : (0 : ℝ) ≤ k := Nat.cast_nonneg k
      simp only
      rw [if_pos (by linarith)]
      refine h1 _ (by simpa [crossing] using hp') ⟨⟨(-10, -10), by simp [crossing], ?_⟩, ⟨(10, 10), by simp [crossing], ?_⟩,
        ⟨(-10, -10), by simp [crossing], ?_⟩, ⟨(10, 10), by simp [crossing], ?_⟩⟩ <;> simp only <;> linarith
    · obtain ⟨k, hk, rfl⟩ := List.mem_map.1 hp'
      have hk0 : (0 : ℝ) ≤ k := Nat.cast_nonneg k
      simp only
      rw [if_neg (by linarith)]
      apply h2
      rintro ⟨-, ⟨q, hq, hlt⟩, -⟩
      have : q.1 ≤ 10 := by
        simp only [crossing, List.mem_cons, List.mem_map, List.mem_range] at hq
        rcases hq with rfl | rfl | rfl | ⟨j, hj, rfl⟩
        · norm_num
        · norm_num
        · norm_num
        · have : (j : ℝ) < 5 := by exact_mod_cast hj
          simp only
          linarith
      simp only at hlt
      linarith

theorem crossing_rigid : IsRigid crossingGuess := getTransFromPose_rigid _

/-- What becomes of it. -/
theorem crossing_compute (h : Configured limit m) {sch : List (List ℕ)} (hp : Plausible m (crossing sch)) :
    computeTransformation (m.setInputTarget (crossing sch)) (crossing sch) crossingGuess = some (.ok
      (if limit ≤ 5 / 7 then ⟨true, some (5 / 7), some crossingGuess⟩ else ⟨true, some (5 / 7), none⟩)) := by
  obtain ⟨hl, -⟩ := configured h
  have hl' : (m.setInputTarget (crossing sch)).limit = limit := hl
  obtain ⟨r', e1, c1, f1⟩ := crossing_d2d h sch (crossing sch).report
  unfold computeTransformation
  rw [e1, Run.bind_ok, f1, crossing_score hp, Run.bind_ok, if_neg]
  · unfold verify
    rw [crossing_score hp, Run.bind_ok, hl']
    congr 2
    by_cases h1 : limit ≤ 5 / 7
    · rw [if_neg, if_pos h1]
      rintro ⟨x, hx, hx'⟩
      cases hx
      linarith
    · rw [if_pos ⟨_, rfl, not_le.1 h1⟩, if_pos ⟨_, rfl, by norm_num⟩, if_neg h1]
  · rw [not_not]
    exact ⟨c1, _, rfl, by norm_num⟩

/-! ### C131: a loop match ends with a transform -/

/-- Every match ends, without undefined behaviour or an exception, whatever the score functions, and with a rigid
transform.  Missing: for thresholds above 0.7 the transform can be one that was never written. -/
theorem C131_ends_partial (h : Configured limit m) (hp : Plausible m s) {guess : Trans} (hg : IsRigid guess) :
    (∀ junk, ∃ r, matchFrames m s junk guess = some (.ok r)) ∧
      (limit ≤ 0.7 → ∃ r, IsRigid r.trans ∧ ∀ junk, matchFrames m s junk guess = some (.ok r)) := by
  have hg' : convertToTransform (convertFromTransform guess) = guess := C44_round_trips.2.2.2.2.2.2.2.1 _ hg
  obtain ⟨r, e, ho⟩ := compute_ok h hp hg
  unfold matchFrames
  rw [hg', e]
  refine ⟨fun junk => ⟨_, rfl⟩, fun hl => ?_⟩
  obtain ⟨t, ht⟩ := Option.ne_none_iff_exists'.1 (ho.set hl)
  have hr := (ho.near t ht).1
  have hr' : convertToTransform (convertFromTransform t) = t := C44_round_trips.2.2.2.2.2.2.2.1 _ hr
  refine ⟨⟨r.converged, !![5000, 0, 0; 0, 5000, 0; 0, 0, 10000], t⟩, hr, fun junk => ?_⟩
  rw [Run.bind_ok, ht, Option.getD_some, hr']

example : ∃ m s, Configured 0.6 m ∧ Plausible m s ∧ IsRigid crossingGuess := by
  obtain ⟨m, hm⟩ := configured_exists (limit := 0.6) (by norm_num) (by norm_num)
  obtain ⟨sch, hp⟩ := crossing_plausible hm
  exact ⟨m, _, hm, hp, crossing_rigid⟩

/-- With the threshold 0.75 there is a match that is accepted with whatever the memory contained. -/
theorem C131_false : ∃ m s guess, Configured 0.75 m ∧ Plausible m s ∧ IsRigid guess ∧
    ∀ junk, ∃ r, matchFrames m s junk guess = some (.ok r) ∧ r.success = true ∧
      r.trans = convertToTransform (convertFromTransform junk) := by
  obtain ⟨m, hm⟩ := configured_exists (limit := 0.75) (by norm_num) (by norm_num)
  obtain ⟨sch, hp⟩ := crossing_plausible hm
  have hg' : convertToTransform (convertFromTransform crossingGuess) = crossingGuess :=
    C44_round_trips.2.2.2.2.2.2.2.1 _ crossing_rigid
  refine ⟨m, crossing sch, crossingGuess, hm, hp, crossing_rigid, fun junk => ?_⟩
  unfold matchFrames
  rw [hg', crossing_compute hm hp, if_neg (by norm_num), Run.bind_ok]
  exact ⟨_, rfl, rfl, rfl⟩

/-! ### C132: an accepted match overlaps -/

/-- Of the source points at least the share `limit` is within two cells of the target. -/
def Overlaps (limit : ℝ) (s : Scene) (t : Trans) : Prop :=
  limit * s.source.length ≤ overlap (2 * s.cell) s.source s.target t

/-- For thresholds up to 0.6 and cells up to one metre an accepted match has, near target points, at least the share
`limit` of the number of *target* points; points within one cell count 100 %, others within two cells 14 %.  So it
overlaps if the source has no more points than the target.  Missing: the share of the source points otherwise. -/
theorem C132_overlap_partial (h : Configured limit m) (hp : Plausible m s) (hl : limit ≤ 0.6) (hc : s.cell ≤ 1)
    {guess junk : Trans} (hg : IsRigid guess) {r : Loop.MatchResult} (hr : matchFrames m s junk guess = some (.ok r))
    (hs : r.success = true) :
    100 * limit * s.target.length ≤
        86 * overlap s.cell s.source s.target r.trans + 14 * overlap (2 * s.cell) s.source s.target r.trans ∧
      limit * s.target.length ≤ overlap (2 * s.cell) s.source s.target r.trans ∧
      (s.source.length ≤ s.target.length → Overlaps limit s r.trans) := by
  have hg' : convertToTransform (convertFromTransform guess) = guess := C44_round_trips.2.2.2.2.2.2.2.1 _ hg
  obtain ⟨-, l0, -⟩ := configured h
  obtain ⟨r0, e, ho⟩ := compute_ok h hp hg
  unfold matchFrames at hr
  rw [hg', e, Run.bind_ok] at hr
  have hr := Res.ok.inj (Option.some.inj hr)
  obtain ⟨t, ht⟩ := Option.ne_none_iff_exists'.1 (ho.set (hl.trans (by norm_num)))
  have hr' : convertToTransform (convertFromTransform t) = t := C44_round_trips.2.2.2.2.2.2.2.1 _ (ho.near t ht).1
  rw [ht, Option.getD_some, hr'] at hr
  subst hr
  simp only at hs ⊢
  obtain ⟨sc, e1, -, e2⟩ := ho.scored t hs hl ht
  have key : 100 * limit * s.target.length ≤
      86 * overlap s.cell s.source s.target t + 14 * overlap (2 * s.cell) s.source s.target t := by
    by_cases h0 : s.target = []
    · rw [h0, List.length_nil]
      push_cast
      rw [mul_zero]
      positivity
    · obtain ⟨x, rfl, hx⟩ := score_overlap hp hc h0 e1
      have := e2 x rfl
      refine le_trans ?_ hx
      have : (0 : ℝ) ≤ s.target.length := Nat.cast_nonneg _
      nlinarith
  have hm : (overlap s.cell s.source s.target t : ℝ) ≤ overlap (2 * s.cell) s.source s.target t := by
    exact_mod_cast overlap_mono (by linarith [hp.pos]) _ _ _
  have key2 : limit * s.target.length ≤ overlap (2 * s.cell) s.source s.target t := by linarith
  refine ⟨key, key2, fun hle => ?_⟩
  unfold Overlaps
  have : (s.source.length : ℝ) ≤ s.target.length := by exact_mod_cast hle
  nlinarith

open Classical in
theorem crossing_overlap (sch : List (List ℕ)) :
    overlap (2 * (crossing sch).cell) (crossing sch).source (crossing sch).target crossingGuess = 5 := by
  have hsrc : (crossing sch).source = (List.range 5).map (fun k : ℕ => (((k : ℝ) - 0.025, 0) : Pt)) ++
    (List.range 10).map fun k : ℕ => (((k : ℝ) + 100, 0) : Pt) := rfl
  unfold overlap
  rw [hsrc, List.filter_append, List.filter_eq_self.2, List.filter_eq_nil_iff.2]
  · simp
  · intro p hp
    obtain ⟨k, -, rfl⟩ := List.mem_map.1 hp
    simp only [decide_eq_true_eq]
    rintro ⟨q, hq, h1, -⟩
    rw [act_crossing] at h1
    have hk0 : (0 : ℝ) ≤ k := Nat.cast_nonneg k
    have : q.1 ≤ 10 := by
      simp only [crossing, List.mem_cons, List.mem_map, List.mem_range] at hq
      rcases hq with rfl | rfl | ⟨j, hj, rfl⟩
      · norm_num
      · norm_num
      · have : (j : ℝ) < 5 := by exact_mod_cast hj
        simp only
        linarith
    have := (abs_lt.1 h1).2
    norm_num [crossing] at this
    linarith
  · intro p hp
    obtain ⟨k, hk, rfl⟩ := List.mem_map.1 hp
    simp only [decide_eq_true_eq]
    refine ⟨((k : ℝ), 0), ?_, ?_, ?_⟩
    · simp only [crossing, List.mem_cons, List.mem_map]
      exact .inr (.inr ⟨k, hk, rfl⟩)
    · rw [act_crossing]
      norm_num [crossing]
    · rw [act_crossing]
      norm_num [crossing]

/-- The score is divided by the number of target points: with the threshold 0.6 a match is accepted although only five
of fifteen source points are near the target. -/
theorem C132_false : ∃ m s guess, Configured 0.6 m ∧ Plausible m s ∧ s.cell = 0.25 ∧ IsRigid guess ∧
    ∀ junk, ∃ r, matchFrames m s junk guess = some (.ok r) ∧ r.success = true ∧ s.source.length = 15 ∧
      overlap (2 * s.cell) s.source s.target r.trans = 5 ∧ ¬ Overlaps 0.6 s r.trans := by
  obtain ⟨m, hm⟩ := configured_exists (limit := 0.6) (by norm_num) (by norm_num)
  obtain ⟨sch, hp⟩ := crossing_plausible hm
  have hg' : convertToTransform (convertFromTransform crossingGuess) = crossingGuess :=
    C44_round_trips.2.2.2.2.2.2.2.1 _ crossing_rigid
  have ho : overlap (2 * (crossing sch).cell) (crossing sch).source (crossing sch).target crossingGuess = 5 := by
    exact crossing_overlap sch
  refine ⟨m, crossing sch, crossingGuess, hm, hp, rfl, crossing_rigid, fun junk => ?_⟩
  unfold matchFrames
  rw [hg', crossing_compute hm hp, if_pos (by norm_num), Run.bind_ok]
  simp only [Option.getD_some, hg']
  refine ⟨_, rfl, rfl, by simp [crossing], ho, ?_⟩
  unfold Overlaps
  simp only
  rw [ho]
  simp [crossing]
  norm_num

/-! ### C133: reach -/

theorem sqrt_triangle (a b x y : ℝ) : Real.sqrt (a ^ 2 + b ^ 2) ≤
    Real.sqrt (x ^ 2 + y ^ 2) + Real.sqrt ((a - x) ^ 2 + (b - y) ^ 2) := by
  have h (u v : ℝ) : Real.sqrt (u ^ 2 + v ^ 2) = ‖(⟨u, v⟩ : ℂ)‖ := by
    rw [Complex.norm_def, Complex.normSq_apply]
    congr 1
    ring
  rw [h, h, h]
  have : (⟨a, b⟩ : ℂ) = ⟨x, y⟩ + ⟨a - x, b - y⟩ := by apply Complex.ext <;> simp
  rw [this]
  exact norm_add_le _ _

/-- For thresholds up to 0.7 the translation of the result is at most 4 m longer than the one of the guess, or than
the longest of the search window (4 m by 4 m): for a guess without translation, as the loop detector uses, less than 9.66 m.
The result is therefore wrong by at least the rest if the frames are further apart. -/
theorem C133_reach (h : Configured limit m) (hp : Plausible m s) (hl : limit ≤ 0.7)
    {guess junk : Trans} (hg : IsRigid guess) {r : Loop.MatchResult} (hr : matchFrames m s junk guess = some (.ok r)) :
    shift r.trans ≤ max (shift guess) (4 * Real.sqrt 2) + 4 ∧
      (guess 0 2 = 0 → guess 1 2 = 0 → shift r.trans < 9.66 ∧ ∀ truth : Trans,
        shift truth - 9.66 < Real.sqrt ((truth 0 2 - r.trans 0 2) ^ 2 + (truth 1 2 - r.trans 1 2) ^ 2)) := by
  have hg' : convertToTransform (convertFromTransform guess) = guess := C44_round_trips.2.2.2.2.2.2.2.1 _ hg
  obtain ⟨r0, e, ho⟩ := compute_ok h hp hg
  unfold matchFrames at hr
  rw [hg', e, Run.bind_ok] at hr
  have hr := Res.ok.inj (Option.some.inj hr)
  obtain ⟨t, ht⟩ := Option.ne_none_iff_exists'.1 (ho.set hl)
  have hr' : convertToTransform (convertFromTransform t) = t := C44_round_trips.2.2.2.2.2.2.2.1 _ (ho.near t ht).1
  rw [ht, Option.getD_some, hr'] at hr
  subst hr
  simp only
  have key : shift t ≤ max (shift guess) (4 * Real.sqrt 2) + 4 := by
    obtain ⟨-, x, y, hxy, hd⟩ := ho.near t ht
    refine (sqrt_triangle _ _ x y).trans (add_le_add ?_ ?_)
    · rcases hxy with ⟨rfl, rfl⟩ | ⟨hx, hy⟩
      · exact le_max_left _ _
      · refine le_trans ?_ (le_max_right _ _)
        rw [show 4 * Real.sqrt 2 = Real.sqrt (4 ^ 2 * 2) by rw [Real.sqrt_mul (by norm_num), Real.sqrt_sq (by norm_num)]]
        apply Real.sqrt_le_sqrt
        have := sq_le_sq' (abs_le.1 hx).1 (abs_le.1 hx).2
        have := sq_le_sq' (abs_le.1 hy).1 (abs_le.1 hy).2
        linarith
    · rw [Real.sqrt_le_left (by norm_num)]
      linarith
  refine ⟨key, fun h0 h1 => ?_⟩
  have hs : shift t < 9.66 := by
    have h2 : Real.sqrt 2 < 1.415 := by
      rw [Real.sqrt_lt' (by norm_num)]
      norm_num
    have h3 : shift guess = 0 := by unfold shift; rw [h0, h1]; simp
    rw [h3, max_eq_right (by positivity)] at key
    linarith
  refine ⟨hs, fun truth => ?_⟩
  have := sqrt_triangle (truth 0 2) (truth 1 2) (t 0 2) (t 1 2)
  unfold shift at hs ⊢
  linarith

example : ∃ m s, Configured 0.7 m ∧ Plausible m s ∧ IsRigid (Loop.turnOnly ⟨0, 0, 1⟩ ⟨0, 0, 2⟩) ∧
    ∃ r, matchFrames m s 1 (Loop.turnOnly ⟨0, 0, 1⟩ ⟨0, 0, 2⟩) = some (.ok r) := by
  obtain ⟨m, hm⟩ := configured_exists (limit := 0.7) (by norm_num) (by norm_num)
  obtain ⟨sch, hp⟩ := crossing_plausible hm
  have hr : IsRigid (Loop.turnOnly ⟨0, 0, 1⟩ ⟨0, 0, 2⟩) := by
    have : Loop.turnOnly ⟨0, 0, 1⟩ ⟨0, 0, 2⟩ = getTransFromPose ⟨0, 0, 2 - 1⟩ := rfl
    rw [this]
    exact getTransFromPose_rigid _
  exact ⟨m, _, hm, hp, hr, (C131_ends_partial hm hp hr).1 1⟩

end Verif.Match
