import Verif.Launch.Spec
import Verif.Whole.DetectProps
import Verif.Whole.Window

/-
Properties of the launched program.
-/
namespace Verif.Launch

open Verif Verif.Geo Verif.World

variable {eig : NDT.Eig} {rnd : ℝ → ℝ} {srv : Server}

/-! ### Lemmas -/

theorem number_eq (name : String) (default : ℝ) : rnd ((srv.num name).getD default) = number rnd srv name default := by
  unfold number
  cases srv.num name <;> rfl

/-- The settings after a launch. -/
theorem launch_settings {n : Names} {a : Alg} (h : launch eig rnd srv = .ok (n, a)) :
    a = ⟨Whole.setDistance (Whole.setRadius (Whole.init eig) (number rnd srv "scanmatch_window_radius" 40))
          (number rnd srv "node_gen_distance" 2),
        number rnd srv "loop_min_distance" 14, number rnd srv "loop_max_distance" 30,
        number rnd srv "loop_score_threshold" 0.6⟩ ∧
    0 < number rnd srv "loop_score_threshold" 0.6 ∧ number rnd srv "loop_score_threshold" 0.6 < 1 := by
  unfold launch initParameters at h
  simp only [number_eq] at h
  unfold setLoopClosureScoreThreshold Robust.setRejectionLimit at h
  by_cases h1 : number rnd srv "loop_score_threshold" 0.6 < 1 ∧ number rnd srv "loop_score_threshold" 0.6 > 0
  · rw [if_pos h1] at h
    have h := congrArg Prod.snd (Res.ok.inj h)
    refine ⟨?_, h1.2, h1.1⟩
    rw [show a = _ from h.symm]
    split_ifs <;> rfl
  · rw [if_neg h1] at h
    cases h

/-- The settings do not change. -/
theorem update_settings {o : Loop.Overread} {d : Step} {a a' : Alg} {out : Algo.Event × Pose}
    (h : update o eig d a = .ok (out, a')) : Whole.updateOwn o eig (d.outer a) a.state = .ok (out, a'.state) ∧
      a'.loopMin = a.loopMin ∧ a'.loopMax = a.loopMax ∧ a'.limit = a.limit := by
  unfold update at h
  rcases hu : Whole.updateOwn o eig (d.outer a) a.state with ⟨out', s'⟩ | e | u
  · rw [hu] at h
    have h' := Res.ok.inj h
    have e1 := congrArg Prod.fst h'
    have e2 := congrArg Prod.snd h'
    simp only at e1 e2
    subst e1
    rw [← e2]
    exact ⟨rfl, rfl, rfl, rfl⟩
  · rw [hu] at h; cases h
  · rw [hu] at h; cases h

/-- A session is a run of the algorithm with its own loop detector; the settings are those of the launch. -/
theorem Session.own {o : Loop.Overread} {P : Step → Prop} {log : List Whole.Entry} {a : Alg} (h : Session o eig rnd srv P log a) :
    Whole.Own o eig log a.state ∧ a.loopMin = number rnd srv "loop_min_distance" 14 ∧
      a.loopMax = number rnd srv "loop_max_distance" 30 ∧ a.limit = number rnd srv "loop_score_threshold" 0.6 := by
  induction h with
  | start h =>
    obtain ⟨rfl, -⟩ := launch_settings h
    exact ⟨(Whole.Own.init.setRadius _).setDistance _, rfl, rfl, rfl⟩
  | step h hp adm hu ih =>
    obtain ⟨h1, h2, h3, h4⟩ := ih
    obtain ⟨u1, u2, u3, u4⟩ := update_settings hu
    exact ⟨.update h1 adm u1, u2.trans h2, u3.trans h3, u4.trans h4⟩

theorem Session.distance (he : NDT.EigOk eig) {P : Step → Prop} {log : List Whole.Entry} {a : Alg}
    (h : Session .tolerant eig rnd srv P log a) : a.state.alg.maxTraveled = number rnd srv "node_gen_distance" 2 := by
  induction h with
  | start h =>
    obtain ⟨rfl, -⟩ := launch_settings h
    rfl
  | step h hp adm hu ih =>
    obtain ⟨h1, h2⟩ := h.own.1.inv he
    obtain ⟨u1, -⟩ := update_settings hu
    obtain ⟨adm', hu', -⟩ := Whole.own_step he h1 h2 adm u1
    obtain ⟨⟨b, inv⟩, -⟩ := h1.inv he
    obtain ⟨ha, -⟩ := Whole.update_spec he inv.full adm'.alg (inv.window.winB.inv he) inv.window.winO inv.window.winC hu'
    obtain ⟨e, p, a', b', hu2, -, -, -, -, -, hm, -⟩ := Algo.update_step inv.full adm'.alg
    rw [ha] at hu2
    have e3 := congrArg Prod.snd (Res.ok.inj hu2)
    simp only at e3
    rw [e3, hm, ih]

/-- A session that has seen a scan, as a launch, a first update and further updates. -/
theorem Session.runs (he : NDT.EigOk eig) {T : ℝ} {log : List Whole.Entry} {a : Alg}
    (h : Session .tolerant eig rnd srv (fun d => ∀ r, d.matcher = some r → |r 0 3| ≤ T ∧ |r 1 3| ≤ T) log a) (hl : log ≠ []) :
    ∃ n a0 inp o s1 log1, launch eig rnd srv = .ok (n, a0) ∧ Whole.NearWindow T inp.alg ∧ Whole.Admissible a0.state inp ∧
      Whole.update eig inp a0.state = .ok (o, s1) ∧ Whole.Runs eig (Whole.NearWindow T) s1 log1 a.state ∧
      log = ⟨o.1, o.2, inp.scan⟩ :: log1 := by
  induction h with
  | start h => exact absurd rfl hl
  | @step log a d out a' h hp adm hu ih =>
    obtain ⟨h1, h2⟩ := h.own.1.inv he
    obtain ⟨u1, -⟩ := update_settings hu
    obtain ⟨adm', hu', -⟩ := Whole.own_step he h1 h2 adm u1
    by_cases hn : log = []
    · subst hn
      obtain ⟨n, h⟩ : ∃ n, launch eig rnd srv = .ok (n, a) := by
        generalize hl : ([] : List Whole.Entry) = l at h
        cases h with
        | start h => exact ⟨_, h⟩
        | step => exact absurd hl.symm (by simp)
      exact ⟨n, a, _, out, a'.state, [], h, show Whole.NearWindow T ((d.outer a).withLoops _).alg from hp, adm', hu', .refl, rfl⟩
    · obtain ⟨n, a0, inp, o, s1, log1, q1, q2, q3, q4, q5, q6⟩ := ih hn
      exact ⟨n, a0, inp, o, s1, _, q1, q2, q3, q4, .update q5 (show Whole.NearWindow T ((d.outer a).withLoops _).alg from hp) adm' hu', by rw [q6]; rfl⟩

/-- A match that succeeds with a limit up to 0.6 has found a transform with a score that reaches the limit. -/
theorem matchLoop_scored {limit : ℝ} (hl : limit ≤ 0.6) {m : Matching} {guess : Trans}
    (h : (matchLoop limit m guess).success = true) : Scored limit m guess (matchLoop limit m guess).trans := by
  unfold matchLoop Robust.scanMatch at h ⊢
  simp only at h ⊢
  obtain ⟨t, h1, h2, h3, h4⟩ :=
    (Robust.C57_justified_partial m.env (by linarith : limit ≤ 0.7) (convertFromTransform guess)).1 h
  refine ⟨t, h2, by rw [h1]; rfl, ?_⟩
  rcases h4 with h4 | ⟨-, h4⟩
  · exact h4
  · linarith

/-! ### C130 -/

/-- **C130**: exactly when the score threshold lies strictly between 0 and 1 the program starts; otherwise it ends with
an exception.  No other value is checked. -/
theorem C130_starts (eig : NDT.Eig) (rnd : ℝ → ℝ) (srv : Server) :
    (0 < number rnd srv "loop_score_threshold" 0.6 ∧ number rnd srv "loop_score_threshold" 0.6 < 1 →
      ∃ n a, launch eig rnd srv = .ok (n, a)) ∧
    (¬ (0 < number rnd srv "loop_score_threshold" 0.6 ∧ number rnd srv "loop_score_threshold" 0.6 < 1) →
      launch eig rnd srv = .throw .invalidArgument) := by
  unfold launch initParameters
  simp only [number_eq]
  unfold setLoopClosureScoreThreshold Robust.setRejectionLimit
  constructor
  · intro h
    rw [if_pos ⟨h.2, h.1⟩]
    exact ⟨_, _, rfl⟩
  · intro h
    rw [if_neg fun h' => h ⟨h'.2, h'.1⟩]
    rfl

/-- **C130**: the names of the frames, and the topics and the callback that are used. -/
theorem C130_names {n : Names} {a : Alg} (h : launch eig rnd srv = .ok (n, a)) :
    n.base = frameName srv "robot_base_frame_id" "base_link" ∧ n.odom = frameName srv "odom_farme_id" "odom" ∧
    n.fixed = frameName srv "map_farme_id" "map" ∧ (n.serialize = false ↔ srv.flag "serialize_graph" = some false) ∧
    (srv.str "subscribe_mode" = some "ODOM" → subscribe n = (["/scan", "odom"], .odom)) ∧
    (srv.str "subscribe_mode" = some "POSE" → subscribe n = (["/scan", "pose"], .pose)) ∧
    (srv.str "subscribe_mode" ≠ some "ODOM" → srv.str "subscribe_mode" ≠ some "POSE" →
      subscribe n = (["/scan"], .laser)) := by
  unfold launch initParameters at h
  simp only [number_eq] at h
  unfold setLoopClosureScoreThreshold Robust.setRejectionLimit at h
  have key : ∀ name default : String, frameName srv name default =
      if srv.tfPrefix.getD "" ≠ "" then srv.tfPrefix.getD "" ++ "/" ++ (srv.str name).getD default
      else (srv.str name).getD default := by
    intro name default
    unfold frameName
    rcases srv.tfPrefix with _ | p
    · cases srv.str name <;> rfl
    · simp only [Option.getD_some]
      by_cases hp : p = ""
      · subst hp
        cases srv.str name <;> rfl
      · rw [if_pos hp]
        split
        · cases ‹some p = none›
        · exact absurd (Option.some.inj ‹some p = some ""›) hp
        · rw [Option.some.inj ‹some p = some _›]
          cases srv.str name <;> rfl
  rw [key, key, key]
  unfold subscribe
  have h1 : number rnd srv "loop_score_threshold" 0.6 < 1 ∧ number rnd srv "loop_score_threshold" 0.6 > 0 := by
    by_contra h1
    rw [if_neg h1] at h
    cases h
  rw [if_pos h1] at h
  have h := congrArg Prod.fst (Res.ok.inj h)
  have h' : n = _ := h.symm
  clear h
  by_cases h2 : srv.tfPrefix.getD "" = ""
  all_goals
    simp only [h2, ne_eq, not_true_eq_false, not_false_eq_true, if_true, if_false] at h' ⊢
    rw [h']
    refine ⟨rfl, rfl, rfl, ?_, ?_, ?_, ?_⟩
    · cases srv.flag "serialize_graph" <;> simp
    · intro hm; rw [hm]; rfl
    · intro hm; rw [hm]; rfl
    · intro m1 m2
      cases hm : srv.str "subscribe_mode" with
      | none => rfl
      | some m =>
        rw [hm] at m1 m2
        simp only [Option.getD_some]
        rw [if_neg fun h => m1 (by rw [h]), if_neg fun h => m2 (by rw [h])]

/-- **C130**, the window: after any number of updates the running window covers everything within the given radius of
its origin, and (if the sensor has range `R` and the matcher finds the robot at most `T` from the origin of the window)
nothing farther away than one cell beyond the radius or `R + T`.
Missing: the strict reading of the standard (`C129_false`). -/
theorem C130_window_partial (he : NDT.EigOk eig) {R T : ℝ} (hR : 0 ≤ R) (hT : 0 ≤ T) {log : List Whole.Entry} {a : Alg}
    (h : Session .tolerant eig rnd srv (fun d => ∀ r, d.matcher = some r → |r 0 3| ≤ T ∧ |r 1 3| ≤ T) log a)
    (hl : log ≠ []) (hs : ∀ e ∈ log, Whole.InRange R e.scan) :
    let r := number rnd srv "scanmatch_window_radius" 40
    (∀ p : ℝ × ℝ, |p.1| < r → |p.2| < r → Covers a.state.window p) ∧
    (∀ p : ℝ × ℝ, Covers a.state.window p → |p.1| ≤ max r (R + T) + 1 / 4 ∧ |p.2| ≤ max r (R + T) + 1 / 4) := by
  obtain ⟨n, a0, inp, o, s1, log1, q1, q2, q3, q4, q5, q6⟩ := h.runs he hl
  obtain ⟨e, -⟩ := launch_settings q1
  have h0 : Whole.Reach eig (Whole.NearWindow T) [] a0.state := by
    rw [e]
    exact (Whole.Reach.init.setRadius _).setDistance _
  have hr : a0.state.radius = number rnd srv "scanmatch_window_radius" 40 := by rw [e]; rfl
  subst q6
  have q := Whole.C127_size_partial he hR hT (fun _ h => h) h0 q2 q3 q4 q5 (hs _ (List.mem_cons_self ..))
    (fun e he => hs e (List.mem_cons_of_mem _ he))
  rw [hr] at q
  exact ⟨q.1, q.2.1⟩

/-- **C130**, the frames: after every update that used its scan, the robot is at most the given distance away from the
origin of the active frame.
Missing: the strict reading of the standard (`C129_false`). -/
theorem C130_frames_partial (he : NDT.EigOk eig) {P : Step → Prop} {log : List Whole.Entry} {a a' : Alg} {d : Step}
    {e : Algo.Event} {p : Pose} (h : Session .tolerant eig rnd srv P log a)
    (adm : Whole.AdmissibleOwn a.state (d.outer a)) (hu : update .tolerant eig d a = .ok ((e, p), a'))
    (hs : e.scanUsed = true) (hd : 0 ≤ number rnd srv "node_gen_distance" 2) :
    Algo.dist2 a'.state.alg.temp.origin.x a'.state.alg.temp.origin.y p.x p.y ≤ number rnd srv "node_gen_distance" 2 := by
  obtain ⟨h1, h2⟩ := h.own.1.inv he
  obtain ⟨u1, -⟩ := update_settings hu
  obtain ⟨adm', hu', -⟩ := Whole.own_step he h1 h2 adm u1
  obtain ⟨⟨b, inv⟩, hr⟩ := h1.inv he
  obtain ⟨ha, -⟩ := Whole.update_spec he inv.full adm'.alg (inv.window.winB.inv he) inv.window.winO inv.window.winC hu'
  have := Algo.C84_frame_extent hr adm'.alg ha hs (by rw [h.distance he]; exact hd)
  rwa [h.distance he] at this

/-- **C130**, the loops: with a score threshold up to 0.6, the constraints an update adds are the odometry constraint of
the finished frame and loop constraints that the given distances and the given threshold allow.
Missing: larger thresholds (`C130_false`); the strict reading of the standard (`C129_false`). -/
theorem C130_loops_partial (he : NDT.EigOk eig) {P : Step → Prop} {log : List Whole.Entry} {a a' : Alg} {d : Step}
    {out : Algo.Event × Pose} (h : Session .tolerant eig rnd srv P log a)
    (adm : Whole.AdmissibleOwn a.state (d.outer a)) (hu : update .tolerant eig d a = .ok (out, a'))
    (hl : number rnd srv "loop_score_threshold" 0.6 ≤ 0.6) :
    Whole.bookOf a'.state = Whole.bookOf a.state ∨
    ∃ cs, (Whole.bookOf a'.state).cons = (Whole.grown a.state).cons ++ cs ∧
      ∀ c ∈ cs, Allowed (number rnd srv "loop_min_distance" 14) (number rnd srv "loop_max_distance" 30)
        (number rnd srv "loop_score_threshold" 0.6) d (Whole.grown a.state) c := by
  obtain ⟨h1, s1, s2, s3⟩ := h.own
  obtain ⟨u1, -⟩ := update_settings hu
  rcases Whole.C129_search_partial he h1 adm u1 with ⟨-, e⟩ | ⟨-, e, -⟩
  · exact .inl e
  · refine .inr ⟨_, e, ?_⟩
    intro c hc
    unfold Whole.loopConstraints at hc
    obtain ⟨x, hx, rfl⟩ := List.mem_map.1 hc
    unfold Loop.closures at hx
    obtain ⟨⟨i, k⟩, hi, hx⟩ := List.mem_filterMap.1 hx
    have him : i ∈ Loop.tried (d.outer a).env (Whole.grown a.state) := by
      have := List.mem_map_of_mem (f := Prod.fst) hi
      rwa [List.zipIdx_map_fst] at this
    unfold Loop.tried at him
    have him := List.mem_of_mem_take him
    obtain ⟨hr, hcand⟩ := List.mem_filter.1 him
    have hlt := List.mem_range.1 (List.mem_reverse.1 hr)
    obtain ⟨p, q, hp, hq, hd, ht⟩ := (@of_decide_eq_true _ (_) hcand : Loop.Candidate _ _ _)
    simp only at hx
    unfold Loop.answer at hx
    rw [hp, hq] at hx
    simp only [Option.bind_some] at hx
    split_ifs at hx with hsucc
    cases hx
    refine ⟨rfl, hlt, rfl, p, q, hp, hq, by rw [← s2]; exact hd, by rw [← s1]; exact ht, k, _, ?_, rfl⟩
    rw [← s3] at hl ⊢
    exact matchLoop_scored hl hsucc

open Classical in
/-- C130 is false for larger thresholds: with the threshold 0.65 a match succeeds although no transform that was found
has a score of 0.65. -/
theorem C130_false : ∃ m : Matching, ∀ guess, (matchLoop 0.65 m guess).success = true ∧
    ∀ t, ¬ Scored 0.65 m guess t := by
  refine ⟨⟨⟨fun g => ⟨true, if g = 0 then 0 else 1, 0⟩, fun _ => ⟨true, 0, 0⟩, fun t => if t = 0 then 0.5 else 0.62, 1⟩, 0⟩, ?_⟩
  intro guess
  have hg : convertFromTransform guess ≠ 0 := fun h => by
    have := congrFun (congrFun h 3) 3
    simp [convertFromTransform, planar4] at this
  have h1 : (1 : Matrix (Fin 4) (Fin 4) ℝ) ≠ 0 := one_ne_zero
  constructor
  · simp only [matchLoop, Robust.scanMatch, Robust.computeTransformation, Robust.verify, if_neg hg, if_neg h1]
    norm_num
  · rintro t ⟨r, hr, -, hs⟩
    unfold Robust.Found at hr
    simp only [if_neg hg, true_and] at hr hs
    rcases hr with rfl | rfl
    · rw [if_neg h1] at hs; norm_num at hs
    · simp at hs; norm_num at hs

/-- C130: the thresholds 0 and 1, which the message of the exception allows, end the program. -/
theorem C130_false_bounds (eig : NDT.Eig) {srv : Server} {t : ℝ} (ht : t = 0 ∨ t = 1)
    (h : srv.num "loop_score_threshold" = some t) : launch eig id srv = .throw .invalidArgument := by
  refine (C130_starts eig id srv).2 ?_
  unfold number
  rw [h]
  rcases ht with rfl | rfl <;> simp

/-! ### A session -/

/-- A match whose registrations all fail. -/
noncomputable def failing : Matching := ⟨⟨fun _ => ⟨false, 0, 0⟩, fun _ => ⟨false, 0, 0⟩, fun _ => 0, 1⟩, 0⟩

theorem failing_fails (limit : ℝ) (guess : Trans) : (matchLoop limit failing guess).success = false := by
  simp [matchLoop, Robust.scanMatch, Robust.computeTransformation, failing]

/-- An update without loop closures happens in a session in which all loop matches fail. -/
theorem Session.extend (he : NDT.EigOk eig) {P : Step → Prop} {log : List Whole.Entry} {a : Alg}
    (h : Session .tolerant eig rnd srv P log a) {inp : Whole.Input} {o : Algo.Event × Pose} {s' : Whole.State}
    (hn : Algo.NoLoops inp.alg) (adm : Whole.Admissible a.state inp) (hu : Whole.update eig inp a.state = .ok (o, s'))
    (hP : ∀ d : Step, d.matcher = inp.alg.matcher → P d) :
    ∃ d, P d ∧ (d.scan = inp.scan ∧ d.motion = inp.alg.motion) ∧ Whole.AdmissibleOwn a.state (d.outer a) ∧
      update .tolerant eig d a = .ok (o, { a with state := s' }) := by
  obtain ⟨l, h1, h2, h3⟩ := Whole.fresh_many a.state.alg.engine.graph inp.alg.addr
  set d : Step := ⟨inp.alg.motion, inp.alg.matcher, inp.alg.addr, l, fun _ _ => 0, fun _ _ _ => failing, 0, 0, inp.alg.est,
    inp.alg.order, inp.scan, inp.time, inp.sorted⟩ with hd
  have adm' : Whole.AdmissibleOwn a.state (d.outer a) := by
    refine ⟨adm.alg.motion, adm.alg.matcher, h2, h1.ge, ?_, adm.alg.order, adm.sorted⟩
    intro x hx
    rcases List.mem_cons.1 hx with rfl | hx
    · exact adm.alg.fresh _ (List.mem_cons_self ..)
    · exact h3 x hx
  refine ⟨d, hP d rfl, ⟨rfl, rfl⟩, adm', ?_⟩
  have key : Whole.updateOwn .tolerant eig (d.outer a) a.state = .ok (o, s') := by
    obtain ⟨i1, i2⟩ := h.own.1.inv he
    obtain ⟨⟨b, inv⟩, -⟩ := i1.inv he
    rw [Whole.bookOf_eq inv.full.alg.engine] at i2
    rw [Whole.updateOwn_eq inv i2 (adm'.fresh _ (List.mem_cons_self ..))]
    have hc : ∀ (b : Slam.Book Algo.Frame) l, Loop.closures (d.outer a).env b l = [] := by
      intro b l
      unfold Loop.closures
      rw [List.filterMap_eq_nil_iff]
      intro x _
      unfold Loop.answer
      split
      · simp [Step.outer, hd, failing_fails]
      · rfl
    unfold Whole.expected
    rw [hc, List.map_nil, List.zip_nil_right, ← hu]
    congr 1
    obtain ⟨⟨m, ma, ad, lo, es, or⟩, sc, ti, so⟩ := inp
    have : lo = [] := hn
    subst this
    rfl
  unfold update
  rw [key]
  rfl

/-- The hypotheses are met: the program is launched with the parameters of the launch file (window of 30 m, score
threshold 0.6), sees a first scan, and matches a second one. -/
example : ∃ eig, NDT.EigOk eig ∧ ∃ srv log a d out a', srv.num "scanmatch_window_radius" = some 30 ∧
    Session .tolerant eig id srv (fun d => ∀ r, d.matcher = some r → |r 0 3| ≤ 1 ∧ |r 1 3| ≤ 1) log a ∧ log ≠ [] ∧
    (∀ e ∈ log, Whole.InRange 5 e.scan) ∧ Whole.AdmissibleOwn a.state (d.outer a) ∧
    update .tolerant eig d a = .ok (out, a') ∧ out.1.scanUsed = true ∧
    number id srv "loop_score_threshold" 0.6 ≤ 0.6 := by
  obtain ⟨eig, he⟩ := NDT.exists_eig
  set srv : Server := ⟨none, fun _ => none, fun n => if n = "scanmatch_window_radius" then some 30 else none, fun _ => none⟩ with hsrv
  have hth : number id srv "loop_score_threshold" 0.6 = 0.6 := by simp [number, hsrv]
  obtain ⟨n, a0, h0⟩ := (C130_starts eig id srv).1 (by rw [hth]; norm_num)
  obtain ⟨e0, -⟩ := launch_settings h0
  have r0 : Whole.Reach eig (fun a => Whole.NearWindow 1 a ∧ Algo.NoLoops a) [] a0.state := by
    rw [e0]
    exact (Whole.Reach.init.setRadius _).setDistance _
  obtain ⟨inp, o, s1, inp1, g, m, q, p, s, hp, hsc, adm, hu, hp1, hsc1, adm1, hu1, -⟩ :=
    Whole.matched_step he r0 (fun _ _ _ _ => ⟨fun r hr => (nomatch hr), rfl⟩) (by rw [e0]; rfl) (by rw [e0]; rfl)
      (fun _ _ _ _ => ⟨fun r hr => by
        cases hr
        rw [Algo.ahead_eq]
        simp [convertFromTransform, planar4, getPoseFromTransform], rfl⟩)
  have s0 : Session .tolerant eig id srv (fun d => ∀ r, d.matcher = some r → |r 0 3| ≤ 1 ∧ |r 1 3| ≤ 1) [] a0 := .start h0
  obtain ⟨d0, p0, c0, adm0, hu0⟩ := s0.extend he hp.2 adm hu (fun d hd r hr => hp.1 r (by rw [← hd]; exact hr))
  have s1' := s0.step p0 adm0 hu0
  obtain ⟨d1, p1, c1, adm1', hu1'⟩ := s1'.extend he hp1.2 adm1 hu1 (fun d hd r hr => hp1.1 r (by rw [← hd]; exact hr))
  refine ⟨eig, he, srv, _, _, d1, _, _, by simp [hsrv], s1', by simp, ?_, adm1', hu1', rfl, hth.le⟩
  intro e he
  rw [List.nil_append, List.mem_singleton] at he
  rw [he]
  show Whole.InRange 5 d0.scan
  rw [c0.1, hsc.1]
  exact Whole.exScan_range

end Verif.Launch
