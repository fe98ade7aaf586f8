import Verif.Match.Inputs

/-
C175: matches are about the maps given to the matcher (model in Verif/Match/Inputs.lean).
-/
namespace Verif.Match

open Verif Verif.Geo Verif.World Verif.NDTGrid
open Verif.Score (Tree OffLayer d2dLayerScore sortTree sortTree_ok)

variable {eig : NDT.Eig} {tree : Tree} {m : Matcher} {limit : ℝ} {b b' : Bool} {src tgt : Map} {s : Scene} {k : Kept}

/-! ### C175 -/

/-- C175, loop matches of maps with Gaussians: the result is the same whatever the matcher was used for before. -/
theorem C175_loop_partial (hc : Configured limit m) (hl : limit ≤ 0.7) (hp : Plausible m s) (hs : s.source ≠ []) (ht : s.target ≠ [])
    {guess : Trans} (hg : IsRigid guess) :
    ∃ r, ∀ k, Used k → ∀ report junk, ∃ k', k.match_ m { s with report := report } junk guess = some (.ok (r, k')) := by
  refine ⟨Launch.matchLoop limit (matching m s) guess, fun k _ report junk => ?_⟩
  have h := matching_describes (s := { s with report := report }) hc ⟨hp.pos, hp.size, hp.sort, hp.schedule⟩ hl hg junk
  rw [matching_report] at h
  have ho : k.offer { s with report := report } = ⟨some s.source, some s.target⟩ := by
    unfold Kept.offer
    rw [setSource_of_ne hs, setTarget_of_ne ht]
  unfold matchFrames at h
  obtain ⟨r, h1, h2⟩ := Run.bind_eq_ok h
  refine ⟨⟨k.offer { s with report := report }, r⟩, ?_⟩
  unfold Kept.match_ Kept.align
  rw [ho]
  simp only
  have e : Scene.withClouds { s with report := report } s.source s.target = { s with report := report } := rfl
  rw [e, h1, Run.bind_ok]
  rw [← Res.ok.inj (Option.some.inj h2)]

/-- C175, loop matches of a source without Gaussians: whatever the matcher was used for before (it verifies and searches with
the cloud of an earlier source), the match ends and is not accepted. -/
theorem C175_refused (he : NDT.EigOk eig) (hs : Built eig true src) (hne : gaussians src = []) (hc : Configured limit m)
    (hp : Plausible m s) (hm : IsMatch eig tree m src tgt s) (hh : ∀ size param, Honest (s.layer size param).solve)
    (hk : Used k) {guess : Trans} (hg : IsRigid guess) (junk : Trans) :
    ∃ r k', k.match_ m s junk guess = some (.ok (r, k')) ∧ r.success = false := by
  have key : ∃ x, k.align m s guess = some (.ok x) ∧ x.converged = false := by
    unfold Kept.align
    rcases ha : (k.offer s).source with _ | a
    · exact ⟨_, rfl, hk.blank (Kept.offer_none (.inl ha))⟩
    rcases hb : (k.offer s).target with _ | b
    · exact ⟨_, rfl, hk.blank (Kept.offer_none (.inr hb))⟩
    simp only
    have hp' : Plausible m (s.withClouds a b) := ⟨hp.pos, hp.size, hp.sort, hp.schedule⟩
    obtain ⟨x, h1, -⟩ := compute_ok hc hp' hg
    refine ⟨x, h1, ?_⟩
    obtain ⟨-, -, -, -, -, l1, l2⟩ := configured hc
    have up : ∀ {r x : Newton.Report} {g : Trans},
        d2dAlign (m.setInputTarget (s.withClouds a b)) (s.withClouds a b) r g = some (.ok x) → x.converged = false := fun h =>
      gives_up ⟨l1, l2⟩ (fun size hz param v => score_none he hs hne (hm.score size hz param v)) hh h
    unfold computeTransformation at h1
    obtain ⟨first, e1, h1⟩ := Run.bind_eq_ok h1
    obtain ⟨score, -, h1⟩ := Run.bind_eq_ok h1
    rw [if_pos (by rw [up e1]; simp)] at h1
    obtain ⟨corr, -, h1⟩ := Run.bind_eq_ok h1
    obtain ⟨second, e2, h1⟩ := Run.bind_eq_ok h1
    rw [if_pos (up e2)] at h1
    rw [← Res.ok.inj (Option.some.inj h1)]
  obtain ⟨x, h1, h2⟩ := key
  have hg' : convertToTransform (convertFromTransform guess) = guess := C44_round_trips.2.2.2.2.2.2.2.1 _ hg
  unfold Kept.match_
  rw [hg', h1]
  exact ⟨_, _, rfl, h2⟩

/-- C175, incremental matches of a scan and a window with Gaussians: the outcome is that of a new matcher, whatever was matched before.
Missing: scans without Gaussians (see `C175_false`). -/
theorem C175_incremental_partial {reg : Registration} {k : KeptInc} {window : Map} {means : List Pt} (hw : points window ≠ [])
    (hm : means ≠ []) (guess : Trans) (c i : Matrix (Fin 3) (Fin 3) ℝ) :
    (k.match_ reg window means guess).map (fun k => (k.report.converged, k.report.final)) =
      ((KeptInc.new c i).match_ reg window means guess).map fun k => (k.report.converged, k.report.final) := by
  have ho : ∀ k : KeptInc, k.offer window means = ⟨some means, some (points window)⟩ := by
    intro k
    unfold KeptInc.offer
    rw [setTarget_of_ne hw, setSource_of_ne hm]
  unfold KeptInc.match_
  rw [ho, ho]
  simp only [Option.map_map]
  exact layers_report _ _ _ _ rfl

/-- Negation of C175 for incremental matches: a scan without Gaussians (no square with six echoes) is matched as if it were the last scan
that had some. -/
theorem C175_stale {reg : Registration} {k : KeptInc} {window : Map} {old : List Pt} (hw : points window ≠ [])
    (hk : k.clouds.source = some old) (hold : old ≠ []) (guess : Trans) (c i : Matrix (Fin 3) (Fin 3) ℝ) :
    (k.match_ reg window [] guess).map (fun k => (k.report.converged, k.report.final)) =
      ((KeptInc.new c i).match_ reg window old guess).map fun k => (k.report.converged, k.report.final) := by
  rw [← C175_incremental_partial (k := k) hw hold guess c i]
  have h1 : k.offer window [] = k.offer window old := by
    unfold KeptInc.offer
    rw [setTarget_of_ne hw, setSource_of_ne hold]
    simp [Clouds.setSource, hk]
  unfold KeptInc.match_
  rw [h1]

/-- A matcher of the front end that has only seen windows without Gaussians never succeeds: this is the assumption `NeedsTarget` of C174. -/
theorem no_target {reg : Registration} {windows : List (Map × List Pt × Trans)} (hw : ∀ w ∈ windows, points w.1 = [])
    (c i : Matrix (Fin 3) (Fin 3) ℝ) :
    ∃ k, windows.foldlM (fun (k : KeptInc) w => k.match_ reg w.1 w.2.1 w.2.2) (KeptInc.new c i) = some k ∧
      k.report.converged = false := by
  suffices h : ∀ k : KeptInc, k.clouds.target = none → k.report.converged = false →
      ∃ k', windows.foldlM (fun (k : KeptInc) w => k.match_ reg w.1 w.2.1 w.2.2) k = some k' ∧ k'.report.converged = false from
    h _ rfl rfl
  induction windows with
  | nil => exact fun k _ h => ⟨k, rfl, h⟩
  | cons w ws ih =>
    intro k hk hc
    have ht : (k.offer w.1 w.2.1).target = none := by
      unfold KeptInc.offer
      rw [hw w (by simp)]
      rcases w.2.1 with _ | _ <;> exact hk
    have hm : k.match_ reg w.1 w.2.1 w.2.2 = some ⟨k.offer w.1 w.2.1, k.report⟩ := by
      unfold KeptInc.match_
      rw [ht]
      rcases (k.offer w.1 w.2.1).source with _ | _ <;> rfl
    rw [List.foldlM_cons, hm]
    exact ih (fun w h => hw w (List.mem_cons_of_mem _ h)) ⟨_, k.report⟩ ht hc

/-- Negation of C175 for incremental matches, a run: the first scan is matched, then a scan without any echo is matched, successfully, although a
new matcher does not succeed with it. -/
theorem C175_false {window : Map} (hw : points window ≠ []) (c i : Matrix (Fin 3) (Fin 3) ℝ) (guess guess' : Trans) :
    ∃ (reg : Registration) (k1 k2 k0 : KeptInc), (KeptInc.new c i).match_ reg window [(5, 0)] guess = some k1 ∧
      UsedInc reg k1 ∧ k1.match_ reg window [] guess' = some k2 ∧ k2.report.converged = true ∧
      (KeptInc.new c i).match_ reg window [] guess' = some k0 ∧ k0.report.converged = false := by
  set reg : Registration := fun _ _ => List.replicate 4 ramp with hreg
  have hne : ([(5, 0)] : List Pt) ≠ [] := by simp
  have ho : (KeptInc.new c i).offer window [(5, 0)] = ⟨some [(5, 0)], some (points window)⟩ := by
    unfold KeptInc.offer
    rw [setTarget_of_ne hw, setSource_of_ne hne]
  have first : ∀ g, ∃ k1, (KeptInc.new c i).match_ reg window [(5, 0)] g = some k1 ∧ k1.report.converged = true := by
    intro g
    obtain ⟨r, h1, h2⟩ := ramp_layers 4 { ({ (KeptInc.new c i).report with converged := false, final := 1 } : Newton.Report) with
      converged := false, final := g }
    unfold KeptInc.match_
    rw [ho]
    unfold Newton.ndtTransformation
    simp only [hreg]
    rw [h1]
    exact ⟨_, rfl, h2⟩
  obtain ⟨k1, h1, -⟩ := first guess
  obtain ⟨x, h2, h3⟩ := first guess'
  have h4 := C175_stale (reg := reg) (k := k1) hw (KeptInc.keeps h1 hne) hne guess' c i
  rw [h2] at h4
  obtain ⟨k2, h5, h6⟩ := Option.map_eq_some_iff.1 h4
  refine ⟨reg, k1, k2, ⟨(KeptInc.new c i).offer window [], (KeptInc.new c i).report⟩, h1, .next (.new c i) h1, h5,
    (congrArg Prod.fst h6).trans h3, ?_, rfl⟩
  have ho' : ((KeptInc.new c i).offer window []).source = none := by
    unfold KeptInc.offer
    rw [setTarget_of_ne hw]
    rfl
  unfold KeptInc.match_
  rw [ho']

/-! ### The hypotheses can be met -/

/-- A loop match of two maps with one Gaussian each, then one of an empty map with the second, by the same matcher. -/
example : ∃ eig, NDT.EigOk eig ∧ ∃ (src tgt blank : Map) (m : Matcher) (s s' : Scene) (k : Kept), Built eig true blank ∧
    gaussians blank = [] ∧ Configured 0.6 m ∧ Plausible m s ∧ Plausible m s' ∧ s.source ≠ [] ∧ s.target ≠ [] ∧
    IsMatch eig sortTree m src tgt s ∧ IsMatch eig sortTree m blank tgt s' ∧
    (∀ size param, Honest (s'.layer size param).solve) ∧ Used k ∧ k.clouds.source = some s.source := by
  obtain ⟨eig, he⟩ := NDT.exists_eig
  obtain ⟨src, b1, -, c1, x, g1, m1⟩ := World.exMap he ⟨0, 0, 0⟩ 0
  obtain ⟨tgt, b2, -, c2, y, g2, m2⟩ := World.exMap he ⟨3, 0, 0⟩ 0
  obtain ⟨m, hm⟩ := configured_exists (limit := 0.6) (by norm_num) (by norm_num)
  obtain ⟨sch, hp⟩ := crossing_plausible hm
  have b0 : Built eig true (NDTGrid.init (cellI eig) 0 0 0 1) := Built.init 0 0 0 zero_lt_one
  have g0 : gaussians (NDTGrid.init (cellI eig) 0 0 0 1) = [] := rfl
  have hon : Honest Newton.newtonSolve := by
    intro d hd
    unfold Newton.newtonSolve Newton.Score.zero at hd
    rw [if_neg (by simp [Matrix.det_fin_three])] at hd
    cases hd
  have plaus : ∀ {s : Scene}, s.cell = tgt.grid.cellSize → s.sort = _ → s.schedule = _ → Plausible m s := fun h1 h2 h3 =>
    ⟨by rw [h1, c2]; norm_num, by rw [h1, c2]; norm_num, by rw [h2]; exact hp.sort, by rw [h3]; exact hp.schedule⟩
  obtain ⟨s, hs, s1, s2, -⟩ := C172_loop_partial he b1 b2 hm (fun z _ => offLayer_zero c1 g1 m1 z)
    (fun z _ => offLayer_zero c2 g2 m2 z) (by rw [g2]; simp) sortTree_ok.1 (by rw [c2]) le_rfl hp.sort hp.schedule
    (fun _ _ => Newton.newtonSolve) ⟨false, 1, 1, 1⟩
  obtain ⟨s', hs', s1', s2', -, hsol, -⟩ := C172_loop_partial he b0 b2 hm (fun z _ => by intro c hc; cases hc)
    (fun z _ => offLayer_zero c2 g2 m2 z) (by rw [g2]; simp) sortTree_ok.1 (by rw [c2]) le_rfl hp.sort hp.schedule
    (fun _ _ => Newton.newtonSolve) ⟨false, 1, 1, 1⟩
  have ne : ∀ {n : Map} {l : List Pt} {c : NDT.Cell}, Built eig true n → gaussians n = [c] → l = points n → l ≠ [] := by
    intro n l c hb hg hl h0
    have := points_length he hb
    rw [← hl, h0, hg] at this
    cases this
  have n1 := ne b1 g1 hs.source
  have n2 := ne b2 g2 hs.target
  have hpl := plaus hs.cell s1 s2
  obtain ⟨r, h⟩ := C175_loop_partial hm (by norm_num) hpl n1 n2 Algo.rigid_one
  obtain ⟨k, hk⟩ := h _ (.new none) s.report 1
  refine ⟨eig, he, src, tgt, _, m, s, s', k, b0, g0, hm, hpl, plaus hs'.cell s1' s2', n1, n2, hs, hs',
    fun z p => by rw [hsol]; exact hon, .next (.new none) hk, ?_⟩
  unfold Kept.match_ at hk
  obtain ⟨_, -, h2⟩ := Run.bind_eq_ok hk
  have h2 : Kept.mk (Kept.offer _ s) _ = k := congrArg Prod.snd (Res.ok.inj (Option.some.inj h2))
  rw [← h2]
  unfold Kept.offer
  rw [setSource_of_ne n1, setTarget_of_ne n2]

end Verif.Match
