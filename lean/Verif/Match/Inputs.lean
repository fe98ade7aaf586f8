import Verif.Match.Real

/-
For C175: which clouds a match is about.  The matchers are members that live as long as their owners (`matcher` of
`NdtScanmatcher`, ndt_scanmatcher.h:40-42; `inc_matcher_` of the algorithm, ndt_slam_algorithm.h:137-138), and their base
class keeps the clouds of the last match.  `Verif/Match/Model.lean` takes the clouds of the present match; here what is
kept is part of the state.

The base class (pcl::Registration, third party) is taken as follows: `setInputSource` and `setInputTarget` refuse an empty cloud
and keep the former one; `align` does nothing unless both clouds are set, otherwise it resets `converged_` and
`final_transformation_` and calls `computeTransformation`.
-/
namespace Verif.Match

open Verif Verif.Geo Verif.World Verif.NDTGrid
open Verif.Score (Tree OffLayer d2dLayerScore sortTree sortTree_ok)

/-! ### Model -/

/-- `input_` and `target_` of the base class. -/
structure Clouds where
  source : Option (List Pt)
  target : Option (List Pt)

/-- `Registration::setInputSource` of the base class. -/
def Clouds.setSource (k : Clouds) (cloud : List Pt) : Clouds :=
  match cloud with
  | [] => k
  | p :: ps => { k with source := some (p :: ps) }

/-- `Registration::setInputTarget` of the base class. -/
def Clouds.setTarget (k : Clouds) (cloud : List Pt) : Clouds :=
  match cloud with
  | [] => k
  | p :: ps => { k with target := some (p :: ps) }

/-- What the loop matcher keeps: its clouds (the base classes of the robust matcher and of its two registrations are given
the same clouds by every call, d2d_ndt2d_robust.h:87-105 and d2d_ndt2d.h:205-224, so one copy stands for the three)
and what its last `align` reported. -/
structure Kept where
  clouds : Clouds
  last : Result

/-- As constructed: no clouds, not converged (pcl::Registration). `quality` is not initialised. -/
def Kept.new (quality : Option ℝ) : Kept := ⟨⟨none, none⟩, ⟨false, quality, some 1⟩⟩

/-- `setInputSource(grid)` and `setInputTarget(grid)`, d2d_ndt2d_robust.h:87-105, as far as the clouds go; the grids
(`source_grid_`, `target_grid_` of the D2D matcher) are always replaced, so that the layers are those of the scene. -/
def Kept.offer (k : Kept) (s : Scene) : Clouds := (k.clouds.setSource s.source).setTarget s.target

/-- The scene with the clouds that are really there. -/
def Scene.withClouds (s : Scene) (source target : List Pt) : Scene := { s with source := source, target := target }

/-- `align` of the robust matcher. -/
noncomputable def Kept.align (k : Kept) (m : Matcher) (s : Scene) (guess : Trans) : Run Result :=
  match (k.offer s).source, (k.offer s).target with
  | some a, some b => computeTransformation (m.setInputTarget s) (s.withClouds a b) guess
  | _, _ => some (.ok k.last)

/-- `NdtScanmatcher::match`, ndt_scanmatcher.h:47-100, of a matcher that may have been used before. -/
noncomputable def Kept.match_ (k : Kept) (m : Matcher) (s : Scene) (junk guess : Trans) : Run (Loop.MatchResult × Kept) :=
  Run.bind (k.align m s (convertToTransform (convertFromTransform guess))) fun r =>
  some <| .ok (⟨r.converged, !![5000, 0, 0; 0, 5000, 0; 0, 0, 10000],
    convertToTransform (convertFromTransform (r.final.getD junk))⟩, ⟨k.offer s, r⟩)

/-- What the matcher of the front end keeps: clouds, and what it last reported. -/
structure KeptInc where
  clouds : Clouds
  report : Newton.Report

/-- As constructed, ndt2d.h:332-345 and the base class. -/
def KeptInc.new (covariance information : Matrix (Fin 3) (Fin 3) ℝ) : KeptInc := ⟨⟨none, none⟩, ⟨false, 1, covariance, information⟩⟩

/-- What a match of the front end depends on, for each source cloud and target grid: scores and solver of each layer, ndt2d.h:364-368. -/
abbrev Registration := List Pt → Map → List Newton.Env

/-- Setting window and scan, ndt_slam_algorithm.h:231-232 (ndt2d.h:74-79 and the base class). -/
def KeptInc.offer (k : KeptInc) (window : Map) (means : List Pt) : Clouds :=
  (k.clouds.setTarget (points window)).setSource means

/-- A match of the front end, ndt_slam_algorithm.h:231-236; `none`: it does not end. -/
noncomputable def KeptInc.match_ (k : KeptInc) (reg : Registration) (window : Map) (means : List Pt) (guess : Trans) :
    Option KeptInc :=
  match (k.offer window means).source, (k.offer window means).target with
  | some a, some _ =>
    (Newton.ndtTransformation Newton.frontEnd (reg a window) { k.report with converged := false, final := 1 } guess).map fun r =>
      ⟨k.offer window means, r⟩
  | _, _ => some ⟨k.offer window means, k.report⟩

/-! ### Specification -/

/-- States of a loop matcher after any matches, with any settings. -/
inductive Used : Kept → Prop
  | new (quality : Option ℝ) : Used (.new quality)
  | next {k k' : Kept} {m : Matcher} {s : Scene} {junk guess : Trans} {r : Loop.MatchResult} (h : Used k)
      (hm : k.match_ m s junk guess = some (.ok (r, k'))) : Used k'

/-- States of the matcher of the front end after any matches. -/
inductive UsedInc (reg : Registration) : KeptInc → Prop
  | new (c i : Matrix (Fin 3) (Fin 3) ℝ) : UsedInc reg (.new c i)
  | next {k k' : KeptInc} {window : Map} {means : List Pt} {guess : Trans} (h : UsedInc reg k)
      (hm : k.match_ reg window means guess = some k') : UsedInc reg k'

/-- Assumption about the solver: where the score does not depend on the position, it proposes no step (or NaN). -/
def Honest (solve : Newton.Score → Option Newton.Vec) : Prop := ∀ d, solve .zero = some d → d = 0

/-! ### Lemmas -/

variable {eig : NDT.Eig} {tree : Tree} {m : Matcher} {limit : ℝ} {b b' : Bool} {src tgt : Map} {s : Scene} {k : Kept}

theorem setSource_of_ne {k : Clouds} {l : List Pt} (h : l ≠ []) : k.setSource l = { k with source := some l } := by
  cases l with
  | nil => exact absurd rfl h
  | cons => rfl

theorem setTarget_of_ne {k : Clouds} {l : List Pt} (h : l ≠ []) : k.setTarget l = { k with target := some l } := by
  cases l with
  | nil => exact absurd rfl h
  | cons => rfl

/-- The report left from the last use only shows in the matrices. -/
theorem layers_report (loop : Newton.Env → Newton.Vec → ℕ → Newton.Single) (l : List Newton.Env) (r r' : Newton.Report)
    (hf : r.final = r'.final) :
    (Newton.computeLayers loop l r).map (fun x => (x.converged, x.final)) =
      (Newton.computeLayers loop l r').map fun x => (x.converged, x.final) := by
  cases l with
  | nil => simp [Newton.computeLayers, hf]
  | cons env l =>
    simp only [Newton.computeLayers, hf]

theorem reportOf_report (r r' : Newton.Report) (g : Trans) :
    (reportOf (d2dAlign m s r g)).converged = (reportOf (d2dAlign m s r' g)).converged ∧
      (reportOf (d2dAlign m s r g)).final = (reportOf (d2dAlign m s r' g)).final := by
  have h := layers_report (Newton.d2dLoop m.newton) (layersOf m s) { r with converged := false, final := g }
    { r' with converged := false, final := g } rfl
  unfold d2dAlign Newton.d2dTransformation
  generalize Newton.computeLayers (Newton.d2dLoop m.newton) (layersOf m s) { r with converged := false, final := g } = x at h ⊢
  generalize Newton.computeLayers (Newton.d2dLoop m.newton) (layersOf m s) { r' with converged := false, final := g } = y at h ⊢
  rcases x with _ | x <;> rcases y with _ | y
  · exact ⟨rfl, rfl⟩
  · cases h
  · cases h
  · have h := Option.some.inj h
    exact ⟨congrArg Prod.fst h, congrArg Prod.snd h⟩

theorem matching_report (r : Newton.Report) : matching m { s with report := r } = matching m s := by
  unfold matching
  congr 1
  congr 1
  funext g
  obtain ⟨h1, h2⟩ := reportOf_report (m := m.setInputTarget s) (s := s) r s.report (convertToTransform g)
  show Robust.Outcome.mk (reportOf (d2dAlign (m.setInputTarget s) s r (convertToTransform g))).converged
    (convertFromTransform (reportOf (d2dAlign (m.setInputTarget s) s r (convertToTransform g))).final) g = _
  rw [h1, h2]

theorem Run.bind_eq_ok {α β : Type} {x : Run α} {f : α → Run β} {r : β} (h : Run.bind x f = some (.ok r)) :
    ∃ a, x = some (.ok a) ∧ f a = some (.ok r) := by
  rcases x with _ | ⟨a⟩ | _ | _
  · cases h
  · exact ⟨a, rfl, h⟩
  · cases h
  · cases h

/-- A source without Gaussians has no score. -/
theorem score_none (he : NDT.EigOk eig) (hs : Built eig b src) (hne : gaussians src = []) {size : ℝ} {v : Newton.Vec}
    {param : Newton.FittingParams} {h : Bool} {x : Newton.Score} (hx : d2dLayerScore eig tree src tgt size v param h = .ok x) :
    x = .zero := by
  obtain ⟨S, h1, -, -, -, -, -, hst⟩ := Score.layer he (hs.inv he) size (by intro c hc; rw [hne] at hc; cases hc)
  have hS : gaussians S = [] := by
    refine List.eq_nil_iff_forall_not_mem.2 fun c hc => ?_
    have := hst.1 c hc
    rw [hne] at this
    cases this
  unfold d2dLayerScore at hx
  rw [h1, Res.bind_ok] at hx
  obtain ⟨T, -, hx⟩ := Res.bind_eq_ok.1 hx
  unfold Score.d2dCalcScore at hx
  rw [hS] at hx
  exact (Res.ok.inj hx).symm

/-- Without scores the D2D matcher gives up at once. -/
theorem gives_up (hlen : m.layers.sizes.length = 4 ∧ m.layers.params.length = 4)
    (h0 : ∀ size ∈ m.layers.sizes, ∀ param v, (s.layer size param).calcScore v = .zero)
    (hh : ∀ size param, Honest (s.layer size param).solve) {r x : Newton.Report} {g : Trans}
    (h : d2dAlign (m.setInputTarget s) s r g = some (.ok x)) : x.converged = false := by
  unfold d2dAlign Newton.d2dTransformation layersOf at h
  rw [show (m.setInputTarget s).layers = m.layers from rfl] at h
  obtain ⟨l1, l2⟩ := hlen
  rcases hs : m.layers.sizes with _ | ⟨z, zs⟩
  · rw [hs] at l1; cases l1
  rcases hp : m.layers.params with _ | ⟨p, ps⟩
  · rw [hp] at l2; cases l2
  rw [hs, hp] at h
  have hf : Newton.newtonStep (m.setInputTarget s).newton (s.layer z p) (Newton.matToVec g) = .fail := by
    unfold Newton.newtonStep
    simp only [h0 z (by rw [hs]; simp) p]
    rcases hd : (s.layer z p).solve .zero with _ | d
    · rfl
    · have := hh z p d hd
      subst this
      simp [Newton.norm, Newton.dot]
  simp only [List.zip_cons_cons, List.map_cons, Newton.computeLayers] at h
  unfold Newton.d2dLoop at h
  rw [hf] at h
  simp only [Option.map_some] at h
  rw [← Res.ok.inj (Option.some.inj h)]

theorem Kept.offer_none (h : (k.offer s).source = none ∨ (k.offer s).target = none) :
    k.clouds.source = none ∨ k.clouds.target = none := by
  unfold Kept.offer at h
  rcases h1 : s.source with _ | ⟨p, ps⟩ <;> rcases h2 : s.target with _ | ⟨q, qs⟩ <;> rw [h1, h2] at h <;>
    simp [Clouds.setSource, Clouds.setTarget] at h
  · exact h
  · exact .inl h
  · exact .inr h

/-- A matcher that lacks a cloud has never succeeded. -/
theorem Used.blank (h : Used k) (hn : k.clouds.source = none ∨ k.clouds.target = none) : k.last.converged = false := by
  induction h with
  | new => rfl
  | @next k k' m s junk guess r _ hm ih =>
    unfold Kept.match_ at hm
    obtain ⟨x, h1, h2⟩ := Run.bind_eq_ok hm
    have h2 := congrArg Prod.snd (Res.ok.inj (Option.some.inj h2))
    subst h2
    unfold Kept.align at h1
    simp only at hn ⊢
    have h1' : k.last = x := by
      rcases ha : (k.offer s).source with _ | a <;> rcases hb : (k.offer s).target with _ | b <;> rw [ha, hb] at h1 hn
      · exact Res.ok.inj (Option.some.inj h1)
      · exact Res.ok.inj (Option.some.inj h1)
      · exact Res.ok.inj (Option.some.inj h1)
      · simp at hn
    rw [← h1']
    exact ih (Kept.offer_none hn)

/-- After a match of a scan with Gaussians this is the scan that is kept. -/
theorem KeptInc.keeps {reg : Registration} {k k' : KeptInc} {window : Map} {means : List Pt} {guess : Trans}
    (hm : k.match_ reg window means guess = some k') (hne : means ≠ []) : k'.clouds.source = some means := by
  have h1 : (k.offer window means).source = some means := by
    unfold KeptInc.offer
    rw [setSource_of_ne hne]
  have h2 : k'.clouds = k.offer window means := by
    unfold KeptInc.match_ at hm
    rw [h1] at hm
    rcases hb : (k.offer window means).target with _ | b <;> rw [hb] at hm
    · rw [← Option.some.inj hm]
    · obtain ⟨r, -, hr⟩ := Option.map_eq_some_iff.1 hm
      rw [← hr]
  rw [h2, h1]

/-- A score that rises in the direction of x, with a Hessian that can be inverted and the solver of `Newton.bowl`. -/
noncomputable def ramp : Newton.Env :=
  let f : Newton.Vec → Newton.Score := fun v => ⟨v 0, ![1, 0, 0], -1⟩
  ⟨f, f, Newton.newtonSolve⟩

theorem ramp_loop (x : Newton.Vec) : ∃ y n sc, Newton.ndtLoop Newton.frontEnd ramp x 0 = .ok y n sc := by
  have key : ∀ x, Newton.newtonStep Newton.frontEnd ramp x ≠ .fail := by
    intro x h
    have hs : ramp.solve (ramp.calcScore x) = some ![1, 0, 0] := by
      show Newton.newtonSolve ⟨x 0, ![1, 0, 0], -1⟩ = _
      unfold Newton.newtonSolve
      rw [if_pos (by simp [Matrix.det_neg])]
      rw [show ((-1 : Matrix (Fin 3) (Fin 3) ℝ))⁻¹ = -1 from Matrix.inv_eq_right_inv (by simp)]
      rw [Matrix.neg_mulVec, Matrix.one_mulVec]
      simp
    unfold Newton.newtonStep at h
    simp only [hs] at h
    have hn : Newton.norm ![1, 0, 0] = 1 := by simp [Newton.norm, Newton.dot]
    simp only [hn, one_ne_zero, if_false] at h
    split at h <;> cases h
  rcases Newton.frontEnd_loop ramp x with h | ⟨y, sc, h, -⟩
  · exfalso
    unfold Newton.ndtLoop at h
    rcases h1 : Newton.newtonStep Newton.frontEnd ramp x with _ | _ | ⟨x', len, s⟩
    · exact key x h1
    · rw [h1] at h; cases h
    · rw [h1] at h
      simp only at h
      split_ifs at h
      unfold Newton.ndtLoop at h
      rcases h2 : Newton.newtonStep Newton.frontEnd ramp x' with _ | _ | ⟨x'', len', s'⟩
      · exact key x' h2
      · rw [h2] at h; cases h
      · rw [h2] at h
        simp only at h
        split_ifs at h with h3
        refine h3 (Or.inr ⟨by norm_num, ?_⟩)
        rcases Newton.frontEnd_len h2 with h | h <;> rw [h] <;> norm_num [Newton.frontEnd, abs_of_pos]
  · exact ⟨y, 2, sc, h⟩

theorem ramp_layers : ∀ (n : ℕ) (r : Newton.Report), ∃ r', Newton.computeLayers (Newton.ndtLoop Newton.frontEnd)
    (List.replicate n ramp) r = some r' ∧ r'.converged = true
  | 0, r => ⟨_, rfl, rfl⟩
  | n + 1, r => by
    obtain ⟨y, k, sc, h⟩ := ramp_loop (Newton.matToVec r.final)
    rw [List.replicate_succ]
    simp only [Newton.computeLayers, h]
    exact ramp_layers n _

end Verif.Match
