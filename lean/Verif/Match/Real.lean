import Verif.Match.Session
import Verif.Score.LayerProps

/-
C172: matches of real maps.  Here the scores of the layers, which `Verif/Match/Model.lean` and `Verif/Newton/Model.lean`
leave open, are those of `Verif/Score/Layer.lean`.
-/
namespace Verif.Match

open Verif Verif.Geo Verif.World Verif.NDTGrid
open Verif.Score (Tree TreeOk OffLayer d2dLayerScore ndtLayerScore sortTree sortTree_ok)

/-! ### Specification -/

/-- The scene is the match of the map `src` with the map `tgt` by the matcher `m`: their means, the cell size of the target, and in
each layer the scores of the two maps (`calcScore` with the Hessian at the current position, without it for the trial steps,
d2d_ndt2d.h:454, 754 and 788), none of which is undefined. -/
structure IsMatch (eig : NDT.Eig) (tree : Tree) (m : Matcher) (src tgt : Map) (s : Scene) : Prop where
  source : s.source = points src
  target : s.target = points tgt
  cell : s.cell = tgt.grid.cellSize
  score : ∀ size ∈ m.layers.sizes, ∀ param v,
    d2dLayerScore eig tree src tgt size v param true = .ok ((s.layer size param).calcScore v)
  trial : ∀ size ∈ m.layers.sizes, ∀ param v,
    d2dLayerScore eig tree src tgt size v param false = .ok ((s.layer size param).trial v)

/-- The environment is the layer of cell size `size` of a match of the cloud `source` with the map `tgt`; the trial
steps are scored with the cloud `out` (ndt2d.h:419-421, 627 and 661). -/
structure IsLayer (eig : NDT.Eig) (tree : Tree) (source out : List Pt) (tgt : Map) (size : ℝ) (param : Newton.FittingParams)
    (env : Newton.Env) : Prop where
  score : ∀ v, ndtLayerScore eig tree source tgt size v param = .ok (env.calcScore v)
  trial : ∀ v, ndtLayerScore eig tree out tgt size v param = .ok (env.trial v)

/-! ### Lemmas -/

/-- Result of a computation that is defined. -/
noncomputable def valueOf (r : Res Newton.Score) : Newton.Score :=
  match r with
  | .ok s => s
  | _ => .zero

theorem valueOf_ok {r : Res Newton.Score} (h : ∃ s, r = .ok s) : r = .ok (valueOf r) := by
  obtain ⟨s, rfl⟩ := h
  rfl

variable {eig : NDT.Eig} {tree : Tree} {m : Matcher} {limit : ℝ} {b b' : Bool} {src tgt : Map} {size : ℝ}

theorem d2d_defined (he : NDT.EigOk eig) (hs : Built eig b src) (ht : Built eig b' tgt) (hos : OffLayer size src)
    (hot : OffLayer size tgt) (hne : gaussians tgt ≠ []) (htree : TreeOk tree) (v : Newton.Vec) (param : Newton.FittingParams)
    (h : Bool) : ∃ s, d2dLayerScore eig tree src tgt size v param h = .ok s := by
  obtain ⟨S, h1, -⟩ := Score.layer he (hs.inv he) size hos.cells
  obtain ⟨T, h2, -, -, hq⟩ := Score.target_layer he (ht.inv he) size hot.cells hne htree
  unfold d2dLayerScore
  rw [h1, Res.bind_ok, h2, Res.bind_ok]
  unfold Score.d2dCalcScore
  rw [Score.d2dLoopCells_eq fun p => (hq p 2).imp fun _ h => h.1]
  exact ⟨_, rfl⟩

theorem ndt_defined (he : NDT.EigOk eig) (ht : Built eig b' tgt) (hot : OffLayer size tgt) (hne : gaussians tgt ≠ [])
    (htree : TreeOk tree) (source : List Pt) (v : Newton.Vec) (param : Newton.FittingParams) :
    ∃ s, ndtLayerScore eig tree source tgt size v param = .ok s := by
  obtain ⟨T, h2, -, -, hq⟩ := Score.target_layer he (ht.inv he) size hot.cells hne htree
  unfold ndtLayerScore
  rw [h2, Res.bind_ok]
  unfold Score.ndtCalcScore
  rw [Score.ndtLoopPoints_eq fun p => (hq p 4).imp fun _ h => h.1]
  exact ⟨_, rfl⟩

theorem points_length (he : NDT.EigOk eig) {n : Map} (hn : Built eig true n) : (points n).length = (gaussians n).length := by
  unfold points
  rw [List.length_map, (hn.listed he rfl).length_eq, List.length_map]

/-! ### C172 -/

/-- C172 (loop matches), for targets with a Gaussian and off border lines: whatever the sorting function, the threads, the
solver of the Newton systems and the former use of the matcher, the match of two maps is one of those of C131-C133, with no
undefined score; it ends with a rigid transform, and for thresholds up to 0.6 and cells up to a metre an accepted one
brings at least the share `limit` of the number of Gaussians of the target within two cells of them, from no
further away than 4 m plus the longer of guess and search window. -/
theorem C172_loop_partial (he : NDT.EigOk eig) (hs : Built eig true src) (ht : Built eig true tgt) (hc : Configured limit m)
    (hos : ∀ size ∈ m.layers.sizes, OffLayer size src) (hot : ∀ size ∈ m.layers.sizes, OffLayer size tgt)
    (hne : gaussians tgt ≠ []) (htree : TreeOk tree) (hcell : tgt.grid.cellSize ≤ 1) (hl : limit ≤ 0.6)
    {sort : List Corr.Voxel → List Corr.Voxel} (hsort : Corr.IsSort sort) {schedule : List (List ℕ)}
    (hsch : ∃ n, Corr.RotationCount m.corr n ∧ Corr.ValidSchedule schedule n)
    (solve : ℝ → Newton.FittingParams → Newton.Score → Option Newton.Vec) (report : Newton.Report) :
    ∃ s, IsMatch eig tree m src tgt s ∧ s.sort = sort ∧ s.schedule = schedule ∧ s.report = report ∧
      (∀ size param, (s.layer size param).solve = solve size param) ∧
      ∀ guess, IsRigid guess → ∃ r, IsRigid r.trans ∧ (∀ junk, matchFrames m s junk guess = some (.ok r)) ∧
        shift r.trans ≤ max (shift guess) (4 * Real.sqrt 2) + 4 ∧
        (r.success = true → limit * (gaussians tgt).length ≤
          overlap (2 * tgt.grid.cellSize) (points src) (points tgt) r.trans) := by
  set s : Scene := ⟨points src, points tgt, tgt.grid.cellSize, fun size param =>
    ⟨fun v => valueOf (d2dLayerScore eig tree src tgt size v param true),
      fun v => valueOf (d2dLayerScore eig tree src tgt size v param false), solve size param⟩, sort, schedule, report⟩ with hsd
  have hp : Plausible m s := ⟨(ht.inv he).cs, hcell.trans (by norm_num), hsort, hsch⟩
  refine ⟨s, ⟨rfl, rfl, rfl, ?_, ?_⟩, rfl, rfl, rfl, fun _ _ => rfl, ?_⟩
  · intro size hz param v
    exact valueOf_ok (d2d_defined he hs ht (hos size hz) (hot size hz) hne htree v param true)
  · intro size hz param v
    exact valueOf_ok (d2d_defined he hs ht (hos size hz) (hot size hz) hne htree v param false)
  · intro guess hg
    have hl' : limit ≤ 0.7 := hl.trans (by norm_num)
    obtain ⟨r, hr, h⟩ := (C131_ends_partial hc hp hg).2 hl'
    refine ⟨r, hr, h, (C133_reach hc hp hl' hg (h 1)).1, fun hsucc => ?_⟩
    have := (C132_overlap_partial hc hp hl hcell hg (h 1) hsucc).2.1
    rw [← points_length he ht]
    exact this

/-- C172 (incremental matches), for targets with a Gaussian and off border lines: whatever the scan, the solver, the clouds of the
trial steps and the former use of the matcher, the matcher of the front end has no undefined score in its four layers, and it ends within 0.4 of
the guess. -/
theorem C172_incremental_partial (he : NDT.EigOk eig) (ht : Built eig b tgt) {layers : List (ℝ × Newton.FittingParams)}
    (hlen : layers.length = 4) (hot : ∀ l ∈ layers, OffLayer l.1 tgt) (hne : gaussians tgt ≠ []) (htree : TreeOk tree)
    (source out : List Pt) (solve : ℝ × Newton.FittingParams → Newton.Score → Option Newton.Vec) (report : Newton.Report)
    {guess : Trans} (hg : IsRigid guess) :
    ∃ envs, List.Forall₂ (fun l env => IsLayer eig tree source out tgt l.1 l.2 env ∧ env.solve = solve l) layers envs ∧
      ∃ r v w, Newton.ndtTransformation Newton.frontEnd envs report guess = some r ∧
        Newton.Describes v guess ∧ Newton.Describes w r.final ∧ Newton.dist w v ≤ 0.4 := by
  refine ⟨layers.map fun l => ⟨fun v => valueOf (ndtLayerScore eig tree source tgt l.1 v l.2),
    fun v => valueOf (ndtLayerScore eig tree out tgt l.1 v l.2), solve l⟩, ?_, ?_⟩
  · rw [List.forall₂_map_right_iff, List.forall₂_same]
    exact fun l hl => ⟨⟨fun v => valueOf_ok (ndt_defined he ht (hot l hl) hne htree source v l.2),
      fun v => valueOf_ok (ndt_defined he ht (hot l hl) hne htree out v l.2)⟩, rfl⟩
  · exact (Newton.C94_front_end Newton.bowl 0 _ (by rw [List.length_map, hlen]) report guess hg).2.2

/-- Negation of C172 for targets without a Gaussian, with a search tree that cannot be asked when it is empty: no match of a
source with a Gaussian has defined scores in any layer. -/
theorem C172_false (he : NDT.EigOk eig) (hs : Built eig b src) (ht : Built eig b' tgt)
    (hm : ∃ size ∈ m.layers.sizes, OffLayer size src) (hns : gaussians src ≠ []) (hnt : gaussians tgt = [])
    (htree : ∀ p k, tree [] p k = .ub .nullDeref) (s : Scene) : ¬ IsMatch eig tree m src tgt s := by
  obtain ⟨size, hz, ho⟩ := hm
  intro h
  have h1 := h.score size hz (.mk' 0 0) 0
  rw [(Score.C171_false he hs ht ho hns hnt htree 0 (.mk' 0 0) true (source := [(0, 0)]) (by simp)).1] at h1
  cases h1

/-! ### The hypotheses can be met -/

theorem offLayer_zero {n : Map} (hcs : n.grid.cellSize = 1) {c : NDT.Cell} (hg : gaussians n = [c])
    (hc : c.mean = ![((0 : ℤ) : ℝ), 0, 0]) (size : ℝ) : OffLayer size n := by
  intro d hd
  rw [hg, List.mem_singleton] at hd
  subst hd
  have hpos : 0 < max size n.grid.cellSize := lt_of_lt_of_le (by rw [hcs]; norm_num) (le_max_right _ _)
  have key : ∀ k : ℤ, (0 : ℝ) ≠ (k + 1 / 2) * max size n.grid.cellSize := by
    intro k h
    rcases mul_eq_zero.1 h.symm with h | h
    · have : ((2 * k + 1 : ℤ) : ℝ) = ((0 : ℤ) : ℝ) := by push_cast; linarith
      have := Int.cast_injective this
      omega
    · exact hpos.ne' h
  rw [hc]
  refine ⟨fun k => ?_, fun k => ?_⟩
  · have := key k; simpa [head] using this
  · have := key k; simpa [head] using this

/-- A loop match and an incremental match of two maps with one Gaussian each. -/
example : ∃ eig, NDT.EigOk eig ∧ ∃ (src tgt : Map) (m : Matcher) (s : Scene), Built eig true src ∧ Built eig true tgt ∧
    (gaussians src).length = 1 ∧ (gaussians tgt).length = 1 ∧ IsMatch eig sortTree m src tgt s ∧
    (∃ r, matchFrames m s 1 1 = some (.ok r)) ∧
    ∃ envs r, List.Forall₂ (fun (l : ℝ × Newton.FittingParams) env => IsLayer eig sortTree [(1, 2)] [] tgt l.1 l.2 env)
        [(2, .mk' 0.7 2), (1, .mk' 0.7 2), (0.5, .mk' 0.7 2), (0.25, .mk' 0.7 2)] envs ∧
      Newton.ndtTransformation Newton.frontEnd envs ⟨false, 1, 1, 1⟩ 1 = some r := by
  obtain ⟨eig, he⟩ := NDT.exists_eig
  obtain ⟨src, b1, -, c1, x, g1, m1⟩ := World.exMap he ⟨0, 0, 0⟩ 0
  obtain ⟨tgt, b2, -, c2, y, g2, m2⟩ := World.exMap he ⟨3, 0, 0⟩ 0
  obtain ⟨m, hm⟩ := configured_exists (limit := 0.6) (by norm_num) (by norm_num)
  obtain ⟨sch, hp⟩ := crossing_plausible hm
  obtain ⟨s, hs, -, -, -, -, hr⟩ := C172_loop_partial he b1 b2 hm (fun z _ => offLayer_zero c1 g1 m1 z)
    (fun z _ => offLayer_zero c2 g2 m2 z) (by rw [g2]; simp) sortTree_ok.1 (by rw [c2]) le_rfl hp.sort hp.schedule
    (fun _ _ _ => none) ⟨false, 1, 1, 1⟩
  obtain ⟨r, -, h, -⟩ := hr 1 Algo.rigid_one
  obtain ⟨envs, hf, r', _, _, h', -⟩ := C172_incremental_partial (b := true) (layers := [((2 : ℝ), Newton.FittingParams.mk' 0.7 2),
    (1, .mk' 0.7 2), (0.5, .mk' 0.7 2), (0.25, .mk' 0.7 2)]) he b2 rfl (fun z _ => offLayer_zero c2 g2 m2 z.1)
    (by rw [g2]; simp) sortTree_ok.1 [(1, 2)] [] (fun _ _ => none) ⟨false, 1, 1, 1⟩ Algo.rigid_one
  exact ⟨eig, he, src, tgt, m, s, b1, b2, by rw [g1]; rfl, by rw [g2]; rfl, hs, ⟨r, h 1⟩, envs, r',
    hf.imp fun _ _ h => h.1, h'⟩

/-- The hypotheses of `C172_false`. -/
example : ∃ eig, NDT.EigOk eig ∧ ∃ (src tgt : Map) (m : Matcher), Built eig true src ∧ Built eig true tgt ∧
    Configured 0.6 m ∧ (∃ size ∈ m.layers.sizes, OffLayer size src) ∧ gaussians src ≠ [] ∧ gaussians tgt = [] ∧
    ∀ p k, sortTree [] p k = .ub .nullDeref := by
  obtain ⟨eig, he⟩ := NDT.exists_eig
  obtain ⟨src, b1, -, c1, x, g1, m1⟩ := World.exMap he ⟨0, 0, 0⟩ 0
  obtain ⟨m, hm⟩ := configured_exists (limit := 0.6) (by norm_num) (by norm_num)
  obtain ⟨z, hz⟩ := List.exists_mem_of_ne_nil m.layers.sizes (by
    intro h
    have := (configured hm).2.2.2.2.2.1
    rw [h] at this
    cases this)
  exact ⟨eig, he, src, NDTGrid.init (cellI eig) 0 0 0 1, m, b1, Built.init 0 0 0 zero_lt_one, hm,
    ⟨z, hz, offLayer_zero c1 g1 m1 z⟩, by rw [g1]; simp, rfl, sortTree_ok.2⟩

end Verif.Match
