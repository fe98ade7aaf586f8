import Verif.NDTGrid.RayProps
import Verif.World.Examples

/-
Property C135 for maps of `NDTCell`s with poses: what merging a map with ray tracing does to the space between
the origin of the merged map (the robot) and its Gaussians (what the robot saw).
-/
namespace Verif.World

open Verif Verif.Voxel Verif.NDTGrid Verif.Geo

/-- Square `q` of map `n` is on the line of sight from the origin of `g` to the Gaussian `c` of `g`: it holds one
of the points of the line, spaced by half a cell, that are at least one cell short of the Gaussian and inside the
outline of `n`. -/
def InSight (n g : Map) (c : NDT.Cell) (q : ℤ × ℤ) : Prop :=
  ∃ s p, toWorld (origin n) s = (g.ox, g.oy) ∧ toWorld (origin n) p = worldPos g c ∧ Swept n.grid s p q

/-- A cell after one free-space update for each of the Gaussians `rays`: -0.2 per point. -/
noncomputable def freed (c : NDT.Cell) (rays : List NDT.Cell) : NDT.Cell :=
  { c with occ := rays.foldl (fun x r => NDT.addOcc x (some (-0.2 * r.points))) c.occ }

theorem freed_cons (c r : NDT.Cell) (rays : List NDT.Cell) :
    freed c (r :: rays) = freed (freed c [r]) rays := rfl

theorem freed_points (c : NDT.Cell) {l l' : List NDT.Cell} (h : l.map NDT.Cell.points = l'.map NDT.Cell.points) :
    freed c l = freed c l' := by
  have key : ∀ (l : List NDT.Cell) x, l.foldl (fun x r => NDT.addOcc x (some (-0.2 * (r.points : ℝ)))) x
      = (l.map NDT.Cell.points).foldl (fun x (k : ℕ) => NDT.addOcc x (some (-0.2 * (k : ℝ)))) x := by
    intro l x
    rw [List.foldl_map]
  unfold freed
  rw [key, key, h]

/-- Where the origin of `g` is in the frame of `n`. -/
theorem start_world (n g : Map) :
    toWorld (origin n) (act (transBtwFrames (origin g) (origin n)) (0, 0)) = (g.ox, g.oy) := by
  rw [(C78_frames (origin g) (origin n) (origin n)).1]
  unfold toWorld origin
  ext <;> simp

theorem inSight_iff {eig : NDT.Eig} (he : NDT.EigOk eig) {n g : Map} {c : NDT.Cell} (hu : NDT.GInv c)
    (hg : c.gaussian = true) (q : ℤ × ℤ) :
    Swept n.grid (act (transBtwFrames (origin g) (origin n)) (0, 0))
      (head (transformCell eig (transBtwFrames (origin g) (origin n)) c).mean) q ↔ InSight n g c q := by
  constructor
  · intro h
    exact ⟨_, _, start_world n g, transformCell_place he hu hg, h⟩
  · rintro ⟨s, p, hs, hp, h⟩
    rw [toWorld_inj (hs.trans (start_world n g).symm), toWorld_inj (hp.trans (transformCell_place he hu hg).symm)] at h
    exact h

theorem merge_data {eig : NDT.Eig} (he : NDT.EigOk eig) {n g : Map} (gi : MapInv g)
    (hoff : ∀ c ∈ gaussians g, ∀ p, toWorld (origin n) p = worldPos g c → OffLines n.grid.cellSize p)
    (hs : ∀ s, toWorld (origin n) s = (g.ox, g.oy) → OffLines n.grid.cellSize s ∧
      ∀ c ∈ gaussians g, ∀ p, toWorld (origin n) p = worldPos g c → RayLength n.grid.cellSize s p) :
    CellsOffLines (cellI eig) n.grid.cellSize
      (transformCells eig (transBtwFrames (origin g) (origin n)) (getValidCells g.grid)) ∧
    RaysOk (cellI eig) n.grid (act (transBtwFrames (origin g) (origin n)) (0, 0))
      (transformCells eig (transBtwFrames (origin g) (origin n)) (getValidCells g.grid)) := by
  obtain ⟨h1, h2⟩ := hs _ (start_world n g)
  constructor
  · intro c' hc' hgc
    obtain ⟨c, hc, rfl⟩ := List.mem_map.1 hc'
    rw [show (cellI eig).gaussian _ = _ from (transformCell_spec he _ (gi.ginv c hc)).2.1] at hgc
    exact hoff c (mem_gaussians.2 ⟨hc, hgc⟩) _ (transformCell_place he (gi.ginv c hc) hgc)
  · intro _
    refine ⟨OffLines.notEdge h1, fun c' hc' hgc => ?_⟩
    obtain ⟨c, hc, rfl⟩ := List.mem_map.1 hc'
    rw [show (cellI eig).gaussian _ = _ from (transformCell_spec he _ (gi.ginv c hc)).2.1] at hgc
    exact h2 c (mem_gaussians.2 ⟨hc, hgc⟩) _ (transformCell_place he (gi.ginv c hc) hgc)

/-- C135: a square of the map that is neither the square of one of the merged Gaussians nor on the straight line
from the origin of the merged map to one of them (before the square of that Gaussian) is left as it was. -/
theorem C135_only_between_partial {eig : NDT.Eig} (he : NDT.EigOk eig) {b b' : Bool} {n g n' : Map}
    (hn : Built eig b n) (hg : Built eig b' g) {resize : Bool}
    (hoff : ∀ c ∈ gaussians g, ∀ p, toWorld (origin n) p = worldPos g c → OffLines n.grid.cellSize p)
    (hs : ∀ s, toWorld (origin n) s = (g.ox, g.oy) → OffLines n.grid.cellSize s ∧
      ∀ c ∈ gaussians g, ∀ p, toWorld (origin n) p = worldPos g c → RayLength n.grid.cellSize s p)
    (h : mergeGridTraced eig n g true resize = .ok n') (q : ℤ × ℤ) :
    content n'.grid q = content n.grid q ∨
    (∃ c ∈ gaussians g, ∃ p, toWorld (origin n) p = worldPos g c ∧ squareOf n.grid.cellSize p = q) ∨
    ∃ c ∈ gaussians g, ∃ s p t, toWorld (origin n) s = (g.ox, g.oy) ∧ toWorld (origin n) p = worldPos g c ∧
      0 ≤ t ∧ t < 1 ∧ squareOf n.grid.cellSize (between s p t) = q ∧ squareOf n.grid.cellSize p ≠ q := by
  have hi := hn.inv he
  have gi := hg.inv he
  obtain ⟨d1, d2⟩ := merge_data he gi hoff hs
  by_cases hrec : ∃ c ∈ gaussians g, ∃ p, toWorld (origin n) p = worldPos g c ∧ squareOf n.grid.cellSize p = q
  · exact Or.inr (Or.inl hrec)
  unfold mergeGridTraced at h
  simp only [if_true] at h
  have hq : ∀ c ∈ transformCells eig (transBtwFrames (origin g) (origin n)) (getValidCells g.grid),
      (cellI eig).gaussian c = true → squareOfMean (cellI eig) n.grid.cellSize c ≠ q := by
    intro c' hc' hgc he'
    obtain ⟨c, hc, rfl⟩ := List.mem_map.1 hc'
    rw [show (cellI eig).gaussian _ = _ from (transformCell_spec he _ (gi.ginv c hc)).2.1] at hgc
    exact hrec ⟨c, mem_gaussians.2 ⟨hc, hgc⟩, _, transformCell_place he (gi.ginv c hc) hgc, he'⟩
  rcases (C135_merge_partial (cell_lawful eig) hi.wf hi.cs d1 d2 h q hq).2 with h0 | ⟨c', hc', hgc, t, t0, t1, ht⟩
  · exact Or.inl h0
  · right; right
    have hne := hq c' hc' hgc
    obtain ⟨c, hc, rfl⟩ := List.mem_map.1 hc'
    rw [show (cellI eig).gaussian _ = _ from (transformCell_spec he _ (gi.ginv c hc)).2.1] at hgc
    exact ⟨c, mem_gaussians.2 ⟨hc, hgc⟩, _, _, t, start_world n g, transformCell_place he (gi.ginv c hc) hgc, t0, t1,
      ht, hne⟩

open Classical in
/-- What a list of rays does to a square without a Gaussian. -/
theorem cleared_free {eig : NDT.Eig} {g : Grid ℝ NDT.Cell} {s : NDT.Vec} {q : ℤ × ℤ} :
    ∀ (cells : List NDT.Cell) (o : Option NDT.Cell), (o.getD NDT.init).gaussian = false →
      cleared (cellI eig) g s q o cells =
        .ok (if (cells.filter fun c => c.gaussian && decide (Swept g (head s) (head c.mean) q)) = [] then o
          else some (freed (o.getD NDT.init)
            (cells.filter fun c => c.gaussian && decide (Swept g (head s) (head c.mean) q)))) := by
  intro cells
  induction cells with
  | nil => intro o _; simp [cleared]
  | cons c cells ih =>
    intro o ho
    unfold cleared
    by_cases hc : c.gaussian = true ∧ Swept g (head s) (head c.mean) q
    · rw [if_pos (by exact hc)]
      have hray : (cellI eig).ray (o.getD (cellI eig).default) s ((cellI eig).mean c) ((cellI eig).points c) =
          .ok (freed (o.getD NDT.init) [c]) := by
        change NDT.rayUpdate (o.getD NDT.init) s c.mean c.points = _
        unfold NDT.rayUpdate
        rw [if_pos ho]
        rfl
      rw [hray, Res.bind_ok, ih _ (by exact ho)]
      rw [List.filter_cons_of_pos (by simp [hc.1, hc.2])]
      rw [if_neg (List.cons_ne_nil _ _), freed_cons]
      split_ifs with hf
      · rw [hf]; rfl
      · rfl
    · rw [if_neg (by exact hc), ih _ ho]
      rw [List.filter_cons_of_neg (by simpa using hc)]

open Classical in
/-- C135, free space: a square without a Gaussian, that receives none, gets for every merged Gaussian that has it
on its line of sight exactly one free-space update (-0.2 per point of the Gaussian); without any such line it
stays as it was. -/
theorem C135_free_partial {eig : NDT.Eig} (he : NDT.EigOk eig) {b b' : Bool} {n g n' : Map}
    (hn : Built eig b n) (hg : Built eig b' g) {resize : Bool}
    (hoff : ∀ c ∈ gaussians g, ∀ p, toWorld (origin n) p = worldPos g c → OffLines n.grid.cellSize p)
    (hs : ∀ s, toWorld (origin n) s = (g.ox, g.oy) → OffLines n.grid.cellSize s ∧
      ∀ c ∈ gaussians g, ∀ p, toWorld (origin n) p = worldPos g c → RayLength n.grid.cellSize s p)
    (h : mergeGridTraced eig n g true resize = .ok n') (q : ℤ × ℤ)
    (hq : ∀ c ∈ gaussians g, ∀ p, toWorld (origin n) p = worldPos g c → squareOf n.grid.cellSize p ≠ q)
    (hfree : ((content n.grid q).getD NDT.init).gaussian = false) :
    ((∀ c ∈ gaussians g, ¬ InSight n g c q) → content n'.grid q = content n.grid q) ∧
    ((∃ c ∈ gaussians g, InSight n g c q) → content n'.grid q =
      some (freed ((content n.grid q).getD NDT.init) ((gaussians g).filter fun c => decide (InSight n g c q)))) := by
  have hi := hn.inv he
  have gi := hg.inv he
  obtain ⟨d1, d2⟩ := merge_data he gi hoff hs
  unfold mergeGridTraced at h
  simp only [if_true] at h
  have hq' : ∀ c ∈ transformCells eig (transBtwFrames (origin g) (origin n)) (getValidCells g.grid),
      (cellI eig).gaussian c = true → squareOfMean (cellI eig) n.grid.cellSize c ≠ q := by
    intro c' hc' hgc he'
    obtain ⟨c, hc, rfl⟩ := List.mem_map.1 hc'
    rw [show (cellI eig).gaussian _ = _ from (transformCell_spec he _ (gi.ginv c hc)).2.1] at hgc
    exact hq c (mem_gaussians.2 ⟨hc, hgc⟩) _ (transformCell_place he (gi.ginv c hc) hgc) he'
  set tr := transBtwFrames (origin g) (origin n) with htr
  have hmain : cleared (cellI eig) n.grid ![(act tr (0, 0)).1, (act tr (0, 0)).2, 0] q (content n.grid q)
      (transformCells eig tr (getValidCells g.grid)) = .ok (content n'.grid q) :=
    (C135_merge_partial (cell_lawful eig) hi.wf hi.cs d1 d2 h q hq').1
  rw [cleared_free _ _ hfree] at hmain
  have hmain := Res.ok.inj hmain
  have hlist : (transformCells eig tr (getValidCells g.grid)).filter
        (fun c => c.gaussian && decide (Swept n.grid (head ![(act tr (0, 0)).1, (act tr (0, 0)).2, 0]) (head c.mean) q))
      = ((gaussians g).filter fun c => decide (InSight n g c q)).map (transformCell eig tr) := by
    unfold transformCells gaussians
    rw [List.filter_filter, List.filter_map]
    congr 1
    apply List.filter_congr
    intro c hc
    have e1 := (transformCell_spec he tr (gi.ginv c hc)).2.1
    simp only [Function.comp]
    rw [e1, Bool.and_comm]
    cases hgc : c.gaussian with
    | false => simp
    | true =>
      congr 1
      have := inSight_iff (n := n) (g := g) he (gi.ginv c hc) hgc q
      exact decide_eq_decide.2 this
  have hpts : freed ((content n.grid q).getD NDT.init)
      (((gaussians g).filter fun c => decide (InSight n g c q)).map (transformCell eig tr)) =
      freed ((content n.grid q).getD NDT.init) ((gaussians g).filter fun c => decide (InSight n g c q)) := by
    apply freed_points
    rw [List.map_map]
    apply List.map_congr_left
    intro c hc
    obtain ⟨h1, h2⟩ := mem_gaussians.1 (List.mem_of_mem_filter hc)
    exact ((transformCell_spec he tr (gi.ginv c h1)).2.2.2 h2).2.2.1
  rw [hlist] at hmain
  rw [hpts] at hmain
  constructor
  · intro hno
    rw [if_pos] at hmain
    · exact hmain.symm
    · rw [List.map_eq_nil_iff, List.filter_eq_nil_iff]
      intro c hc
      simpa using hno c hc
  · rintro ⟨c, hc, hsee⟩
    rw [if_neg] at hmain
    · exact hmain.symm
    · rw [List.map_eq_nil_iff, List.filter_eq_nil_iff]
      intro hall
      exact hall c hc (by simpa using hsee)

/-- A new map and a merged map at the same place with one Gaussian three cells away: the hypotheses hold,
and the square of the robot is on the line of sight. -/
theorem exSight {eig : NDT.Eig} (he : NDT.EigOk eig) : ∃ n g n', Built eig true n ∧ Built eig true g ∧
    (∀ c ∈ gaussians g, ∀ p, toWorld (origin n) p = worldPos g c → OffLines n.grid.cellSize p) ∧
    (∀ s, toWorld (origin n) s = (g.ox, g.oy) → OffLines n.grid.cellSize s ∧
      ∀ c ∈ gaussians g, ∀ p, toWorld (origin n) p = worldPos g c → RayLength n.grid.cellSize s p) ∧
    mergeGridTraced eig n g true true = .ok n' ∧
    (∀ c ∈ gaussians g, ∀ p, toWorld (origin n) p = worldPos g c → squareOf n.grid.cellSize p ≠ (0, 0)) ∧
    content n.grid (0, 0) = some NDT.init ∧ ∃ c ∈ gaussians g, InSight n g c (0, 0) := by
  obtain ⟨g, bg, og, cg, d, hd, hm⟩ := exMap he ⟨0, 0, 0⟩ 3
  set n : Map := NDTGrid.init (cellI eig) 0 0 0 1 with hn
  have bn : Built eig true n := Built.init 0 0 0 zero_lt_one
  have on : origin n = ⟨0, 0, 0⟩ := rfl
  have cn : n.grid.cellSize = 1 := rfl
  have hw : worldPos g d = (3, 0) := by
    unfold worldPos
    rw [og, hm, toWorld_zero]
    simp
  have hgo : (g.ox, g.oy) = ((0 : ℝ), (0 : ℝ)) := by
    have h1 : g.ox = 0 := congrArg Slam.Pose.x og
    have h2 : g.oy = 0 := congrArg Slam.Pose.y og
    rw [h1, h2]
  have hoff3 : OffLines (1 : ℝ) (3, 0) := by
    have := off_zero ((3 : ℤ) : ℝ) (off_int 3)
    simpa using this
  have hoff0 : OffLines (1 : ℝ) (0, 0) := by
    have := off_zero ((0 : ℤ) : ℝ) (off_int 0)
    simpa using this
  have hoff : ∀ c ∈ gaussians g, ∀ p, toWorld (origin n) p = worldPos g c → OffLines n.grid.cellSize p := by
    intro c hc p hp
    rw [hd, List.mem_singleton] at hc
    subst hc
    rw [on, toWorld_zero, hw] at hp
    rw [hp, cn]
    exact hoff3
  have hs : ∀ s, toWorld (origin n) s = (g.ox, g.oy) → OffLines n.grid.cellSize s ∧
      ∀ c ∈ gaussians g, ∀ p, toWorld (origin n) p = worldPos g c → RayLength n.grid.cellSize s p := by
    intro s hs
    rw [on, toWorld_zero, hgo] at hs
    subst hs
    refine ⟨by rw [cn]; exact hoff0, fun c hc p hp => ?_⟩
    rw [hd, List.mem_singleton] at hc
    subst hc
    rw [on, toWorld_zero, hw] at hp
    subst hp
    rw [cn]
    unfold RayLength
    constructor <;> norm_num
  obtain ⟨n', h'⟩ := C112_merge_traced_partial he bn bg true hoff hs
  refine ⟨n, g, n', bn, bg, hoff, hs, h', ?_, ?_, d, by rw [hd]; simp, (0, 0), (3, 0), ?_, ?_, ?_⟩
  · intro c hc p hp
    rw [hd, List.mem_singleton] at hc
    subst hc
    rw [on, toWorld_zero, hw] at hp
    subst hp
    rw [cn]
    unfold squareOf
    intro h
    have h1 := congrArg Prod.fst h
    simp only at h1
    rw [Int.floor_eq_iff] at h1
    norm_num at h1
  · exact (init_content (cellI eig) 0 0 0 1 (0, 0)).trans (if_pos rfl)
  · rw [on, toWorld_zero, hgo]
  · rw [on, toWorld_zero, hw]
  · have hsq : squareOf (1 : ℝ) (0, 0) = (0, 0) := by
      unfold squareOf
      ext
      · simp only; rw [Int.floor_eq_iff]; norm_num
      · simp only; rw [Int.ceil_eq_iff]; norm_num
    refine ⟨?_, 0, ?_, Or.inl rfl, ?_⟩
    · rw [cn, hsq]
      unfold InExtent
      simp only
      omega
    · rw [cn]
      have : (1 : ℤ) ≤ ⌊cellsBetween (1 : ℝ) (0, 0) (3, 0)⌋ := by
        rw [Int.le_floor]
        unfold cellsBetween
        norm_num
      have h2 : (1 : ℝ) ≤ ⌊cellsBetween (1 : ℝ) (0, 0) (3, 0)⌋ := by exact_mod_cast this
      simp only [Nat.cast_zero, zero_div]
      linarith
    · rw [cn]
      unfold halfStep
      simp only [Nat.cast_zero, zero_div, zero_mul, add_zero]
      exact hsq

/-- The cell in which the robot stands is updated. -/
example : ∃ eig, NDT.EigOk eig ∧ ∃ n g n' rays, Built eig true n ∧ Built eig true g ∧ rays ≠ [] ∧
    mergeGridTraced eig n g true true = .ok n' ∧ content n.grid (0, 0) = some NDT.init ∧
    content n'.grid (0, 0) = some (freed NDT.init rays) := by
  obtain ⟨eig, he⟩ := NDT.exists_eig
  obtain ⟨n, g, n', bn, bg, hoff, hs, h, hq, hf, c, hc, hsee⟩ := exSight he
  have h1 := (C135_free_partial he bn bg hoff hs h (0, 0) hq (by rw [hf]; rfl)).2 ⟨c, hc, hsee⟩
  rw [hf] at h1
  refine ⟨eig, he, n, g, n', _, bn, bg, ?_, h, hf, h1⟩
  rw [Ne, List.filter_eq_nil_iff]
  intro hall
  exact hall c hc (by simpa using hsee)

end Verif.World
