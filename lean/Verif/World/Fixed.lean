import Verif.World.History
import Verif.World.Examples
import Verif.Cell.MergeAll

/-
C169: merging into a map of fixed size.
-/
namespace Verif.World

open Verif Verif.Voxel Verif.NDTGrid Verif.Geo Matrix

/-! ### Specification -/

/-- Coordinates, with respect to a pose, of a point of the world. -/
noncomputable def fromWorld (p : Pose) (w : ℝ × ℝ) : ℝ × ℝ :=
  (Real.cos p.th * (w.1 - p.x) + Real.sin p.th * (w.2 - p.y), -Real.sin p.th * (w.1 - p.x) + Real.cos p.th * (w.2 - p.y))

theorem toWorld_fromWorld (p : Pose) (w : ℝ × ℝ) : toWorld p (fromWorld p w) = w := by
  have hs := Real.sin_sq_add_cos_sq p.th
  unfold toWorld fromWorld
  ext
  · show p.x + _ = _
    linear_combination (w.1 - p.x) * hs
  · show p.y + _ = _
    linear_combination (w.2 - p.y) * hs

/-- The Gaussians of `g` that lie, in the world, in the square `q` of the map `n`. -/
noncomputable def arriving (n g : Map) (q : ℤ × ℤ) : List NDT.Cell :=
  (gaussians g).filter fun c => decide (squareOf n.grid.cellSize (fromWorld (origin n) (worldPos g c)) = q)

/-- The Gaussian that the map has in the square: none or one. -/
def present (n : Map) (q : ℤ × ℤ) : List NDT.Cell := (content n.grid q).toList.filter fun c => c.gaussian

/-- Sum of the positions, in the world, of all points behind the given Gaussians of the map. -/
noncomputable def momentumIn (n : Map) (l : List NDT.Cell) : ℝ × ℝ := (l.map fun c => (c.points : ℝ) • worldPos n c).sum

/-! ### Lemmas -/

theorem foldl_mergeStep_some (eig : NDT.Eig) : ∀ (l : List NDT.Cell) (c : NDT.Cell),
    l.foldl (mergeStep (cellI eig)) (some c) = some (l.foldl (NDT.merge eig) c) := by
  intro l
  induction l with
  | nil => intro c; rfl
  | cons d l ih => intro c; exact ih _

theorem foldl_mergeStep {eig : NDT.Eig} (old : Option NDT.Cell) {l : List NDT.Cell} (hl : l ≠ [])
    (h : ∀ c ∈ l, c.gaussian = true ∧ 2 < c.points) (ho : ∀ c, old = some c → c.gaussian = true → 2 < c.points) :
    l.foldl (mergeStep (cellI eig)) old =
      some (NDT.merged eig ((old.toList.filter fun c => c.gaussian) ++ l)) := by
  obtain ⟨c, l, rfl⟩ := List.exists_cons_of_ne_nil hl
  obtain ⟨g1, p1⟩ := h c List.mem_cons_self
  have i0 : NDT.merge eig NDT.init c = c := NDT.merge_takeover rfl g1 p1
  unfold NDT.merged
  cases old with
  | none =>
    rw [List.foldl_cons, show mergeStep (cellI eig) none c = some c from rfl, foldl_mergeStep_some]
    simp [i0]
  | some o =>
    rw [List.foldl_cons, show mergeStep (cellI eig) (some o) c = some (NDT.merge eig o c) from rfl, foldl_mergeStep_some]
    cases hg : o.gaussian with
    | false => simp [hg, i0, NDT.merge_takeover hg g1 p1]
    | true => simp [hg, NDT.merge_takeover (eig := eig) (c := NDT.init) rfl hg (ho o rfl hg)]

theorem momentum_world (n : Map) (l : List NDT.Cell) :
    momentumIn n l = (NDT.total l : ℝ) • ((origin n).x, (origin n).y) +
      (Real.cos (origin n).th * NDT.momentum l 0 - Real.sin (origin n).th * NDT.momentum l 1,
        Real.sin (origin n).th * NDT.momentum l 0 + Real.cos (origin n).th * NDT.momentum l 1) := by
  induction l with
  | nil => simp [momentumIn, NDT.total, NDT.momentum]; rfl
  | cons c l ih =>
    unfold momentumIn NDT.total NDT.momentum at ih ⊢
    rw [List.map_cons, List.sum_cons, ih]
    simp only [List.map_cons, List.sum_cons, Nat.cast_add, Pi.add_apply, Pi.smul_apply, smul_eq_mul]
    unfold worldPos toWorld
    ext <;> simp only [Prod.smul_mk, Prod.mk_add_mk, smul_eq_mul] <;> ring

theorem inSquare_arriving {eig : NDT.Eig} (he : NDT.EigOk eig) {n g : Map} (gi : MapInv g) (q : ℤ × ℤ) :
    inSquare (cellI eig) n.grid.cellSize
      (transformCells eig (transBtwFrames (origin g) (origin n)) (getValidCells g.grid)) q =
    (arriving n g q).map (transformCell eig (transBtwFrames (origin g) (origin n))) := by
  unfold inSquare arriving gaussians transformCells
  rw [List.filter_map, List.filter_filter]
  congr 1
  apply List.filter_congr
  intro c hc
  have e : (transformCell eig (transBtwFrames (origin g) (origin n)) c).gaussian = c.gaussian :=
    (transformCell_spec he _ (gi.ginv c hc)).2.1
  show (_ && decide (squareOf _ (head (transformCell eig (transBtwFrames (origin g) (origin n)) c).mean) = q)) = _
  rw [show (cellI eig).gaussian (transformCell eig (transBtwFrames (origin g) (origin n)) c) = c.gaussian from e]
  cases hg : c.gaussian with
  | false => simp
  | true =>
    have := toWorld_inj ((transformCell_place (n := n) he (gi.ginv c hc) hg).trans
      (toWorld_fromWorld (origin n) (worldPos g c)).symm)
    rw [this, Bool.and_comm]

theorem transformed_sums {eig : NDT.Eig} (he : NDT.EigOk eig) {n g : Map} : ∀ (l : List NDT.Cell),
    (∀ c ∈ l, NDT.GInv c ∧ c.gaussian = true) →
    NDT.total (l.map (transformCell eig (transBtwFrames (origin g) (origin n)))) = NDT.total l ∧
    momentumIn n (l.map (transformCell eig (transBtwFrames (origin g) (origin n)))) = momentumIn g l ∧
    NDT.momentum (l.map (transformCell eig (transBtwFrames (origin g) (origin n)))) 2 = NDT.momentum l 2 := by
  intro l
  induction l with
  | nil => intro _; exact ⟨rfl, rfl, rfl⟩
  | cons c l ih =>
    intro h
    obtain ⟨h1, h2, h3⟩ := ih fun d hd => h d (List.mem_cons_of_mem _ hd)
    obtain ⟨hu, hg⟩ := h c List.mem_cons_self
    have w := transformCell_world (n := n) (g := g) he hu hg
    unfold NDT.total at h1 ⊢
    unfold momentumIn at h2 ⊢
    unfold NDT.momentum at h3 ⊢
    simp only [List.map_cons, List.sum_cons, Pi.add_apply, Pi.smul_apply]
    rw [h1, h2, h3, w.points, w.pos, w.height]
    exact ⟨rfl, rfl, rfl⟩

/-! ### C169 -/

/-- C169.  Merging without resizing, if no Gaussian lies exactly on a border of a square: the pose and the extent of the map
stay as they are; squares into which nothing falls keep what they have; a Gaussian that falls alone into a square without one
is taken over; otherwise the Gaussian that is there and the ones that arrive are fused: count, position and height are those
of all their points (below the limit of the count), and the cell is certainly occupied.
Missing: the map that results inside is not the one that merging with resizing gives (`C169_false`). -/
theorem C169_fixed_partial {eig : NDT.Eig} (he : NDT.EigOk eig) {b b' : Bool} {n g : Map} (hn : Built eig b n)
    (hg : Built eig b' g) (hinit : n.initialized = true)
    (hoff : ∀ c ∈ gaussians g, OffLines n.grid.cellSize (fromWorld (origin n) (worldPos g c))) :
    ∃ n', mergeGrid eig n g true false = .ok n' ∧ origin n' = origin n ∧ n'.grid.cellSize = n.grid.cellSize ∧
      (∀ q, InExtent n'.grid q ↔ InExtent n.grid q) ∧
      ∀ q, InExtent n.grid q →
        (arriving n g q = [] → content n'.grid q = content n.grid q) ∧
        (arriving n g q ≠ [] → ∃ c', content n'.grid q = some c' ∧ c'.gaussian = true ∧
          (∀ c, present n q = [] → arriving n g q = [c] → SameInWorld g c n' c' ∧ c'.occ = c.occ) ∧
          (2 ≤ (present n q ++ arriving n g q).length → c'.occ = some 1) ∧
          (NDT.total (present n q ++ arriving n g q) ≤ 1000000000 →
            c'.points = NDT.total (present n q ++ arriving n g q) ∧
            (c'.points : ℝ) • worldPos n' c' = momentumIn n (present n q) + momentumIn g (arriving n g q) ∧
            (c'.points : ℝ) * c'.mean 2 = NDT.momentum (present n q ++ arriving n g q) 2)) := by
  have hi := hn.inv he
  have gi := hg.inv he
  have ar : ∀ q, ∀ c ∈ arriving n g q, NDT.GInv c ∧ c.gaussian = true ∧ Hist eig c := by
    intro q c hc
    obtain ⟨h1, h2⟩ := mem_gaussians.1 (List.mem_filter.1 hc).1
    exact ⟨gi.ginv c h1, h2, (hg.hist he).hist c h1⟩
  obtain ⟨g', h', -, hbox, hcont⟩ := mergeCells_noresize (cellI eig) hi.wf hi.cs
    (transformCells eig (transBtwFrames (origin g) (origin n)) (getValidCells g.grid)) hinit
    (fun x hx hgx _ => by
      obtain ⟨c, hc, rfl⟩ := List.mem_map.1 hx
      have hgc : c.gaussian = true := by
        have := (transformCell_spec he (transBtwFrames (origin g) (origin n)) (gi.ginv c hc)).2.1
        rw [← this]; exact hgx
      have := toWorld_inj ((transformCell_place (n := n) he (gi.ginv c hc) hgc).trans
        (toWorld_fromWorld (origin n) (worldPos g c)).symm)
      have ho := (hoff c (mem_gaussians.2 ⟨hc, hgc⟩)).notOpen (g := n.grid)
      rw [← this] at ho
      exact ho)
  refine ⟨updateMeans (cellI eig) { n with grid := g' }, ?_, rfl, hbox.cs, fun q => ?_, fun q hq => ⟨fun hnil => ?_, fun hne => ?_⟩⟩
  · unfold mergeGrid
    simp only [if_true]
    exact h'
  · show InExtent g' q ↔ _
    exact hbox.inExtent q
  · show content g' q = _
    rw [hcont q, if_pos hq, inSquare_arriving he gi, hnil]
    rfl
  · have hc := hcont q
    rw [if_pos hq, inSquare_arriving he gi] at hc
    obtain ⟨t1, t2, t3⟩ := transformed_sums (n := n) (g := g) he (arriving n g q) fun c hc => ⟨(ar q c hc).1, (ar q c hc).2.1⟩
    have w : ∀ c ∈ arriving n g q, SameInWorld g c n (transformCell eig (transBtwFrames (origin g) (origin n)) c) :=
      fun c hc => transformCell_world he (ar q c hc).1 (ar q c hc).2.1
    have sp : ∀ c ∈ arriving n g q, (transformCell eig (transBtwFrames (origin g) (origin n)) c).gaussian = true ∧
        2 < (transformCell eig (transBtwFrames (origin g) (origin n)) c).points ∧
        (transformCell eig (transBtwFrames (origin g) (origin n)) c).occ = c.occ ∧
        Hist eig (transformCell eig (transBtwFrames (origin g) (origin n)) c) := by
      intro c hc
      obtain ⟨a1, a2, a3⟩ := ar q c hc
      obtain ⟨-, s2, -, s4⟩ := transformCell_spec he (transBtwFrames (origin g) (origin n)) a1
      obtain ⟨-, -, hp, -⟩ := a3.ginv he a2
      exact ⟨s2.trans a2, by rw [(s4 a2).2.2.1]; omega, (s4 a2).2.2.2, hist_transformCell _ a3⟩
    have pr : ∀ c ∈ present n q, c.gaussian = true ∧ Hist eig c := by
      intro c hc
      obtain ⟨h1, h2⟩ := List.mem_filter.1 hc
      exact ⟨h2, (hn.hist he).hist c ((mem_validCells hi.wf c).2 ⟨q, Option.mem_toList.1 h1⟩)⟩
    generalize transBtwFrames (origin g) (origin n) = T at *
    rw [foldl_mergeStep (eig := eig) (content n.grid q) (l := (arriving n g q).map (transformCell eig T))
      (by simpa using hne)
      (fun x hx => by
        obtain ⟨c, hc, rfl⟩ := List.mem_map.1 hx
        exact ⟨(sp c hc).1, (sp c hc).2.1⟩)
      (fun c hc hgc => by
        have := (hn.hist he).hist c ((mem_validCells hi.wf c).2 ⟨q, hc⟩)
        obtain ⟨-, -, hp, -⟩ := this.ginv he hgc
        omega)] at hc
    change content g' q = some (NDT.merged eig (present n q ++ (arriving n g q).map (transformCell eig T))) at hc
    have hall : ∀ x ∈ present n q ++ (arriving n g q).map (transformCell eig T), x.gaussian = true ∧ Hist eig x := by
      intro x hx
      rcases List.mem_append.1 hx with hx | hx
      · exact pr x hx
      · obtain ⟨c, hc, rfl⟩ := List.mem_map.1 hx
        exact ⟨(sp c hc).1, (sp c hc).2.2.2⟩
    have inv := NDT.merged_inv he _ fun x hx => (hall x hx).2
    have hocc : NDT.occupied (present n q ++ (arriving n g q).map (transformCell eig T)) =
        present n q ++ (arriving n g q).map (transformCell eig T) :=
      List.filter_eq_self.2 fun x hx => (hall x hx).1
    have htot : NDT.total (present n q ++ (arriving n g q).map (transformCell eig T)) =
        NDT.total (present n q ++ arriving n g q) := by
      unfold NDT.total at t1 ⊢
      rw [List.map_append, List.sum_append, t1, List.map_append, List.sum_append]
    have hmom : ∀ a b : List NDT.Cell, NDT.momentum (a ++ b) = NDT.momentum a + NDT.momentum b := by
      intro a b
      unfold NDT.momentum
      rw [List.map_append, List.sum_append]
    obtain ⟨i1, i2, i3, i4, i5, i6⟩ := inv
    rw [hocc] at i2 i3 i4 i5 i6
    have hne' : present n q ++ (arriving n g q).map (transformCell eig T) ≠ [] := by simp [hne]
    refine ⟨_, hc, i4 hne', fun c hp ha => ?_, fun h2 => i5 (by simpa using h2), fun ht => ?_⟩
    · have e := i3 (transformCell eig T c) (by rw [hp, ha]; rfl)
      have hm : c ∈ arriving n g q := by rw [ha]; exact List.mem_singleton_self c
      rw [e]
      exact ⟨(w c hm).trans (SameInWorld.of_eq rfl rfl rfl rfl), (sp c hm).2.2.1⟩
    · obtain ⟨p1, p2⟩ := i6 hne' (by rw [htot]; exact ht)
      refine ⟨p1.trans htot, ?_, ?_⟩
      · show _ • worldPos n _ = _
        generalize NDT.merged eig (present n q ++ (arriving n g q).map (transformCell eig T)) = c' at *
        have m1 := momentum_world n [c']
        have m2 := momentum_world n (present n q ++ (arriving n g q).map (transformCell eig T))
        have e1 : NDT.total [c'] = c'.points := by simp [NDT.total]
        have e2 : NDT.momentum [c'] = (c'.points : ℝ) • c'.mean := by simp [NDT.momentum]
        rw [e1, e2, p2, p1, ← m2] at m1
        have e3 : momentumIn n [c'] = (c'.points : ℝ) • worldPos n c' := by simp [momentumIn]
        rw [← e3, m1, ← t2]
        unfold momentumIn
        rw [List.map_append, List.sum_append]
      · have := congrFun p2 2
        rw [hmom, Pi.add_apply, t3, ← Pi.add_apply, ← hmom] at this
        exact this

theorem mergeCells_initialized {I : CellI ℝ NDT.Cell} {n n' : Map} {l : List NDT.Cell}
    (h : mergeCells I n l true = .ok n') : n'.initialized = true := by
  unfold mergeCells at h
  rw [if_pos (by simp)] at h
  simp only at h
  obtain ⟨_, -, h⟩ := Res.bind_eq_ok.1 h
  obtain ⟨_, -, h⟩ := Res.bind_eq_ok.1 h
  cases h
  rfl

/-- A map at any pose with a Gaussian of 400 points at its centre. -/
theorem exMap400 {eig : NDT.Eig} (he : NDT.EigOk eig) (p : Pose) :
    ∃ n, Built eig true n ∧ origin n = p ∧ n.grid.cellSize = 1 ∧ n.initialized = true ∧
      ∃ c, gaussians n = [c] ∧ c.mean = ![0, 0, 0] ∧ c.points = 400 ∧ content n.grid (0, 0) = some c := by
  set n0 := setOrigin (NDTGrid.init (cellI eig) 0 0 0 1) p with hn0
  have b0 : Built eig true n0 := Built.setOrigin p (Built.init 0 0 0 zero_lt_one)
  obtain ⟨n', h'⟩ := C74_scan_total_partial (cell_scan he) (n := n0) (init_wf (cellI eig) 0 0 0 1) zero_lt_one
    (exScan_off 0)
  have hi : initializeSimple eig n0 (exScan 0) = .ok n' := by rw [initializeSimple_eq]; exact h'
  have hlen : (exScan 0).length = 400 := List.length_replicate
  have hm := (exScan_mean he 0).2
  have hp := ((cellOf_real he (exScan 0)).2 (by rw [hlen]; norm_num)).2
  refine ⟨n', Built.initializeSimple _ b0 hi, ?_, ?_, ?_, _,
    exScan_binned he 0 (n := n0) (init_wf (cellI eig) 0 0 0 1) rfl false h', ?_, hp.trans hlen, ?_⟩
  · unfold initScan at h'
    obtain ⟨g, -, h'⟩ := Res.bind_eq_ok.1 h'
    simp only [Bool.false_eq_true, if_false] at h'
    obtain ⟨a1, a2, a3, -⟩ := mergeCells_frame (clearGrid_inv (b0.inv he)).wf (clearGrid_inv (b0.inv he)).cs h'
    exact origin_eq a1 a2 a3
  · exact (C74_scan_binning_partial (cell_lawful eig) (cell_scan he) (n := n0) (init_wf (cellI eig) 0 0 0 1)
      zero_lt_one (exScan_off 0) false h').2.1
  · unfold initScan at h'
    obtain ⟨g, -, h'⟩ := Res.bind_eq_ok.1 h'
    simp only [Bool.false_eq_true, if_false] at h'
    exact mergeCells_initialized h'
  · rw [hm]; norm_num
  · obtain ⟨-, -, hc⟩ := C74_scan_binning_partial (cell_lawful eig) (cell_scan he) (n := n0)
      (init_wf (cellI eig) 0 0 0 1) zero_lt_one (exScan_off 0) false h'
    have hall : (exScan 0).filter (fun p => squareOf n0.grid.cellSize (head p) = (0, 0)) = exScan 0 := by
      rw [List.filter_eq_self]
      intro p hp
      have := exScan_square 0 p hp
      rw [show n0.grid.cellSize = 1 from rfl, this]
      simp
    have := (hc (0, 0) _).2 ⟨rfl, by rw [hall]; exact (exScan_mean he 0).1⟩
    rw [hall] at this
    exact this.1

/-- The map of `exMap400` merged into a map with the same content at the same pose. -/
theorem exTwice {eig : NDT.Eig} (he : NDT.EigOk eig) (p : Pose) : ∃ n c, Built eig true n ∧ origin n = p ∧
    n.initialized = true ∧ gaussians n = [c] ∧ c.points = 400 ∧ InExtent n.grid (0, 0) ∧
    arriving n n (0, 0) = [c] ∧ present n (0, 0) = [c] ∧
    (∀ c ∈ gaussians n, OffLines n.grid.cellSize (fromWorld (origin n) (worldPos n c))) := by
  obtain ⟨n, bn, on, cn, hin, c, hc, hm, hp, h0⟩ := exMap400 he p
  have hpl : fromWorld (origin n) (worldPos n c) = (0, 0) := by
    have := toWorld_inj (toWorld_fromWorld (origin n) (worldPos n c))
    rw [this, hm]; rfl
  have hsq : squareOf (1 : ℝ) ((0 : ℝ), (0 : ℝ)) = (0, 0) := by
    unfold squareOf
    ext
    · simp only [zero_div]
      rw [Int.floor_eq_iff]
      constructor <;> norm_num
    · simp only [zero_div]
      rw [Int.ceil_eq_iff]
      constructor <;> norm_num
  have hg : c.gaussian = true := (mem_gaussians.1 (by rw [hc]; exact List.mem_singleton_self c)).2
  refine ⟨n, c, bn, on, hin, hc, hp, ?_, ?_, ?_, fun d hd => ?_⟩
  · by_contra hn
    rw [content_of_not_in hn] at h0
    cases h0
  · unfold arriving
    rw [hc, cn]
    simp [hpl, hsq]
  · unfold present
    rw [h0]
    simp [hg]
  · rw [hc, List.mem_singleton] at hd
    rw [hd, hpl, cn]
    exact_mod_cast off_zero ((0 : ℤ) : ℝ) (off_int 0)

/-- C169 fails: merging a map with one Gaussian into a map that has the same one, at any pose, gives one with 400 points if
the map may grow (it does not need to), and one with 800 points and certain occupancy if it may not. -/
theorem C169_false {eig : NDT.Eig} (he : NDT.EigOk eig) (p : Pose) : ∃ n a b, Built eig true n ∧ origin n = p ∧
    n.initialized = true ∧ mergeGrid eig n n true true = .ok a ∧ mergeGrid eig n n true false = .ok b ∧
    ∃ c d, content a.grid (0, 0) = some c ∧ content b.grid (0, 0) = some d ∧ c.points = 400 ∧ d.points = 800 ∧
      d.occ = some 1 := by
  obtain ⟨n, c, bn, on, hin, hc, hp, h0, ha, hpr, hoff⟩ := exTwice he p
  obtain ⟨n', h', -, -, -, hq⟩ := C169_fixed_partial he bn bn hin hoff
  obtain ⟨d, hd, -, -, d2, d3⟩ := (hq (0, 0) h0).2 (by rw [ha]; simp)
  have htot : NDT.total (present n (0, 0) ++ arriving n n (0, 0)) = 800 := by
    rw [ha, hpr]; simp [NDT.total, hp]
  have hoff' : ∀ c ∈ gaussians n, ∀ p, toWorld (origin n) p = worldPos n c → OffLines n.grid.cellSize p := by
    intro c hc p hp
    have := toWorld_inj (hp.trans (toWorld_fromWorld (origin n) (worldPos n c)).symm)
    rw [this]
    exact hoff c hc
  obtain ⟨a, hma⟩ := C112_merge_partial he bn bn true hoff'
  have hcm : c ∈ arriving n n (0, 0) := by rw [ha]; exact List.mem_singleton_self c
  obtain ⟨c', c'', hc', -, hm, hs, -⟩ := (C104_complete he bn bn (Or.inl rfl) hoff' hma (0, 0)).1
    ⟨c, (List.mem_filter.1 hcm).1, _, toWorld_fromWorld _ _, by simpa using (List.mem_filter.1 hcm).2⟩
  rw [hc, List.mem_singleton] at hm
  subst hm
  exact ⟨n, a, n', bn, on, hin, hma, h', c', d, hc', hd, hs.points.trans hp,
    (d3 (by rw [htot]; norm_num)).1.trans htot, d2 (by rw [ha, hpr]; simp)⟩

/-- C104 fails without resizing: the result of the merge has a Gaussian which neither of the two maps has. -/
theorem C104_false {eig : NDT.Eig} (he : NDT.EigOk eig) (p : Pose) : ∃ n g n', Built eig true n ∧ Built eig true g ∧
    origin n = p ∧ mergeGrid eig n g true false = .ok n' ∧ ∃ c' ∈ gaussians n',
      (∀ c ∈ gaussians n, ¬ SameInWorld n c n' c') ∧ ∀ c ∈ gaussians g, ¬ SameInWorld g c n' c' := by
  obtain ⟨n, c, bn, on, hin, hc, hp, h0, ha, hpr, hoff⟩ := exTwice he p
  obtain ⟨n', h', -, -, -, hq⟩ := C169_fixed_partial he bn bn hin hoff
  obtain ⟨d, hd, dg, -, -, d3⟩ := (hq (0, 0) h0).2 (by rw [ha]; simp)
  have htot : NDT.total (present n (0, 0) ++ arriving n n (0, 0)) = 800 := by
    rw [ha, hpr]; simp [NDT.total, hp]
  have hdp : d.points = 800 := (d3 (by rw [htot]; norm_num)).1.trans htot
  have hno : ∀ c ∈ gaussians n, ¬ SameInWorld n c n' d := by
    intro x hx hs
    rw [hc, List.mem_singleton] at hx
    have := hs.points
    rw [hdp, hx, hp] at this
    omega
  have b' : Built eig true n' := .mergeGrid true false bn bn h'
  exact ⟨n, n, n', bn, bn, on, h', d, mem_gaussians.2 ⟨(mem_validCells (b'.inv he).wf d).2 ⟨_, hd⟩, dg⟩, hno, hno⟩

/-- The hypotheses of `C169_fixed_partial` are met, with a Gaussian present and one arriving in the same square. -/
example {eig : NDT.Eig} (he : NDT.EigOk eig) (p : Pose) : ∃ n g, Built eig true n ∧ Built eig true g ∧ origin n = p ∧
    n.initialized = true ∧ (∀ c ∈ gaussians g, OffLines n.grid.cellSize (fromWorld (origin n) (worldPos g c))) ∧
    InExtent n.grid (0, 0) ∧ arriving n g (0, 0) ≠ [] ∧ present n (0, 0) ≠ [] ∧
    NDT.total (present n (0, 0) ++ arriving n g (0, 0)) ≤ 1000000000 := by
  obtain ⟨n, c, bn, on, hin, -, hp, h0, ha, hpr, hoff⟩ := exTwice he p
  exact ⟨n, n, bn, bn, on, hin, hoff, h0, by rw [ha]; simp, by rw [hpr]; simp, by
    rw [ha, hpr]; simp [NDT.total, hp]⟩

end Verif.World
