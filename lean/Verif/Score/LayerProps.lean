import Verif.Score.Layer
import Verif.World.Examples

/-
C171: the layers of a match.
-/
namespace Verif.Score

open Verif Verif.Voxel Verif.NDTGrid Verif.Newton Matrix
open Verif.World (Map gaussians Built MapInv)

/-- The Gaussians of the map have no mean on a border line of the layer of cell size `size`. -/
def OffLayer (size : ℝ) (n : Map) : Prop := ∀ c ∈ gaussians n, OffLines (max size n.grid.cellSize) (head c.mean)

theorem OffLayer.cells {eig : NDT.Eig} {size : ℝ} {n : Map} (h : OffLayer size n) :
    CellsOffLines (cellI eig) (max size n.grid.cellSize) (gaussians n) := fun c hc _ => h c hc

/-- C171 (layers), off border lines: each map has a layer of each cell size; its Gaussians are Gaussians of the map, at most one in a
square of the layer, and every Gaussian of the map has one in its square, so none further away than the diagonal of a
square. -/
theorem C171_layer_partial {eig : NDT.Eig} (he : NDT.EigOk eig) {b : Bool} {n : Map} (hn : Built eig b n) {size : ℝ}
    (hoff : OffLayer size n) :
    ∃ n', coarser (cellI eig) n size = .ok n' ∧ n'.grid.cellSize = max size n.grid.cellSize ∧
      StandsFor (max size n.grid.cellSize) (gaussians n') (gaussians n) ∧
      ∀ c ∈ gaussians n, ∃ d ∈ gaussians n',
        |c.mean 0 - d.mean 0| ≤ max size n.grid.cellSize ∧ |c.mean 1 - d.mean 1| ≤ max size n.grid.cellSize := by
  have hi := hn.inv he
  have hpos : 0 < max size n.grid.cellSize := lt_of_lt_of_le hi.cs (le_max_right _ _)
  obtain ⟨T, h, -, c, -, -, -, hst⟩ := layer he hi size hoff.cells
  refine ⟨T, h, c, hst, fun x hx => ?_⟩
  obtain ⟨y, hy, e⟩ := hst.2.2 x hx
  have hx' := (squareOf_iff hpos (p := head x.mean) (q := squareOf (max size n.grid.cellSize) (head x.mean))).1 rfl
  have hy' := (squareOf_iff hpos (p := head y.mean) (q := squareOf (max size n.grid.cellSize) (head x.mean))).1 e
  unfold head at hx' hy'
  simp only at hx' hy'
  refine ⟨y, hy, abs_le.2 ⟨?_, ?_⟩, abs_le.2 ⟨?_, ?_⟩⟩ <;> linarith

/-- C171 (distributions), off border lines and for targets with a Gaussian: the score of a layer is computed without
undefined behaviour, it is the sum over the Gaussians of the layer of the source, each scored against the two nearest Gaussians of the
layer of the target, and it lies between zero and `-2 d1` per Gaussian of the source. -/
theorem C171_d2d_partial {eig : NDT.Eig} (he : NDT.EigOk eig) {b b' : Bool} {src tgt : Map} (hs : Built eig b src)
    (ht : Built eig b' tgt) {size : ℝ} (hos : OffLayer size src) (hot : OffLayer size tgt) (hne : gaussians tgt ≠ [])
    {tree : Tree} (htree : TreeOk tree) {o r : ℝ} (ho : 0 < o) (ho1 : o < 1) (hr : 0 < r) (v : Vec) (calcHessian : Bool) :
    ∃ ls lt knn score, d2dLayerScore eig tree src tgt size v (.mk' o r) calcHessian = .ok score ∧
      StandsFor (max size src.grid.cellSize) ls (gaussians src) ∧
      StandsFor (max size tgt.grid.cellSize) lt (gaussians tgt) ∧
      (∀ pos, ∃ l, knn pos = l.map view ∧ NearestOf lt 2 pos l) ∧
      score = d2dScore knn (ls.map view) v (.mk' o r) calcHessian ∧
      0 ≤ score.value ∧ score.value ≤ ls.length * (2 * -(FittingParams.mk' o r).d1) := by
  obtain ⟨S, h1, hiS, -, -, -, -, hS⟩ := layer he (hs.inv he) size hos.cells
  obtain ⟨T, h2, hiT, hT, hq⟩ := target_layer he (ht.inv he) size hot.cells hne htree
  have psd : ∀ {n : Map}, MapInv n → ∀ c ∈ gaussians n, (view c).cov.PosSemidef := by
    intro n hi c hc
    obtain ⟨hc, hg⟩ := List.mem_filter.1 hc
    exact (hi.ginv c hc hg).1.posSemidef
  have near : ∀ pos, ∃ l, answers tree T 2 pos = l.map view ∧ NearestOf (gaussians T) 2 pos l := by
    intro pos
    obtain ⟨l, hl, hn⟩ := hq pos 2
    exact ⟨l, answers_eq hl, hn⟩
  refine ⟨gaussians S, gaussians T, answers tree T 2, _, ?_, hS, hT, near, rfl, ?_⟩
  · unfold d2dLayerScore
    rw [h1, Res.bind_ok, h2, Res.bind_ok]
    unfold d2dCalcScore
    rw [d2dLoopCells_eq fun p => (hq p 2).imp fun _ h => h.1]
    rfl
  · have := C102_d2d ho ho1 hr (answers tree T 2) ((gaussians S).map view) v calcHessian (by
        intro c hc
        obtain ⟨d, hd, rfl⟩ := List.mem_map.1 hc
        exact psd hiS d hd) (by
        intro pos t hmem
        obtain ⟨l, hl, hn⟩ := near pos
        rw [hl] at hmem
        obtain ⟨d, hd, rfl⟩ := List.mem_map.1 hmem
        exact psd hiT d (hn.2.2.1 d hd)) (by
        intro pos
        obtain ⟨l, hl, hn⟩ := near pos
        rw [hl, List.length_map, hn.2.1]
        exact min_le_left _ _)
    rwa [List.length_map] at this

/-- C171 (points), off border lines and for targets with a Gaussian: as above, for the points of the source against the four nearest
Gaussians. -/
theorem C171_points_partial {eig : NDT.Eig} (he : NDT.EigOk eig) {b : Bool} {tgt : Map} (ht : Built eig b tgt) {size : ℝ}
    (hot : OffLayer size tgt) (hne : gaussians tgt ≠ []) {tree : Tree} (htree : TreeOk tree) {o r : ℝ} (ho : 0 < o)
    (ho1 : o < 1) (hr : 0 < r) (source : List (ℝ × ℝ)) (v : Vec) :
    ∃ lt knn score, ndtLayerScore eig tree source tgt size v (.mk' o r) = .ok score ∧
      StandsFor (max size tgt.grid.cellSize) lt (gaussians tgt) ∧
      (∀ pos, ∃ l, knn pos = l.map view ∧ NearestOf lt 4 pos l) ∧
      score = ndtScore knn source v (.mk' o r) ∧
      0 ≤ score.value ∧ score.value ≤ source.length * (4 * -(FittingParams.mk' o r).d1) := by
  obtain ⟨T, h2, hiT, hT, hq⟩ := target_layer he (ht.inv he) size hot.cells hne htree
  have near : ∀ pos, ∃ l, answers tree T 4 pos = l.map view ∧ NearestOf (gaussians T) 4 pos l := by
    intro pos
    obtain ⟨l, hl, hn⟩ := hq pos 4
    exact ⟨l, answers_eq hl, hn⟩
  refine ⟨gaussians T, answers tree T 4, _, ?_, hT, near, rfl, ?_⟩
  · unfold ndtLayerScore
    rw [h2, Res.bind_ok]
    unfold ndtCalcScore
    rw [ndtLoopPoints_eq fun p => (hq p 4).imp fun _ h => h.1]
    rfl
  · refine C102_points ho ho1 hr (answers tree T 4) source v (fun pos t hmem => ?_) fun pos => ?_
    · obtain ⟨l, hl, hn⟩ := near pos
      rw [hl] at hmem
      obtain ⟨d, hd, rfl⟩ := List.mem_map.1 hmem
      obtain ⟨hd, hg⟩ := List.mem_filter.1 (hn.2.2.1 d hd)
      obtain ⟨h1, h2, -⟩ := hiT.ginv d hd hg
      show d.icov.PosSemidef
      rw [h2]
      exact h1.inv.posSemidef
    · obtain ⟨l, hl, hn⟩ := near pos
      rw [hl, List.length_map, hn.2.1]
      exact min_le_left _ _

/-- Negation of C171 for targets without a Gaussian: nothing keeps the matchers from asking the empty search tree, so with
a tree that cannot be asked (as that of PCL) the score of every source with a Gaussian (with a point) is undefined. -/
theorem C171_false {eig : NDT.Eig} (he : NDT.EigOk eig) {b b' : Bool} {src tgt : Map} (hs : Built eig b src)
    (ht : Built eig b' tgt) {size : ℝ} (hos : OffLayer size src) (hns : gaussians src ≠ []) (hnt : gaussians tgt = [])
    {tree : Tree} (htree : ∀ p k, tree [] p k = .ub .nullDeref) (v : Vec) (param : FittingParams) (calcHessian : Bool)
    {source : List (ℝ × ℝ)} (hsource : source ≠ []) :
    d2dLayerScore eig tree src tgt size v param calcHessian = .ub .nullDeref ∧
    ndtLayerScore eig tree source tgt size v param = .ub .nullDeref := by
  obtain ⟨S, h1, -, -, -, -, -, hS⟩ := layer he (hs.inv he) size hos.cells
  obtain ⟨T, h2, -, -, -, -, hm, hT⟩ := layer he (ht.inv he) size (by rw [hnt]; intro c hc; cases hc)
  have hgT : gaussians T = [] := List.eq_nil_iff_forall_not_mem.2 fun c hc => by
    have := hT.1 c hc
    rw [hnt] at this
    cases this
  have hmT : T.means = [] := by rw [hm, hgT]; rfl
  have hub : ∀ p k, nearestCells tree T p k = .ub .nullDeref := by
    intro p k
    unfold nearestCells
    rw [hmT, htree]
    rfl
  constructor
  · unfold d2dLayerScore
    rw [h1, Res.bind_ok, h2, Res.bind_ok]
    unfold d2dCalcScore
    obtain ⟨c, l, e⟩ := List.exists_cons_of_ne_nil (hS.ne_nil hns)
    rw [e]
    simp only [d2dLoopCells]
    rw [hub]
    rfl
  · unfold ndtLayerScore
    rw [h2, Res.bind_ok]
    unfold ndtCalcScore
    obtain ⟨c, l, rfl⟩ := List.exists_cons_of_ne_nil hsource
    simp only [ndtLoopPoints]
    rw [hub]
    rfl

/-! ### The hypotheses can be met -/

open Classical in
/-- A search tree: sort by distance. -/
noncomputable def sortTree : Tree := fun cloud p k =>
  if cloud = [] then .ub .nullDeref else
  .ok (((List.range cloud.length).mergeSort fun i j =>
    decide (away p (cloud.getD i 0) ≤ away p (cloud.getD j 0))).take k)

theorem sortTree_ok : TreeOk sortTree ∧ ∀ p k, sortTree [] p k = .ub .nullDeref := by
  classical
  refine ⟨fun cloud p k hne => ?_, fun p k => by simp [sortTree]⟩
  set le : ℕ → ℕ → Bool := fun i j => decide (away p (cloud.getD i 0) ≤ away p (cloud.getD j 0)) with hle
  set s := (List.range cloud.length).mergeSort le with hs
  have perm : s.Perm (List.range cloud.length) := List.mergeSort_perm _ _
  have sorted : s.Pairwise fun i j => away p (cloud.getD i 0) ≤ away p (cloud.getD j 0) := by
    have := List.pairwise_mergeSort (le := le) (fun a b c h1 h2 => by
      simp only [hle, decide_eq_true_eq] at h1 h2 ⊢
      exact h1.trans h2) (fun a b => by
      simp only [hle, Bool.or_eq_true, decide_eq_true_eq]
      exact le_total _ _) (List.range cloud.length)
    exact this.imp fun h => by simpa [hle] using h
  refine ⟨s.take k, by unfold sortTree; rw [if_neg hne], ?_, ?_, ?_, ?_⟩
  · rw [List.length_take, perm.length_eq, List.length_range]
  · exact (perm.nodup_iff.2 List.nodup_range).sublist (List.take_sublist _ _)
  · intro i hi
    exact List.mem_range.1 (perm.mem_iff.1 (List.mem_of_mem_take hi))
  · intro i hi j hj a c ha hc
    have hj' : j ∈ s := perm.mem_iff.2 (List.mem_range.2 (List.getElem?_eq_some_iff.1 hc).1)
    rw [← List.take_append_drop k s] at hj' sorted
    have hjd : j ∈ s.drop k := (List.mem_append.1 hj').resolve_left hj
    have := (List.pairwise_append.1 sorted).2.2 i hi j hjd
    rwa [List.getD_eq_getElem?_getD, List.getD_eq_getElem?_getD, ha, hc] at this

/-- Maps with a Gaussian and one without; the layer of cells of 2 m, scores with the parameters of the loop matcher. -/
example : ∃ eig, NDT.EigOk eig ∧ ∃ src tgt none : Map, Built eig true src ∧ Built eig true tgt ∧ Built eig true none ∧
    OffLayer 2 src ∧ OffLayer 2 tgt ∧ (gaussians src).length = 1 ∧ gaussians tgt ≠ [] ∧ gaussians none = [] ∧
    (∃ score, d2dLayerScore eig sortTree src tgt 2 ![1, 2, 3] (.mk' 0.55 2) true = .ok score ∧ 0 ≤ score.value) ∧
    d2dLayerScore eig sortTree src none 2 ![1, 2, 3] (.mk' 0.55 2) true = .ub .nullDeref := by
  obtain ⟨eig, he⟩ := NDT.exists_eig
  obtain ⟨src, b1, -, c1, x, g1, m1⟩ := World.exMap he ⟨0, 0, 0⟩ 2
  obtain ⟨tgt, b2, -, c2, y, g2, m2⟩ := World.exMap he ⟨0, 0, 0⟩ 4
  have b3 : Built eig true (init (cellI eig) 0 0 0 1) := Built.init 0 0 0 zero_lt_one
  have g3 : gaussians (init (cellI eig) 0 0 0 1) = [] := rfl
  have off : ∀ m k : ℤ, (2 * (m : ℝ)) ≠ (k + 1 / 2) * max 2 1 := by
    intro m k h
    rw [max_eq_left (by norm_num)] at h
    have : ((2 * m : ℤ) : ℝ) = ((2 * k + 1 : ℤ) : ℝ) := by push_cast; linarith
    have := Int.cast_injective this
    omega
  have o1 : OffLayer 2 src := by
    intro c hc
    rw [g1, List.mem_singleton] at hc
    subst hc
    rw [c1, m1]
    refine ⟨fun k => ?_, fun k => ?_⟩
    · have := off 1 k; simpa [head] using this
    · have := off 0 k; simpa [head] using this
  have o2 : OffLayer 2 tgt := by
    intro c hc
    rw [g2, List.mem_singleton] at hc
    subst hc
    rw [c2, m2]
    refine ⟨fun k => ?_, fun k => ?_⟩
    · have := off 2 k; norm_num at this; simpa [head] using this
    · have := off 0 k; simpa [head] using this
  obtain ⟨_, _, _, score, hsc, -, -, -, -, h0, -⟩ := C171_d2d_partial he b1 b2 o1 o2 (by rw [g2]; simp) sortTree_ok.1
    (o := 0.55) (r := 2) (by norm_num) (by norm_num) (by norm_num) ![1, 2, 3] true
  exact ⟨eig, he, src, tgt, _, b1, b2, b3, o1, o2, by rw [g1]; rfl, by rw [g2]; simp, g3, ⟨score, hsc, h0⟩,
    (C171_false he b1 b3 o1 (by rw [g1]; simp) g3 sortTree_ok.2 _ _ _ (source := [(0, 0)]) (by simp)).1⟩

end Verif.Score
