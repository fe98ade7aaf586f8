import Verif.Score.Props
import Verif.World.Merge
import Verif.NDTGrid.Nan

/-
One layer of a match on real maps: the coarser grids, the search tree and the scores (ndt_grid2d.h, ndt2d.h,
d2d_ndt2d.h).

Simplifications:
* no rounding and no NaN; one thread (for the others see `parallelScore` in `Verif/Newton/Model.lean`);
* the search tree (`pcl::KdTreeFLANN`) is an arbitrary function of the cloud it was built from, the position and the
  number of neighbours.
-/
namespace Verif.Score

open Verif Verif.Voxel Verif.NDTGrid Verif.Newton Matrix
open Verif.World (Map gaussians Built MapInv)

/-! ### Model -/

/-- What the scores need of a cell of a map. -/
def view (c : NDT.Cell) : Cell := ⟨c.mean, c.cov, c.icov⟩

/-- `nearestKSearch` of the tree built from a cloud: position, number of neighbours, indices of the neighbours. -/
abbrev Tree := List NDT.Vec → NDT.Vec → ℕ → Res (List ℕ)

/-- The uses `neighbors[i]->…` of the pointers, ndt2d.h:487-490, d2d_ndt2d.h:563-566. -/
def derefAll : List (Option NDT.Cell) → Res (List NDT.Cell)
  | [] => .ok []
  | none :: _ => .ub .nullDeref
  | some c :: l => (derefAll l).bind fun l => .ok (c :: l)

/-- `getKNearestNeighbors`, ndt_grid2d.h:660-666 and 960-979, and the uses of the pointers it returns. -/
noncomputable def nearestCells (tree : Tree) (n : Map) (p : ℝ × ℝ) (k : ℕ) : Res (List NDT.Cell) :=
  (tree n.means ![p.1, p.2, 0] k).bind fun ids => (kNearest n ids).bind derefAll

/-- Loop over the cells of the source, d2d_ndt2d.h:543-575. -/
noncomputable def d2dLoopCells (tree : Tree) (target : Map) (trans : Vec) (param : FittingParams) (calcHessian : Bool) :
    List NDT.Cell → Score → Res Score
  | [], res => .ok res
  | c :: cs, res =>
    let mean : Vec := rotZ (trans 2) *ᵥ c.mean + ![trans 0, trans 1, 0]
    (nearestCells tree target (mean 0, mean 1) 2).bind fun ts =>
    d2dLoopCells tree target trans param calcHessian cs
      (res.add (sourceCellScore (fun _ => ts.map view) (view c) trans param calcHessian))

/-- `calcScore`, d2d_ndt2d.h:514-580. -/
noncomputable def d2dCalcScore (tree : Tree) (source target : Map) (trans : Vec) (param : FittingParams)
    (calcHessian : Bool) : Res Score :=
  d2dLoopCells tree target trans param calcHessian (gaussians source) .zero

/-- Loop over the points of the source, ndt2d.h:481-493. -/
noncomputable def ndtLoopPoints (tree : Tree) (target : Map) (trans : Vec) (param : FittingParams) :
    List (ℝ × ℝ) → Score → Res Score
  | [], res => .ok res
  | pt :: ps, res =>
    let transPt := transformPoint (vecToMat trans) pt
    (nearestCells tree target transPt 4).bind fun ts =>
    ndtLoopPoints tree target trans param ps ((ts.map view).foldl (fun res cell =>
      res.add (pointScore pt cell transPt (smallAngle (trans 2)).1 (smallAngle (trans 2)).2 param)) res)

/-- `calcScore`, ndt2d.h:459-494. -/
noncomputable def ndtCalcScore (tree : Tree) (target : Map) (source : List (ℝ × ℝ)) (trans : Vec)
    (param : FittingParams) : Res Score :=
  ndtLoopPoints tree target trans param source .zero

/-- The first score of a layer of the D2D matcher, d2d_ndt2d.h:418-423: both grids in the cell size of the layer. -/
noncomputable def d2dLayerScore (eig : NDT.Eig) (tree : Tree) (source target : Map) (size : ℝ) (trans : Vec)
    (param : FittingParams) (calcHessian : Bool) : Res Score :=
  (coarser (cellI eig) source size).bind fun source =>
  (coarser (cellI eig) target size).bind fun target =>
  d2dCalcScore tree source target trans param calcHessian

/-- The first score of a layer of the matcher of points, ndt2d.h:364-368. -/
noncomputable def ndtLayerScore (eig : NDT.Eig) (tree : Tree) (source : List (ℝ × ℝ)) (target : Map) (size : ℝ)
    (trans : Vec) (param : FittingParams) : Res Score :=
  (coarser (cellI eig) target size).bind fun target => ndtCalcScore tree target source trans param

/-! ### Specification -/

/-- Square of the distance in space. -/
def away (a b : NDT.Vec) : ℝ := (a 0 - b 0) ^ 2 + (a 1 - b 1) ^ 2 + (a 2 - b 2) ^ 2

/-- What the documentation of the search tree promises: for a cloud that is not empty it finds the `k` nearest points
(all if there are fewer). -/
def TreeOk (tree : Tree) : Prop :=
  ∀ cloud p k, cloud ≠ [] → ∃ ids, tree cloud p k = .ok ids ∧ ids.length = min k cloud.length ∧ ids.Nodup ∧
    (∀ i ∈ ids, i < cloud.length) ∧
    ∀ i ∈ ids, ∀ j, j ∉ ids → ∀ a b, cloud[i]? = some a → cloud[j]? = some b → away p a ≤ away p b

/-- `l` are `k` different Gaussians of the list (all if there are fewer), and no other one is nearer to `p` than they. -/
def NearestOf (gs : List NDT.Cell) (k : ℕ) (p : ℝ × ℝ) (l : List NDT.Cell) : Prop :=
  l.Nodup ∧ l.length = min k gs.length ∧ (∀ c ∈ l, c ∈ gs) ∧
    ∀ c ∈ l, ∀ d ∈ gs, d ∉ l → away ![p.1, p.2, 0] c.mean ≤ away ![p.1, p.2, 0] d.mean

/-- The Gaussians `ls` of a layer with the cell size `s` stand for the Gaussians `gs` of a map: they are some of them, no
two in one square, and for each there is one in its square. -/
def StandsFor (s : ℝ) (ls gs : List NDT.Cell) : Prop :=
  (∀ c ∈ ls, c ∈ gs) ∧ (ls.Pairwise fun a b => squareOf s (head a.mean) ≠ squareOf s (head b.mean)) ∧
    ∀ c ∈ gs, ∃ d ∈ ls, squareOf s (head d.mean) = squareOf s (head c.mean)

/-! ### Lemmas -/

/-- Layers: the grid, its Gaussians and what the tree is built from. -/
theorem layer {eig : NDT.Eig} (he : NDT.EigOk eig) {n : Map} (hn : MapInv n) (size : ℝ)
    (hoff : CellsOffLines (cellI eig) (max size n.grid.cellSize) (gaussians n)) :
    ∃ n', coarser (cellI eig) n size = .ok n' ∧ MapInv n' ∧ n'.grid.cellSize = max size n.grid.cellSize ∧
      Placed (cellI eig) n'.grid ∧ Synced (cellI eig) n' ∧ n'.means = (gaussians n').map (fun c => c.mean) ∧
      StandsFor (max size n.grid.cellSize) (gaussians n') (gaussians n) := by
  have hmax : (if size < n.grid.cellSize then n.grid.cellSize else size) = max size n.grid.cellSize := by
    split_ifs with h
    · exact (max_eq_right h.le).symm
    · exact (max_eq_left (not_lt.1 h)).symm
  unfold coarser
  rw [hmax]
  simp only
  have hpos : 0 < max size n.grid.cellSize := lt_of_lt_of_le hn.cs (le_max_right _ _)
  generalize max size n.grid.cellSize = s at *
  have hoff' : CellsOffLines (cellI eig) s (getValidCells n.grid) := fun c hc hg =>
    hoff c (List.mem_filter.2 ⟨hc, hg⟩) hg
  obtain ⟨g', h, hwf', hcs', -, -, -, -, hcont, -⟩ := mergeCells_resize (cellI eig) (init_wf (cellI eig) 0 0 0 s)
    (show 0 < (init (cellI eig) 0 0 0 s).grid.cellSize from hpos) (getValidCells n.grid) true (Or.inl rfl)
    (fun c hc hg => (show OffLines (init (cellI eig) 0 0 0 s).grid.cellSize _ from hoff' c hc hg).notOpen)
  have hi : MapInv (init (cellI eig) 0 0 0 s) := ((Built.init (eig := eig) 0 0 0 hpos).inv he)
  have hi' := World.mergeCells_inv he hi hn.ginv h
  obtain ⟨w, c, hp, hs⟩ := mergeCells_placed (cell_lawful eig) (init_wf (cellI eig) 0 0 0 s)
    (show 0 < (init (cellI eig) 0 0 0 s).grid.cellSize from hpos) hoff' (init_placed (cell_lawful eig) 0 0 0 s).1 h
  refine ⟨_, h, hi', c, hp, hs, rfl, ?_⟩
  have hcont' : ∀ q, content g' q = ((inSquare (cellI eig) s (getValidCells n.grid) q).getLast?).or
      (content (init (cellI eig) 0 0 0 s).grid q) := hcont
  have ginit : ∀ q x, content (init (cellI eig) 0 0 0 s).grid q = some x → x.gaussian = false := by
    intro q x hx
    rw [init_content] at hx
    split_ifs at hx
    cases hx
    rfl
  set T : Map := updateMeans (cellI eig) { init (cellI eig) 0 0 0 s with initialized := true, grid := g' } with hT
  have hTg : T.grid = g' := rfl
  have mem : ∀ x, x ∈ gaussians T ↔ ∃ q, content g' q = some x ∧ x.gaussian = true := by
    intro x
    unfold gaussians
    rw [List.mem_filter, mem_validCells (hTg ▸ hwf'), hTg]
    exact ⟨fun ⟨⟨q, hq⟩, hg⟩ => ⟨q, hq, hg⟩, fun ⟨q, hq, hg⟩ => ⟨⟨q, hq⟩, hg⟩⟩
  refine ⟨?_, ?_, ?_⟩
  · intro x hx
    obtain ⟨q, hq, hg⟩ := (mem x).1 hx
    rw [hcont'] at hq
    cases hl : (inSquare (cellI eig) s (getValidCells n.grid) q).getLast? with
    | none => rw [hl, Option.none_or] at hq; rw [ginit q x hq] at hg; cases hg
    | some y =>
      rw [hl, Option.some_or] at hq
      cases hq
      exact List.mem_filter.2 ⟨(mem_inSquare.1 (List.mem_of_getLast? hl)).1, hg⟩
  · unfold gaussians
    rw [← listed_cells, List.filter_map, List.pairwise_map]
    refine ((listed_sorted T.grid).filter _).imp_of_mem ?_
    rintro ⟨q, a⟩ ⟨q', b⟩ ha hb hab e
    obtain ⟨ha, ga⟩ := List.mem_filter.1 ha
    obtain ⟨hb, gb⟩ := List.mem_filter.1 hb
    have h1 := hp q a ((mem_listed (hTg ▸ hwf') q a).1 ha) ga
    have h2 := hp q' b ((mem_listed (hTg ▸ hwf') q' b).1 hb) gb
    unfold squareOfMean at h1 h2
    rw [c] at h1 h2
    have h1 : squareOf s (head a.mean) = q := h1
    have h2 : squareOf s (head b.mean) = q' := h2
    have e : squareOf s (head a.mean) = squareOf s (head b.mean) := e
    rw [h1, h2] at e
    subst e
    unfold Before at hab
    simp only at hab
    omega
  · intro x hx
    obtain ⟨hx, hg⟩ := List.mem_filter.1 hx
    have hm : x ∈ inSquare (cellI eig) s (getValidCells n.grid) (squareOf s (head x.mean)) :=
      mem_inSquare.2 ⟨hx, hg, rfl⟩
    obtain ⟨y, hy⟩ : ∃ y, (inSquare (cellI eig) s (getValidCells n.grid) (squareOf s (head x.mean))).getLast? = some y :=
      ⟨_, List.getLast?_eq_getLast_of_ne_nil (List.ne_nil_of_mem hm)⟩
    obtain ⟨-, gy, sy⟩ := mem_inSquare.1 (List.mem_of_getLast? hy)
    refine ⟨y, (mem y).2 ⟨squareOf s (head x.mean), ?_, gy⟩, sy⟩
    rw [hcont', hy, Option.some_or]

theorem derefAll_some : ∀ l : List NDT.Cell, derefAll (l.map some) = .ok l
  | [] => rfl
  | c :: l => by
    rw [List.map_cons, derefAll, derefAll_some l]
    rfl

/-- The answers for the indices are the Gaussians with these numbers. -/
theorem kNearest_eq {eig : NDT.Eig} {n : Map} (hn : MapInv n) (hp : Placed (cellI eig) n.grid)
    (hs : Synced (cellI eig) n) (hm : n.means = (gaussians n).map (fun c => c.mean)) (ids : List ℕ)
    (hids : ∀ i ∈ ids, i < n.means.length) :
    ∃ l : List NDT.Cell, kNearest n ids = .ok (l.map some) ∧
      List.Forall₂ (fun i c => (gaussians n)[i]? = some c) ids l := by
  obtain ⟨l, hl, hall⟩ := kNearest_spec hn.wf hn.cs hp hs ids hids
  rw [hl]
  clear hl
  induction hall with
  | nil => exact ⟨[], rfl, .nil⟩
  | @cons i x is l hx hall ih =>
    obtain ⟨l', e, hf⟩ := ih fun j hj => hids j (List.mem_cons_of_mem _ hj)
    obtain ⟨c, q, rfl, hc, hg, hmi⟩ := hx
    rw [Res.ok.inj e]
    refine ⟨c :: l', rfl, .cons ?_ hf⟩
    rw [hm, List.getElem?_map, Option.map_eq_some_iff] at hmi
    obtain ⟨d, hd, hdm⟩ := hmi
    rw [hd]
    have hdm : d.mean = c.mean := hdm
    obtain ⟨hdv, hdg⟩ := List.mem_filter.1 (List.mem_of_getElem? hd)
    obtain ⟨q', hq'⟩ := (mem_validCells hn.wf d).1 hdv
    have h1 := hp q c hc hg
    have h2 := hp q' d hq' hdg
    unfold squareOfMean at h1 h2
    have h1 : squareOf n.grid.cellSize (head c.mean) = q := h1
    have h2 : squareOf n.grid.cellSize (head d.mean) = q' := h2
    rw [hdm, h1] at h2
    subst h2
    rw [hc] at hq'
    exact hq'.symm

theorem forall₂_right {α β : Type*} {R : α → β → Prop} {l : List α} {m : List β} (h : List.Forall₂ R l m) {b : β}
    (hb : b ∈ m) : ∃ a ∈ l, R a b := by
  induction h with
  | nil => cases hb
  | @cons a c l m hac _ ih =>
    rcases List.mem_cons.1 hb with rfl | hb
    · exact ⟨a, List.mem_cons_self, hac⟩
    · obtain ⟨a', h1, h2⟩ := ih hb
      exact ⟨a', List.mem_cons_of_mem _ h1, h2⟩

theorem forall₂_left {α β : Type*} {R : α → β → Prop} {l : List α} {m : List β} (h : List.Forall₂ R l m) {a : α}
    (ha : a ∈ l) : ∃ b ∈ m, R a b := forall₂_right h.flip ha

/-- A query to a layer with Gaussians. -/
theorem nearestCells_ok {eig : NDT.Eig} {n : Map} (hn : MapInv n) (hp : Placed (cellI eig) n.grid)
    (hs : Synced (cellI eig) n) (hm : n.means = (gaussians n).map (fun c => c.mean)) (hnd : (gaussians n).Nodup)
    (hne : gaussians n ≠ []) {tree : Tree} (ht : TreeOk tree) (p : ℝ × ℝ) (k : ℕ) :
    ∃ l, nearestCells tree n p k = .ok l ∧ NearestOf (gaussians n) k p l := by
  have hml : n.means.length = (gaussians n).length := by rw [hm, List.length_map]
  obtain ⟨ids, hids, hlen, hnod, hlt, hnear⟩ := ht n.means ![p.1, p.2, 0] k (by
    rw [hm]
    simpa using hne)
  obtain ⟨l, hl, hf⟩ := kNearest_eq hn hp hs hm ids hlt
  refine ⟨l, ?_, ?_, ?_, ?_, ?_⟩
  · unfold nearestCells
    rw [hids, Res.bind_ok, hl, Res.bind_ok, derefAll_some]
  · have : ids.Nodup → l.Nodup := by
      clear hids hlen hnod hlt hnear hl
      intro hnod
      induction hf with
      | nil => exact List.nodup_nil
      | @cons i c is l hi hf ih =>
        rw [List.nodup_cons] at hnod ⊢
        refine ⟨fun hc => hnod.1 ?_, ih hnod.2⟩
        obtain ⟨j, hj, hjc⟩ := forall₂_right hf hc
        have hij : i = j := by
          obtain ⟨h1, e1⟩ := List.getElem?_eq_some_iff.1 hi
          obtain ⟨h2, e2⟩ := List.getElem?_eq_some_iff.1 hjc
          exact (hnd.getElem_inj_iff (hi := h1) (hj := h2)).1 (e1.trans e2.symm)
        rw [hij]
        exact hj
    exact this hnod
  · rw [← hf.length_eq, hlen, hml]
  · intro c hc
    obtain ⟨i, hi, h⟩ : ∃ i ∈ ids, (gaussians n)[i]? = some c := forall₂_right hf hc
    exact List.mem_of_getElem? h
  · intro c hc d hd hdl
    obtain ⟨i, hi, hic⟩ : ∃ i ∈ ids, (gaussians n)[i]? = some c := forall₂_right hf hc
    obtain ⟨j, hj⟩ := List.getElem?_of_mem hd
    refine hnear i hi j ?_ c.mean d.mean (by rw [hm, List.getElem?_map, hic]; rfl)
      (by rw [hm, List.getElem?_map, hj]; rfl)
    intro hji
    apply hdl
    obtain ⟨x, hx, hjx⟩ := forall₂_left hf hji
    rw [hj] at hjx
    cases hjx
    exact hx

/-- Answers that are always given, as a function. -/
noncomputable def answers (tree : Tree) (n : Map) (k : ℕ) (p : ℝ × ℝ) : List Cell :=
  match nearestCells tree n p k with
  | .ok l => l.map view
  | _ => []

theorem answers_eq {tree : Tree} {n : Map} {k : ℕ} {p : ℝ × ℝ} {l : List NDT.Cell} (h : nearestCells tree n p k = .ok l) :
    answers tree n k p = l.map view := by
  unfold answers
  rw [h]

theorem d2dLoopCells_eq {tree : Tree} {n : Map} (h : ∀ p, ∃ l, nearestCells tree n p 2 = .ok l) (v : Vec)
    (param : FittingParams) (b : Bool) : ∀ (cs : List NDT.Cell) (res : Score), d2dLoopCells tree n v param b cs res =
      .ok ((cs.map view).foldl (fun res c => res.add (sourceCellScore (answers tree n 2) c v param b)) res) := by
  intro cs
  induction cs with
  | nil => intro res; rfl
  | cons c cs ih =>
    intro res
    simp only [d2dLoopCells, List.map_cons, List.foldl_cons]
    obtain ⟨l, hl⟩ := h ((rotZ (v 2) *ᵥ c.mean + ![v 0, v 1, 0]) 0, (rotZ (v 2) *ᵥ c.mean + ![v 0, v 1, 0]) 1)
    rw [hl, Res.bind_ok, ih]
    congr 3
    unfold sourceCellScore
    simp only
    rw [show (view c).mean = c.mean from rfl, answers_eq hl]

theorem ndtLoopPoints_eq {tree : Tree} {n : Map} (h : ∀ p, ∃ l, nearestCells tree n p 4 = .ok l) (v : Vec)
    (param : FittingParams) : ∀ (ps : List (ℝ × ℝ)) (res : Score), ndtLoopPoints tree n v param ps res =
      .ok (ps.foldl (fun res pt => (answers tree n 4 (transformPoint (vecToMat v) pt)).foldl (fun res cell =>
        res.add (pointScore pt cell (transformPoint (vecToMat v) pt) (smallAngle (v 2)).1 (smallAngle (v 2)).2 param)) res)
          res) := by
  intro ps
  induction ps with
  | nil => intro res; rfl
  | cons pt ps ih =>
    intro res
    simp only [ndtLoopPoints, List.foldl_cons]
    obtain ⟨l, hl⟩ := h (transformPoint (vecToMat v) pt)
    rw [hl, Res.bind_ok, ih, answers_eq hl]

theorem StandsFor.nodup {s : ℝ} {ls gs : List NDT.Cell} (h : StandsFor s ls gs) : ls.Nodup :=
  h.2.1.imp fun hab e => hab (by rw [e])

theorem StandsFor.ne_nil {s : ℝ} {ls gs : List NDT.Cell} (h : StandsFor s ls gs) (hg : gs ≠ []) : ls ≠ [] := by
  obtain ⟨c, hc⟩ := List.exists_mem_of_ne_nil gs hg
  obtain ⟨d, hd, -⟩ := h.2.2 c hc
  exact List.ne_nil_of_mem hd

/-- All queries to the target of a layer are answered by its nearest Gaussians. -/
theorem target_layer {eig : NDT.Eig} (he : NDT.EigOk eig) {n : Map} (hn : MapInv n) (size : ℝ)
    (hoff : CellsOffLines (cellI eig) (max size n.grid.cellSize) (gaussians n)) (hne : gaussians n ≠ []) {tree : Tree}
    (ht : TreeOk tree) : ∃ T, coarser (cellI eig) n size = .ok T ∧ MapInv T ∧
      StandsFor (max size n.grid.cellSize) (gaussians T) (gaussians n) ∧
      ∀ p k, ∃ l, nearestCells tree T p k = .ok l ∧ NearestOf (gaussians T) k p l := by
  obtain ⟨T, h, hi, -, hp, hs, hm, hst⟩ := layer he hn size hoff
  exact ⟨T, h, hi, hst, fun p k => nearestCells_ok hi hp hs hm hst.nodup (hst.ne_nil hne) ht p k⟩

end Verif.Score
