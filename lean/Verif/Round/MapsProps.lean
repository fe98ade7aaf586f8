import Verif.Round.Maps
import Verif.NDTGrid.Props

/- Property C145 and the negations of C144 and C145 for the formats of the code. -/
namespace Verif.Round

open Verif Verif.Voxel Verif.NDTGrid

set_option linter.unusedSectionVars false

variable {K : Type v} [Field K] [LinearOrder K] [IsStrictOrderedRing K] [FloorRing K] {α γ : Type u}

/-- One merge: the same grid as in exact arithmetic, with the means cloud in `float`. -/
theorem mergeCells_eq {F : Fmt K} {u R cs : K} (hF : Accurate F u) (hcs : 0 < cs) (hR : cs ≤ R)
    (hη : 64 * (u * R) < cs) (I : CellI K γ) {n : NGrid K γ} (hn : Fine R cs n.grid) {cells : List γ}
    (hs : MeansSafe I (32 * (u * R)) R cs cells) (resize : Bool) :
    mergeCells F I n cells resize = (NDTGrid.mergeCells I n cells resize).map (singleMeans F) ∧
      ∀ n', NDTGrid.mergeCells I n cells resize = .ok n' → Fine R cs n'.grid := by
  obtain ⟨h1, h2, h3⟩ := id hn
  unfold mergeCells NDTGrid.mergeCells
  split_ifs with hb
  · have hbd := minMax_ok hF hcs hη hR (cells.map fun c => head (I.mean c)) (by
      intro p hp
      obtain ⟨c, hc, rfl⟩ := List.mem_map.1 hp
      exact hs c hc)
    simp only
    rw [enlarge_bounds hF (h2 ▸ hcs) h3 (h2 ▸ hbd)]
    cases h : Voxel.enlarge n.grid (NDTGrid.minMax (cells.map fun c => head (I.mean c))).minx
      (NDTGrid.minMax (cells.map fun c => head (I.mean c))).miny
      (NDTGrid.minMax (cells.map fun c => head (I.mean c))).maxx
      (NDTGrid.minMax (cells.map fun c => head (I.mean c))).maxy with
    | throw e => exact ⟨rfl, fun _ h => by cases h⟩
    | ub e => exact ⟨rfl, fun _ h => by cases h⟩
    | ok g1 =>
      obtain ⟨k1, k2, k3⟩ := enlarge_inRange h1 (h2 ▸ hcs) h3 (h2 ▸ hbd.minx.1.2) (h2 ▸ hbd.miny.1.2)
        (h2 ▸ hbd.maxx.1.2) (h2 ▸ hbd.maxy.1.2) h
      obtain ⟨e1, e2⟩ := overwriteAll_eq hF hcs I cells (g := g1) ⟨k2, k3.trans h2, k1⟩ hs
      simp only [Res.bind_ok]
      rw [e1]
      cases h' : NDTGrid.overwriteAll I g1 cells with
      | throw e => exact ⟨rfl, fun _ h => by cases h⟩
      | ub e => exact ⟨rfl, fun _ h => by cases h⟩
      | ok g2 =>
        refine ⟨?_, fun n' hn' => ?_⟩
        · simp only [Res.bind_ok, Res.map_ok, updateMeans, NDTGrid.updateMeans, singleMeans, List.map_map]
          rfl
        · simp only [Res.bind_ok] at hn'
          injection hn' with hn'
          exact hn' ▸ e2 g2 h'
  · obtain ⟨e1, e2⟩ := mergeInside_eq hF hcs I cells hn hs
    rw [e1]
    cases h' : NDTGrid.mergeInside I n.grid cells with
    | throw e => exact ⟨rfl, fun _ h => by cases h⟩
    | ub e => exact ⟨rfl, fun _ h => by cases h⟩
    | ok g2 =>
      refine ⟨?_, fun n' hn' => ?_⟩
      · simp only [Res.bind_ok, Res.map_ok, updateMeans, NDTGrid.updateMeans, singleMeans, List.map_map]
        rfl
      · simp only [Res.bind_ok] at hn'
        injection hn' with hn'
        exact hn' ▸ e2 g2 h'

theorem init_fine {R cs : K} (hcs : 0 < cs) (hR : cs ≤ R) (I : CellI K γ) (ox oy th : K) :
    Fine R cs (NDTGrid.init I ox oy th cs).grid := by
  refine ⟨rfl, rfl, ?_⟩
  constructor <;> simp only [NDTGrid.init, Voxel.init, Voxel.setCellSize, Nat.cast_zero] <;> linarith

/-- A history of merges, each a list of cells and the flag `resize`, with the given `mergeIn`. -/
def mergeAll (merge : NGrid K γ → List γ → Bool → Res (NGrid K γ)) (n : NGrid K γ) :
    List (List γ × Bool) → Res (NGrid K γ)
  | [] => .ok n
  | x :: xs => (merge n x.1 x.2).bind fun n => mergeAll merge n xs

theorem mergeCells_means (F : Fmt K) (I : CellI K γ) (n : NGrid K γ) (ms : List (Fin 3 → K))
    (cells : List γ) (resize : Bool) :
    mergeCells F I { n with means := ms } cells resize = mergeCells F I n cells resize := rfl

theorem mergeAll_eq {F : Fmt K} {u R cs : K} (hF : Accurate F u) (hcs : 0 < cs) (hR : cs ≤ R)
    (hη : 64 * (u * R) < cs) (I : CellI K γ) : ∀ (hist : List (List γ × Bool)) {n : NGrid K γ},
    Fine R cs n.grid → (∀ x ∈ hist, MeansSafe I (32 * (u * R)) R cs x.1) →
    mergeAll (mergeCells F I) (singleMeans F n) hist =
      (mergeAll (NDTGrid.mergeCells I) n hist).map (singleMeans F) ∧
    ∀ n', mergeAll (NDTGrid.mergeCells I) n hist = .ok n' → Fine R cs n'.grid := by
  intro hist
  induction hist with
  | nil =>
    intro n hn _
    refine ⟨rfl, fun n' h => ?_⟩
    simp only [mergeAll] at h
    injection h with h
    exact h ▸ hn
  | cons x xs ih =>
    intro n hn hs
    obtain ⟨e1, e2⟩ := mergeCells_eq hF hcs hR hη I hn (hs x List.mem_cons_self) x.2
    simp only [mergeAll]
    rw [show mergeCells F I (singleMeans F n) x.1 x.2 = mergeCells F I n x.1 x.2 from rfl, e1]
    cases h : NDTGrid.mergeCells I n x.1 x.2 with
    | throw e => exact ⟨rfl, fun _ h => by cases h⟩
    | ub e => exact ⟨rfl, fun _ h => by cases h⟩
    | ok n1 => exact ih (e2 n1 h) (fun y hy => hs y (List.mem_cons_of_mem _ hy))

theorem kNearest_eq {F : Fmt K} {u R cs : K} (hF : Accurate F u) (hcs : 0 < cs) {n : NGrid K γ}
    (hn : Fine R cs n.grid) (hm : ∀ m ∈ n.means, Safe (32 * (u * R)) R cs (head m)) :
    ∀ ids, kNearest F (singleMeans F n) ids = NDTGrid.kNearest n ids := by
  obtain ⟨h1, h2, h3⟩ := hn
  intro ids
  induction ids with
  | nil => rfl
  | cons i is ih =>
    simp only [kNearest, NDTGrid.kNearest]
    rw [ih]
    simp only [singleMeans, List.getElem?_map]
    cases h : n.means[i]? with
    | none => rfl
    | some m =>
      have hs := hm m (List.mem_of_getElem? h)
      simp only [Option.map_some]
      unfold getCellPtr Voxel.getCellPtr
      rw [calcIndex_eq (p := head m) hF (h2 ▸ hcs) h3 (h2 ▸ hs)
        (single_err (g := n.grid) hF (h2 ▸ hcs) (h2 ▸ hs.x_le))
        (single_err (g := n.grid) hF (h2 ▸ hcs) (h2 ▸ hs.y_le))]

/-- **C145**, away from the border lines: a map built by any sequence of merges of cells whose means are
further than `32·u·R` from the borders is the map of exact arithmetic, its means cloud rounded to `float`; and
if the means in the map keep that distance, the nearest neighbour lookup through the rounded cloud finds the
same cells as through the exact one. -/
theorem C145_map_partial {F : Fmt K} {u R cs : K} (hF : Accurate F u) (hcs : 0 < cs) (hR : cs ≤ R)
    (hη : 64 * (u * R) < cs) (I : CellI K γ) (ox oy th : K) (hist : List (List γ × Bool))
    (hs : ∀ x ∈ hist, MeansSafe I (32 * (u * R)) R cs x.1) :
    mergeAll (mergeCells F I) (NDTGrid.init I ox oy th cs) hist =
      (mergeAll (NDTGrid.mergeCells I) (NDTGrid.init I ox oy th cs) hist).map (singleMeans F) ∧
    ∀ n, mergeAll (NDTGrid.mergeCells I) (NDTGrid.init I ox oy th cs) hist = .ok n →
      (∀ m ∈ n.means, Safe (32 * (u * R)) R cs (head m)) →
      ∀ ids, kNearest F (singleMeans F n) ids = NDTGrid.kNearest n ids := by
  obtain ⟨h1, h2⟩ := mergeAll_eq hF hcs hR hη I hist (init_fine hcs hR I ox oy th) hs
  exact ⟨h1, fun n hn hm => kNearest_eq hF hcs (h2 n hn) hm⟩

/-- **C145**, scans: binning a scan whose points are further than `32·u·R` from the borders gives exactly the
grid of exact arithmetic. -/
theorem C145_scan_partial {F : Fmt K} {u R cs : K} (hF : Accurate F u) (hcs : 0 < cs) (hR : cs ≤ R)
    (hη : 64 * (u * R) < cs) (I : CellI K γ) (ox oy th : K) (ps : List (Fin 3 → K))
    (hs : ∀ p ∈ ps, Safe (32 * (u * R)) R cs (head p)) :
    createGrid F I ox oy th cs ps = NDTGrid.createGrid I ox oy th cs ps := by
  have huR : 0 ≤ u * R := mul_nonneg hF.nonneg (by linarith)
  obtain ⟨f1, f2, f3⟩ := init_fine hcs hR I ox oy th
  have hz : Off (32 * (u * R)) cs 0 := zero_off (by linarith) (by linarith)
  have z := standsFor_refl (ε := 5 * (u * R)) (by linarith) hz (by simpa using hR)
  have key : ∀ (qs : List (K × K)) (b : Bounds K), (∀ p ∈ qs, Safe (32 * (u * R)) R cs p) →
      BoundsOk (32 * (u * R)) (5 * (u * R)) R cs b b →
      BoundsOk (32 * (u * R)) (5 * (u * R)) R cs (qs.foldl NDTGrid.boundsStep b)
        (qs.foldl NDTGrid.boundsStep b) := by
    intro qs
    induction qs with
    | nil => intro b _ h; exact h
    | cons q qs ih =>
      intro b hq h
      have s := hq q List.mem_cons_self
      have e : ∀ x : K, |x - x| ≤ 5 * (u * R) := fun x => by rw [sub_self, abs_zero]; linarith
      exact ih _ (fun p h => hq p (List.mem_cons_of_mem _ h))
        ⟨min_step (by linarith) s.offX s.x_le (e _) h.minx, min_step (by linarith) s.offY s.y_le (e _) h.miny,
          max_step (by linarith) s.offX s.x_le (e _) h.maxx, max_step (by linarith) s.offY s.y_le (e _) h.maxy⟩
  have hbd := key (ps.map head) ⟨0, 0, 0, 0⟩ (by
    intro p hp
    obtain ⟨c, hc, rfl⟩ := List.mem_map.1 hp
    exact hs c hc) ⟨z, z, z, z⟩
  unfold createGrid NDTGrid.createGrid
  simp only
  rw [show NDTGrid.minMax (ps.map head) = (ps.map head).foldl NDTGrid.boundsStep ⟨0, 0, 0, 0⟩ from rfl,
    enlarge_bounds hF hcs f3 hbd]
  cases h : Voxel.enlarge (NDTGrid.init I ox oy th cs).grid
      ((ps.map head).foldl NDTGrid.boundsStep ⟨0, 0, 0, 0⟩).minx
      ((ps.map head).foldl NDTGrid.boundsStep ⟨0, 0, 0, 0⟩).miny
      ((ps.map head).foldl NDTGrid.boundsStep ⟨0, 0, 0, 0⟩).maxx
      ((ps.map head).foldl NDTGrid.boundsStep ⟨0, 0, 0, 0⟩).maxy with
  | throw e => rfl
  | ub e => rfl
  | ok g1 =>
    obtain ⟨k1, k2, k3⟩ := enlarge_inRange f1 hcs f3 hbd.minx.1.2 hbd.miny.1.2 hbd.maxx.1.2 hbd.maxy.1.2 h
    simp only [Res.bind_ok]
    rw [(addPoints_eq hF hcs I ps ⟨k2, k3, k1⟩ hs).1]

/-! ### Close to the border lines -/

/-- Negation of C144 for `float` and `double`: a cell placed 2⁻³⁰ to the right of the right border of a fresh
grid with squares of side 1.  In exact arithmetic the grid is enlarged; the code sees that the point is
outside, rounds it to the border, adds no column and writes past the end of the storage. -/
theorem C144_false :
    addCell ieee toyI.toCellOps (Voxel.setCellSize (Voxel.init toyI.toCellOps) (1 : ℚ)) (1 / 2 + 1 / 2 ^ 30, 0)
      (toy 0 0 1) true = .ub .outOfBounds ∧
    (Voxel.addCell toyI.toCellOps (Voxel.setCellSize (Voxel.init toyI.toCellOps) (1 : ℚ))
      (1 / 2 + 1 / 2 ^ 30, 0) (toy 0 0 1) true).map (fun g => (g.right, g.cells)) =
        .ok (1, [some toyI.default, some (toy 0 0 1)]) := by
  constructor <;> decide +kernel

/-- Negation of C145 for `float` and `double`: a Gaussian with its mean 2⁻³⁰ to the left of the right border of
the map.  It is stored in the last square, but the cloud gives its mean on the border, and the lookup of the
only neighbour reads past the end of the storage. -/
theorem C145_false :
    (mergeAll (mergeCells ieee toyI) (NDTGrid.init toyI 0 0 0 1) [([toy (1 / 2 - 1 / 2 ^ 30) 0 3], true)]).map
      (fun n => (n.grid.cells, n.means.map head)) =
        .ok ([some (toy (1 / 2 - 1 / 2 ^ 30) 0 3)], [(1 / 2, 0)]) ∧
    (mergeAll (mergeCells ieee toyI) (NDTGrid.init toyI 0 0 0 1)
      [([toy (1 / 2 - 1 / 2 ^ 30) 0 3], true)]).bind (fun n => kNearest ieee n [0]) = .ub .outOfBounds ∧
    (mergeAll (NDTGrid.mergeCells toyI) (NDTGrid.init toyI 0 0 0 1)
      [([toy (1 / 2 - 1 / 2 ^ 30) 0 3], true)]).bind (fun n => NDTGrid.kNearest n [0]) =
        .ok [some (toy (1 / 2 - 1 / 2 ^ 30) 0 3)] := by
  refine ⟨?_, ?_, ?_⟩ <;> decide +kernel

end Verif.Round
