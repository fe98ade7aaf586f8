import Verif.Round.MapsProps
import Verif.Round.Ray

/- The rounded `mergeInTraced`, and histories that mix traced and plain merges. -/
namespace Verif.Round

open Verif Verif.Voxel Verif.NDTGrid

set_option linter.unusedSectionVars false

variable {K : Type v} [Field K] [LinearOrder K] [IsStrictOrderedRing K] [FloorRing K] {γ : Type u}

/-- Loop of `mergeInTraced`, ndt_grid2d.h:578-590, with the rounded `rayTrace`.  The update of the cells on the
ray is the arbitrary function `I.ray`. -/
def traceAll (F : Fmt K) (I : CellI K γ) (start : Fin 3 → K) (g : Grid K γ) : List γ → Res (Grid K γ)
  | [] => .ok g
  | c :: cs =>
    if I.gaussian c then
      (rayTrace F I.toCellOps g (head start) (head (I.mean c))).bind fun r =>
      (updateRay I start (I.mean c) (I.points c) r.1 r.2.cells).bind fun cells =>
      traceAll F I start { r.2 with cells := cells } cs
    else traceAll F I start g cs

/-- `mergeInTraced(grid, transform, resize)`, ndt_grid2d.h:561-595, for the cells of the incoming grid and its
origin `(sx, sy)` as they come out of the (rounded) conversion to this frame, lines 565-575. -/
def mergeTraced (F : Fmt K) (I : CellI K γ) (n : NGrid K γ) (sx sy : K) (cells : List γ) (resize : Bool) :
    Res (NGrid K γ) :=
  (traceAll F I ![sx, sy, 0] n.grid cells).bind fun g =>
  mergeCells F I { n with grid := g } cells resize

/-! ### Specification -/

/-- A merge: the cells, the flag `resize` and, if the merge is traced, the place of the sensor. -/
structure Merge (K : Type v) (γ : Type u) where
  sensor : Option (K × K)
  cells : List γ
  resize : Bool

/-- The merge with rounded arithmetic. -/
def Merge.rounded (F : Fmt K) (I : CellI K γ) (n : NGrid K γ) (m : Merge K γ) : Res (NGrid K γ) :=
  match m.sensor with
  | some s => mergeTraced F I n s.1 s.2 m.cells m.resize
  | none => mergeCells F I n m.cells m.resize

/-- The merge with exact arithmetic. -/
def Merge.exact (I : CellI K γ) (n : NGrid K γ) (m : Merge K γ) : Res (NGrid K γ) :=
  match m.sensor with
  | some s => NDTGrid.mergeTraced I n s.1 s.2 m.cells m.resize
  | none => NDTGrid.mergeCells I n m.cells m.resize

/-- A history of merges one after another. -/
def runMerges (f : NGrid K γ → Merge K γ → Res (NGrid K γ)) (n : NGrid K γ) : List (Merge K γ) → Res (NGrid K γ)
  | [] => .ok n
  | m :: ms => (f n m).bind fun n => runMerges f n ms

/-- One merge into `n` keeps the distance `η` from the lines: the means do, and if it is traced, so do all rays
from the sensor to the Gaussians. -/
structure Keeps (I : CellI K γ) (η R : K) (n : NGrid K γ) (m : Merge K γ) : Prop where
  means : MeansSafe I η R n.grid.cellSize m.cells
  rays : ∀ s, m.sensor = some s → ∀ c ∈ m.cells, I.gaussian c = true → SafeRay η R n.grid s (head (I.mean c))

/-- All merges of a history keep the distance, each with respect to the map (of exact arithmetic) that it is
merged into. -/
def AllKeep (I : CellI K γ) (η R : K) (n : NGrid K γ) (hist : List (Merge K γ)) : Prop :=
  ∀ pre m post, hist = pre ++ m :: post → ∀ n', runMerges (Merge.exact I) n pre = .ok n' → Keeps I η R n' m

/-! ### Lemmas -/

theorem SafeRay.box {η R : K} {g g' : Grid K γ} (h : SameBox g g') {a b : K × K} (hr : SafeRay η R g a b) :
    SafeRay η R g' a b := by
  have ho : ∀ p, Out g' p ↔ Out g p := fun p => by
    unfold Out Grid.half
    rw [h.left, h.right, h.up, h.down, h.cs]
  obtain ⟨h1, h2, h3, h4⟩ := hr
  refine ⟨by rw [h.cs]; exact h1, h2, ?_, by rw [h.cs]; exact h4⟩
  rw [h.cs]
  exact fun N hN j hj hi => h3 N hN j hj fun i a b => fun hout => hi i a b ((ho _).2 hout)

theorem InRange.box {R : K} {g g' : Grid K γ} (h : SameBox g g') (hr : InRange R g) : InRange R g' := by
  obtain ⟨h1, h2, h3, h4⟩ := hr
  constructor
  · rw [h.left, h.cs]; exact h1
  · rw [h.right, h.cs]; exact h2
  · rw [h.up, h.cs]; exact h3
  · rw [h.down, h.cs]; exact h4

theorem updateRay_len {I : CellI K γ} {s e : Fin 3 → K} {k : ℕ} : ∀ {is : List ℕ} {l l' : List (Option γ)},
    updateRay I s e k is l = .ok l' → l'.length = l.length := by
  intro is
  induction is with
  | nil => intro l l' h; cases h; rfl
  | cons i is ih =>
    intro l l' h
    unfold updateRay at h
    obtain ⟨c, hc, h⟩ := Res.bind_eq_ok.1 h
    unfold readSlot at hc
    split_ifs at hc with hi
    cases hc
    cases hs : slot l i with
    | none => rw [hs] at h; cases h
    | some c =>
      rw [hs] at h
      simp only at h
      obtain ⟨c', hc', h⟩ := Res.bind_eq_ok.1 h
      obtain ⟨l1, hl1, h⟩ := Res.bind_eq_ok.1 h
      rw [writeSlot_lt hi] at hl1
      cases hl1
      rw [ih h, List.length_set]

theorem traceAll_eq {F : Fmt K} {u v R cs : K} (hF : Double F u v) (hcs : 0 < cs) (hvu : 8 * (v * R) ≤ u * cs)
    (I : CellI K γ) (start : Fin 3 → K) : ∀ (cells : List γ) {g : Grid K γ}, Fine R cs g →
    (∀ c ∈ cells, I.gaussian c = true → SafeRay (32 * (u * R)) R g (head start) (head (I.mean c))) →
    traceAll F I start g cells = NDTGrid.traceAll I start g cells ∧
      ∀ g', NDTGrid.traceAll I start g cells = .ok g' → Fine R cs g' := by
  intro cells
  induction cells with
  | nil =>
    intro g hg _
    refine ⟨rfl, fun g' h => ?_⟩
    simp only [NDTGrid.traceAll] at h
    injection h with h
    exact h ▸ hg
  | cons c cells ih =>
    intro g hg hr
    have hr' : ∀ d ∈ cells, I.gaussian d = true → SafeRay (32 * (u * R)) R g (head start) (head (I.mean d)) :=
      fun d hd => hr d (List.mem_cons_of_mem _ hd)
    unfold traceAll NDTGrid.traceAll
    split_ifs with hc
    · obtain ⟨h1, h2, h3⟩ := id hg
      rw [C144_ray_partial hF (h2 ▸ hcs) h3 (h2 ▸ hvu) (hr c List.mem_cons_self hc) I.toCellOps]
      cases h : Voxel.rayTrace I.toCellOps g (head start) (head (I.mean c)) with
      | throw e => exact ⟨rfl, fun _ h => by cases h⟩
      | ub e => exact ⟨rfl, fun _ h => by cases h⟩
      | ok r =>
        simp only [Res.bind_ok]
        obtain ⟨cells1, e1, e2, -, -⟩ := rayTrace_rel h
        cases h' : updateRay I start (I.mean c) (I.points c) r.1 r.2.cells with
        | throw e => exact ⟨rfl, fun _ h => by cases h⟩
        | ub e => exact ⟨rfl, fun _ h => by cases h⟩
        | ok l =>
          simp only [Res.bind_ok]
          have hl := updateRay_len h'
          rw [e1] at hl ⊢
          have hb : SameBox g { g with cells := l } := ⟨rfl, rfl, rfl, rfl, rfl⟩
          exact ih ⟨(hl.trans e2).trans h1, h2, h3.box hb⟩ fun d hd hgd => (hr' d hd hgd).box hb
    · exact ih hg hr'

/-- One merge, traced or not. -/
theorem merge_eq {F : Fmt K} {u v R cs : K} (hF : Double F u v) (hcs : 0 < cs) (hR : cs ≤ R)
    (hη : 64 * (u * R) < cs) (hvu : 8 * (v * R) ≤ u * cs) (I : CellI K γ) {n : NGrid K γ} (hn : Fine R cs n.grid)
    {m : Merge K γ} (hk : Keeps I (32 * (u * R)) R n m) :
    m.rounded F I (singleMeans F n) = (m.exact I n).map (singleMeans F) ∧
      ∀ n', m.exact I n = .ok n' → Fine R cs n'.grid := by
  have hm := hk.means
  rw [hn.2.1] at hm
  unfold Merge.rounded Merge.exact
  cases hs : m.sensor with
  | none => exact mergeCells_eq hF.toAccurate hcs hR hη I hn hm m.resize
  | some s =>
    simp only
    obtain ⟨e1, e2⟩ := traceAll_eq hF hcs hvu I ![s.1, s.2, 0] m.cells hn (by
      intro c hc hg
      have := hk.rays s hs c hc hg
      simpa [head] using this)
    unfold mergeTraced NDTGrid.mergeTraced
    rw [show (singleMeans F n).grid = n.grid from rfl, e1]
    cases h : NDTGrid.traceAll I ![s.1, s.2, 0] n.grid m.cells with
    | throw e => exact ⟨rfl, fun _ h => by cases h⟩
    | ub e => exact ⟨rfl, fun _ h => by cases h⟩
    | ok g =>
      simp only [Res.bind_ok]
      exact mergeCells_eq hF.toAccurate hcs hR hη I (n := { n with grid := g }) (e2 g h) hm m.resize

theorem runMerges_eq {F : Fmt K} {u v R cs : K} (hF : Double F u v) (hcs : 0 < cs) (hR : cs ≤ R)
    (hη : 64 * (u * R) < cs) (hvu : 8 * (v * R) ≤ u * cs) (I : CellI K γ) : ∀ (hist : List (Merge K γ))
    {n : NGrid K γ}, Fine R cs n.grid → AllKeep I (32 * (u * R)) R n hist →
    runMerges (Merge.rounded F I) (singleMeans F n) hist =
      (runMerges (Merge.exact I) n hist).map (singleMeans F) ∧
    ∀ n', runMerges (Merge.exact I) n hist = .ok n' → Fine R cs n'.grid := by
  intro hist
  induction hist with
  | nil =>
    intro n hn _
    refine ⟨rfl, fun n' h => ?_⟩
    simp only [runMerges] at h
    injection h with h
    exact h ▸ hn
  | cons m ms ih =>
    intro n hn hk
    obtain ⟨e1, e2⟩ := merge_eq hF hcs hR hη hvu I hn (hk [] m ms rfl n rfl)
    simp only [runMerges]
    rw [e1]
    cases h : m.exact I n with
    | throw e => exact ⟨rfl, fun _ h => by cases h⟩
    | ub e => exact ⟨rfl, fun _ h => by cases h⟩
    | ok n1 =>
      exact ih (e2 n1 h) fun pre x post hx n' hn' =>
        hk (m :: pre) x post (by rw [hx]; rfl) n' (by simp only [runMerges]; rw [h]; exact hn')

end Verif.Round
