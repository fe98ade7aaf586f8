import Verif.NDTGrid.Scan

/-
Model of building a grid from a cloud whose points may have coordinates that are not numbers:
`createGrid` (ndt_grid2d.h:899-920) with `getMinMax2D` (point_cloud_tools.h:32-46) and `enlarge`
(voxel_grid2d.h:124-128, 668-702).
-/
namespace Verif.NDTGrid

open Verif Verif.Voxel

set_option linter.unusedSectionVars false

/-- A floating-point coordinate: NaN, an infinity (`true`: the negative one) or a number. -/
inductive Flt (K : Type v) where
  | nan
  | inf (neg : Bool)
  | fin (x : K)

variable {K : Type v} [Field K] [LinearOrder K] [IsStrictOrderedRing K] [FloorRing K] {γ : Type u}

/-- `a < b` of floating-point values: false when one side is NaN. -/
def Flt.lt : Flt K → Flt K → Bool
  | .nan, _ => false
  | _, .nan => false
  | .fin a, .fin b => decide (a < b)
  | .inf n, .fin _ => n
  | .fin _, .inf n => !n
  | .inf m, .inf n => m && !n

/-- `std::isnan`. -/
def Flt.isNan : Flt K → Bool
  | .nan => true
  | _ => false

/-- A point of a cloud.  An infinite height is not modelled: the height is a number or NaN (`none`). -/
structure FPoint (K : Type v) where
  x : Flt K
  y : Flt K
  z : Option K

/-- One iteration of `getMinMax2D`, point_cloud_tools.h:37-46: comparisons of the coordinates as they
are, also those of a point with another coordinate that is NaN. -/
def boundsStepF (b : Bounds (Flt K)) (p : FPoint K) : Bounds (Flt K) :=
  { minx := if p.x.lt b.minx then p.x else b.minx
    maxx := if b.maxx.lt p.x then p.x else b.maxx
    miny := if p.y.lt b.miny then p.y else b.miny
    maxy := if b.maxy.lt p.y then p.y else b.maxy }

/-- `getMinMax2D`, point_cloud_tools.h:32-46: start from zero. -/
def minMaxF (ps : List (FPoint K)) : Bounds (Flt K) :=
  ps.foldl boundsStepF ⟨.fin 0, .fin 0, .fin 0, .fin 0⟩

/-- `calcIncLeft` and the like (voxel_grid2d.h:668-702) on any value, from their definition `f` on
numbers: the comparison with the border is false for NaN; for an infinity beyond the border (`low`: the
border is a lower one) the quotient is infinite, and its conversion to `size_t` is undefined. -/
def incF (low : Bool) (f : K → Res ℕ) : Flt K → Res ℕ
  | .nan => .ok 0
  | .inf neg => if neg = low then .ub .badCast else .ok 0
  | .fin x => f x

/-- `enlarge`, voxel_grid2d.h:124-128. -/
def enlargeF (g : Grid K γ) (b : Bounds (Flt K)) : Res (Grid K γ) :=
  (incF true (calcIncLeft g) b.minx).bind fun l =>
  (incF false (calcIncRight g) b.maxx).bind fun r =>
  (incF false (calcIncUp g) b.maxy).bind fun u =>
  (incF true (calcIncDown g) b.miny).bind fun d =>
  enlargeGrid g l r u d

/-- The test at ndt_grid2d.h:910. -/
def skipped (p : FPoint K) : Bool := p.x.isNan || p.y.isNan || p.z.isNone

/-- `addPoint`, ndt_grid2d.h:611-623, for a point that is not skipped: with an infinite coordinate the
number of new columns or rows (`enlargeToFit`) is undefined. -/
def addPointF (I : CellI K γ) (g : Grid K γ) (p : FPoint K) : Res (Grid K γ) :=
  match p.x, p.y, p.z with
  | .fin x, .fin y, some z => addPoint I g ![x, y, z]
  | _, _, _ => .ub .badCast

/-- The loop over the points in `createGrid`, ndt_grid2d.h:909-913. -/
def addPointsF (I : CellI K γ) (g : Grid K γ) : List (FPoint K) → Res (Grid K γ)
  | [] => .ok g
  | p :: ps =>
    if skipped p then addPointsF I g ps
    else (addPointF I g p).bind fun g => addPointsF I g ps

/-- `createGrid`, ndt_grid2d.h:899-920, for any cloud. -/
def createGridF (I : CellI K γ) (ox oy th cs : K) (ps : List (FPoint K)) : Res (NGrid K γ) :=
  let n := init I ox oy th cs
  (enlargeF n.grid (minMaxF ps)).bind fun g =>
  (addPointsF I g ps).bind fun g =>
  .ok { n with grid := computeCells I g }

/-- `initialize` (ndt_grid2d.h:597-602) and, with `traced = false`, `initializeSimple` (604-609), for any
scan in the frame of the grid.  The conversion of the points between equal frames is left out, as in
`initScan`; it keeps numbers, and it turns a coordinate into NaN when another one of the point is not a
number, which is a cloud covered here as well. -/
def initScanF (I : CellI K γ) (n : NGrid K γ) (ps : List (FPoint K)) (traced : Bool) :
    Res (NGrid K γ) :=
  (createGridF I n.ox n.oy n.th n.grid.cellSize ps).bind fun scan =>
  let n := { n with grid := Voxel.clear n.grid }
  if traced then mergeTraced I n 0 0 (getValidCells scan.grid) true
  else mergeCells I n (getValidCells scan.grid) true

/-! ### Specification -/

/-- The point of space given by a cloud point all of whose coordinates are numbers. -/
def FPoint.num (p : FPoint K) : Option (Fin 3 → K) :=
  match p.x, p.y, p.z with
  | .fin x, .fin y, some z => some ![x, y, z]
  | _, _, _ => none

/-- The cloud without the points that have a coordinate that is not a number. -/
def numbers (ps : List (FPoint K)) : List (Fin 3 → K) := ps.filterMap FPoint.num

/-- No planar coordinate is infinite. -/
def NoInf (p : FPoint K) : Prop := ∀ neg, p.x ≠ .inf neg ∧ p.y ≠ .inf neg

/-! ### Lemmas: the order of the listing -/

/-- Reading order of squares: rows from the top, each from the left. -/
def Before (a b : ℤ × ℤ) : Prop := b.2 < a.2 ∨ a.2 = b.2 ∧ a.1 < b.1

theorem squareNo_before (g : Grid K γ) {i j : ℕ} (h : i < j) : Before (squareNo g i) (squareNo g j) := by
  unfold Before squareNo
  have h1 : i / g.width ≤ j / g.width := Nat.div_le_div_right h.le
  rcases h1.lt_or_eq with h1 | h1
  · left; simp only; omega
  · right
    have e1 := Nat.div_add_mod i g.width
    have e2 := Nat.div_add_mod j g.width
    rw [h1] at e1
    simp only
    constructor <;> omega

/-- The stored cells with their squares, in the order of the storage. -/
def listed (g : Grid K γ) : List ((ℤ × ℤ) × γ) :=
  (List.range g.cells.length).filterMap fun i => (slot g.cells i).map fun c => (squareNo g i, c)

theorem listed_cells (g : Grid K γ) : (listed g).map Prod.snd = getValidCells g := by
  unfold listed getValidCells
  have e : g.cells = (List.range g.cells.length).map (slot g.cells) := by
    apply List.ext_getElem (by simp)
    intro i h1 h2
    rw [List.getElem_map, List.getElem_range, slot_eq_getElem h1]
  conv_rhs => rw [e]
  rw [List.map_filterMap, List.filterMap_map]
  apply List.filterMap_congr
  intro i _
  simp [Option.map_map, Function.comp_def]

theorem listed_sorted (g : Grid K γ) : (listed g).Pairwise fun a b => Before a.1 b.1 := by
  unfold listed
  refine List.Pairwise.filterMap _ ?_ List.pairwise_lt_range
  intro i j hij a ha b hb
  rw [Option.map_eq_some_iff] at ha hb
  obtain ⟨_, _, rfl⟩ := ha
  obtain ⟨_, _, rfl⟩ := hb
  exact squareNo_before g hij

theorem mem_listed {g : Grid K γ} (hwf : WF g) (q : ℤ × ℤ) (c : γ) :
    (q, c) ∈ listed g ↔ content g q = some c := by
  unfold listed
  unfold WF at hwf
  simp only [List.mem_filterMap, List.mem_range, Option.map_eq_some_iff, Prod.mk.injEq]
  constructor
  · rintro ⟨i, hi, c', hc, rfl, rfl⟩
    rw [content_squareNo (by omega), hc]
  · intro h
    have hin : InExtent g q := by
      by_contra hn
      rw [content_of_not_in hn] at h
      cases h
    refine ⟨slotNo g q, hwf ▸ slotNo_lt hin, c, ?_, squareNo_slotNo hin, rfl⟩
    rw [← content_of_in hin, h]

/-- Grids with the same content list the same cells in the same order, whatever their extents. -/
theorem getValidCells_eq {g g' : Grid K γ} (hwf : WF g) (hwf' : WF g')
    (h : ∀ q, content g' q = content g q) : getValidCells g' = getValidCells g := by
  rw [← listed_cells, ← listed_cells]
  congr 1
  have irr : Std.Irrefl fun a b : (ℤ × ℤ) × γ => Before a.1 b.1 :=
    ⟨fun a ha => by unfold Before at ha; omega⟩
  have asy : Std.Antisymm fun a b : (ℤ × ℤ) × γ => Before a.1 b.1 :=
    ⟨fun a b h1 h2 => by unfold Before at h1 h2; omega⟩
  refine List.Pairwise.eq_of_mem_iff (r := fun a b => Before a.1 b.1) (listed_sorted g') (listed_sorted g) ?_
  rintro ⟨q, c⟩
  rw [mem_listed hwf', mem_listed hwf, h]

/-! ### Lemmas: bounds -/

/-- All four bounds are numbers. -/
def Numeric (b : Bounds (Flt K)) : Prop :=
  ∃ a : Bounds K, b = ⟨.fin a.minx, .fin a.miny, .fin a.maxx, .fin a.maxy⟩

theorem boundsStepF_numeric {b : Bounds (Flt K)} {p : FPoint K} (hb : Numeric b) (hp : NoInf p) :
    Numeric (boundsStepF b p) := by
  obtain ⟨a, rfl⟩ := hb
  have key : ∀ (v : Flt K) (lo hi : K), (∀ neg, v ≠ .inf neg) →
      (∃ x, (if v.lt (.fin lo) then v else .fin lo) = .fin x) ∧
      (∃ x, (if (Flt.fin hi).lt v then v else .fin hi) = .fin x) := by
    intro v lo hi hv
    cases v with
    | nan => exact ⟨⟨lo, rfl⟩, ⟨hi, rfl⟩⟩
    | inf n => exact absurd rfl (hv n)
    | fin x =>
      constructor <;> split_ifs <;> exact ⟨_, rfl⟩
  obtain ⟨⟨x1, h1⟩, ⟨x2, h2⟩⟩ := key p.x a.minx a.maxx fun n => (hp n).1
  obtain ⟨⟨y1, h3⟩, ⟨y2, h4⟩⟩ := key p.y a.miny a.maxy fun n => (hp n).2
  refine ⟨⟨x1, y1, x2, y2⟩, ?_⟩
  unfold boundsStepF
  simp only [h1, h2, h3, h4]

theorem minMaxF_numeric {ps : List (FPoint K)} (hp : ∀ p ∈ ps, NoInf p) : Numeric (minMaxF ps) := by
  unfold minMaxF
  have : ∀ b : Bounds (Flt K), Numeric b → Numeric (ps.foldl boundsStepF b) := by
    induction ps with
    | nil => exact fun _ h => h
    | cons p ps ih =>
      intro b hb
      exact ih (fun q hq => hp q (List.mem_cons_of_mem _ hq)) _
        (boundsStepF_numeric hb (hp p List.mem_cons_self))
  exact this _ ⟨⟨0, 0, 0, 0⟩, rfl⟩

theorem enlargeF_fin (g : Grid K γ) (a : Bounds K) :
    enlargeF g ⟨.fin a.minx, .fin a.miny, .fin a.maxx, .fin a.maxy⟩ =
      enlarge g a.minx a.miny a.maxx a.maxy := rfl

theorem addPointsF_eq (I : CellI K γ) {ps : List (FPoint K)} (hp : ∀ p ∈ ps, NoInf p) :
    ∀ g : Grid K γ, addPointsF I g ps = addPoints I g (numbers ps) := by
  induction ps with
  | nil => exact fun _ => rfl
  | cons p ps ih =>
    intro g
    have ih := ih fun q hq => hp q (List.mem_cons_of_mem _ hq)
    have hp := hp p List.mem_cons_self
    obtain ⟨x, y, z⟩ := p
    cases x with
    | nan => exact ih g
    | inf n => exact absurd rfl (hp n).1
    | fin x =>
      cases y with
      | nan => exact ih g
      | inf n => exact absurd rfl (hp n).2
      | fin y =>
        cases z with
        | none => exact ih g
        | some z =>
          show (addPoint I g ![x, y, z]).bind _ = (addPoint I g ![x, y, z]).bind _
          congr 1
          exact funext ih

/-! ### Lemmas: infinities -/

theorem lt_inf_keep {v w : Flt K} (h : v = .inf true) : (if w.lt v then w else v) = .inf true := by
  subst h
  cases w with
  | nan => rfl
  | inf n => cases n <;> rfl
  | fin x => rfl

theorem gt_inf_keep {v w : Flt K} (h : v = .inf false) : (if v.lt w then w else v) = .inf false := by
  subst h
  cases w with
  | nan => rfl
  | inf n => cases n <;> rfl
  | fin x => rfl

/-- One bound is infinite. -/
def Unbounded (b : Bounds (Flt K)) : Prop :=
  b.minx = .inf true ∨ b.maxx = .inf false ∨ b.miny = .inf true ∨ b.maxy = .inf false

theorem Unbounded.step {b : Bounds (Flt K)} (h : Unbounded b) (p : FPoint K) :
    Unbounded (boundsStepF b p) := by
  rcases h with h | h | h | h
  · exact .inl (lt_inf_keep h)
  · exact .inr (.inl (gt_inf_keep h))
  · exact .inr (.inr (.inl (lt_inf_keep h)))
  · exact .inr (.inr (.inr (gt_inf_keep h)))

theorem Unbounded.foldl (ps : List (FPoint K)) : ∀ {b : Bounds (Flt K)}, Unbounded b →
    Unbounded (ps.foldl boundsStepF b) := by
  induction ps with
  | nil => exact fun h => h
  | cons p ps ih => exact fun h => ih (h.step p)

/-- No bound is NaN. -/
def Ordered (b : Bounds (Flt K)) : Prop :=
  b.minx ≠ .nan ∧ b.maxx ≠ .nan ∧ b.miny ≠ .nan ∧ b.maxy ≠ .nan

theorem lt_ne_nan {v w : Flt K} (hv : v ≠ .nan) :
    (if w.lt v then w else v) ≠ .nan ∧ (if v.lt w then w else v) ≠ .nan := by
  constructor
  · split_ifs with h
    · rintro rfl; exact absurd h (by simp [Flt.lt])
    · exact hv
  · split_ifs with h
    · rintro rfl; cases v <;> simp [Flt.lt] at h
    · exact hv

theorem Ordered.step {b : Bounds (Flt K)} (h : Ordered b) (p : FPoint K) : Ordered (boundsStepF b p) :=
  ⟨(lt_ne_nan h.1).1, (lt_ne_nan h.2.1).2, (lt_ne_nan h.2.2.1).1, (lt_ne_nan h.2.2.2).2⟩

theorem inf_taken {v : Flt K} (hv : v ≠ .nan) :
    (if (Flt.inf true).lt v then .inf true else v) = .inf true ∧
    (if v.lt (.inf false) then .inf false else v) = .inf false := by
  cases v with
  | nan => exact absurd rfl hv
  | inf n => cases n <;> exact ⟨rfl, rfl⟩
  | fin x => exact ⟨rfl, rfl⟩

theorem step_unbounded {b : Bounds (Flt K)} (hb : Ordered b) {p : FPoint K} (hp : ¬ NoInf p) :
    Unbounded (boundsStepF b p) := by
  unfold NoInf at hp
  push Not at hp
  obtain ⟨neg, h⟩ := hp
  by_cases hx : p.x = .inf neg
  · cases neg
    · right; left
      show (if b.maxx.lt p.x then p.x else b.maxx) = _
      rw [hx]; exact (inf_taken hb.2.1).2
    · left
      show (if p.x.lt b.minx then p.x else b.minx) = _
      rw [hx]; exact (inf_taken hb.1).1
  · have hy := h hx
    cases neg
    · right; right; right
      show (if b.maxy.lt p.y then p.y else b.maxy) = _
      rw [hy]; exact (inf_taken hb.2.2.2).2
    · right; right; left
      show (if p.y.lt b.miny then p.y else b.miny) = _
      rw [hy]; exact (inf_taken hb.2.2.1).1

theorem minMaxF_unbounded {ps : List (FPoint K)} {p : FPoint K} (hm : p ∈ ps) (hp : ¬ NoInf p) :
    Unbounded (minMaxF ps) := by
  have : ∀ (ps : List (FPoint K)) (b : Bounds (Flt K)), p ∈ ps → Ordered b →
      Unbounded (ps.foldl boundsStepF b) := by
    intro ps
    induction ps with
    | nil => intro b hm; simp at hm
    | cons q ps ih =>
      intro b hm hb
      rcases List.mem_cons.1 hm with rfl | hm
      · exact (step_unbounded hb hp).foldl ps
      · exact ih _ hm (hb.step q)
  exact this ps _ hm (by simp [Ordered])

/-- Either a number of columns or rows or a conversion that is undefined. -/
def Conv (r : Res ℕ) : Prop := (∃ n, r = .ok n) ∨ r = .ub .badCast

theorem toSizeT_conv (z : ℤ) : Conv (toSizeT z) := by
  unfold toSizeT
  split_ifs
  · exact .inr rfl
  · exact .inl ⟨_, rfl⟩

theorem inc_conv (g : Grid K γ) (x : K) : Conv (calcIncLeft g x) ∧ Conv (calcIncRight g x) ∧
    Conv (calcIncUp g x) ∧ Conv (calcIncDown g x) := by
  unfold calcIncLeft calcIncRight calcIncUp calcIncDown
  simp only
  refine ⟨?_, ?_, ?_, ?_⟩ <;> split_ifs <;>
    first | exact .inr rfl | exact toSizeT_conv _ | exact .inl ⟨0, rfl⟩

theorem incF_conv {f : K → Res ℕ} (hf : ∀ x, Conv (f x)) (low : Bool) (v : Flt K) :
    Conv (incF low f v) := by
  cases v with
  | nan => exact .inl ⟨0, rfl⟩
  | inf n =>
    simp only [incF]
    split_ifs
    · exact .inr rfl
    · exact .inl ⟨0, rfl⟩
  | fin x => exact hf x

theorem enlargeF_unbounded (g : Grid K γ) {b : Bounds (Flt K)} (h : Unbounded b) :
    enlargeF g b = .ub .badCast := by
  unfold enlargeF
  have c1 := incF_conv (fun x => (inc_conv g x).1) true b.minx
  have c2 := incF_conv (fun x => (inc_conv g x).2.1) false b.maxx
  have c3 := incF_conv (fun x => (inc_conv g x).2.2.1) false b.maxy
  have c4 := incF_conv (fun x => (inc_conv g x).2.2.2) true b.miny
  rcases c1 with ⟨n1, c1⟩ | c1
  · rw [c1, Res.bind_ok]
    rcases c2 with ⟨n2, c2⟩ | c2
    · rw [c2, Res.bind_ok]
      rcases c3 with ⟨n3, c3⟩ | c3
      · rw [c3, Res.bind_ok]
        rcases c4 with ⟨n4, c4⟩ | c4
        · rcases h with h | h | h | h
          · rw [h] at c1; simp [incF] at c1
          · rw [h] at c2; simp [incF] at c2
          · rw [h] at c4; simp [incF] at c4
          · rw [h] at c3; simp [incF] at c3
        · rw [c4]; rfl
      · rw [c3]; rfl
    · rw [c2]; rfl
  · rw [c1]; rfl

/-! ### Lemma: the grid of a cloud without infinities -/

theorem createGridF_spec (I : CellI K γ) (ox oy th : K) {cs : K} (hcs : 0 < cs)
    {ps : List (FPoint K)} (hi : ∀ p ∈ ps, NoInf p) (hp : ∀ p ∈ numbers ps, OffLines cs (head p)) :
    ∃ n, createGridF I ox oy th cs ps = .ok n ∧ WF n.grid ∧ n.grid.cellSize = cs ∧
      ∀ q, content n.grid q = if pointsIn cs (numbers ps) q = [] ∧ q ≠ (0, 0) then none
        else some (cellOf I (pointsIn cs (numbers ps) q)) := by
  unfold createGridF
  simp only
  obtain ⟨a, ha⟩ := minMaxF_numeric hi
  obtain ⟨g1, h1, gr, -⟩ := enlarge_spec (init_wf I ox oy th cs)
    (show 0 < (init I ox oy th cs).grid.cellSize from hcs) a.minx a.miny a.maxx a.maxy
  rw [ha, enlargeF_fin, h1, Res.bind_ok, addPointsF_eq I hi]
  have hc1 : g1.cellSize = cs := gr.cs
  obtain ⟨g2, h2, hwf2, hc2, hcont⟩ := addPoints_spec I (numbers ps) gr.wf (by rw [hc1]; exact hcs)
    (fun p hpm => by
      apply OffLines.notOpen
      rw [hc1]
      exact hp p hpm)
  rw [h2, Res.bind_ok]
  refine ⟨_, rfl, wf_map _ hwf2, hc2.trans hc1, ?_⟩
  intro q
  show content { g2 with cells := g2.cells.map (Option.map I.compute) } q = _
  rw [content_map, hcont, hc1, gr.content, init_content]
  unfold fillCell cellOf
  by_cases hl : pointsIn cs (numbers ps) q = []
  · by_cases hq : q = (0, 0)
    · rw [if_pos hl, if_pos hq, if_neg (fun h => h.2 hq), hl]
      rfl
    · rw [if_pos hl, if_neg hq, if_pos ⟨hl, hq⟩]
      rfl
  · rw [if_neg hl]
    have : (if q = (0, 0) then some I.default else none).getD I.default = I.default := by
      split_ifs <;> rfl
    rw [this, if_neg (fun h => hl h.1)]
    rfl

end Verif.NDTGrid
