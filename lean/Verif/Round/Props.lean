import Verif.Round.Lemmas
import Verif.Grid.Ops

/- Property C144: rounding does not decide where the grid stores things. -/
namespace Verif.Round

open Verif Verif.Voxel Verif.NDTGrid

set_option linter.unusedSectionVars false

variable {K : Type v} [Field K] [LinearOrder K] [IsStrictOrderedRing K] [FloorRing K] {α γ : Type u}

section
variable {F : Fmt K} {u R : K} {g : Grid K α} {p : K × K}

theorem isInside_eq (hF : Accurate F u) (hcs : 0 < g.cellSize) (hg : InRange R g)
    (hp : Safe (32 * (u * R)) R g.cellSize p) : isInside F g p = Voxel.isInside g p := by
  have hR : 0 ≤ R := by have := hp.x_le; have := abs_nonneg p.1; linarith
  have huR : (0 : K) ≤ u * R := mul_nonneg hF.nonneg hR
  have h1 := lowD_err hF hcs hR hg.left
  have h2 := boundS_err hF hcs hR hg.right
  have h3 := lowD_err hF hcs hR hg.down
  have h4 := boundS_err hF hcs hR hg.up
  have f1 := far_below hF hcs hp.offX g.left
  have f2 := far_above hF hcs hp.offX g.right
  have f3 := far_below hF hcs hp.offY g.down
  have f4 := far_above hF hcs hp.offY g.up
  push_cast at f2 f4
  have z : ∀ x : K, |x - x| ≤ 0 := fun x => by simp
  unfold isInside Voxel.isInside Grid.half
  have e1 := le_of_far h1 (z p.1) (by rw [abs_sub_comm]; linarith)
  have e2 := le_of_far (z p.1) h2 (by linarith)
  have e3 := le_of_far h3 (z p.2) (by rw [abs_sub_comm]; linarith)
  have e4 := le_of_far (z p.2) h4 (by linarith)
  simp only [ge_iff_le, e1, e2, e3, e4]

theorem calcCoordinates_eq (hF : Accurate F u) (hcs : 0 < g.cellSize) (hg : InRange R g)
    (hp : Safe (32 * (u * R)) R g.cellSize p) {p' : K × K} (hx : |p'.1 - p.1| ≤ 5 * (u * R))
    (hy : |p'.2 - p.2| ≤ 5 * (u * R)) : calcCoordinates F g p' = Voxel.calcCoordinates g p := by
  have hR : 0 < R := by have := hp.x_le; have := abs_nonneg p.1; linarith
  unfold calcCoordinates Voxel.calcCoordinates Grid.half
  rw [coordinate_eq hF hcs hR hg.left (by linarith [hp.x_le]) hx, coordinate_eq hF hcs hR hg.up (x := -p.2)
    (by rw [abs_neg]; linarith [hp.y_le])
    (by rw [show -p'.2 - -p.2 = -(p'.2 - p.2) by ring, abs_neg]; exact hy)]
  · intro m
    have := hp.offY (-m)
    rw [show -p.2 - ((m : K) - 1 / 2) * g.cellSize = -(p.2 - (((-m : ℤ) : K) + 1 / 2) * g.cellSize) by
      push_cast; ring, abs_neg]
    exact this
  · intro m
    have := hp.offX (m - 1)
    rwa [show (((m - 1 : ℤ) : K) + 1 / 2) = (m : K) - 1 / 2 by push_cast; ring] at this

theorem calcIndex_eq (hF : Accurate F u) (hcs : 0 < g.cellSize) (hg : InRange R g)
    (hp : Safe (32 * (u * R)) R g.cellSize p) {p' : K × K} (hx : |p'.1 - p.1| ≤ 5 * (u * R))
    (hy : |p'.2 - p.2| ≤ 5 * (u * R)) : calcIndex F g p' = Voxel.calcIndex g p := by
  unfold calcIndex Voxel.calcIndex
  rw [calcCoordinates_eq hF hcs hg hp hx hy]

/-- Rounding the coordinates of a position of the range. -/
theorem single_err (hF : Accurate F u) (hcs : 0 < g.cellSize) {x : K} (hx : |x| + g.cellSize ≤ R) :
    |F.s x - x| ≤ 5 * (u * R) := by
  have h := hF.single x
  have h1 : u * |x| ≤ u * R := mul_le_mul_of_nonneg_left (by linarith) hF.nonneg
  have h2 : (0 : K) ≤ u * R := mul_nonneg hF.nonneg (by have := abs_nonneg x; linarith)
  linarith

theorem zero_err (hF : Accurate F u) (hR : 0 ≤ R) (x : K) : |x - x| ≤ 5 * (u * R) := by
  rw [sub_self, abs_zero]
  have : (0 : K) ≤ u * R := mul_nonneg hF.nonneg hR
  linarith

theorem calcIncLeft_as (x : K) : calcIncLeft g x = if x < -(g.left : K) * g.cellSize - g.cellSize / 2 then
    (if g.cellSize = 0 then .ub .badCast
      else toSizeT ⌈(-(g.left : K) * g.cellSize - g.cellSize / 2 - x) / g.cellSize⌉) else .ok 0 := rfl

/-- Bounds that are each close to a safe coordinate give the exact enlargement. -/
theorem enlarge_eq (hF : Accurate F u) (hcs : 0 < g.cellSize) (hg : InRange R g)
    {a b c d a' b' c' d' : K} (ha : |a| + g.cellSize ≤ R) (hb : |b| + g.cellSize ≤ R)
    (hc : |c| + g.cellSize ≤ R) (hd : |d| + g.cellSize ≤ R)
    (oa : Off (32 * (u * R)) g.cellSize a) (ob : Off (32 * (u * R)) g.cellSize b)
    (oc : Off (32 * (u * R)) g.cellSize c) (od : Off (32 * (u * R)) g.cellSize d)
    (ea : |a' - a| ≤ 5 * (u * R)) (eb : |b' - b| ≤ 5 * (u * R)) (ec : |c' - c| ≤ 5 * (u * R))
    (ed : |d' - d| ≤ 5 * (u * R)) : enlarge F g a' b' c' d' = Voxel.enlarge g a b c d := by
  have hR : 0 < R := by have := abs_nonneg a; linarith
  unfold enlarge Voxel.enlarge
  rw [incBelow_eq hF hcs hR hg.left (by linarith) ea oa, incAbove_eq hF hcs hR hg.right (by linarith) ec oc,
    incAbove_eq hF hcs hR hg.up (by linarith) ed od, incBelow_eq hF hcs hR hg.down (by linarith) eb ob]
  rfl

theorem enlargeToFit_eq (hF : Accurate F u) (hcs : 0 < g.cellSize) (hg : InRange R g)
    (hp : Safe (32 * (u * R)) R g.cellSize p) : enlargeToFit F g p = Voxel.enlargeToFit g p := by
  unfold enlargeToFit
  rw [isInside_eq hF hcs hg hp, enlarge_eq hF hcs hg hp.x_le hp.y_le hp.x_le hp.y_le hp.offX hp.offY hp.offX
    hp.offY (single_err hF hcs hp.x_le) (single_err hF hcs hp.y_le) (single_err hF hcs hp.x_le)
    (single_err hF hcs hp.y_le)]
  rfl

/-- Enlarging to a safe coordinate stays within the range. -/
theorem enlarge_inRange (hwf : WF g) (hcs : 0 < g.cellSize) (hg : InRange R g)
    {a b c d : K} (ha : |a| + g.cellSize ≤ R) (hb : |b| + g.cellSize ≤ R)
    (hc : |c| + g.cellSize ≤ R) (hd : |d| + g.cellSize ≤ R) {g' : Grid K α}
    (h : Voxel.enlarge g a b c d = .ok g') : InRange R g' ∧ WF g' ∧ g'.cellSize = g.cellSize := by
  obtain ⟨l, hl, l1, l2, l3⟩ := calcIncLeft_spec hcs a
  obtain ⟨r, hr, r1, r2, r3⟩ := calcIncRight_spec hcs c
  obtain ⟨u', hu, u1, u2, u3⟩ := calcIncUp_spec hcs d
  obtain ⟨e, he, e1, e2, e3⟩ := calcIncDown_spec hcs b
  unfold Voxel.enlarge at h
  rw [hl, hr, hu, he] at h
  simp only [Res.bind_ok] at h
  obtain ⟨g'', h', hwf', hL, hR', hU, hD, hC, -, -⟩ := enlargeGrid_spec hwf l r u' e
  rw [h'] at h
  obtain rfl : g'' = g' := by injection h
  have key : ∀ (m n : ℕ) (x : K), (m + 1 / 2) * g.cellSize ≤ R → |x| + g.cellSize ≤ R →
      ((m : K) + 1 / 2 < x / g.cellSize → m + n - 1 / 2 < x / g.cellSize) →
      (x / g.cellSize ≤ (m : K) + 1 / 2 → n = 0) → ((m + n : ℕ) + 1 / 2 : K) * g.cellSize ≤ R := by
    intro m n x hm hx h1 h2
    by_cases h : x / g.cellSize ≤ (m : K) + 1 / 2
    · rw [h2 h]; simpa using hm
    · have := h1 (not_le.1 h)
      rw [lt_div_iff₀ hcs] at this
      have := le_abs_self x
      push_cast
      nlinarith
  refine ⟨⟨?_, ?_, ?_, ?_⟩, hwf', hC⟩ <;> rw [hC]
  · rw [hL]
    refine key g.left l (-a) hg.left (by rwa [abs_neg]) (fun h => ?_) (fun h => l3 ?_)
    · rw [neg_div] at h ⊢
      have := l2 (by linarith); linarith
    · rw [neg_div] at h; linarith
  · rw [hR']; exact key g.right r c hg.right hc r2 r3
  · rw [hU]; exact key g.up u' d hg.up hd u2 u3
  · rw [hD]
    refine key g.down e (-b) hg.down (by rwa [abs_neg]) (fun h => ?_) (fun h => e3 ?_)
    · rw [neg_div] at h ⊢
      have := e2 (by linarith); linarith
    · rw [neg_div] at h; linarith

theorem enlargeToFit_inRange (hwf : WF g) (hcs : 0 < g.cellSize) (hg : InRange R g)
    (hp : Safe (32 * (u * R)) R g.cellSize p) {g' : Grid K α} (h : Voxel.enlargeToFit g p = .ok g') :
    InRange R g' ∧ WF g' ∧ g'.cellSize = g.cellSize := by
  unfold Voxel.enlargeToFit at h
  split_ifs at h with hi
  · obtain rfl : g = g' := by injection h
    exact ⟨hg, hwf, rfl⟩
  · exact enlarge_inRange hwf hcs hg hp.x_le hp.y_le hp.x_le hp.y_le h

theorem addCell_eq (hF : Accurate F u) (hwf : WF g) (hcs : 0 < g.cellSize) (hg : InRange R g)
    (hp : Safe (32 * (u * R)) R g.cellSize p) (ops : CellOps α) (c : α) (m : Bool) :
    addCell F ops g p c m = Voxel.addCell ops g p c m := by
  have hR : 0 ≤ R := by have := hp.x_le; have := abs_nonneg p.1; linarith
  unfold addCell Voxel.addCell
  rw [enlargeToFit_eq hF hcs hg hp]
  cases h : Voxel.enlargeToFit g p with
  | throw e => rfl
  | ub e => rfl
  | ok g' =>
    obtain ⟨h1, h2, h3⟩ := enlargeToFit_inRange hwf hcs hg hp h
    simp only [Res.bind_ok]
    rw [calcIndex_eq hF (h3 ▸ hcs) h1 (h3 ▸ hp) (zero_err hF hR _) (zero_err hF hR _)]
    rfl

end

/-- **C144**, away from the border lines: for a position that is further than `32·u·R` from all borders
between squares (`u` the relative error of the formats, `R` the size of the map), every call on the grid
gives exactly the result that it gives in exact arithmetic. -/
theorem C144_partial {F : Fmt K} {u R : K} (hF : Accurate F u) {g : Grid K α} (hwf : WF g)
    (hcs : 0 < g.cellSize) (hg : InRange R g) {p : K × K} (hp : Safe (32 * (u * R)) R g.cellSize p) :
    isInside F g p = Voxel.isInside g p ∧ cellExists F g p = Voxel.cellExists g p ∧
    getCellPtr F g p = Voxel.getCellPtr g p ∧
    (∀ n, getNeighbors F g p n = Voxel.getNeighbors g p n) ∧
    ∀ ops c m, addCell F ops g p c m = Voxel.addCell ops g p c m := by
  have hR : 0 ≤ R := by have := hp.x_le; have := abs_nonneg p.1; linarith
  have h1 := isInside_eq hF hcs hg hp
  have h2 := calcIndex_eq hF hcs hg hp (zero_err hF hR p.1) (zero_err hF hR p.2)
  have h3 := calcCoordinates_eq hF hcs hg hp (zero_err hF hR p.1) (zero_err hF hR p.2)
  have h4 : cellExists F g p = Voxel.cellExists g p := by
    unfold cellExists Voxel.cellExists
    rw [h1, h2]
  refine ⟨h1, h4, ?_, fun n => ?_, fun ops c m => addCell_eq hF hwf hcs hg hp ops c m⟩
  · unfold getCellPtr Voxel.getCellPtr
    rw [h2]
  · unfold getNeighbors Voxel.getNeighbors
    rw [h1, h2, h3, h4]

end Verif.Round
