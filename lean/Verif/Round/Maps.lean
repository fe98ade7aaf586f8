import Verif.Round.Props
import Verif.Round.Binary
import Verif.NDTGrid.Spec

/- Property C145: rounding does not decide where the NDT grid stores and finds its cells. -/
namespace Verif.Round

open Verif Verif.Voxel Verif.NDTGrid

set_option linter.unusedSectionVars false

variable {K : Type v} [Field K] [LinearOrder K] [IsStrictOrderedRing K] [FloorRing K] {α γ : Type u}

/-- No border line separates the two coordinates. -/
def SameSide (cs x y : K) : Prop := ∀ k : ℤ, x < (k + 1 / 2) * cs ↔ y < (k + 1 / 2) * cs

/-- A computed bound `m'` stands for the exact one `m`: both are off the lines, and the computed one is the
rounding of a safe coordinate in the same column (or row) as the exact one. -/
def StandsFor (η ε R cs m' m : K) : Prop :=
  (Off η cs m ∧ |m| + cs ≤ R) ∧ ∃ y, |m' - y| ≤ ε ∧ Off η cs y ∧ |y| + cs ≤ R ∧ SameSide cs y m

theorem off_cases {η cs x : K} (h : Off η cs x) (k : ℤ) :
    (x < (k + 1 / 2) * cs ∧ x < (k + 1 / 2) * cs - η) ∨
      (¬ x < (k + 1 / 2) * cs ∧ (k + 1 / 2) * cs + η < x) := by
  have := h k
  rcases lt_or_ge x ((k + 1 / 2) * cs) with hx | hx
  · rw [abs_of_neg (by linarith)] at this
    exact .inl ⟨hx, by linarith⟩
  · rw [abs_of_nonneg (by linarith)] at this
    exact .inr ⟨not_lt.2 hx, by linarith⟩

theorem zero_off {η cs : K} (h : 2 * η < cs) (hη : 0 ≤ η) : Off η cs 0 := by
  intro k
  rw [zero_sub, abs_neg, abs_mul, abs_of_pos (by linarith : 0 < cs)]
  have : (1 / 2 : K) ≤ |(k : K) + 1 / 2| := by
    rcases le_or_gt 0 k with hk | hk
    · have : (0 : K) ≤ k := by exact_mod_cast hk
      rw [abs_of_nonneg (by linarith)]; linarith
    · have : (k : K) ≤ -1 := by exact_mod_cast (by omega : k ≤ -1)
      rw [abs_of_nonpos (by linarith)]; linarith
  nlinarith

section
variable {η ε R cs : K} (hε : ε ≤ η) {x x' m m' : K} (hx : Off η cs x) (hxR : |x| + cs ≤ R)
  (hx' : |x' - x| ≤ ε) (h : StandsFor η ε R cs m' m)

include hε hx hxR hx' h

theorem min_step : StandsFor η ε R cs (if x < m' then x' else m') (if x < m then x else m) := by
  obtain ⟨h0, y, h1, h2, h3, h4⟩ := id h
  have h1' := abs_le.1 h1
  split_ifs with a b b
  · exact ⟨⟨hx, hxR⟩, x, hx', hx, hxR, fun _ => Iff.rfl⟩
  · refine ⟨h0, x, hx', hx, hxR, fun k => ⟨fun hk => by linarith, fun hk => ?_⟩⟩
    rcases off_cases h2 k with ⟨-, c⟩ | ⟨c, -⟩
    · linarith
    · exact absurd ((h4 k).2 hk) c
  · refine ⟨⟨hx, hxR⟩, y, h1, h2, h3, fun k => ⟨fun hk => ?_, fun hk => ?_⟩⟩
    · have := (h4 k).1 hk
      linarith
    · rcases off_cases hx k with ⟨-, c⟩ | ⟨c, -⟩
      · linarith
      · exact absurd hk c
  · exact h

theorem max_step : StandsFor η ε R cs (if x > m' then x' else m') (if x > m then x else m) := by
  obtain ⟨h0, y, h1, h2, h3, h4⟩ := id h
  have h1' := abs_le.1 h1
  split_ifs with a b b
  · exact ⟨⟨hx, hxR⟩, x, hx', hx, hxR, fun _ => Iff.rfl⟩
  · refine ⟨h0, x, hx', hx, hxR, fun k => ⟨fun hk => ?_, fun hk => by linarith⟩⟩
    rcases off_cases h2 k with ⟨c, -⟩ | ⟨-, c⟩
    · exact (h4 k).1 c
    · linarith
  · refine ⟨⟨hx, hxR⟩, y, h1, h2, h3, fun k => ⟨fun hk => ?_, fun hk => ?_⟩⟩
    · rcases off_cases hx k with ⟨c, -⟩ | ⟨-, c⟩
      · exact c
      · linarith
    · exact (h4 k).2 (by linarith)
  · exact h

end

theorem standsFor_refl {η ε R cs x : K} (hε : 0 ≤ ε) (h : Off η cs x) (hR : |x| + cs ≤ R) :
    StandsFor η ε R cs x x := ⟨⟨h, hR⟩, x, by simpa using hε, h, hR, fun _ => Iff.rfl⟩

/-- The four bounds stand for the exact ones. -/
structure BoundsOk (η ε R cs : K) (b' b : Bounds K) : Prop where
  minx : StandsFor η ε R cs b'.minx b.minx
  miny : StandsFor η ε R cs b'.miny b.miny
  maxx : StandsFor η ε R cs b'.maxx b.maxx
  maxy : StandsFor η ε R cs b'.maxy b.maxy

theorem minMax_ok {F : Fmt K} {u R cs : K} (hF : Accurate F u) (hcs : 0 < cs) (hη : 64 * (u * R) < cs)
    (hR : cs ≤ R) (ps : List (K × K)) (hp : ∀ p ∈ ps, Safe (32 * (u * R)) R cs p) :
    BoundsOk (32 * (u * R)) (5 * (u * R)) R cs (minMax F ps) (NDTGrid.minMax ps) := by
  have huR : 0 ≤ u * R := mul_nonneg hF.nonneg (by linarith)
  have hz : Off (32 * (u * R)) cs 0 := zero_off (by linarith) (by linarith)
  have z := standsFor_refl (ε := 5 * (u * R)) (by linarith) hz (by simpa using hR)
  have key : ∀ (qs : List (K × K)) (b' b : Bounds K), (∀ p ∈ qs, Safe (32 * (u * R)) R cs p) →
      BoundsOk (32 * (u * R)) (5 * (u * R)) R cs b' b →
      BoundsOk (32 * (u * R)) (5 * (u * R)) R cs (qs.foldl (boundsStep F) b')
        (qs.foldl NDTGrid.boundsStep b) := by
    intro qs
    induction qs with
    | nil => intro b' b _ h; exact h
    | cons q qs ih =>
      intro b' b hq h
      have hs := hq q List.mem_cons_self
      refine ih _ _ (fun p h => hq p (List.mem_cons_of_mem _ h)) ?_
      have e : ∀ x : K, |x| + cs ≤ R → |F.s x - x| ≤ 5 * (u * R) := by
        intro x hx
        have h1 : u * |x| ≤ u * R := mul_le_mul_of_nonneg_left (by linarith) hF.nonneg
        linarith [hF.single x]
      exact ⟨min_step (by linarith) hs.offX hs.x_le (e _ hs.x_le) h.minx,
        min_step (by linarith) hs.offY hs.y_le (e _ hs.y_le) h.miny,
        max_step (by linarith) hs.offX hs.x_le (e _ hs.x_le) h.maxx,
        max_step (by linarith) hs.offY hs.y_le (e _ hs.y_le) h.maxy⟩
  exact key ps _ _ hp ⟨z, z, z, z⟩

/-- The exact increment only depends on the column. -/
theorem inc_sameSide_below {cs x y : K} (hcs : 0 < cs) (n : ℕ) (h : SameSide cs x y) :
    (if x < -(n : K) * cs - cs / 2 then
      (if cs = 0 then Res.ub .badCast else toSizeT ⌈(-(n : K) * cs - cs / 2 - x) / cs⌉) else .ok 0) =
    (if y < -(n : K) * cs - cs / 2 then
      (if cs = 0 then Res.ub .badCast else toSizeT ⌈(-(n : K) * cs - cs / 2 - y) / cs⌉) else .ok 0) := by
  have h1 := h (-n - 1)
  rw [show (((-n - 1 : ℤ) : K) + 1 / 2) * cs = -n * cs - cs / 2 by push_cast; ring] at h1
  have h2 : ⌈(-(n : K) * cs - cs / 2 - x) / cs⌉ = ⌈(-(n : K) * cs - cs / 2 - y) / cs⌉ := by
    refine eq_of_forall_ge_iff fun z => ?_
    have := h (-n - 1 - z)
    rw [Int.ceil_le, Int.ceil_le, div_le_iff₀ hcs, div_le_iff₀ hcs]
    rw [show (((-n - 1 - z : ℤ) : K) + 1 / 2) * cs = -n * cs - cs / 2 - z * cs by push_cast; ring] at this
    rw [← not_lt, ← not_lt, not_iff_not]
    constructor <;> intro hh
    · have := this.1 (by linarith); linarith
    · have := this.2 (by linarith); linarith
  rw [h2]
  simp only [h1]

theorem inc_sameSide_above {η cs x y : K} (hη : 0 ≤ η) (hcs : 0 < cs) (n : ℕ) (h : SameSide cs x y)
    (hx : Off η cs x) (hy : Off η cs y) :
    (if x > (n : K) * cs + cs / 2 then
      (if cs = 0 then Res.ub .badCast else toSizeT ⌈(x - ((n : K) * cs + cs / 2)) / cs⌉) else .ok 0) =
    (if y > (n : K) * cs + cs / 2 then
      (if cs = 0 then Res.ub .badCast else toSizeT ⌈(y - ((n : K) * cs + cs / 2)) / cs⌉) else .ok 0) := by
  have hle : ∀ k : ℤ, x ≤ (k + 1 / 2) * cs ↔ y ≤ (k + 1 / 2) * cs := by
    intro k
    rcases off_cases hx k with ⟨a, a'⟩ | ⟨a, a'⟩ <;> rcases off_cases hy k with ⟨b, b'⟩ | ⟨b, b'⟩
    · exact ⟨fun _ => b.le, fun _ => a.le⟩
    · exact absurd ((h k).1 a) b
    · exact absurd ((h k).2 b) a
    · constructor <;> intro <;> linarith
  have h1 := hle n
  push_cast at h1
  rw [show ((n : K) + 1 / 2) * cs = n * cs + cs / 2 by ring] at h1
  have h1' : x > (n : K) * cs + cs / 2 ↔ y > (n : K) * cs + cs / 2 := by
    rw [gt_iff_lt, gt_iff_lt, ← not_le, ← not_le, h1]
  have h2 : ⌈(x - ((n : K) * cs + cs / 2)) / cs⌉ = ⌈(y - ((n : K) * cs + cs / 2)) / cs⌉ := by
    refine eq_of_forall_ge_iff fun z => ?_
    have := hle (n + z)
    rw [Int.ceil_le, Int.ceil_le, div_le_iff₀ hcs, div_le_iff₀ hcs]
    rw [show (((n + z : ℤ) : K) + 1 / 2) * cs = n * cs + cs / 2 + z * cs by push_cast; ring] at this
    constructor <;> intro hh
    · have := this.1 (by linarith); linarith
    · have := this.2 (by linarith); linarith
  rw [h2]
  simp only [h1']

theorem enlarge_bounds {F : Fmt K} {u R : K} {g : Grid K α} (hF : Accurate F u) (hcs : 0 < g.cellSize)
    (hg : InRange R g) {b' b : Bounds K}
    (h : BoundsOk (32 * (u * R)) (5 * (u * R)) R g.cellSize b' b) :
    enlarge F g b'.minx b'.miny b'.maxx b'.maxy = Voxel.enlarge g b.minx b.miny b.maxx b.maxy := by
  obtain ⟨a0, y1, a1, a2, a3, a4⟩ := h.minx
  obtain ⟨b0, y2, b1, b2, b3, b4⟩ := h.miny
  obtain ⟨c0, y3, c1, c2, c3, c4⟩ := h.maxx
  obtain ⟨d0, y4, d1, d2, d3, d4⟩ := h.maxy
  have hη : 0 ≤ 32 * (u * R) := by
    have : 0 ≤ R := by have := abs_nonneg y1; linarith
    have := mul_nonneg hF.nonneg this
    linarith
  rw [enlarge_eq hF hcs hg a3 b3 c3 d3 a2 b2 c2 d2 a1 b1 c1 d1]
  unfold Voxel.enlarge
  have e1 : calcIncLeft g y1 = calcIncLeft g b.minx := inc_sameSide_below hcs g.left a4
  have e2 : calcIncDown g y2 = calcIncDown g b.miny := inc_sameSide_below hcs g.down b4
  have e3 : calcIncRight g y3 = calcIncRight g b.maxx := inc_sameSide_above hη hcs g.right c4 c2 c0.1
  have e4 : calcIncUp g y4 = calcIncUp g b.maxy := inc_sameSide_above hη hcs g.up d4 d2 d0.1
  rw [e1, e2, e3, e4]

/-- All means of the cells are safe. -/
def MeansSafe (I : CellI K γ) (η R cs : K) (cells : List γ) : Prop :=
  ∀ c ∈ cells, Safe η R cs (head (I.mean c))

/-- A grid that is well formed, of cell size `cs` and within the range. -/
def Fine (R cs : K) (g : Grid K γ) : Prop := WF g ∧ g.cellSize = cs ∧ InRange R g

theorem addCell_fine {u R cs : K} {g : Grid K γ} {p : K × K} (hcs : 0 < cs) (hg : Fine R cs g)
    (hp : Safe (32 * (u * R)) R cs p) {ops : CellOps γ} {c : γ} {m : Bool} {g' : Grid K γ}
    (h : Voxel.addCell ops g p c m = .ok g') : Fine R cs g' := by
  obtain ⟨hwf, rfl, hr⟩ := hg
  unfold Voxel.addCell at h
  obtain ⟨g1, h1, h⟩ := Res.bind_eq_ok.1 h
  obtain ⟨k1, k2, k3⟩ := enlargeToFit_inRange hwf hcs hr hp h1
  obtain ⟨idx, -, h⟩ := Res.bind_eq_ok.1 h
  obtain ⟨old, -, h⟩ := Res.bind_eq_ok.1 h
  have hw : ∀ {l : List (Option γ)} {i : ℕ} {x : Option γ} {l'}, writeSlot l i x = .ok l' →
      l'.length = l.length := by
    intro l i x l' h
    unfold writeSlot at h
    split_ifs at h
    injection h with h
    rw [← h, List.length_set]
  cases old <;> obtain ⟨cells, h2, h⟩ := Res.bind_eq_ok.1 h <;> injection h with h <;> subst h <;>
    exact ⟨by unfold WF at k2 ⊢; rw [hw h2]; exact k2, k3, ⟨k1.left, k1.right, k1.up, k1.down⟩⟩

section
variable {F : Fmt K} {u R cs : K} (hF : Accurate F u) (hcs : 0 < cs) (I : CellI K γ)

include hF hcs

theorem overwriteAll_eq : ∀ (cells : List γ) {g : Grid K γ}, Fine R cs g →
    MeansSafe I (32 * (u * R)) R cs cells →
    overwriteAll F I g cells = NDTGrid.overwriteAll I g cells ∧
      ∀ g', NDTGrid.overwriteAll I g cells = .ok g' → Fine R cs g' := by
  intro cells
  induction cells with
  | nil =>
    intro g hg _
    refine ⟨rfl, fun g' h => ?_⟩
    simp only [NDTGrid.overwriteAll] at h
    injection h with h
    exact h ▸ hg
  | cons c cells ih =>
    intro g hg hs
    have hs' : MeansSafe I (32 * (u * R)) R cs cells := fun x hx => hs x (List.mem_cons_of_mem _ hx)
    have hc := hs c List.mem_cons_self
    simp only [overwriteAll, NDTGrid.overwriteAll]
    split_ifs with hgc
    · obtain ⟨h1, h2, h3⟩ := id hg
      rw [addCell_eq hF h1 (h2 ▸ hcs) h3 (h2 ▸ hc)]
      cases h : Voxel.addCell I.toCellOps g (head (I.mean c)) c false with
      | throw e => exact ⟨rfl, fun _ h => by cases h⟩
      | ub e => exact ⟨rfl, fun _ h => by cases h⟩
      | ok g1 => exact ih (addCell_fine hcs hg hc h) hs'
    · exact ih hg hs'

theorem mergeInside_eq : ∀ (cells : List γ) {g : Grid K γ}, Fine R cs g →
    MeansSafe I (32 * (u * R)) R cs cells →
    mergeInside F I g cells = NDTGrid.mergeInside I g cells ∧
      ∀ g', NDTGrid.mergeInside I g cells = .ok g' → Fine R cs g' := by
  intro cells
  induction cells with
  | nil =>
    intro g hg _
    refine ⟨rfl, fun g' h => ?_⟩
    simp only [NDTGrid.mergeInside] at h
    injection h with h
    exact h ▸ hg
  | cons c cells ih =>
    intro g hg hs
    have hs' : MeansSafe I (32 * (u * R)) R cs cells := fun x hx => hs x (List.mem_cons_of_mem _ hx)
    have hc := hs c List.mem_cons_self
    obtain ⟨h1, h2, h3⟩ := id hg
    simp only [mergeInside, NDTGrid.mergeInside]
    rw [isInside_eq hF (h2 ▸ hcs) h3 (h2 ▸ hc)]
    split_ifs with hgc hin
    · rw [addCell_eq hF h1 (h2 ▸ hcs) h3 (h2 ▸ hc)]
      cases h : Voxel.addCell I.toCellOps g (head (I.mean c)) c true with
      | throw e => exact ⟨rfl, fun _ h => by cases h⟩
      | ub e => exact ⟨rfl, fun _ h => by cases h⟩
      | ok g1 => exact ih (addCell_fine hcs hg hc h) hs'
    · exact ih hg hs'
    · exact ih hg hs'

theorem addPoint_eq {p : Fin 3 → K} {g : Grid K γ} (hg : Fine R cs g)
    (hp : Safe (32 * (u * R)) R cs (head p)) : addPoint F I g p = NDTGrid.addPoint I g p ∧
      ∀ g', NDTGrid.addPoint I g p = .ok g' → Fine R cs g' := by
  have hR : 0 ≤ R := by have := hp.x_le; have := abs_nonneg (head p).1; linarith
  have hm : ∀ {g1 : Grid K γ}, Fine R cs g1 → (modifyCell F g1 (head p) fun c => I.addPoint c p) =
      (NDTGrid.modifyCell g1 (head p) fun c => I.addPoint c p) ∧
      ∀ g', (NDTGrid.modifyCell g1 (head p) fun c => I.addPoint c p) = .ok g' → Fine R cs g' := by
    intro g1 hg1
    obtain ⟨h1, h2, h3⟩ := id hg1
    constructor
    · unfold modifyCell NDTGrid.modifyCell
      rw [calcIndex_eq hF (h2 ▸ hcs) h3 (h2 ▸ hp) (zero_err hF hR _) (zero_err hF hR _)]
      rfl
    · intro g' h
      unfold NDTGrid.modifyCell at h
      obtain ⟨idx, -, h⟩ := Res.bind_eq_ok.1 h
      obtain ⟨old, -, h⟩ := Res.bind_eq_ok.1 h
      cases old with
      | none => cases h
      | some o =>
        obtain ⟨cells, h4, h⟩ := Res.bind_eq_ok.1 h
        injection h with h
        subst h
        refine ⟨?_, h2, ⟨h3.left, h3.right, h3.up, h3.down⟩⟩
        unfold writeSlot at h4
        split_ifs at h4
        injection h4 with h4
        unfold WF at h1 ⊢
        rw [← h4, List.length_set]
        exact h1
  obtain ⟨h1, h2, h3⟩ := id hg
  have hex := (C144_partial hF h1 (h2 ▸ hcs) h3 (h2 ▸ hp)).2.1
  unfold addPoint NDTGrid.addPoint
  rw [hex]
  cases he : Voxel.cellExists g (head p) with
  | throw e => exact ⟨rfl, fun _ h => by cases h⟩
  | ub e => exact ⟨rfl, fun _ h => by cases h⟩
  | ok e =>
    simp only [Res.bind_ok]
    split_ifs with hb
    · rw [addCell_eq hF h1 (h2 ▸ hcs) h3 (h2 ▸ hp)]
      cases h : Voxel.addCell I.toCellOps g (head p) I.default false with
      | throw e => exact ⟨rfl, fun _ h => by cases h⟩
      | ub e => exact ⟨rfl, fun _ h => by cases h⟩
      | ok g1 => exact hm (addCell_fine hcs hg hp h)
    · exact hm hg

theorem addPoints_eq : ∀ (ps : List (Fin 3 → K)) {g : Grid K γ}, Fine R cs g →
    (∀ p ∈ ps, Safe (32 * (u * R)) R cs (head p)) →
    addPoints F I g ps = NDTGrid.addPoints I g ps ∧
      ∀ g', NDTGrid.addPoints I g ps = .ok g' → Fine R cs g' := by
  intro ps
  induction ps with
  | nil =>
    intro g hg _
    refine ⟨rfl, fun g' h => ?_⟩
    simp only [NDTGrid.addPoints] at h
    injection h with h
    exact h ▸ hg
  | cons p ps ih =>
    intro g hg hs
    obtain ⟨h1, h2⟩ := addPoint_eq hF hcs I hg (hs p List.mem_cons_self)
    simp only [addPoints, NDTGrid.addPoints]
    rw [h1]
    cases h : NDTGrid.addPoint I g p with
    | throw e => exact ⟨rfl, fun _ h => by cases h⟩
    | ub e => exact ⟨rfl, fun _ h => by cases h⟩
    | ok g1 => exact ih (h2 g1 h) (fun x hx => hs x (List.mem_cons_of_mem _ hx))

end

/-- The means cloud in `float`. -/
def singleMeans (F : Fmt K) (n : NGrid K γ) : NGrid K γ := { n with means := n.means.map fun m i => F.s (m i) }

end Verif.Round
