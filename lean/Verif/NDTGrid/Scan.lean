import Verif.NDTGrid.Mapper
import Verif.NDTGrid.Sums
import Mathlib.Data.List.Sort

/-
Helper lemmas: building a grid from a scan, histories, and the order of frames.
-/
namespace Verif.NDTGrid

open Verif Verif.Voxel

set_option linter.unusedSectionVars false

variable {K : Type v} [Field K] [LinearOrder K] [IsStrictOrderedRing K] [FloorRing K] {γ : Type u}

theorem init_wf (I : CellI K γ) (ox oy th cs : K) : WF (init I ox oy th cs).grid := by
  unfold WF; rfl

theorem init_content (I : CellI K γ) (ox oy th cs : K) (q : ℤ × ℤ) :
    content (init I ox oy th cs).grid q = if q = (0, 0) then some I.default else none := by
  by_cases h : q = (0, 0)
  · subst h
    rw [if_pos rfl]
    rfl
  · rw [if_neg h]
    apply content_of_not_in
    intro hq
    apply h
    obtain ⟨h1, h2, h3, h4⟩ := hq
    simp only [init, Voxel.setCellSize, Voxel.init] at h1 h2 h3 h4
    ext <;> simp only <;> omega

theorem clear_content (g : Grid K γ) (q : ℤ × ℤ) : content (Voxel.clear g) q = none := by
  unfold content Voxel.clear
  split_ifs
  · simp [slot, List.getElem?_replicate]
    split_ifs <;> rfl
  · rfl

theorem clear_wf {g : Grid K γ} (h : WF g) : WF (Voxel.clear g) := by
  unfold WF Voxel.clear at *
  simpa [Grid.width, Grid.height] using h

/-! ### Cells of a grid, by square -/

theorem validCells_square {I : CellI K γ} {g : Grid K γ} (hwf : WF g) (hp : Placed I g) (q : ℤ × ℤ) :
    (inSquare I g.cellSize (getValidCells g) q).getLast? = (content g q).filter I.gaussian := by
  have hall : ∀ c ∈ inSquare I g.cellSize (getValidCells g) q,
      content g q = some c ∧ I.gaussian c = true := by
    intro c hc
    obtain ⟨h1, h2, h3⟩ := mem_inSquare.1 hc
    obtain ⟨q', hq'⟩ := (mem_validCells hwf c).1 h1
    have := hp q' c hq' h2
    rw [h3] at this
    rw [this]
    exact ⟨hq', h2⟩
  cases hl : (inSquare I g.cellSize (getValidCells g) q).getLast? with
  | some c =>
    obtain ⟨h1, h2⟩ := hall c (List.mem_of_getLast? hl)
    rw [h1, Option.filter_some, if_pos h2]
  | none =>
    rw [List.getLast?_eq_none_iff] at hl
    cases hc : content g q with
    | none => rfl
    | some c =>
      by_cases hg : I.gaussian c = true
      · have : c ∈ inSquare I g.cellSize (getValidCells g) q :=
          mem_inSquare.2 ⟨(mem_validCells hwf c).2 ⟨q, hc⟩, hg, hp q c hc hg⟩
        rw [hl] at this
        cases this
      · rw [Option.filter_some, if_neg hg]

/-! ### Averages -/

theorem sum_bounds {l : List K} (hl : l ≠ []) {a b : K} (h : ∀ x ∈ l, a < x ∧ x < b) :
    l.length * a < l.sum ∧ l.sum < l.length * b := by
  induction l with
  | nil => exact absurd rfl hl
  | cons x l ih =>
    obtain ⟨h1, h2⟩ := h x List.mem_cons_self
    by_cases hn : l = []
    · subst hn
      simp only [List.length_cons, List.length_nil, List.sum_cons, List.sum_nil]
      push_cast
      constructor <;> linarith
    · obtain ⟨h3, h4⟩ := ih hn (fun y hy => h y (List.mem_cons_of_mem _ hy))
      simp only [List.length_cons, List.sum_cons]
      push_cast
      constructor <;> linarith

theorem offLines_open {cs : K} (hcs : 0 < cs) {p : K × K} (h : OffLines cs p) :
    (((squareOf cs p).1 : K) - 1 / 2) * cs < p.1 ∧ p.1 < (((squareOf cs p).1 : K) + 1 / 2) * cs ∧
    (((squareOf cs p).2 : K) - 1 / 2) * cs < p.2 ∧ p.2 < (((squareOf cs p).2 : K) + 1 / 2) * cs := by
  obtain ⟨h1, h2, h3, h4⟩ := (squareOf_iff hcs p _).1 rfl
  refine ⟨lt_of_le_of_ne h1 ?_, h2, h3, lt_of_le_of_ne h4 (h.2 _)⟩
  intro e
  apply h.1 ((squareOf cs p).1 - 1)
  rw [← e]; push_cast; ring

theorem open_offLines {cs : K} (hcs : 0 < cs) {p : K × K} {q : ℤ × ℤ}
    (h : ((q.1 : K) - 1 / 2) * cs < p.1 ∧ p.1 < ((q.1 : K) + 1 / 2) * cs ∧
      ((q.2 : K) - 1 / 2) * cs < p.2 ∧ p.2 < ((q.2 : K) + 1 / 2) * cs) :
    squareOf cs p = q ∧ OffLines cs p := by
  obtain ⟨h1, h2, h3, h4⟩ := h
  refine ⟨(squareOf_iff hcs p q).2 ⟨h1.le, h2, h3, h4.le⟩, ?_⟩
  have key : ∀ (x : K) (z k : ℤ), ((z : K) - 1 / 2) * cs < x → x < ((z : K) + 1 / 2) * cs →
      x ≠ (k + 1 / 2) * cs := by
    rintro x z k ha hb rfl
    have h5 : (z : K) - 1 < k := by
      have := lt_of_mul_lt_mul_right ha hcs.le
      linarith
    have h6 : (k : K) < z := by
      have := lt_of_mul_lt_mul_right hb hcs.le
      linarith
    have h7 : z - 1 < k := by exact_mod_cast h5
    have h8 : k < z := by exact_mod_cast h6
    omega
  exact ⟨fun k => key _ _ k h1 h2, fun k => key _ _ k h3 h4⟩

theorem cellOf_square {I : CellI K γ} (hS : LawfulScan I) {cs : K} (hcs : 0 < cs)
    {ps : List (Fin 3 → K)} {q : ℤ × ℤ} (h : ∀ p ∈ ps, OffLines cs (head p) ∧ squareOf cs (head p) = q)
    (hg : I.gaussian (cellOf I ps) = true) :
    squareOfMean I cs (cellOf I ps) = q ∧ OffLines cs (head (I.mean (cellOf I ps))) := by
  have hne : ps ≠ [] := by
    rintro rfl
    rw [hS.empty] at hg
    cases hg
  have hpos : (0 : K) < ps.length := by
    exact_mod_cast List.length_pos_iff.2 hne
  apply open_offLines hcs
  have key : ∀ (i : Fin 3) (a b : K), (∀ p ∈ ps, a < p i ∧ p i < b) →
      a < I.mean (cellOf I ps) i ∧ I.mean (cellOf I ps) i < b := by
    intro i a b hab
    have hs := hS.mean ps hg i
    have hb := sum_bounds (l := ps.map fun p => p i) (by simpa using hne) (a := a) (b := b) (by
      intro x hx
      obtain ⟨p, hp, rfl⟩ := List.mem_map.1 hx
      exact hab p hp)
    rw [← hs, List.length_map] at hb
    exact ⟨lt_of_mul_lt_mul_left hb.1 hpos.le, lt_of_mul_lt_mul_left hb.2 hpos.le⟩
  have ho : ∀ p ∈ ps, _ := fun p hp => offLines_open hcs (h p hp).1
  have k0 := key 0 (((q.1 : K) - 1 / 2) * cs) (((q.1 : K) + 1 / 2) * cs) (by
    intro p hp
    have := ho p hp
    rw [(h p hp).2] at this
    exact ⟨this.1, this.2.1⟩)
  have k1 := key 1 (((q.2 : K) - 1 / 2) * cs) (((q.2 : K) + 1 / 2) * cs) (by
    intro p hp
    have := ho p hp
    rw [(h p hp).2] at this
    exact ⟨this.2.2.1, this.2.2.2⟩)
  exact ⟨k0.1, k0.2, k1.1, k1.2⟩

/-! ### `createGrid` -/

theorem mem_pointsIn {cs : K} {ps : List (Fin 3 → K)} {q : ℤ × ℤ} {p : Fin 3 → K} :
    p ∈ pointsIn cs ps q ↔ p ∈ ps ∧ squareOf cs (head p) = q := by
  unfold pointsIn
  simp [List.mem_filter]

theorem createGrid_spec (I : CellI K γ) (ox oy th : K) {cs : K} (hcs : 0 < cs)
    (ps : List (Fin 3 → K)) (hp : ∀ p ∈ ps, OffLines cs (head p)) :
    ∃ n, createGrid I ox oy th cs ps = .ok n ∧ WF n.grid ∧ n.grid.cellSize = cs ∧
      ∀ q, content n.grid q =
        if pointsIn cs ps q = [] ∧ q ≠ (0, 0) then none else some (cellOf I (pointsIn cs ps q)) := by
  unfold createGrid
  simp only
  obtain ⟨g1, h1, gr, -⟩ := enlarge_minMax (init_wf I ox oy th cs)
    (show 0 < (init I ox oy th cs).grid.cellSize from hcs) (ps.map head)
  rw [h1, Res.bind_ok]
  have hc1 : g1.cellSize = cs := gr.cs
  obtain ⟨g2, h2, hwf2, hc2, hcont⟩ := addPoints_spec I ps gr.wf (by rw [hc1]; exact hcs)
    (fun p hpm => by
      apply OffLines.notOpen
      rw [hc1]
      exact hp p hpm)
  rw [h2, Res.bind_ok]
  refine ⟨_, rfl, wf_map _ hwf2, hc2.trans hc1, ?_⟩
  intro q
  show content { g2 with cells := g2.cells.map (Option.map I.compute) } q = _
  rw [content_map, hcont, hc1, gr.content, init_content]
  unfold fillCell cellOf
  by_cases hl : pointsIn cs ps q = []
  · by_cases hq : q = (0, 0)
    · rw [if_pos hl, if_pos hq, if_neg (fun h => h.2 hq), hl]
      rfl
    · rw [if_pos hl, if_neg hq, if_pos ⟨hl, hq⟩]
      rfl
  · rw [if_neg hl]
    have : (if q = (0, 0) then some I.default else none).getD I.default = I.default := by
      split_ifs <;> rfl
    rw [this, if_neg (fun h => hl h.1)]
    rfl

theorem createGrid_placed {I : CellI K γ} (hS : LawfulScan I) {ox oy th cs : K} (hcs : 0 < cs)
    {ps : List (Fin 3 → K)} (hp : ∀ p ∈ ps, OffLines cs (head p)) {n : NGrid K γ}
    (h : createGrid I ox oy th cs ps = .ok n) :
    WF n.grid ∧ n.grid.cellSize = cs ∧ Placed I n.grid ∧
    CellsOffLines I cs (getValidCells n.grid) ∧
    ∀ q, (content n.grid q).filter I.gaussian =
      (some (cellOf I (pointsIn cs ps q))).filter I.gaussian := by
  obtain ⟨n', h', hwf, hc, hcont⟩ := createGrid_spec I ox oy th hcs ps hp
  rw [h] at h'
  cases h'
  have hsome : ∀ q c, content n.grid q = some c → c = cellOf I (pointsIn cs ps q) := by
    intro q c hq
    rw [hcont] at hq
    split_ifs at hq
    cases hq
    rfl
  have hsq : ∀ q, I.gaussian (cellOf I (pointsIn cs ps q)) = true →
      squareOfMean I cs (cellOf I (pointsIn cs ps q)) = q ∧
      OffLines cs (head (I.mean (cellOf I (pointsIn cs ps q)))) := by
    intro q
    apply cellOf_square hS hcs
    intro p hpm
    obtain ⟨hm, hq⟩ := mem_pointsIn.1 hpm
    exact ⟨hp p hm, hq⟩
  refine ⟨hwf, hc, ?_, ?_, ?_⟩
  · intro q c hq hg
    rw [hsome q c hq] at hg ⊢
    rw [hc]
    exact (hsq q hg).1
  · intro c hm hg
    obtain ⟨q, hq⟩ := (mem_validCells hwf c).1 hm
    rw [hsome q c hq] at hg ⊢
    exact (hsq q hg).2
  · intro q
    rw [hcont]
    split_ifs with hl
    · rw [hl.1, Option.filter_some, if_neg (by rw [hS.empty]; simp)]
      rfl
    · rfl

/-! ### Histories -/

theorem exec_invariant {I : CellI K γ} (hI : Lawful I) {cs : K} (hcs : 0 < cs) {n n' : NGrid K γ}
    {o : Op K γ} (hwf : WF n.grid) (hc : n.grid.cellSize = cs) (hp : Placed I n.grid)
    (ho : CellsOffLines I cs o.input) (h : o.exec I n = .ok n') :
    (WF n'.grid ∧ n'.grid.cellSize = cs ∧ Placed I n'.grid) ∧
      ∀ b, (b = true → Synced I n) → freshStep b o = true → Synced I n' := by
  subst hc
  cases o with
  | mergeCells cells resize =>
    obtain ⟨h1, h2, h3, h4⟩ := mergeCells_placed hI hwf hcs ho hp h
    exact ⟨⟨h1, h2, h3⟩, fun _ _ _ => h4⟩
  | mergeTraced sx sy cells resize =>
    obtain ⟨h1, h2, h3, h4⟩ := mergeTraced_placed hI hwf hcs ho hp h
    exact ⟨⟨h1, h2, h3⟩, fun _ _ _ => h4⟩
  | move tx ty =>
    obtain ⟨⟨r, n1⟩, h1, h2⟩ := Res.map_eq_ok.1 h
    cases h2
    obtain ⟨h2, h3, h4⟩ := move_placed hI hwf hcs hp h1
    exact ⟨⟨h2, h3, h4.1⟩, fun b hs hb => h4.2 (hs hb)⟩
  | enlarge a b c d =>
    obtain ⟨g, h1, h2⟩ := Res.map_eq_ok.1 h
    cases h2
    obtain ⟨g', h', gr, -⟩ := enlarge_spec hwf hcs a b c d
    rw [h1] at h'
    cases h'
    refine ⟨⟨gr.wf, gr.cs, ?_⟩, ?_⟩
    · intro q c hq hg
      rw [gr.content] at hq
      rw [gr.cs]
      exact hp q c hq hg
    · intro b hs hb m
      rw [hs hb m]
      simp only [gr.content]
  | clear =>
    cases h
    refine ⟨⟨clear_wf hwf, rfl, ?_⟩, ?_⟩
    · intro q c hq
      rw [show content (clear n).grid q = none from clear_content n.grid q] at hq
      cases hq
    · intro b _ hb
      cases hb

theorem execAll_invariant {I : CellI K γ} (hI : Lawful I) {cs : K} (hcs : 0 < cs) :
    ∀ (hist : List (Op K γ)) {n n' : NGrid K γ} (b : Bool), WF n.grid → n.grid.cellSize = cs →
    Placed I n.grid → (∀ o ∈ hist, CellsOffLines I cs o.input) → execAll I n hist = .ok n' →
    (b = true → Synced I n) →
    (WF n'.grid ∧ n'.grid.cellSize = cs ∧ Placed I n'.grid) ∧
      (hist.foldl freshStep b = true → Synced I n') := by
  intro hist
  induction hist with
  | nil =>
    intro n n' b h1 h2 h3 _ h hb
    cases h
    exact ⟨⟨h1, h2, h3⟩, hb⟩
  | cons o os ih =>
    intro n n' b h1 h2 h3 ho h hb
    obtain ⟨n1, hn1, h⟩ := Res.bind_eq_ok.1 h
    obtain ⟨⟨e1, e2, e3⟩, e4⟩ := exec_invariant hI hcs h1 h2 h3 (ho o List.mem_cons_self) hn1
    exact ih (freshStep b o) e1 e2 e3 (fun o' h' => ho o' (List.mem_cons_of_mem _ h')) h (e4 b hb)

theorem init_placed {I : CellI K γ} (hI : Lawful I) (ox oy th cs : K) :
    Placed I (init I ox oy th cs).grid ∧ Synced I (init I ox oy th cs) := by
  have hng : ∀ q c, content (init I ox oy th cs).grid q = some c → I.gaussian c = true → False := by
    intro q c hq hg
    rw [init_content] at hq
    split_ifs at hq
    cases hq
    rw [hI.default_gaussian] at hg
    cases hg
  refine ⟨fun q c hq hg => (hng q c hq hg).elim, fun m => ⟨fun h => ?_, ?_⟩⟩
  · cases h
  · rintro ⟨q, c, hq, hg, -⟩
    exact (hng q c hq hg).elim

/-! ### The order of frames -/

theorem addToMap_means (I : CellI K γ) (m : NGrid K γ) (l : List (Fin 3 → K)) (f : Frame K γ) :
    addToMap I { m with means := l } f = addToMap I m f := by
  unfold addToMap mergeTraced mergeCells
  simp only [Bool.true_or, if_true]
  rfl

theorem addAll_means (I : CellI K γ) (m : NGrid K γ) (l : List (Fin 3 → K)) {fs : List (Frame K γ)}
    (h : fs ≠ []) : addAll I { m with means := l } fs = addAll I m fs := by
  cases fs with
  | nil => exact absurd rfl h
  | cons f fs => simp only [addAll, addToMap_means]

theorem mergeSort_perm_eq {a b : List K} (h : a.Perm b) :
    a.mergeSort (fun a b => decide (a ≤ b)) = b.mergeSort (fun a b => decide (a ≤ b)) := by
  have hs : ∀ l : List K, (l.mergeSort (fun a b => decide (a ≤ b))).Pairwise (· ≤ ·) := by
    intro l
    have := List.pairwise_mergeSort (le := fun a b : K => decide (a ≤ b))
      (by intro a b c h1 h2; simp only [decide_eq_true_eq] at *; exact h1.trans h2)
      (by intro a b; simp only [Bool.or_eq_true, decide_eq_true_eq]; exact le_total a b) l
    simpa using this
  apply List.Perm.eq_of_pairwise (le := (· ≤ ·)) ?_ (hs a) (hs b)
  · exact ((List.mergeSort_perm a _).trans h).trans (List.mergeSort_perm b _).symm
  · intro x y _ _ h1 h2
    exact le_antisymm h1 h2

theorem clear_eq {g g' : Grid K γ} (hwf : WF g) (hwf' : WF g') (hc : g'.cellSize = g.cellSize)
    (he : extOf g' = extOf g) : Voxel.clear g' = setV (Voxel.clear g) g'.validCells := by
  unfold extOf at he
  simp only [Prod.mk.injEq] at he
  obtain ⟨h1, h2, h3, h4⟩ := he
  have hl : g'.cells.length = g.cells.length := by
    unfold WF Grid.width Grid.height at *
    rw [hwf, hwf', h1, h2, h3, h4]
  unfold Voxel.clear setV
  cases g; cases g'
  simp_all

end Verif.NDTGrid
