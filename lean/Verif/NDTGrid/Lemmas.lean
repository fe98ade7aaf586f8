import Verif.NDTGrid.Spec
import Verif.Grid.Props
import Mathlib.Tactic.Linarith
import Mathlib.Tactic.Ring
import Mathlib.Tactic.FieldSimp

/-
Helper lemmas on the NDT grid.
-/
namespace Verif.NDTGrid

open Verif Verif.Voxel

set_option linter.unusedSectionVars false

variable {K : Type v} [Field K] [LinearOrder K] [IsStrictOrderedRing K] [FloorRing K] {γ : Type u}

/-! ### Slots and content -/

theorem slot_map (f : γ → γ) (l : List (Option γ)) (i : ℕ) :
    slot (l.map (Option.map f)) i = (slot l i).map f := by
  unfold slot
  rw [List.getElem?_map]
  cases l[i]? with
  | none => rfl
  | some a => cases a <;> rfl

theorem content_map (f : γ → γ) (g : Grid K γ) (q : ℤ × ℤ) :
    content { g with cells := g.cells.map (Option.map f) } q = (content g q).map f := by
  by_cases h : InExtent g q
  · rw [content_of_in h, content_of_in (g := { g with cells := g.cells.map (Option.map f) }) h]
    exact slot_map f g.cells _
  · rw [content_of_not_in h,
      content_of_not_in (g := { g with cells := g.cells.map (Option.map f) }) h]
    rfl

theorem wf_map (f : γ → γ) {g : Grid K γ} (h : WF g) :
    WF { g with cells := g.cells.map (Option.map f) } := by
  unfold WF at *
  simp only [List.length_map]
  exact h

/-- A stored cell is in the list of valid cells, and the other way round. -/
theorem mem_validCells {g : Grid K γ} (hwf : WF g) (c : γ) :
    c ∈ getValidCells g ↔ ∃ q, content g q = some c := by
  unfold getValidCells
  simp only [List.mem_filterMap, id]
  constructor
  · rintro ⟨a, ha, rfl⟩
    obtain ⟨i, hi, he⟩ := List.mem_iff_getElem.1 ha
    refine ⟨squareNo g i, ?_⟩
    unfold WF at hwf
    rw [content_squareNo (by omega), slot_eq_getElem hi, he]
  · rintro ⟨q, hq⟩
    have hin : InExtent g q := by
      by_contra h
      rw [content_of_not_in h] at hq
      cases hq
    rw [content_of_in hin] at hq
    have hlt := slotNo_lt hin
    unfold WF at hwf
    rw [slot_eq_getElem (by omega)] at hq
    exact ⟨_, List.getElem_mem _, hq⟩

theorem OffLines.notOpen {g : Grid K γ} {p : K × K} (h : OffLines g.cellSize p) :
    ¬ OnOpenBorder g p := by
  rintro (⟨k, hk⟩ | ⟨k, hk⟩)
  · apply h.1 (g.right + k)
    rw [hk]; push_cast; ring
  · apply h.2 (-(g.down + k + 1))
    rw [hk]; push_cast; ring

theorem OnOpenBorder.mono {g g' : Grid K γ} (hcs : g'.cellSize = g.cellSize) (hr : g.right ≤ g'.right)
    (hd : g.down ≤ g'.down) {p : K × K} (h : OnOpenBorder g' p) : OnOpenBorder g p := by
  rcases h with ⟨k, hk⟩ | ⟨k, hk⟩
  · refine Or.inl ⟨g'.right - g.right + k, ?_⟩
    rw [hk, hcs]
    push_cast [Nat.cast_sub hr]; ring
  · refine Or.inr ⟨g'.down - g.down + k, ?_⟩
    rw [hk, hcs]
    push_cast [Nat.cast_sub hd]; ring

theorem notOpen_iff_inExtent {g : Grid K γ} (hwf : WF g) (hcs : 0 < g.cellSize) {p : K × K}
    (hin : isInside g p = true) : InExtent g (squareOf g.cellSize p) ↔ ¬ OnOpenBorder g p := by
  obtain ⟨g', h, -, -, hiff⟩ := enlargeToFit_spec hwf hcs p
  unfold enlargeToFit at h
  rw [if_pos hin] at h
  cases h
  exact hiff

theorem notOpen_of_edge {g : Grid K γ} (hwf : WF g) (hcs : 0 < g.cellSize) {p : K × K}
    (hin : isInside g p = true) (he : ¬ OnEdge g p) : ¬ OnOpenBorder g p :=
  (notOpen_iff_inExtent hwf hcs hin).1 (C06_inside_addresses_own_slot_partial hwf hcs hin he).1

/-- Extents and cell size agree. -/
structure SameBox (g g' : Grid K γ) : Prop where
  left : g'.left = g.left
  right : g'.right = g.right
  up : g'.up = g.up
  down : g'.down = g.down
  cs : g'.cellSize = g.cellSize

theorem SameBox.refl (g : Grid K γ) : SameBox g g := ⟨rfl, rfl, rfl, rfl, rfl⟩

theorem SameBox.trans {a b c : Grid K γ} (h : SameBox a b) (h' : SameBox b c) : SameBox a c :=
  ⟨h'.1.trans h.1, h'.2.trans h.2, h'.3.trans h.3, h'.4.trans h.4, h'.5.trans h.5⟩

theorem SameBox.inExtent {g g' : Grid K γ} (h : SameBox g g') (q : ℤ × ℤ) :
    InExtent g' q ↔ InExtent g q := by
  unfold InExtent; rw [h.left, h.right, h.up, h.down]

theorem SameBox.isInside {g g' : Grid K γ} (h : SameBox g g') (p : K × K) :
    isInside g' p = isInside g p := by
  unfold Voxel.isInside Grid.half; rw [h.left, h.right, h.up, h.down, h.cs]

theorem addCell_box {ops : CellOps γ} {g g' : Grid K γ} {p : K × K} {c : γ} {m : Bool}
    (hin : isInside g p = true) (h : addCell ops g p c m = .ok g') : SameBox g g' := by
  unfold addCell enlargeToFit at h
  rw [if_pos hin, Res.bind_ok] at h
  obtain ⟨idx, -, h⟩ := Res.bind_eq_ok.1 h
  obtain ⟨old, -, h⟩ := Res.bind_eq_ok.1 h
  cases old with
  | none =>
    obtain ⟨l, -, h⟩ := Res.bind_eq_ok.1 h
    cases h
    exact ⟨rfl, rfl, rfl, rfl, rfl⟩
  | some o =>
    obtain ⟨l, -, h⟩ := Res.bind_eq_ok.1 h
    cases h
    exact ⟨rfl, rfl, rfl, rfl, rfl⟩

/-! ### Merging -/

theorem inSquare_cons_not {I : CellI K γ} {cs : K} {c : γ} {l : List γ} {q : ℤ × ℤ}
    (h : ¬ (I.gaussian c = true ∧ squareOfMean I cs c = q)) :
    inSquare I cs (c :: l) q = inSquare I cs l q := by
  unfold inSquare
  rw [List.filter_cons_of_neg]
  simpa using h

theorem inSquare_cons {I : CellI K γ} {cs : K} {c : γ} {l : List γ}
    (h : I.gaussian c = true) :
    inSquare I cs (c :: l) (squareOfMean I cs c) = c :: inSquare I cs l (squareOfMean I cs c) := by
  unfold inSquare
  rw [List.filter_cons_of_pos]
  simpa using h

theorem overwriteAll_spec (I : CellI K γ) : ∀ (cells : List γ) {g : Grid K γ}, WF g →
    0 < g.cellSize → (∀ c ∈ cells, I.gaussian c = true → ¬ OnOpenBorder g (head (I.mean c))) →
    ∃ g', overwriteAll I g cells = .ok g' ∧ WF g' ∧ g'.cellSize = g.cellSize ∧
      g.left ≤ g'.left ∧ g.right ≤ g'.right ∧ g.up ≤ g'.up ∧ g.down ≤ g'.down ∧
      (∀ q, content g' q = ((inSquare I g.cellSize cells q).getLast?).or (content g q)) ∧
      ∀ q, (inSquare I g.cellSize cells q) ≠ [] → InExtent g' q := by
  intro cells
  induction cells with
  | nil =>
    intro g hwf hcs _
    exact ⟨g, rfl, hwf, rfl, le_rfl, le_rfl, le_rfl, le_rfl, fun q => rfl, fun q h => absurd rfl h⟩
  | cons c cells ih =>
    intro g hwf hcs hb
    unfold overwriteAll
    by_cases hg : I.gaussian c = true
    · rw [if_pos hg]
      obtain ⟨g1, h1, hwf1, hc1, hl, hr, hu, hd, hin, -, hcont⟩ := addCell_spec I.toCellOps hwf hcs
        (hb c List.mem_cons_self hg) c false
      rw [h1, Res.bind_ok]
      obtain ⟨g2, h2, hwf2, hc2, hl2, hr2, hu2, hd2, hcont2, hex2⟩ := ih hwf1 (hc1 ▸ hcs)
        (fun d hd' hgd ho => hb d (List.mem_cons_of_mem _ hd') hgd (OnOpenBorder.mono hc1 hr hd ho))
      refine ⟨g2, h2, hwf2, hc2.trans hc1, hl.trans hl2, hr.trans hr2, hu.trans hu2, hd.trans hd2, ?_,
        ?_⟩
      · intro q
        rw [hcont2 q, hc1, hcont]
        by_cases hq : squareOfMean I g.cellSize c = q
        · subst hq
          rw [inSquare_cons hg, List.getLast?_cons]
          unfold squareOfMean
          rw [Function.update_self]
          cases (inSquare I g.cellSize cells (squareOf g.cellSize (head (I.mean c)))).getLast? with
          | some x => rfl
          | none =>
            unfold added
            cases content g (squareOf g.cellSize (head (I.mean c))) <;> rfl
        · rw [inSquare_cons_not (fun h => hq h.2), Function.update_of_ne]
          exact fun h => hq h.symm
      · intro q hne
        by_cases hq : squareOfMean I g.cellSize c = q
        · subst hq
          unfold InExtent at hin ⊢
          unfold squareOfMean
          omega
        · rw [inSquare_cons_not (fun h => hq h.2)] at hne
          exact hex2 q (hc1 ▸ hne)
    · rw [if_neg hg]
      obtain ⟨g2, h2, hwf2, hc2, hl2, hr2, hu2, hd2, hcont2, hex2⟩ := ih hwf hcs
        (fun d hd' => hb d (List.mem_cons_of_mem _ hd'))
      refine ⟨g2, h2, hwf2, hc2, hl2, hr2, hu2, hd2, ?_, ?_⟩
      · intro q
        rw [hcont2, inSquare_cons_not (fun h => hg h.1)]
      · intro q hne
        rw [inSquare_cons_not (fun h => hg h.1)] at hne
        exact hex2 q hne

/-- One incoming cell merged into what a square holds. -/
def mergeStep (I : CellI K γ) (old : Option γ) (c : γ) : Option γ :=
  some (match old with
    | none => c
    | some o => I.merge o c)

theorem mergeInside_spec (I : CellI K γ) : ∀ (cells : List γ) {g : Grid K γ}, WF g →
    0 < g.cellSize → (∀ c ∈ cells, I.gaussian c = true → isInside g (head (I.mean c)) = true →
      ¬ OnOpenBorder g (head (I.mean c))) →
    ∃ g', mergeInside I g cells = .ok g' ∧ WF g' ∧ SameBox g g' ∧
      ∀ q, content g' q = if InExtent g q then
        (inSquare I g.cellSize cells q).foldl (mergeStep I) (content g q) else none := by
  intro cells
  induction cells with
  | nil =>
    intro g hwf hcs _
    refine ⟨g, rfl, hwf, SameBox.refl g, fun q => ?_⟩
    split_ifs with h
    · rfl
    · exact content_of_not_in h
  | cons c cells ih =>
    intro g hwf hcs hb
    unfold mergeInside
    by_cases hg : I.gaussian c = true
    · rw [if_pos hg]
      by_cases hin : isInside g (head (I.mean c)) = true
      · rw [if_pos hin]
        have hnb := hb c List.mem_cons_self hg hin
        obtain ⟨g1, h1, hwf1, hc1, -, -, -, -, -, -, hcont⟩ := addCell_spec I.toCellOps hwf hcs hnb c true
        have hbox := addCell_box hin h1
        rw [h1, Res.bind_ok]
        obtain ⟨g2, h2, hwf2, hbox2, hcont2⟩ := ih hwf1 (hc1 ▸ hcs)
          (fun d hd' hgd hi ho => hb d (List.mem_cons_of_mem _ hd') hgd (hbox.isInside _ ▸ hi)
            (OnOpenBorder.mono hc1 hbox.right.ge hbox.down.ge ho))
        refine ⟨g2, h2, hwf2, hbox.trans hbox2, ?_⟩
        intro q
        rw [hcont2 q, hc1]
        simp only [hbox.inExtent]
        split_ifs with hq'
        · by_cases hq : squareOfMean I g.cellSize c = q
          · subst hq
            rw [inSquare_cons hg, List.foldl_cons, hcont]
            unfold squareOfMean
            rw [Function.update_self]
            cases content g (squareOf g.cellSize (head (I.mean c))) <;> rfl
          · rw [inSquare_cons_not (fun h => hq h.2), hcont, Function.update_of_ne]
            exact fun h => hq h.symm
        · rfl
      · rw [if_neg hin]
        obtain ⟨g2, h2, hwf2, hbox2, hcont2⟩ := ih hwf hcs
          (fun d hd' => hb d (List.mem_cons_of_mem _ hd'))
        refine ⟨g2, h2, hwf2, hbox2, ?_⟩
        intro q
        rw [hcont2 q]
        split_ifs with hq'
        · rw [inSquare_cons_not]
          rintro ⟨-, rfl⟩
          exact hin (inExtent_isInside hcs hq')
        · rfl
    · rw [if_neg hg]
      obtain ⟨g2, h2, hwf2, hbox2, hcont2⟩ := ih hwf hcs
        (fun d hd' => hb d (List.mem_cons_of_mem _ hd'))
      refine ⟨g2, h2, hwf2, hbox2, ?_⟩
      intro q
      rw [hcont2, inSquare_cons_not (fun h => hg h.1)]

/-! ### Bounds -/

theorem boundsStep_le (b : Bounds K) (p : K × K) :
    (boundsStep b p).minx ≤ b.minx ∧ b.maxx ≤ (boundsStep b p).maxx ∧
    (boundsStep b p).miny ≤ b.miny ∧ b.maxy ≤ (boundsStep b p).maxy ∧
    (boundsStep b p).minx ≤ p.1 ∧ p.1 ≤ (boundsStep b p).maxx ∧
    (boundsStep b p).miny ≤ p.2 ∧ p.2 ≤ (boundsStep b p).maxy := by
  unfold boundsStep
  refine ⟨?_, ?_, ?_, ?_, ?_, ?_, ?_, ?_⟩ <;> dsimp only <;> split_ifs <;> linarith

theorem foldl_bounds (ps : List (K × K)) : ∀ b : Bounds K,
    ((ps.foldl boundsStep b).minx ≤ b.minx ∧ b.maxx ≤ (ps.foldl boundsStep b).maxx ∧
     (ps.foldl boundsStep b).miny ≤ b.miny ∧ b.maxy ≤ (ps.foldl boundsStep b).maxy) ∧
    ∀ p ∈ ps, (ps.foldl boundsStep b).minx ≤ p.1 ∧ p.1 ≤ (ps.foldl boundsStep b).maxx ∧
     (ps.foldl boundsStep b).miny ≤ p.2 ∧ p.2 ≤ (ps.foldl boundsStep b).maxy := by
  induction ps with
  | nil => intro b; exact ⟨⟨le_rfl, le_rfl, le_rfl, le_rfl⟩, fun p hp => absurd hp (by simp)⟩
  | cons a ps ih =>
    intro b
    rw [List.foldl_cons]
    obtain ⟨⟨h1, h2, h3, h4⟩, hm⟩ := ih (boundsStep b a)
    obtain ⟨s1, s2, s3, s4, s5, s6, s7, s8⟩ := boundsStep_le b a
    refine ⟨⟨h1.trans s1, s2.trans h2, h3.trans s3, s4.trans h4⟩, ?_⟩
    intro p hp
    rcases List.mem_cons.1 hp with rfl | hp
    · exact ⟨h1.trans s5, s6.trans h2, h3.trans s7, s8.trans h4⟩
    · exact hm p hp

theorem minMax_zero (ps : List (K × K)) : (minMax ps).minx ≤ 0 ∧ 0 ≤ (minMax ps).maxx ∧
    (minMax ps).miny ≤ 0 ∧ 0 ≤ (minMax ps).maxy := (foldl_bounds ps _).1

theorem minMax_mem (ps : List (K × K)) : ∀ p ∈ ps, (minMax ps).minx ≤ p.1 ∧ p.1 ≤ (minMax ps).maxx ∧
     (minMax ps).miny ≤ p.2 ∧ p.2 ≤ (minMax ps).maxy := (foldl_bounds ps _).2

/-- After `enlarge` to the bounds of a list every point of the list is inside. -/
theorem enlarge_minMax {g : Grid K γ} (hwf : WF g) (hcs : 0 < g.cellSize) (ps : List (K × K)) :
    ∃ g', enlarge g (minMax ps).minx (minMax ps).miny (minMax ps).maxx (minMax ps).maxy = .ok g' ∧
      Grown g g' ∧ ∀ p ∈ ps, isInside g' p = true := by
  obtain ⟨g', h, gr, hx, hy, -⟩ := enlarge_spec hwf hcs (minMax ps).minx (minMax ps).miny
    (minMax ps).maxx (minMax ps).maxy
  refine ⟨g', h, gr, ?_⟩
  intro p hp
  obtain ⟨h1, h2, h3, h4⟩ := minMax_mem ps p hp
  have e : ∀ {a b : K}, a ≤ b → a / g.cellSize ≤ b / g.cellSize :=
    fun h => div_le_div_of_nonneg_right h hcs.le
  rw [isInside_iff (by rw [gr.cs]; exact hcs), gr.cs]
  have := e h1; have := e h2; have := e h3; have := e h4
  exact ⟨⟨by linarith, by linarith⟩, by linarith, by linarith⟩

/-! ### `mergeIn` -/

theorem updateMeans_synced (I : CellI K γ) {n : NGrid K γ} (hwf : WF n.grid) :
    Synced I (updateMeans I n) := by
  intro m
  show m ∈ (gaussianCells I n.grid).map I.mean ↔ _
  unfold gaussianCells
  simp only [List.mem_map, List.mem_filter, mem_validCells hwf]
  constructor
  · rintro ⟨c, ⟨⟨q, hq⟩, hg⟩, rfl⟩
    exact ⟨q, c, hq, hg, rfl⟩
  · rintro ⟨q, c, hq, hg, rfl⟩
    exact ⟨c, ⟨⟨q, hq⟩, hg⟩, rfl⟩

theorem mergeCells_resize (I : CellI K γ) {n : NGrid K γ} (hwf : WF n.grid) (hcs : 0 < n.grid.cellSize)
    (cells : List γ) (resize : Bool) (hres : resize = true ∨ n.initialized = false)
    (hb : ∀ c ∈ cells, I.gaussian c = true → ¬ OnOpenBorder n.grid (head (I.mean c))) :
    ∃ g', mergeCells I n cells resize = .ok (updateMeans I { n with initialized := true, grid := g' }) ∧
      WF g' ∧ g'.cellSize = n.grid.cellSize ∧
      n.grid.left ≤ g'.left ∧ n.grid.right ≤ g'.right ∧ n.grid.up ≤ g'.up ∧ n.grid.down ≤ g'.down ∧
      (∀ q, content g' q = ((inSquare I n.grid.cellSize cells q).getLast?).or (content n.grid q)) ∧
      ∀ q, (inSquare I n.grid.cellSize cells q) ≠ [] → InExtent g' q := by
  have hc : (resize || !n.initialized) = true := by
    rcases hres with h | h <;> simp [h]
  unfold mergeCells
  rw [if_pos hc]
  obtain ⟨g1, h1, gr, -⟩ := enlarge_minMax hwf hcs (cells.map fun c => head (I.mean c))
  simp only
  rw [h1, Res.bind_ok]
  obtain ⟨g2, h2, hwf2, hc2, hl2, hr2, hu2, hd2, hcont2, hex2⟩ := overwriteAll_spec I cells gr.wf
    (by rw [gr.cs]; exact hcs)
    (fun d hd' hgd ho => hb d hd' hgd (OnOpenBorder.mono gr.cs gr.right gr.down ho))
  rw [h2, Res.bind_ok]
  refine ⟨g2, rfl, hwf2, hc2.trans gr.cs, gr.left.trans hl2, gr.right.trans hr2, gr.up.trans hu2,
    gr.down.trans hd2, ?_, ?_⟩
  · intro q
    rw [hcont2, gr.cs, gr.content]
  · intro q h
    exact hex2 q (by rw [gr.cs]; exact h)

theorem mergeCells_noresize (I : CellI K γ) {n : NGrid K γ} (hwf : WF n.grid)
    (hcs : 0 < n.grid.cellSize) (cells : List γ) (hinit : n.initialized = true)
    (hb : ∀ c ∈ cells, I.gaussian c = true → isInside n.grid (head (I.mean c)) = true →
      ¬ OnOpenBorder n.grid (head (I.mean c))) :
    ∃ g', mergeCells I n cells false = .ok (updateMeans I { n with grid := g' }) ∧
      WF g' ∧ SameBox n.grid g' ∧
      ∀ q, content g' q = if InExtent n.grid q then
        (inSquare I n.grid.cellSize cells q).foldl (mergeStep I) (content n.grid q) else none := by
  unfold mergeCells
  rw [if_neg (by simp [hinit])]
  obtain ⟨g2, h2, hwf2, hbox, hcont⟩ := mergeInside_spec I cells hwf hcs hb
  rw [h2, Res.bind_ok]
  exact ⟨g2, rfl, hwf2, hbox, hcont⟩

end Verif.NDTGrid
