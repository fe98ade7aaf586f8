import Verif.NDTGrid.Print

/- C151: the text of a grid. -/
namespace Verif.NDTGrid

open Verif Verif.Voxel

variable {K : Type v} [Field K] [LinearOrder K] [IsStrictOrderedRing K] [FloorRing K] {γ : Type u} {α : Type u}

/-! ### Texts of lines of the same length -/

theorem flat_length {β : Type w} (f : ℕ → List β) (m h : ℕ) (hf : ∀ r, (f r).length = m) :
    ((List.range h).flatMap f).length = h * m := by
  induction h with
  | zero => simp
  | succ h ih => rw [List.range_succ, List.flatMap_append, List.length_append, ih]; simp [hf, Nat.succ_mul]

theorem flat_get {β : Type w} (f : ℕ → List β) (m h : ℕ) (hf : ∀ r, (f r).length = m) {r c : ℕ} (hr : r < h)
    (hc : c < m) : ((List.range h).flatMap f)[r * m + c]? = (f r)[c]? := by
  induction h with
  | zero => omega
  | succ h ih =>
    rw [List.range_succ, List.flatMap_append]
    simp only [List.flatMap_cons, List.flatMap_nil, List.append_nil]
    rcases Nat.lt_succ_iff_lt_or_eq.1 hr with h1 | rfl
    · rw [List.getElem?_append_left, ih h1]
      rw [flat_length f m h hf]
      calc r * m + c < r * m + m := by omega
        _ = (r + 1) * m := by ring
        _ ≤ h * m := Nat.mul_le_mul_right _ h1
    · rw [List.getElem?_append_right (by rw [flat_length f m r hf]; omega), flat_length f m r hf,
        Nat.add_sub_cancel_left]

theorem content_squareAt {g : Grid K γ} {r c : ℕ} (hr : r < g.height) (hc : c < g.width) :
    content g (squareAt g r c) = slot g.cells (r * g.width + c) := by
  have hin : InExtent g (squareAt g r c) := by
    unfold InExtent squareAt
    simp only [Grid.width, Grid.height] at *
    omega
  rw [content_of_in hin]
  unfold slotNo squareAt
  simp

/-! ### C151 -/

/-- The character that stands for a cell: a blank if there is none, `W` for a Gaussian, a dot otherwise. -/
def Shows (I : CellI K γ) (o : Option γ) (ch : Char) : Prop :=
  (o = none ∧ ch = ' ') ∨ (∃ c, o = some c ∧ I.gaussian c = true ∧ ch = 'W') ∨
    ∃ c, o = some c ∧ I.gaussian c = false ∧ ch = '.'

theorem symbol_shows (I : CellI K γ) (o : Option γ) : Shows I o (symbol I o) := by
  cases o with
  | none => exact .inl ⟨rfl, rfl⟩
  | some c =>
    right
    unfold symbol
    cases h : I.gaussian c
    · right; exact ⟨c, rfl, h, by simp [h]⟩
    · left; exact ⟨c, rfl, h, by simp [h]⟩

/-- C151: the text of an NDT grid is a picture of it, one line for each row from the top, one character for each
square from the left, and a line feed. -/
theorem C151_picture (I : CellI K γ) {n : NGrid K γ} (hwf : WF n.grid) :
    (text I n).length = n.grid.height * (n.grid.width + 1) ∧
    (∀ r < n.grid.height, ∀ c < n.grid.width, ∃ ch, (text I n)[r * (n.grid.width + 1) + c]? = some ch ∧
      Shows I (content n.grid (squareAt n.grid r c)) ch) ∧
    ∀ r < n.grid.height, (text I n)[r * (n.grid.width + 1) + n.grid.width]? = some '\n' := by
  unfold text
  rw [printLoop_rows I _ _ (width_pos n.grid) _ hwf]
  have hf : ∀ r, ((List.range n.grid.width).map (fun c => symbol I (slot n.grid.cells (r * n.grid.width + c))) ++
      ['\n']).length = n.grid.width + 1 := by intro r; simp
  refine ⟨flat_length _ _ _ hf, fun r hr c hc => ?_, fun r hr => ?_⟩
  · rw [flat_get _ _ _ hf hr (by omega), List.getElem?_append_left (by simpa using hc)]
    refine ⟨symbol I (slot n.grid.cells (r * n.grid.width + c)), ?_, ?_⟩
    · rw [List.getElem?_map, List.getElem?_range hc]; rfl
    · rw [content_squareAt hr hc]; exact symbol_shows I _
  · rw [flat_get _ _ _ hf hr (by omega), List.getElem?_append_right (by simp)]
    simp

theorem setw5_length {s : List Char} (h : s.length ≤ 5) : (setw5 s).length = 5 := by
  unfold setw5; rw [List.length_append, List.length_replicate]; omega

/-- Padding with blanks can be undone. -/
theorem setw5_inj {s t : List Char} (hs : s.head? ≠ some ' ') (ht : t.head? ≠ some ' ') (ns : s ≠ []) (nt : t ≠ [])
    (h : setw5 s = setw5 t) : s = t := by
  have key : ∀ (a b : ℕ) (s t : List Char), s.head? ≠ some ' ' → t.head? ≠ some ' ' → s ≠ [] → t ≠ [] →
      List.replicate a ' ' ++ s = List.replicate b ' ' ++ t → s = t := by
    intro a
    induction a with
    | zero =>
      intro b s t hs ht ns nt h
      cases b with
      | zero => simpa using h
      | succ b =>
        rw [List.replicate_succ, List.replicate_zero, List.nil_append, List.cons_append] at h
        rw [h] at hs
        exact absurd rfl hs
    | succ a ih =>
      intro b s t hs ht ns nt h
      cases b with
      | zero =>
        rw [List.replicate_succ, List.replicate_zero, List.nil_append, List.cons_append] at h
        rw [← h] at ht
        exact absurd rfl ht
      | succ b =>
        rw [List.replicate_succ, List.replicate_succ, List.cons_append, List.cons_append] at h
        exact ih b s t hs ht ns nt (List.cons.inj h).2
  exact key _ _ s t hs ht ns nt h

/-- C151 for the grid of cells: if cells are written with one to five characters, without a blank in front and not
as `NULL`, and different cells differently, then two grids of the same extent with the same text hold the same
cells.  Partial: longer texts can be read in more than one way (`C151_false`). -/
theorem C151_text_partial {pr : α → List Char} (hinj : Function.Injective pr) (h5 : ∀ a, (pr a).length ≤ 5)
    (hn : ∀ a, pr a ≠ "NULL".toList) (h0 : ∀ a, pr a ≠ []) (hb : ∀ a, (pr a).head? ≠ some ' ')
    {g g' : Grid K α} (hwf : WF g) (hwf' : WF g') (hl : g.left = g'.left) (hr : g.right = g'.right)
    (hu : g.up = g'.up) (hd : g.down = g'.down) (ht : voxelText pr g = voxelText pr g') (q : ℤ × ℤ) :
    content g q = content g' q := by
  have hw : g.width = g'.width := by simp only [Grid.width, hl, hr]
  have hh : g.height = g'.height := by simp only [Grid.height, hu, hd]
  have elen : ∀ o, (entry pr o).length = 5 := by
    intro o
    cases o with
    | none => exact setw5_length (by decide)
    | some a => exact setw5_length (h5 a)
  have einj : ∀ o o', entry pr o = entry pr o' → o = o' := by
    have hN : "NULL".toList.head? ≠ some ' ' := by decide
    have hN' : "NULL".toList ≠ [] := by decide
    intro o o' h
    cases o with
    | none =>
      cases o' with
      | none => rfl
      | some b => exact absurd (setw5_inj hN (hb b) hN' (h0 b) h).symm (hn b)
    | some a =>
      cases o' with
      | none => exact absurd (setw5_inj (hb a) hN (h0 a) hN' h) (hn a)
      | some b => rw [hinj (setw5_inj (hb a) (hb b) (h0 a) (h0 b) h)]
  have wpos := width_pos g
  -- a line with a line feed in front
  let line (l : List (Option α)) (r : ℕ) : List Char :=
    '\n' :: (List.range g.width).flatMap fun c => entry pr (slot l (r * g.width + c))
  have hline : ∀ l r, (line l r).length = g.width * 5 + 1 := by
    intro l r
    simp only [line, List.length_cons]
    rw [flat_length _ 5 _ (fun c => elen _)]
  have full : ∀ l : List (Option α), l.length = g.width * g.height →
      '\n' :: voxelLoop pr g.width 0 l = (List.range g.height).flatMap (line l) := by
    intro l hlen
    rw [voxelLoop_rows pr _ _ wpos l hlen]
    obtain ⟨h', e⟩ : ∃ h', g.height = h' + 1 := ⟨g.height - 1, by simp only [Grid.height]; omega⟩
    rw [e, List.range_succ_eq_map, List.flatMap_cons, List.flatMap_cons, if_pos rfl, List.nil_append,
      List.flatMap_map, List.flatMap_map, ← List.cons_append]
    rfl
  have e1 := full g.cells hwf
  have e2 := full g'.cells (by rw [hw, hh]; exact hwf')
  unfold voxelText at ht
  rw [← hw] at ht
  rw [ht] at e1
  have e3 := e1.symm.trans e2
  by_cases hin : InExtent g q
  · have hin' : InExtent g' q := by
      unfold InExtent at hin ⊢; rw [← hl, ← hr, ← hu, ← hd]; exact hin
    obtain ⟨r, c, hr', hc', rfl⟩ : ∃ r c, r < g.height ∧ c < g.width ∧ q = squareAt g r c := by
      unfold InExtent at hin
      refine ⟨(g.up - q.2).toNat, (q.1 + g.left).toNat, ?_, ?_, ?_⟩
      · simp only [Grid.height]; omega
      · simp only [Grid.width]; omega
      · unfold squareAt
        ext <;> simp only [] <;> omega
    have sq : squareAt g r c = squareAt g' r c := by unfold squareAt; rw [hl, hu]
    rw [content_squareAt hr' hc', sq, content_squareAt (hh ▸ hr') (hw ▸ hc'), ← hw]
    refine einj _ _ (List.ext_getElem? fun k => ?_)
    by_cases hk : k < 5
    · have hpos : 1 + (c * 5 + k) < g.width * 5 + 1 := by omega
      have get : ∀ l : List (Option α),
          ((List.range g.height).flatMap (line l))[r * (g.width * 5 + 1) + (1 + (c * 5 + k))]? =
            (entry pr (slot l (r * g.width + c)))[k]? := by
        intro l
        rw [flat_get _ _ _ (hline l) hr' hpos]
        simp only [line]
        rw [Nat.add_comm 1, List.getElem?_cons_succ, flat_get _ 5 _ (fun c => elen _) hc' hk]
      rw [← get, ← get, e3]
    · rw [List.getElem?_eq_none (by rw [elen]; omega), List.getElem?_eq_none (by rw [elen]; omega)]
  · have hin' : ¬ InExtent g' q := by
      unfold InExtent at hin ⊢; rw [← hl, ← hr, ← hu, ← hd]; exact hin
    rw [content_of_not_in hin, content_of_not_in hin']

/-- A row of two squares with numbers. -/
def pairGrid (a b : ℕ) : Grid ℚ ℕ :=
  { cellSize := 1, left := 0, right := 1, up := 0, down := 0, validCells := 2, cells := [some a, some b] }

/-- Negation for longer texts: the numbers 123456 and 78901 give the same text as 12345 and 678901. -/
theorem C151_false :
    voxelText (Nat.toDigits 10) (pairGrid 123456 78901) = voxelText (Nat.toDigits 10) (pairGrid 12345 678901) ∧
    content (pairGrid 123456 78901) (0, 0) ≠ content (pairGrid 12345 678901) (0, 0) := by
  refine ⟨?_, ?_⟩ <;> decide +kernel

/-- Two Gaussians in a row. -/
example : WF exN.grid ∧ text toyI exN = "WW\n".toList := ⟨exN_wf, by decide +kernel⟩

/-- Values of the occupancy as `NDTCell` writes them (ndt_cell.h:217-221): rounded down to -1, 0 or 1. -/
def prOcc (i : Fin 3) : List Char := ["-1".toList, "0".toList, "1".toList].getD i []

example : Function.Injective prOcc ∧ (∀ a, (prOcc a).length ≤ 5) ∧ (∀ a, prOcc a ≠ "NULL".toList) ∧
    (∀ a, prOcc a ≠ []) ∧ ∀ a, (prOcc a).head? ≠ some ' ' := by
  refine ⟨?_, ?_, ?_, ?_, ?_⟩
  · intro a b; revert a b; decide +kernel
  all_goals decide +kernel

end Verif.NDTGrid
