import Verif.Grid.Lemmas

/-
Closed form of the loops of `enlargeGrid`, `moveLeft`, `moveRight`, `moveUp`, `moveDown`.
-/
namespace Verif.Voxel

set_option linter.unusedSectionVars false

variable {K : Type v} [Field K] [LinearOrder K] [IsStrictOrderedRing K] [FloorRing K] {α : Type u}

theorem foldl_range_inv {σ : Type v} (P : ℕ → σ → Prop) (f : σ → ℕ → σ) (s0 : σ) (n : ℕ)
    (h0 : P 0 s0) (hs : ∀ i < n, ∀ s, P i s → P (i + 1) (f s i)) :
    P n ((List.range n).foldl f s0) := by
  induction n with
  | zero => simpa using h0
  | succ n ih =>
    rw [List.range_succ, List.foldl_append]
    exact hs n (by omega) _ (ih fun i hi => hs i (by omega))

theorem foldl_range_reverse_inv {σ : Type v} (P : ℕ → σ → Prop) (f : σ → ℕ → σ) (s0 : σ) (n : ℕ)
    (h0 : P n s0) (hs : ∀ i < n, ∀ s, P (i + 1) s → P i (f s i)) :
    P 0 ((List.range n).reverse.foldl f s0) := by
  induction n generalizing s0 with
  | zero => simpa using h0
  | succ n ih =>
    rw [List.range_succ, List.reverse_append, List.reverse_singleton, List.singleton_append,
      List.foldl_cons]
    exact ih _ (hs n (by omega) _ h0) fun i hi => hs i (by omega)

/-- Destination slot of slot `j` when enlarging. -/
def enlargeDest (w newW left up j : ℕ) : ℕ := (j / w + up) * newW + (j % w + left)

theorem succ_mod_div {w i : ℕ} (hw : 0 < w) :
    (i % w + 1 = w → (i + 1) % w = 0 ∧ (i + 1) / w = i / w + 1) ∧
    (i % w + 1 ≠ w → (i + 1) % w = i % w + 1 ∧ (i + 1) / w = i / w) := by
  have hlt := Nat.mod_lt i hw
  have e : i + 1 = i / w * w + (i % w + 1) := by have := idx_eq w i; omega
  constructor
  · intro h
    have e2 : i + 1 = (i / w + 1) * w + 0 := by rw [Nat.succ_mul]; omega
    rw [e2]
    exact ⟨idx_mod hw, idx_div hw⟩
  · intro h
    have hlt' : i % w + 1 < w := by omega
    constructor
    · rw [e, idx_mod hlt']
    · rw [e, idx_div hlt']

/-- Loop invariant of `enlargeGrid`. -/
structure EnlargeInv (cells : List (Option α)) (w newW left right up newSize i : ℕ)
    (s : EnlargeState α) : Prop where
  len : s.large.length = newSize
  used : s.wUsed = i % w
  off : s.offsetX = i / w * (right + left)
  oob : s.oob = false
  moved : ∀ j < i, slot s.large (enlargeDest w newW left up j) = slot cells j
  fresh : ∀ k, (∀ j < i, enlargeDest w newW left up j ≠ k) → slot s.large k = none

theorem enlargeDest_inj {w newW left up j j' : ℕ} (hw : 0 < w) (hnew : w + left ≤ newW)
    (h : enlargeDest w newW left up j = enlargeDest w newW left up j') : j = j' := by
  have h1 := Nat.mod_lt j hw
  have h2 := Nat.mod_lt j' hw
  obtain ⟨a, b⟩ := idx_inj (by omega) (by omega) h
  rw [idx_eq w j, idx_eq w j']
  have a' : j / w = j' / w := by omega
  have b' : j % w = j' % w := by omega
  rw [a', b']

/-- Destination slot computed by the loop. -/
theorem enlarge_newIndex (w left right up i : ℕ) {offsetX : ℕ} (hoff : offsetX = i / w * (right + left)) :
    (if 0 < up ∧ left = 0 then i + up * (w + left + right) + offsetX
      else if up = 0 ∧ left = 0 then i + offsetX
      else i + up * (w + left + right) + left + offsetX)
      = enlargeDest w (w + left + right) left up i := by
  have e : enlargeDest w (w + left + right) left up i
      = i + up * (w + left + right) + left + i / w * (right + left) := by
    have := idx_eq w i
    unfold enlargeDest
    calc (i / w + up) * (w + left + right) + (i % w + left)
        = (i / w * w + i % w) + up * (w + left + right) + left + i / w * (right + left) := by ring
      _ = _ := by rw [← this]
  rw [e, hoff]
  split_ifs with h1 h2
  · rw [h1.2]; ring
  · rw [h2.1, h2.2]; ring
  · rfl

theorem enlargeDest_lt {cells : List (Option α)} {w h left right up down i : ℕ} (hw : 0 < w)
    (hcells : cells.length = w * h) (hi : i < cells.length) :
    enlargeDest w (w + left + right) left up i < (w + left + right) * (h + up + down) := by
  have hmod := Nat.mod_lt i hw
  have hdiv : i / w < h := Nat.div_lt_of_lt_mul (by omega)
  exact idx_lt (by omega) (by omega)

theorem enlarge_step {cells : List (Option α)} {w h left right up down : ℕ} (hw : 0 < w)
    (hcells : cells.length = w * h) (i : ℕ) (hi : i < cells.length) (s : EnlargeState α)
    (inv : EnlargeInv cells w (w + left + right) left right up ((w + left + right) * (h + up + down)) i s) :
    EnlargeInv cells w (w + left + right) left right up ((w + left + right) * (h + up + down)) (i + 1)
      (enlargeStep cells w (w + left + right) left right up s i) := by
  have hnewIndex := enlarge_newIndex w left right up i inv.off
  have hdest := enlargeDest_lt (left := left) (right := right) (up := up) (down := down) hw hcells hi
  have hstep : enlargeStep cells w (w + left + right) left right up s i =
      ⟨s.large.set (enlargeDest w (w + left + right) left up i) (slot cells i),
        (i + 1) % w, (i + 1) / w * (right + left), false⟩ := by
    unfold enlargeStep
    simp only [hnewIndex]
    have hoob : (s.oob || decide (s.large.length ≤ enlargeDest w (w + left + right) left up i))
        = false := by
      rw [inv.oob, inv.len]; simp; omega
    rw [hoob, inv.used, inv.off]
    split_ifs with hc
    · obtain ⟨a, b⟩ := (succ_mod_div hw).1 hc
      rw [a, b, Nat.succ_mul]
    · obtain ⟨a, b⟩ := (succ_mod_div hw).2 hc
      rw [a, b]
  rw [hstep]
  refine ⟨by simp [inv.len], rfl, rfl, rfl, ?_, ?_⟩
  · intro j hj
    simp only [slot_set, inv.len]
    by_cases hji : j = i
    · subst hji; rw [if_pos ⟨rfl, hdest⟩]
    · rw [if_neg, inv.moved j (by omega)]
      intro hh
      exact hji (enlargeDest_inj hw (by omega) hh.1).symm
  · intro k hk
    simp only [slot_set]
    rw [if_neg, inv.fresh k fun j hj => hk j (by omega)]
    intro hh
    exact hk i (by omega) hh.1

theorem enlarge_start (cells : List (Option α)) (w newW left right up newSize : ℕ) :
    EnlargeInv cells w newW left right up newSize 0 ⟨List.replicate newSize none, 0, 0, false⟩ :=
  ⟨by simp, by simp, by simp, rfl, fun j hj => by omega, fun k _ => by simp⟩

theorem enlarge_loop {cells : List (Option α)} {w h left right up down : ℕ} (hw : 0 < w)
    (hcells : cells.length = w * h) :
    EnlargeInv cells w (w + left + right) left right up ((w + left + right) * (h + up + down))
      cells.length
      ((List.range cells.length).foldl (enlargeStep cells w (w + left + right) left right up)
        ⟨List.replicate ((w + left + right) * (h + up + down)) none, 0, 0, false⟩) := by
  apply foldl_range_inv
    (P := EnlargeInv cells w (w + left + right) left right up ((w + left + right) * (h + up + down)))
  · exact enlarge_start _ _ _ _ _ _ _
  · exact enlarge_step hw hcells

/-- Result of enlarging a well-formed grid: no undefined behaviour, extents grow as requested, every
square keeps its cell, new squares are empty. -/
theorem enlargeGrid_spec {g : Grid K α} (hwf : WF g) (left right up down : ℕ) :
    ∃ g', enlargeGrid g left right up down = .ok g' ∧ WF g' ∧
      g'.left = g.left + left ∧ g'.right = g.right + right ∧ g'.up = g.up + up ∧
      g'.down = g.down + down ∧ g'.cellSize = g.cellSize ∧ g'.validCells = g.validCells ∧
      ∀ q, content g' q = content g q := by
  unfold enlargeGrid
  by_cases h0 : left + right + up + down = 0
  · rw [if_pos h0]
    exact ⟨g, rfl, hwf, by omega, by omega, by omega, by omega, rfl, rfl, fun _ => rfl⟩
  rw [if_neg h0]
  have inv := enlarge_loop (cells := g.cells) (left := left) (right := right) (up := up)
    (down := down) (width_pos g) hwf
  simp only []
  rw [inv.oob]
  simp only [Bool.false_eq_true, if_false]
  refine ⟨_, rfl, ?_, rfl, rfl, rfl, rfl, rfl, rfl, ?_⟩
  · unfold WF
    rw [inv.len]
    simp only [Grid.width, Grid.height]
    congr 1 <;> omega
  · intro q
    set s := (List.range g.cells.length).foldl
      (enlargeStep g.cells g.width (g.width + left + right) left right up)
        ⟨List.replicate ((g.width + left + right) * (g.height + up + down)) none, 0, 0, false⟩ with hs
    have hlen : g.cells.length = g.width * g.height := hwf
    unfold content
    by_cases hq : InExtent g q
    · rw [if_pos hq, if_pos]
      · have hlt := slotNo_lt hq
        have := inv.moved (slotNo g q) (by omega)
        rw [← this]
        congr 1
        unfold enlargeDest slotNo
        rw [idx_div hq.col_lt, idx_mod hq.col_lt]
        unfold InExtent at hq
        simp only [Grid.width]
        congr 1
        · congr 1
          · omega
          · omega
        · omega
      · unfold InExtent at hq ⊢; simp only []; omega
    · rw [if_neg hq]
      split_ifs with hq'
      · apply inv.fresh
        intro j hj he
        apply hq
        have hm := Nat.mod_lt j (width_pos g)
        have hd : j / g.width < g.height := Nat.div_lt_of_lt_mul (by omega)
        unfold enlargeDest slotNo at he
        have hc := hq'.col_lt
        simp only [Grid.width] at hc
        simp only [Grid.width] at he
        have hw : g.left + left + (g.right + right) + 1 = g.left + g.right + 1 + left + right := by
          omega
        rw [hw] at he
        simp only [Grid.width] at hm
        obtain ⟨a, b⟩ := idx_inj (by omega) (by omega) he
        simp only [Grid.width, Grid.height] at a b hd
        generalize j % (g.left + g.right + 1) = m at *
        generalize j / (g.left + g.right + 1) = d at *
        unfold InExtent at hq' ⊢
        simp only [] at hq'
        omega
      · rfl

end Verif.Voxel
