import Verif.NDTGrid.Place
import Mathlib.Algebra.BigOperators.Finprod
import Mathlib.Algebra.Order.BigOperators.Group.Finset
import Mathlib.Data.Int.Interval
import Mathlib.Data.Finset.Prod

/-
Helper lemmas: sums over the cells of a grid as sums over the squares of the plane.
-/
namespace Verif.NDTGrid

open Verif Verif.Voxel

set_option linter.unusedSectionVars false

variable {K : Type v} [Field K] [LinearOrder K] [IsStrictOrderedRing K] [FloorRing K] {γ : Type u}

/-- Weight of a slot. -/
def weight (w : γ → ℕ) : Option γ → ℕ
  | none => 0
  | some c => w c

theorem sum_filterMap (w : γ → ℕ) (l : List (Option γ)) :
    ((l.filterMap id).map w).sum = (l.map (weight w)).sum := by
  induction l with
  | nil => rfl
  | cons a l ih =>
    cases a with
    | none =>
      rw [List.filterMap_cons_none rfl, List.map_cons, List.sum_cons, ih]
      simp [weight]
    | some c =>
      rw [List.filterMap_cons_some (f := id) (b := c) rfl, List.map_cons, List.sum_cons, ih, List.map_cons,
        List.sum_cons]
      rfl

theorem sum_slots (w : Option γ → ℕ) (l : List (Option γ)) :
    (l.map w).sum = ∑ i ∈ Finset.range l.length, w (slot l i) := by
  induction l using List.reverseRecOn with
  | nil => simp
  | append_singleton l a ih =>
    rw [List.map_append, List.sum_append, ih, List.length_append, List.length_singleton,
      Finset.sum_range_succ]
    congr 1
    · apply Finset.sum_congr rfl
      intro i hi
      rw [Finset.mem_range] at hi
      unfold slot
      rw [List.getElem?_append_left hi]
    · simp [slot]

/-- The squares of the extent. -/
noncomputable def box (g : Grid K γ) : Finset (ℤ × ℤ) :=
  Finset.Icc (-(g.left : ℤ)) g.right ×ˢ Finset.Icc (-(g.down : ℤ)) g.up

theorem mem_box {g : Grid K γ} {q : ℤ × ℤ} : q ∈ box g ↔ InExtent g q := by
  unfold box InExtent
  simp only [Finset.mem_product, Finset.mem_Icc]
  tauto

theorem sum_validCells (w : γ → ℕ) {g : Grid K γ} (hwf : WF g) :
    ((getValidCells g).map w).sum = ∑ᶠ q, weight w (content g q) := by
  unfold getValidCells
  rw [sum_filterMap, sum_slots]
  rw [finsum_eq_sum_of_support_subset (s := box g)]
  · unfold WF at hwf
    refine Finset.sum_nbij' (squareNo g) (slotNo g) ?_ ?_ ?_ ?_ ?_
    · intro i hi
      rw [Finset.mem_range] at hi
      rw [mem_box]
      exact squareNo_inExtent (by omega)
    · intro q hq
      rw [mem_box] at hq
      rw [Finset.mem_range]
      have := slotNo_lt hq
      omega
    · intro i _
      exact slotNo_squareNo g i
    · intro q hq
      rw [mem_box] at hq
      exact squareNo_slotNo hq
    · intro i hi
      rw [Finset.mem_range] at hi
      rw [content_squareNo (by omega)]
  · intro q hq
    rw [Finset.mem_coe, mem_box]
    by_contra hn
    apply hq
    show weight w (content g q) = 0
    rw [content_of_not_in hn]
    rfl

/-- Changing a function at one place. -/
theorem finsum_update {f : ℤ × ℤ → ℕ} (hf : (Function.support f).Finite) (q : ℤ × ℤ) (v : ℕ) :
    (∑ᶠ p, Function.update f q v p) + f q = (∑ᶠ p, f p) + v := by
  have hs : Function.support f ⊆ (insert q hf.toFinset : Finset (ℤ × ℤ)) := by
    intro p hp
    simp only [Finset.coe_insert, Set.mem_insert_iff, Finset.mem_coe, Set.Finite.mem_toFinset]
    exact Or.inr hp
  have hs' : Function.support (Function.update f q v) ⊆ (insert q hf.toFinset : Finset (ℤ × ℤ)) := by
    intro p hp
    simp only [Finset.coe_insert, Set.mem_insert_iff, Finset.mem_coe, Set.Finite.mem_toFinset]
    by_cases h : p = q
    · exact Or.inl h
    · right
      rw [Function.mem_support, Function.update_of_ne h] at hp
      exact hp
  rw [finsum_eq_sum_of_support_subset _ hs, finsum_eq_sum_of_support_subset _ hs']
  rw [Finset.sum_update_of_mem (Finset.mem_insert_self _ _)]
  have := Finset.sum_sdiff (Finset.singleton_subset_iff.2 (Finset.mem_insert_self q hf.toFinset)) (f := f)
  rw [Finset.sum_singleton] at this
  omega

/-- Points of the last Gaussian of each square. -/
def lastPoints (I : CellI K γ) (cs : K) (cells : List γ) (q : ℤ × ℤ) : ℕ :=
  weight I.points (inSquare I cs cells q).getLast?

theorem lastPoints_append (I : CellI K γ) (cs : K) (cells : List γ) {c : γ}
    (h : I.gaussian c = true) : lastPoints I cs (cells ++ [c])
      = Function.update (lastPoints I cs cells) (squareOfMean I cs c) (I.points c) := by
  funext q
  by_cases hq : squareOfMean I cs c = q
  · subst hq
    rw [Function.update_self]
    unfold lastPoints inSquare
    rw [List.filter_append, List.filter_cons_of_pos (by simpa using h), List.filter_nil,
      List.getLast?_append]
    rfl
  · rw [Function.update_of_ne (fun h => hq h.symm)]
    unfold lastPoints inSquare
    rw [List.filter_append, List.filter_cons_of_neg (by simp [hq]), List.filter_nil, List.append_nil]

theorem lastPoints_append_not (I : CellI K γ) (cs : K) (cells : List γ) {c : γ}
    (h : I.gaussian c ≠ true) : lastPoints I cs (cells ++ [c]) = lastPoints I cs cells := by
  funext q
  unfold lastPoints inSquare
  rw [List.filter_append, List.filter_cons_of_neg (by simp [h]), List.filter_nil, List.append_nil]

theorem lastPoints_zero (I : CellI K γ) (cs : K) (cells : List γ) {q : ℤ × ℤ}
    (h : inSquare I cs cells q = []) : lastPoints I cs cells q = 0 := by
  unfold lastPoints
  rw [h]
  rfl

theorem lastPoints_finite (I : CellI K γ) (cs : K) (cells : List γ) :
    (Function.support (lastPoints I cs cells)).Finite := by
  apply Set.Finite.subset (Finset.finite_toSet (cells.map (squareOfMean I cs)).toFinset)
  intro q hq
  rw [Finset.mem_coe, List.mem_toFinset, List.mem_map]
  by_contra hn
  apply hq
  apply lastPoints_zero
  rw [List.eq_nil_iff_forall_not_mem]
  intro c hc
  obtain ⟨h1, -, h2⟩ := mem_inSquare.1 hc
  exact hn ⟨c, h1, h2⟩

/-- The last Gaussians never carry more points than all Gaussians together; equality holds if no two
Gaussians share a square. -/
theorem lastPoints_sum (I : CellI K γ) (cs : K) (cells : List γ) :
    (∑ᶠ q, lastPoints I cs cells q) ≤ totalPoints I (cells.filter I.gaussian) ∧
    (((cells.filter I.gaussian).map (squareOfMean I cs)).Nodup →
      (∑ᶠ q, lastPoints I cs cells q) = totalPoints I (cells.filter I.gaussian)) := by
  induction cells using List.reverseRecOn with
  | nil =>
    have : lastPoints I cs [] = fun _ => 0 := by funext q; rfl
    rw [this, finsum_zero]
    simp [totalPoints]
  | append_singleton cells c ih =>
    by_cases hg : I.gaussian c = true
    · have hu := finsum_update (lastPoints_finite I cs cells) (squareOfMean I cs c) (I.points c)
      rw [lastPoints_append I cs cells hg]
      have e : (cells ++ [c]).filter I.gaussian = cells.filter I.gaussian ++ [c] := by
        rw [List.filter_append, List.filter_cons_of_pos hg, List.filter_nil]
      have e2 : totalPoints I (cells.filter I.gaussian ++ [c])
          = totalPoints I (cells.filter I.gaussian) + I.points c := by
        unfold totalPoints
        rw [List.map_append, List.sum_append]
        simp
      rw [e, e2]
      refine ⟨by have := ih.1; omega, ?_⟩
      intro hn
      rw [List.map_append, List.nodup_append] at hn
      obtain ⟨h1, -, h3⟩ := hn
      have hz : lastPoints I cs cells (squareOfMean I cs c) = 0 := by
        apply lastPoints_zero
        rw [List.eq_nil_iff_forall_not_mem]
        intro d hd
        obtain ⟨hd1, hd2, hd3⟩ := mem_inSquare.1 hd
        exact h3 _ (List.mem_map.2 ⟨d, List.mem_filter.2 ⟨hd1, hd2⟩, rfl⟩) _
          (by simp : squareOfMean I cs c ∈ [c].map (squareOfMean I cs)) hd3
      have := ih.2 h1
      omega
    · rw [lastPoints_append_not I cs cells hg]
      have e : (cells ++ [c]).filter I.gaussian = cells.filter I.gaussian := by
        rw [List.filter_append, List.filter_cons_of_neg hg, List.filter_nil, List.append_nil]
      rw [e]
      exact ih

end Verif.NDTGrid
