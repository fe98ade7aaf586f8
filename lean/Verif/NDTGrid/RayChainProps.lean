import Verif.NDTGrid.RayChain
import Mathlib.Tactic.NormNum
import Mathlib.Tactic.IntervalCases
import Mathlib.Data.Rat.Floor

/-
Property theorems for C166: how much of a line of sight is cleared.
-/
namespace Verif.NDTGrid

open Verif Verif.Voxel

set_option linter.unusedSectionVars false

variable {K : Type v} [Field K] [LinearOrder K] [IsStrictOrderedRing K] [FloorRing K] {γ : Type u}

/-- C166: the squares a ray passes begin with the square of its start, follow each other across a common edge or
corner, are all different, and are at most two per cell of its length less one. -/
theorem C166_chain (ops : CellOps γ) {g : Grid K γ} (hwf : WF g) (hcs : 0 < g.cellSize)
    {a b : K × K} (hin : isInside g a = true) (ha : ¬ OnEdge g a)
    (hlong : g.cellSize ≤ max |b.1 - a.1| |b.2 - a.2|)
    (hshort : max |b.1 - a.1| |b.2 - a.2| < 2 ^ 63 * g.cellSize)
    {r : List ℕ × Grid K γ} (h : rayTrace ops g a b = .ok r) :
    ∃ qs : List (ℤ × ℤ), qs.head? = some (squareOf g.cellSize a) ∧ qs.IsChain Touch ∧ qs.Nodup ∧
      (qs.length : ℤ) ≤ 2 * ⌊cellsBetween g.cellSize a b⌋ - 1 ∧
      (∀ q, q ∈ qs ↔ Swept g a b q) ∧ r.1 = qs.map (slotNo g) := by
  have h1 : 1 ≤ cellsBetween g.cellSize a b := by unfold cellsBetween; rw [one_le_div hcs]; exact hlong
  have hpos : 0 < cellsBetween g.cellSize a b := lt_of_lt_of_le one_pos h1
  obtain ⟨qs, hv, hc, he⟩ := rayTrace_chain ops hwf hcs hin ha hpos h
  obtain ⟨hnd, hiff, hsw, -⟩ := rayTrace_exact ops hwf hcs (fun _ => ha) (fun _ => ⟨hlong, hshort⟩) h
  have hmem : ∀ q, q ∈ squareOf g.cellSize a :: qs ↔ Swept g a b q := by
    intro q
    constructor
    · intro hq
      rw [← hiff q (he q hq), hv]
      exact List.mem_map_of_mem hq
    · intro hq
      have := (hiff q (hsw q hq)).2 hq
      rw [hv] at this
      obtain ⟨q', hq', e⟩ := List.mem_map.1 this
      rw [← slotNo_inj (he q' hq') (hsw q hq) e]
      exact hq'
  have hnd' : (squareOf g.cellSize a :: qs).Nodup := by
    rw [hv] at hnd
    exact hnd.of_map
  refine ⟨squareOf g.cellSize a :: qs, rfl, hc, hnd', ?_, hmem, hv⟩
  have hfl : (1 : ℤ) ≤ ⌊cellsBetween g.cellSize a b⌋ := Int.le_floor.2 (by exact_mod_cast h1)
  obtain ⟨n, hn⟩ : ∃ n : ℕ, 2 * ⌊cellsBetween g.cellSize a b⌋ - 1 = n :=
    ⟨(2 * ⌊cellsBetween g.cellSize a b⌋ - 1).toNat, by omega⟩
  rw [hn]
  have hsub : (squareOf g.cellSize a :: qs).toFinset ⊆
      (Finset.range n).image (fun k => squareOf g.cellSize (halfStep g.cellSize a b k)) := by
    intro q hq
    obtain ⟨-, k, hk, -, e⟩ := (hmem q).1 (List.mem_toFinset.1 hq)
    rw [Finset.mem_image]
    refine ⟨k, Finset.mem_range.2 ?_, e⟩
    rw [div_le_iff₀ (by norm_num)] at hk
    have e2 : ((⌊cellsBetween g.cellSize a b⌋ : K) - 1) * 2 = ((2 * (⌊cellsBetween g.cellSize a b⌋ - 1) : ℤ) : K) := by
      push_cast; ring
    rw [e2, show (k : K) = ((k : ℤ) : K) by push_cast; rfl, Int.cast_le] at hk
    omega
  have hcard := Finset.card_le_card hsub
  rw [List.toFinset_card_of_nodup hnd'] at hcard
  have := hcard.trans Finset.card_image_le
  rw [Finset.card_range] at this
  exact_mod_cast this

/-- C166: every point of the line that is strictly inside the outline and no further from the start than one cell
less than the whole cells of its length is in a square the ray passes or in one touching such a square. -/
theorem C166_near {g : Grid K γ} (hwf : WF g) (hcs : 0 < g.cellSize)
    {a b : K × K} (hin : isInside g a = true) (ha : ¬ OnEdge g a) (hpos : 0 < max |b.1 - a.1| |b.2 - a.2|)
    {d : K} (hd : 0 ≤ d) (hd' : d ≤ ⌊cellsBetween g.cellSize a b⌋ - 1)
    (hs : Strictly g (along g.cellSize a b d)) :
    ∃ q, Swept g a b q ∧ Near (squareOf g.cellSize (along g.cellSize a b d)) q := by
  obtain ⟨hext, -⟩ := C06_inside_addresses_own_slot_partial hwf hcs hin ha
  have hl : 0 < cellsBetween g.cellSize a b := div_pos hpos hcs
  obtain ⟨k, hk⟩ : ∃ k : ℕ, ⌊2 * d⌋ = k := ⟨⌊2 * d⌋.toNat, by
    have : 0 ≤ ⌊2 * d⌋ := Int.floor_nonneg.2 (by linarith)
    omega⟩
  have f1 := Int.floor_le (2 * d)
  have f2 := Int.lt_floor_add_one (2 * d)
  rw [hk] at f1 f2
  have f1 : (k : K) ≤ 2 * d := by exact_mod_cast f1
  have f2 : 2 * d < (k : K) + 1 := by exact_mod_cast f2
  refine ⟨squareOf g.cellSize (halfStep g.cellSize a b k), ⟨hext, k, by linarith, ?_, rfl⟩, ?_⟩
  · rcases Nat.eq_zero_or_pos k with h0 | h0
    · exact .inl h0
    · refine .inr ?_
      rw [halfStep_along]
      have : (0 : K) < k := by exact_mod_cast h0
      exact strictly_before hin hl (by linarith) (by linarith) hs
  · rw [halfStep_along]
    obtain ⟨c1, c2⟩ := along_diff hcs hl d ((k : K) / 2) (a := a) (b := b)
    have c3 : |d - (k : K) / 2| < 1 := abs_lt.2 ⟨by linarith, by linarith⟩
    have c4 : |d - (k : K) / 2| * g.cellSize < g.cellSize := by nlinarith
    exact near_of_close hcs (lt_of_le_of_lt c1 c4) (lt_of_le_of_lt c2 c4)

/-- C166: the square of the Gaussian itself is not cleared: every cleared square holds a point of the line that is
at least one cell before the end. -/
theorem C166_stops_before {g : Grid K γ} (hcs : 0 < g.cellSize) {a b : K × K}
    (hpos : 0 < max |b.1 - a.1| |b.2 - a.2|) {q : ℤ × ℤ} (h : Swept g a b q) :
    q ≠ squareOf g.cellSize b ∧
    ∃ d, 0 ≤ d ∧ d ≤ cellsBetween g.cellSize a b - 1 ∧ squareOf g.cellSize (along g.cellSize a b d) = q := by
  have hl : 0 < cellsBetween g.cellSize a b := div_pos hpos hcs
  obtain ⟨-, k, hk, -, e⟩ := h
  rw [halfStep_along] at e
  have hf := Int.floor_le (cellsBetween g.cellSize a b)
  have hk0 : (0 : K) ≤ k := Nat.cast_nonneg k
  refine ⟨?_, (k : K) / 2, by linarith, by linarith, e⟩
  rw [← e]
  conv => rhs; rw [← along_end hl (b := b) (a := a)]
  apply square_ne_of_far hcs
  have c3 : 1 ≤ |(k : K) / 2 - cellsBetween g.cellSize a b| := by
    rw [abs_of_nonpos (by linarith)]; linarith
  have c4 : g.cellSize ≤ |(k : K) / 2 - cellsBetween g.cellSize a b| * g.cellSize := by nlinarith
  rcases along_axis hcs hl ((k : K) / 2) (cellsBetween g.cellSize a b) (a := a) (b := b) with h | h
  · exact .inl (by rw [h]; exact c4)
  · exact .inr (by rw [h]; exact c4)

/-- C166: if the Gaussian lies strictly inside the outline, less than two cells of the line are left out at its
end. -/
theorem C166_reaches {g : Grid K γ} (hwf : WF g) (hcs : 0 < g.cellSize)
    {a b : K × K} (hin : isInside g a = true) (ha : ¬ OnEdge g a)
    (hlong : g.cellSize ≤ max |b.1 - a.1| |b.2 - a.2|) (hb : Strictly g b) :
    ∃ d, cellsBetween g.cellSize a b - 2 < d ∧ Swept g a b (squareOf g.cellSize (along g.cellSize a b d)) := by
  obtain ⟨hext, -⟩ := C06_inside_addresses_own_slot_partial hwf hcs hin ha
  have h1 : 1 ≤ cellsBetween g.cellSize a b := by unfold cellsBetween; rw [one_le_div hcs]; exact hlong
  have hl : 0 < cellsBetween g.cellSize a b := lt_of_lt_of_le one_pos h1
  have hfl : (1 : ℤ) ≤ ⌊cellsBetween g.cellSize a b⌋ := Int.le_floor.2 (by exact_mod_cast h1)
  obtain ⟨n, hn⟩ : ∃ n : ℕ, ⌊cellsBetween g.cellSize a b⌋ = n + 1 :=
    ⟨(⌊cellsBetween g.cellSize a b⌋ - 1).toNat, by omega⟩
  have f1 := Int.floor_le (cellsBetween g.cellSize a b)
  have f2 := Int.lt_floor_add_one (cellsBetween g.cellSize a b)
  rw [hn] at f1 f2
  push_cast at f1 f2
  have hk : (((2 * n : ℕ) : K)) / 2 = n := by push_cast; ring
  refine ⟨n, by linarith, hext, 2 * n, ?_, ?_, ?_⟩
  · rw [hk, hn]; push_cast; linarith
  · rcases Nat.eq_zero_or_pos n with h0 | h0
    · exact .inl (by omega)
    · refine .inr ?_
      rw [halfStep_along, hk]
      rw [← along_end hl (b := b) (a := a)] at hb
      have : (0 : K) < n := by exact_mod_cast h0
      exact strictly_before hin hl this (by linarith) hb
  · rw [halfStep_along, hk]

/-- C135/C166: not every square the line crosses is cleared. The line from (0.1, 0) to (3.35, 1.25) over unit
squares crosses the corner of square (1, 1) at (1.45, 0.519…), strictly inside that square and more than a cell
before the end, but no ray point falls into it. -/
theorem C166_false_corner (g : Grid ℚ γ) (hcs : g.cellSize = 1) :
    along (1 : ℚ) (1 / 10, 0) (67 / 20, 5 / 4) (27 / 20) = (29 / 20, 27 / 52) ∧
    squareOf (1 : ℚ) (29 / 20, 27 / 52) = (1, 1) ∧
    (27 / 20 : ℚ) ≤ ⌊cellsBetween (1 : ℚ) (1 / 10, 0) (67 / 20, 5 / 4)⌋ - 1 ∧
    ¬ Swept g (1 / 10, 0) (67 / 20, 5 / 4) (1, 1) := by
  have hc : cellsBetween (1 : ℚ) (1 / 10, 0) (67 / 20, 5 / 4) = 13 / 4 := by
    unfold cellsBetween; norm_num [abs_of_pos]
  have hf : ⌊(13 / 4 : ℚ)⌋ = 3 := by norm_num
  refine ⟨?_, ?_, ?_, ?_⟩
  · unfold along; rw [hc]; norm_num
  · unfold squareOf; norm_num
  · rw [hc, hf]; norm_num
  · rintro ⟨-, k, hk, -, e⟩
    rw [hcs] at hk e
    rw [hc, hf, div_le_iff₀ (by norm_num)] at hk
    have hk : (k : ℚ) ≤ (4 : ℕ) := by push_cast at hk ⊢; linarith
    have hk : k ≤ 4 := by exact_mod_cast hk
    unfold halfStep squareOf at e
    rw [hc] at e
    interval_cases k <;> norm_num at e

/-- Non-vacuity: the witness ray in a grid of nine by nine unit squares. -/
private def demo : Grid ℚ ℕ := ⟨1, 4, 4, 4, 4, 0, List.replicate 81 none⟩

example : WF demo ∧ 0 < demo.cellSize ∧ isInside demo (1 / 10, 0) = true ∧
    demo.cellSize ≤ max |(67 / 20 : ℚ) - 1 / 10| |(5 / 4 : ℚ) - 0| ∧ Strictly demo (67 / 20, 5 / 4) := by
  refine ⟨?_, ?_, ?_, ?_, ?_⟩
  · rfl
  · unfold demo; norm_num
  · unfold demo isInside Grid.half; norm_num
  · unfold demo; norm_num [abs_of_pos]
  · unfold demo Strictly; norm_num

example : ¬ OnEdge demo (1 / 10, 0) := by
  unfold demo OnEdge; norm_num

/-- It passes three squares and ends two squares before the Gaussian's. -/
example : (rayTrace (⟨0, (· + ·)⟩ : CellOps ℕ) demo (1 / 10, 0) (67 / 20, 5 / 4)).map (·.1) =
    .ok ([(0, 0), (1, 0), (2, 1)].map (slotNo demo)) := by
  decide +kernel

end Verif.NDTGrid
