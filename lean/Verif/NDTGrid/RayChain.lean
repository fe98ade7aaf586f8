import Verif.NDTGrid.Rays
import Mathlib.Data.List.Chain
import Mathlib.Data.Finset.Card
import Mathlib.Tactic.FieldSimp

/-
Vocabulary and helper lemmas for C166: what of a line of sight is cleared.
-/
namespace Verif.NDTGrid

open Verif Verif.Voxel

set_option linter.unusedSectionVars false

variable {K : Type v} [Field K] [LinearOrder K] [IsStrictOrderedRing K] [FloorRing K] {γ : Type u}

/-! ### Specification vocabulary -/

/-- The squares are equal or share an edge or a corner. -/
def Near (p q : ℤ × ℤ) : Prop := |p.1 - q.1| ≤ 1 ∧ |p.2 - q.2| ≤ 1

/-- The squares share an edge or a corner. -/
def Touch (p q : ℤ × ℤ) : Prop := p ≠ q ∧ Near p q

/-- The point of the line from `a` to `b` that is `d` cells away from `a`, measured along the longer axis. -/
def along (cs : K) (a b : K × K) (d : K) : K × K :=
  (a.1 + d / cellsBetween cs a b * (b.1 - a.1), a.2 + d / cellsBetween cs a b * (b.2 - a.2))

/-! ### Lemmas -/

theorem halfStep_along (cs : K) (a b : K × K) (k : ℕ) : halfStep cs a b k = along cs a b (k / 2) := rfl

theorem near_of_close {cs : K} (hcs : 0 < cs) {p q : K × K} (h1 : |p.1 - q.1| < cs) (h2 : |p.2 - q.2| < cs) :
    Near (squareOf cs p) (squareOf cs q) := by
  have k : ∀ x y : K, |x - y| < cs → |x / cs - y / cs| < 1 := by
    intro x y h
    rw [← sub_div, abs_div, abs_of_pos hcs, div_lt_one hcs]
    exact h
  have h1 := abs_lt.1 (k _ _ h1)
  have h2 := abs_lt.1 (k _ _ h2)
  unfold Near squareOf
  simp only
  rw [abs_le, abs_le]
  have a1 := Int.floor_le (p.1 / cs + 1 / 2)
  have a2 := Int.lt_floor_add_one (p.1 / cs + 1 / 2)
  have b1 := Int.floor_le (q.1 / cs + 1 / 2)
  have b2 := Int.lt_floor_add_one (q.1 / cs + 1 / 2)
  have c1 := Int.le_ceil (p.2 / cs - 1 / 2)
  have c2 := Int.ceil_lt_add_one (p.2 / cs - 1 / 2)
  have d1 := Int.le_ceil (q.2 / cs - 1 / 2)
  have d2 := Int.ceil_lt_add_one (q.2 / cs - 1 / 2)
  refine ⟨⟨?_, ?_⟩, ?_, ?_⟩
  · have : (⌊q.1 / cs + 1 / 2⌋ : K) < ⌊p.1 / cs + 1 / 2⌋ + 2 := by linarith
    have : ⌊q.1 / cs + 1 / 2⌋ < ⌊p.1 / cs + 1 / 2⌋ + 2 := by exact_mod_cast this
    omega
  · have : (⌊p.1 / cs + 1 / 2⌋ : K) < ⌊q.1 / cs + 1 / 2⌋ + 2 := by linarith
    have : ⌊p.1 / cs + 1 / 2⌋ < ⌊q.1 / cs + 1 / 2⌋ + 2 := by exact_mod_cast this
    omega
  · have : (⌈q.2 / cs - 1 / 2⌉ : K) < ⌈p.2 / cs - 1 / 2⌉ + 2 := by linarith
    have : ⌈q.2 / cs - 1 / 2⌉ < ⌈p.2 / cs - 1 / 2⌉ + 2 := by exact_mod_cast this
    omega
  · have : (⌈p.2 / cs - 1 / 2⌉ : K) < ⌈q.2 / cs - 1 / 2⌉ + 2 := by linarith
    have : ⌈p.2 / cs - 1 / 2⌉ < ⌈q.2 / cs - 1 / 2⌉ + 2 := by exact_mod_cast this
    omega

theorem squareOf_def' (cs : K) (p : K × K) : squareOf cs p = (⌊p.1 / cs + 1 / 2⌋, ⌈p.2 / cs - 1 / 2⌉) := rfl

/-- Differences along the line. -/
theorem along_diff {cs : K} (hcs : 0 < cs) {a b : K × K} (hl : 0 < cellsBetween cs a b) (d e : K) :
    |(along cs a b d).1 - (along cs a b e).1| ≤ |d - e| * cs ∧
    |(along cs a b d).2 - (along cs a b e).2| ≤ |d - e| * cs := by
  have hm : max |b.1 - a.1| |b.2 - a.2| = cellsBetween cs a b * cs := by
    unfold cellsBetween; field_simp
  have key : ∀ x : K, |x| ≤ max |b.1 - a.1| |b.2 - a.2| → ∀ y : K,
      |y + d / cellsBetween cs a b * x - (y + e / cellsBetween cs a b * x)| ≤ |d - e| * cs := by
    intro x hx y
    have : y + d / cellsBetween cs a b * x - (y + e / cellsBetween cs a b * x) =
        (d - e) * (x / cellsBetween cs a b) := by field_simp; ring
    rw [this, abs_mul]
    refine mul_le_mul_of_nonneg_left ?_ (abs_nonneg _)
    rw [abs_div, abs_of_pos hl, div_le_iff₀ hl, mul_comm cs, ← hm]
    exact hx
  exact ⟨key _ (le_max_left _ _) _, key _ (le_max_right _ _) _⟩

/-- Along the longer axis the distance is exact. -/
theorem along_axis {cs : K} (hcs : 0 < cs) {a b : K × K} (hl : 0 < cellsBetween cs a b) (d e : K) :
    |(along cs a b d).1 - (along cs a b e).1| = |d - e| * cs ∨
    |(along cs a b d).2 - (along cs a b e).2| = |d - e| * cs := by
  have hm : max |b.1 - a.1| |b.2 - a.2| = cellsBetween cs a b * cs := by
    unfold cellsBetween; field_simp
  have key : ∀ x : K, |x| = cellsBetween cs a b * cs → ∀ y : K,
      |y + d / cellsBetween cs a b * x - (y + e / cellsBetween cs a b * x)| = |d - e| * cs := by
    intro x hx y
    have : y + d / cellsBetween cs a b * x - (y + e / cellsBetween cs a b * x) =
        (d - e) * (x / cellsBetween cs a b) := by field_simp; ring
    rw [this, abs_mul, abs_div, abs_of_pos hl, hx, mul_comm _ cs, mul_div_assoc, div_self (ne_of_gt hl), mul_one]
  rcases max_choice |b.1 - a.1| |b.2 - a.2| with h | h
  · exact .inl (key _ (by rw [← hm, h]) _)
  · exact .inr (key _ (by rw [← hm, h]) _)

theorem along_end {cs : K} {a b : K × K} (hl : 0 < cellsBetween cs a b) :
    along cs a b (cellsBetween cs a b) = b := by
  unfold along
  rw [div_self (ne_of_gt hl)]
  ext <;> simp

theorem along_zero (cs : K) (a b : K × K) : along cs a b 0 = a := by
  unfold along
  ext <;> simp

/-- Points at least one cell apart are in different squares. -/
theorem square_ne_of_far {cs : K} (hcs : 0 < cs) {p q : K × K} (h : cs ≤ |p.1 - q.1| ∨ cs ≤ |p.2 - q.2|) :
    squareOf cs p ≠ squareOf cs q := by
  intro he
  rw [squareOf_def', squareOf_def', Prod.mk.injEq] at he
  have k : ∀ x y : K, cs ≤ |x - y| → 1 ≤ |x / cs - y / cs| := by
    intro x y h
    rw [← sub_div, abs_div, abs_of_pos hcs, one_le_div hcs]
    exact h
  rcases h with h | h
  · have h := k _ _ h
    have a1 := Int.floor_le (p.1 / cs + 1 / 2)
    have a2 := Int.lt_floor_add_one (p.1 / cs + 1 / 2)
    have b1 := Int.floor_le (q.1 / cs + 1 / 2)
    have b2 := Int.lt_floor_add_one (q.1 / cs + 1 / 2)
    rw [he.1] at a1 a2
    have : |p.1 / cs - q.1 / cs| < 1 := abs_lt.2 ⟨by linarith, by linarith⟩
    linarith
  · have h := k _ _ h
    have c1 := Int.le_ceil (p.2 / cs - 1 / 2)
    have c2 := Int.ceil_lt_add_one (p.2 / cs - 1 / 2)
    have d1 := Int.le_ceil (q.2 / cs - 1 / 2)
    have d2 := Int.ceil_lt_add_one (q.2 / cs - 1 / 2)
    rw [he.2] at c1 c2
    have : |p.2 / cs - q.2 / cs| < 1 := abs_lt.2 ⟨by linarith, by linarith⟩
    linarith

/-- A point of the line before a point strictly inside is strictly inside, if the line starts in the outline. -/
theorem strictly_before {g : Grid K γ} {a b : K × K} (hin : isInside g a = true) {d e : K} (hl : 0 < cellsBetween g.cellSize a b)
    (hd : 0 < d) (hde : d ≤ e) (he : Strictly g (along g.cellSize a b e)) : Strictly g (along g.cellSize a b d) := by
  unfold isInside Grid.half at hin
  simp only [Bool.and_eq_true, decide_eq_true_eq, ge_iff_le] at hin
  obtain ⟨⟨⟨a1, a2⟩, a3⟩, a4⟩ := hin
  unfold Strictly along at *
  obtain ⟨b1, b2, b3, b4⟩ := he
  have hep : 0 < e := lt_of_lt_of_le hd hde
  have key : ∀ x w L : K, x ≤ L → x + e / cellsBetween g.cellSize a b * w < L →
      x + d / cellsBetween g.cellSize a b * w < L := by
    intro x w L h1 h2
    have hc : x + d / cellsBetween g.cellSize a b * w =
        (1 - d / e) * x + d / e * (x + e / cellsBetween g.cellSize a b * w) := by
      field_simp
      ring
    have t0 : 0 < d / e := div_pos hd hep
    have t1 : d / e ≤ 1 := (div_le_one hep).2 hde
    rw [hc]
    nlinarith
  simp only at b1 b2 b3 b4 ⊢
  refine ⟨?_, key _ _ _ (by linarith) b2, ?_, key _ _ _ (by linarith) b4⟩
  · have := key (-a.1) (-(b.1 - a.1)) ((g.left + 1 / 2) * g.cellSize) (by linarith) (by linarith)
    linarith
  · have := key (-a.2) (-(b.2 - a.2)) ((g.down + 1 / 2) * g.cellSize) (by linarith) (by linarith)
    linarith

/-- The loop continues a chain of touching squares. -/
theorem rayLoop_chain (ops : CellOps γ) {g : Grid K γ} (hcs : 0 < g.cellSize)
    (start delta : K × K) (hd : |delta.1| < g.cellSize ∧ |delta.2| < g.cellSize) (n : ℕ) :
    ∀ (k o : ℕ) (s s' : RayState γ) (qs : List (ℤ × ℤ)),
    (∀ m ≤ k, InExtent g (squareOf g.cellSize (rayPoint start delta m))) →
    o = slotNo g (squareOf g.cellSize (rayPoint start delta (k - 1))) →
    qs.getLast? = some (squareOf g.cellSize (rayPoint start delta (k - 1))) → qs.IsChain Touch →
    (∀ q ∈ qs, InExtent g q) → s.visited = qs.map (slotNo g) →
    rayLoop ops g delta n (rayPoint start delta k) o
        (slotNo g (squareOf g.cellSize (rayPoint start delta k))) s = .ok s' →
    ∃ rest, (qs ++ rest).IsChain Touch ∧ (∀ q ∈ qs ++ rest, InExtent g q) ∧ s'.visited = (qs ++ rest).map (slotNo g) := by
  induction n with
  | zero =>
    intro k o s s' qs _ _ _ hc he hv h
    cases h
    exact ⟨[], by simpa using hc, by simpa using he, by simpa using hv⟩
  | succ n ih =>
    intro k o s s' qs hin ho hlast hc he hv h
    unfold rayLoop at h
    obtain ⟨s1, h1, h⟩ := Res.bind_eq_ok.1 h
    have hs1 : ∃ r1, (qs ++ r1).getLast? = some (squareOf g.cellSize (rayPoint start delta k)) ∧
        (qs ++ r1).IsChain Touch ∧ (∀ q ∈ qs ++ r1, InExtent g q) ∧ s1.visited = (qs ++ r1).map (slotNo g) := by
      split_ifs at h1 with hne
      · refine ⟨[squareOf g.cellSize (rayPoint start delta k)], by simp, ?_, ?_,
          by rw [(rayVisit_rel h1).2, hv]; simp⟩
        swap
        · intro q hq
          rcases List.mem_append.1 hq with hq | hq
          · exact he q hq
          · rw [List.mem_singleton.1 hq]; exact hin k le_rfl
        rw [List.isChain_append]
        refine ⟨hc, by simp, ?_⟩
        intro x hx y hy
        rw [hlast] at hx
        cases hx
        simp only [List.head?_cons, Option.mem_def, Option.some.injEq] at hy
        subst hy
        refine ⟨fun e => hne (by rw [ho, e]), near_of_close hcs ?_ ?_⟩
        · unfold rayPoint
          rcases Nat.eq_zero_or_pos k with h0 | h0
          · subst h0; simpa using hcs
          · have : ((k - 1 : ℕ) : K) = k - 1 := by rw [Nat.cast_sub h0]; simp
            rw [this]
            have : start.1 + ((k : K) - 1) * delta.1 - (start.1 + k * delta.1) = -delta.1 := by ring
            rw [this, abs_neg]; exact hd.1
        · unfold rayPoint
          rcases Nat.eq_zero_or_pos k with h0 | h0
          · subst h0; simpa using hcs
          · have : ((k - 1 : ℕ) : K) = k - 1 := by rw [Nat.cast_sub h0]; simp
            rw [this]
            have : start.2 + ((k : K) - 1) * delta.2 - (start.2 + k * delta.2) = -delta.2 := by ring
            rw [this, abs_neg]; exact hd.2
      · push Not at hne
        cases h1
        refine ⟨[], ?_, by simpa using hc, by simpa using he, by simpa using hv⟩
        rw [List.append_nil, hlast]
        rw [ho] at hne
        rw [slotNo_inj (hin k le_rfl) (hin (k - 1) (by omega)) hne]
    obtain ⟨r1, l1, c1, e1, v1⟩ := hs1
    have hnext : ((rayPoint start delta k).1 + delta.1, (rayPoint start delta k).2 + delta.2)
        = rayPoint start delta (k + 1) := by
      unfold rayPoint; ext <;> push_cast <;> ring
    have hnext1 := congrArg Prod.fst hnext
    have hnext2 := congrArg Prod.snd hnext
    simp only at hnext1 hnext2
    simp only [hnext1, hnext2, Prod.mk.eta] at h
    split_ifs at h with hout
    · cases h
      exact ⟨r1, c1, e1, v1⟩
    · have hin' := inExtent_of_strict hcs hout
      rw [calcIndex_inExtent hcs hin', Res.bind_ok] at h
      obtain ⟨r2, c2, e2, v2⟩ := ih (k + 1) _ s1 s' (qs ++ r1) (by
        intro m hm
        rcases Nat.lt_or_ge m (k + 1) with hlt | hge
        · exact hin m (by omega)
        · rw [show m = k + 1 by omega]; exact hin') (by simp) (by simpa using l1) c1 e1 v1 h
      exact ⟨r1 ++ r2, by rw [← List.append_assoc]; exact c2, by rw [← List.append_assoc]; exact e2, by rw [← List.append_assoc]; exact v2⟩

/-- The visited squares, in order. -/
theorem rayTrace_chain (ops : CellOps γ) {g : Grid K γ} (hwf : WF g) (hcs : 0 < g.cellSize)
    {a b : K × K} (hin : isInside g a = true) (ha : ¬ OnEdge g a) (hpos : 0 < cellsBetween g.cellSize a b)
    {r : List ℕ × Grid K γ} (h : rayTrace ops g a b = .ok r) :
    ∃ qs, r.1 = (squareOf g.cellSize a :: qs).map (slotNo g) ∧ (squareOf g.cellSize a :: qs).IsChain Touch ∧
      ∀ q ∈ squareOf g.cellSize a :: qs, InExtent g q := by
  obtain ⟨hext, -⟩ := C06_inside_addresses_own_slot_partial hwf hcs hin ha
  unfold rayTrace at h
  rw [hin] at h
  simp only [Bool.not_true, Bool.false_eq_true, if_false] at h
  rw [if_neg (ne_of_gt hcs), calcIndex_inExtent hcs hext, Res.bind_ok] at h
  have hlen' : max (|b.1 - a.1| / g.cellSize) (|b.2 - a.2| / g.cellSize) = cellsBetween g.cellSize a b := by
    rw [max_div_div_right hcs.le]; rfl
  rw [hlen'] at h
  obtain ⟨s1, hs1, h⟩ := Res.bind_eq_ok.1 h
  have r1 := rayVisit_rel hs1
  rw [if_neg (ne_of_gt hpos)] at h
  obtain ⟨n, hn, h⟩ := Res.bind_eq_ok.1 h
  obtain ⟨s2, hs2, hfin⟩ := Res.bind_eq_ok.1 h
  have hr : r = (s2.visited, { g with cells := s2.cells }) := (Res.ok.inj hfin).symm
  subst hr
  have hp0 : ∀ delta : K × K, rayPoint a delta 0 = a := by intro delta; unfold rayPoint; ext <;> simp
  have hm : max |b.1 - a.1| |b.2 - a.2| = cellsBetween g.cellSize a b * g.cellSize := by
    unfold cellsBetween; field_simp
  have key : ∀ x : K, |x| ≤ max |b.1 - a.1| |b.2 - a.2| → |x / cellsBetween g.cellSize a b * (1 / 2)| < g.cellSize := by
    intro x hx
    rw [abs_mul, abs_div, abs_of_pos hpos, abs_of_pos (by norm_num : (0 : K) < 1 / 2)]
    have : |x| / cellsBetween g.cellSize a b ≤ g.cellSize := by
      rw [div_le_iff₀ hpos, mul_comm, ← hm]; exact hx
    linarith
  set delta : K × K := ((b.1 - a.1) / cellsBetween g.cellSize a b * (1 / 2),
    (b.2 - a.2) / cellsBetween g.cellSize a b * (1 / 2)) with hdelta
  obtain ⟨rest, c, e, v⟩ := rayLoop_chain ops hcs a delta ⟨key _ (le_max_left _ _), key _ (le_max_right _ _)⟩ n 0
    (slotNo g (squareOf g.cellSize a)) s1 s2 [squareOf g.cellSize a]
    (by intro m hm; rw [show m = 0 by omega, hp0]; exact hext) (by simp [hp0]) (by simp [hp0]) (by simp)
    (by intro q hq; rw [List.mem_singleton.1 hq]; exact hext)
    (by rw [r1.2]; simp) (by rw [hp0]; exact hs2)
  exact ⟨rest, v, c, e⟩

end Verif.NDTGrid
