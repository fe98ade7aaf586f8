import Verif.Utils.Model
import Verif.NDTGrid.Model
import Mathlib.Data.List.Infix
import Mathlib.Tactic.Linarith
import Mathlib.Data.Rat.Floor

/-
Properties C49 and C50.
-/
namespace Verif.Utils

open Verif

section Split
variable {α : Type} [DecidableEq α]

theorem find_none {token s : List α} (h : find token s = none) : ¬ token <:+: s := by
  induction s with
  | nil =>
    unfold find at h
    split_ifs at h with hp
    rw [List.isPrefixOf_iff_prefix] at hp
    rintro ⟨a, b, hab⟩
    apply hp
    have : token = [] := by
      simp only [List.append_eq_nil_iff] at hab
      exact hab.1.2
    rw [this]
  | cons c s ih =>
    unfold find at h
    split_ifs at h with hp
    rw [List.isPrefixOf_iff_prefix] at hp
    rw [Option.map_eq_none_iff] at h
    intro hi
    rw [List.infix_cons_iff] at hi
    rcases hi with hi | hi
    · exact hp hi
    · exact ih h hi

/-- `find` returns the first occurrence. -/
theorem find_some {token s : List α} {pos : ℕ} (h : find token s = some pos) :
    pos + token.length ≤ s.length ∧
    s = s.take pos ++ token ++ s.drop (pos + token.length) ∧ ∀ k < pos, ¬ token <+: s.drop k := by
  induction s generalizing pos with
  | nil =>
    unfold find at h
    split_ifs at h with hp
    rw [List.isPrefixOf_iff_prefix] at hp
    obtain rfl := List.prefix_nil.mp hp
    cases h
    simp
  | cons c s ih =>
    unfold find at h
    split_ifs at h with hp
    · rw [List.isPrefixOf_iff_prefix] at hp
      cases h
      obtain ⟨t, ht⟩ := hp
      rw [← ht]
      simp
    · rw [List.isPrefixOf_iff_prefix] at hp
      rw [Option.map_eq_some_iff] at h
      obtain ⟨q, hq, rfl⟩ := h
      obtain ⟨h1, h2, h3⟩ := ih hq
      refine ⟨by simp only [List.length_cons]; omega, ?_, ?_⟩
      · rw [show q + 1 + token.length = (q + token.length) + 1 by omega]
        simp only [List.take_succ_cons, List.drop_succ_cons, List.cons_append]
        rw [← h2]
      · intro k hk
        rcases k with _ | k
        · exact hp
        · exact h3 k (by omega)

theorem not_infix_take {token s : List α} {pos : ℕ} (ht : token ≠ [])
    (h : ∀ k < pos, ¬ token <+: s.drop k) : ¬ token <:+: s.take pos := by
  rintro ⟨a, b, hab⟩
  have hl := congrArg List.length hab
  simp only [List.length_append, List.length_take] at hl
  have := List.length_pos_iff.mpr ht
  refine h a.length (by omega) ?_
  have hs : s = a ++ token ++ b ++ s.drop pos := by rw [hab, List.take_append_drop]
  rw [hs]
  exact ⟨b ++ s.drop pos, by simp⟩

/-- **C49.** With a non-empty separator the loop of `split` ends (after at most one iteration per
character), joining the parts with the separator gives the input back, no part contains the separator and
there is at least one part. -/
theorem C49_split (token : List α) (ht : token ≠ []) (data : List α) :
    ∃ parts, (∀ fuel > data.length, splitLoop token fuel data = some parts) ∧
      parts ≠ [] ∧ List.intercalate token parts = data ∧ ∀ p ∈ parts, ¬ token <:+: p := by
  generalize hn : data.length = n
  induction n using Nat.strong_induction_on generalizing data with
  | _ n ih =>
    cases hf : find token data with
    | none =>
      refine ⟨[data], ?_, by simp, by simp [List.intercalate], by simpa using find_none hf⟩
      intro fuel hfuel
      obtain ⟨f, rfl⟩ : ∃ f, fuel = f + 1 := ⟨fuel - 1, by omega⟩
      simp [splitLoop, hf]
    | some pos =>
      obtain ⟨h1, h2, h3⟩ := find_some hf
      have hpos := List.length_pos_iff.mpr ht
      have hlt : (data.drop (pos + token.length)).length < n := by
        rw [List.length_drop]; omega
      obtain ⟨parts, ha, hb, hc, hd⟩ := ih _ hlt _ rfl
      refine ⟨data.take pos :: parts, ?_, by simp, ?_, ?_⟩
      · intro fuel hfuel
        obtain ⟨f, rfl⟩ : ∃ f, fuel = f + 1 := ⟨fuel - 1, by omega⟩
        simp [splitLoop, hf, ha f (by omega)]
      · obtain ⟨q, qs, rfl⟩ := List.exists_cons_of_ne_nil hb
        rw [List.intercalate_cons_cons, hc, ← h2]
      · intro p hp
        rcases List.mem_cons.mp hp with rfl | hp
        · exact not_infix_take ht h3
        · exact hd p hp

/-- **C49, the excluded case.** With an empty separator the loop never ends, whatever the input (the output
vector grows until memory is exhausted). -/
theorem C49_empty_separator_diverges (data : List α) (fuel : ℕ) :
    splitLoop ([] : List α) fuel data = none := by
  induction fuel generalizing data with
  | zero => rfl
  | succ f ih =>
    have : find ([] : List α) data = some 0 := by cases data <;> simp [find]
    simp [splitLoop, this, ih]

example : splitLoop ['-', '-'] 10 ['a', '-', '-', '-', 'b'] = some [['a'], ['-', 'b']] := by decide
example : (['-', '-'] : List Char) ≠ [] := by decide

end Split

section Bounds
open NDTGrid
variable {K : Type*} [Field K] [LinearOrder K] [IsStrictOrderedRing K]

/-- The box contains the points seen so far and each bound is zero or attained by one of them. -/
def BoxOf (b : Bounds K) (ps : List (K × K)) : Prop :=
  (b.minx ≤ 0 ∧ 0 ≤ b.maxx ∧ b.miny ≤ 0 ∧ 0 ≤ b.maxy) ∧
  (∀ p ∈ ps, b.minx ≤ p.1 ∧ p.1 ≤ b.maxx ∧ b.miny ≤ p.2 ∧ p.2 ≤ b.maxy) ∧
  (b.minx = 0 ∨ ∃ p ∈ ps, p.1 = b.minx) ∧ (b.maxx = 0 ∨ ∃ p ∈ ps, p.1 = b.maxx) ∧
  (b.miny = 0 ∨ ∃ p ∈ ps, p.2 = b.miny) ∧ (b.maxy = 0 ∨ ∃ p ∈ ps, p.2 = b.maxy)

omit [IsStrictOrderedRing K] in
theorem boxOf_step {b : Bounds K} {ps : List (K × K)} (h : BoxOf b ps) (q : K × K) :
    BoxOf (boundsStep b q) (ps ++ [q]) := by
  obtain ⟨⟨a1, a2, a3, a4⟩, hc, m1, m2, m3, m4⟩ := h
  have e1 : (boundsStep b q).minx = min b.minx q.1 := by
    unfold boundsStep; dsimp only; split_ifs with h
    · exact (min_eq_right h.le).symm
    · exact (min_eq_left (not_lt.mp h)).symm
  have e2 : (boundsStep b q).maxx = max b.maxx q.1 := by
    unfold boundsStep; dsimp only; split_ifs with h
    · exact (max_eq_right (le_of_lt h)).symm
    · exact (max_eq_left (not_lt.mp h)).symm
  have e3 : (boundsStep b q).miny = min b.miny q.2 := by
    unfold boundsStep; dsimp only; split_ifs with h
    · exact (min_eq_right h.le).symm
    · exact (min_eq_left (not_lt.mp h)).symm
  have e4 : (boundsStep b q).maxy = max b.maxy q.2 := by
    unfold boundsStep; dsimp only; split_ifs with h
    · exact (max_eq_right (le_of_lt h)).symm
    · exact (max_eq_left (not_lt.mp h)).symm
  have keep : ∀ (f : K × K → K) (v w : K), (v = 0 ∨ ∃ p ∈ ps, f p = v) → (w = v ∨ w = f q) →
      (w = 0 ∨ ∃ p ∈ ps ++ [q], f p = w) := by
    rintro f v w hv (rfl | rfl)
    · exact hv.imp id fun ⟨p, hp, e⟩ => ⟨p, List.mem_append_left _ hp, e⟩
    · exact .inr ⟨q, by simp, rfl⟩
  refine ⟨⟨?_, ?_, ?_, ?_⟩, ?_, ?_, ?_, ?_, ?_⟩
  · rw [e1]; exact (min_le_left _ _).trans a1
  · rw [e2]; exact a2.trans (le_max_left _ _)
  · rw [e3]; exact (min_le_left _ _).trans a3
  · rw [e4]; exact a4.trans (le_max_left _ _)
  · intro p hp
    rw [e1, e2, e3, e4]
    rcases List.mem_append.mp hp with hp | hp
    · obtain ⟨c1, c2, c3, c4⟩ := hc p hp
      exact ⟨(min_le_left _ _).trans c1, c2.trans (le_max_left _ _), (min_le_left _ _).trans c3,
        c4.trans (le_max_left _ _)⟩
    · obtain rfl := List.mem_singleton.mp hp
      exact ⟨min_le_right _ _, le_max_right _ _, min_le_right _ _, le_max_right _ _⟩
  · exact keep _ _ _ m1 (by rw [e1]; exact min_choice _ _)
  · exact keep _ _ _ m2 (by rw [e2]; exact max_choice _ _)
  · exact keep _ _ _ m3 (by rw [e3]; exact min_choice _ _)
  · exact keep _ _ _ m4 (by rw [e4]; exact max_choice _ _)

omit [IsStrictOrderedRing K] in
/-- **C50.** The bounds of `getMinMax2D` and `getMinMaxNDT2D` contain the origin and every point, and each
bound is zero or attained by a point. -/
theorem C50_bounding_box (ps : List (K × K)) :
    let b := minMax ps
    (b.minx ≤ 0 ∧ 0 ≤ b.maxx ∧ b.miny ≤ 0 ∧ 0 ≤ b.maxy) ∧
    (∀ p ∈ ps, b.minx ≤ p.1 ∧ p.1 ≤ b.maxx ∧ b.miny ≤ p.2 ∧ p.2 ≤ b.maxy) ∧
    (b.minx = 0 ∨ ∃ p ∈ ps, p.1 = b.minx) ∧ (b.maxx = 0 ∨ ∃ p ∈ ps, p.1 = b.maxx) ∧
    (b.miny = 0 ∨ ∃ p ∈ ps, p.2 = b.miny) ∧ (b.maxy = 0 ∨ ∃ p ∈ ps, p.2 = b.maxy) := by
  have key : ∀ (qs done : List (K × K)) (b : Bounds K), BoxOf b done →
      BoxOf (qs.foldl boundsStep b) (done ++ qs) := by
    intro qs
    induction qs with
    | nil => intro done b h; simpa using h
    | cons q qs ih =>
      intro done b h
      have := ih (done ++ [q]) _ (boxOf_step h q)
      simpa using this
  have h0 : BoxOf (⟨0, 0, 0, 0⟩ : Bounds K) [] := by simp [BoxOf]
  have := key ps [] _ h0
  rw [List.nil_append] at this
  exact this

example : (minMax [((3 : ℚ), -1), (5, 2)]).maxx = 5 ∧ (minMax [((3 : ℚ), -1), (5, 2)]).minx = 0 := by
  decide +kernel

end Bounds

end Verif.Utils
