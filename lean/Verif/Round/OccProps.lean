import Verif.Round.Occ

/- C153: rounding of the occupancy. -/
namespace Verif.Round

open Verif Verif.NDT

/-! ### One call -/

theorem addOccF_mem (F : Fmt ℝ) (o x : ℝ) : |addOccF F o x| ≤ 1 := abs_le.2 (clamp_mem _)

theorem addOccF_exact (o x : ℝ) : addOccF exactFmt o x = clamp (o + x) := rfl

/-- Values on the same side of zero. -/
theorem side {a b B : ℝ} (hB : B < |a|) (h : |b - a| ≤ B) : (b ≤ 0 ↔ a ≤ 0) ∧ (b < 0 ↔ a < 0) := by
  have h2 := abs_le.1 h
  rcases lt_abs.1 hB with h1 | h1
  · exact ⟨⟨fun _ => by linarith, fun _ => by linarith⟩, ⟨fun _ => by linarith, fun _ => by linarith⟩⟩
  · exact ⟨⟨fun _ => by linarith, fun _ => by linarith⟩, ⟨fun _ => by linarith, fun _ => by linarith⟩⟩

section
variable {F : Fmt ℝ} {u β ν : ℝ} (h0 : 0 ≤ u) (h1 : u ≤ 1 / 1000) (hF : ∀ x, |F.s x - x| ≤ u * |x|)
  (hν0 : 0 ≤ ν) (hν : ν ≤ 1 / 10)
include h0 h1 hF hν0 hν

theorem step_err {s s' : Occ} {op op' : OccOp} (hop : Same β ν op op') (hs : |s.occ| ≤ 1) (hs' : |s'.occ| ≤ 1)
    (hg : s'.gaussian = s.gaussian) {E B : ℝ} (hE : |s'.occ - s.occ| ≤ E) (hβ : β ≤ E)
    (hB : E + (24 * u + 2 * ν) ≤ B) (hd : Decides s op → B < |(occStep exactFmt s op).occ|) :
    |(occStep F s' op').occ - (occStep exactFmt s op).occ| ≤ E + (24 * u + 2 * ν) ∧
    (occStep F s' op').gaussian = (occStep exactFmt s op).gaussian ∧ |(occStep F s' op').occ| ≤ 1 := by
  have hit_err : ∀ n, |hit F n - hit exactFmt n| ≤ 4 * u * |hit exactFmt n| + 2 * ν := by
    intro n
    have := prod_err h0 h1 hF n logLike
    show |hit F n - n * logLike| ≤ 4 * u * |n * logLike| + 2 * ν
    unfold hit
    linarith
  have miss_err : ∀ n, |miss F n - miss exactFmt n| ≤ 4 * u * |miss exactFmt n| + 2 * ν := by
    intro n
    have := prod_err h0 h1 hF noGaussianUpdate n
    show |miss F n - noGaussianUpdate * n| ≤ 4 * u * |noGaussianUpdate * n| + 2 * ν
    unfold miss
    linarith
  have add : ∀ x x', |x' - x| ≤ 4 * u * |x| + 2 * ν →
      |addOccF F s'.occ x' - addOccF exactFmt s.occ x| ≤ E + (24 * u + 2 * ν) := by
    intro x x' hx
    have := addOcc_err h0 h1 hF hν0 hν hs hs' hx
    rw [addOccF_exact]
    linarith
  have pos : 0 ≤ 24 * u + 2 * ν := by positivity
  cases hop with
  | batch n =>
    have e := add _ _ (hit_err n)
    have hd' := hd trivial
    simp only [occStep] at hd' ⊢
    refine ⟨e, ?_, addOccF_mem _ _ _⟩
    obtain ⟨k1, -⟩ := side hd' (e.trans hB)
    by_cases hz : addOccF exactFmt s.occ (hit exactFmt n) ≤ 0
    · rw [if_pos hz, if_pos (k1.2 hz)]
    · rw [if_neg hz, if_neg fun h => hz (k1.1 h)]
  | merge n ho ho1 =>
    simp only [occStep] at hd ⊢
    rw [hg]
    by_cases hgs : s.gaussian = true
    · have e := add _ _ (hit_err n)
      have hd' := hd hgs
      rw [if_pos hgs] at hd' ⊢
      rw [if_pos hgs]
      refine ⟨e, ?_, addOccF_mem _ _ _⟩
      obtain ⟨-, k1⟩ := side hd' (e.trans hB)
      simp only
      by_cases hz : addOccF exactFmt s.occ (hit exactFmt n) < 0
      · rw [if_pos hz, if_pos (k1.2 hz)]
      · rw [if_neg hz, if_neg fun h => hz (k1.1 h)]
    · rw [if_neg hgs, if_neg hgs]
      exact ⟨by simp only; linarith, rfl, ho1⟩
  | ray n atEnd hx =>
    rename_i x x'
    simp only [occStep] at hd ⊢
    rw [hg]
    by_cases hgs : s.gaussian = true
    · have hn : ¬ (!s.gaussian) = true := by simp [hgs]
      rw [if_neg hn] at hd ⊢
      rw [if_neg hn]
      cases atEnd with
      | true =>
        refine ⟨add 1 1 (by rw [sub_self, abs_zero]; positivity), rfl, addOccF_mem _ _ _⟩
      | false =>
        have hx2 : |F.s x' - exactFmt.s x| ≤ 4 * u * |exactFmt.s x| + 2 * ν := by
          show |F.s x' - x| ≤ 4 * u * |x| + 2 * ν
          have e1 := hF x'
          have e2 := abs_add_le (F.s x' - x') (x' - x)
          rw [sub_add_sub_cancel] at e2
          have e3 := abs_sub_abs_le_abs_sub x' x
          have e4 : u * |x'| ≤ u * (|x| + ν) := mul_le_mul_of_nonneg_left (by linarith) h0
          have e5 : u * ν ≤ 1 / 1000 * ν := mul_le_mul_of_nonneg_right h1 hν0
          have e6 : 0 ≤ u * |x| := mul_nonneg h0 (abs_nonneg _)
          linarith
        have e := add _ _ hx2
        have hd' := hd ⟨hgs, rfl⟩
        simp only [Bool.false_eq_true, if_false] at hd' ⊢
        refine ⟨e, ?_, addOccF_mem _ _ _⟩
        obtain ⟨k1, -⟩ := side hd' (e.trans hB)
        by_cases hz : addOccF exactFmt s.occ (exactFmt.s x) ≤ 0
        · rw [if_pos hz, if_pos (k1.2 hz)]
        · rw [if_neg hz, if_neg fun h => hz (k1.1 h)]
    · have hn : (!s.gaussian) = true := by simpa using hgs
      rw [if_pos hn, if_pos hn]
      exact ⟨add _ _ (miss_err n), rfl, addOccF_mem _ _ _⟩

theorem step_mem {s : Occ} {op op' : OccOp} (hop : Same β ν op op') (hm : ∀ n o, op = .merge n o → |o| ≤ 1) :
    |(occStep exactFmt s op).occ| ≤ 1 := by
  cases hop with
  | batch n => exact addOccF_mem _ _ _
  | merge n _ _ =>
    simp only [occStep]
    by_cases hgs : s.gaussian = true
    · rw [if_pos hgs]; exact addOccF_mem _ _ _
    · rw [if_neg hgs]; exact hm _ _ rfl
  | ray n atEnd _ =>
    simp only [occStep]
    split_ifs <;> exact addOccF_mem _ _ _

theorem run_err {ops ops' : List OccOp} (hop : List.Forall₂ (Same β ν) ops ops')
    (hm : ∀ n o, OccOp.merge n o ∈ ops → |o| ≤ 1) {s s' : Occ} (hs : |s.occ| ≤ 1) (hs' : |s'.occ| ≤ 1)
    (hg : s'.gaussian = s.gaussian) {E B : ℝ} (hE : |s'.occ - s.occ| ≤ E) (hβ : β ≤ E)
    (hB : E + ops.length * (24 * u + 2 * ν) ≤ B) (hc : Clear B s ops) :
    |(occRun F s' ops').occ - (occRun exactFmt s ops).occ| ≤ E + ops.length * (24 * u + 2 * ν) ∧
    (occRun F s' ops').gaussian = (occRun exactFmt s ops).gaussian ∧
    |(occRun F s' ops').occ| ≤ 1 ∧ |(occRun exactFmt s ops).occ| ≤ 1 := by
  have pos : 0 ≤ 24 * u + 2 * ν := by positivity
  induction hop generalizing s s' E with
  | nil => simpa [occRun] using ⟨hE, hg, hs', hs⟩
  | @cons op op' ops ops' h1' h2' ih =>
    rw [List.length_cons, Nat.cast_succ] at hB ⊢
    have len : (0 : ℝ) ≤ ops.length * (24 * u + 2 * ν) := by positivity
    obtain ⟨a, b, c⟩ := step_err h0 h1 hF hν0 hν h1' hs hs' hg hE hβ (by linarith) hc.1
    obtain ⟨a', b'⟩ := ih (fun n o h => hm n o (List.mem_cons_of_mem _ h))
      (step_mem h0 h1 hF hν0 hν h1' fun n o h => hm n o (h ▸ List.mem_cons_self)) c b a (by linarith)
      (by linarith) hc.2
    exact ⟨by simpa only [occRun, List.foldl_cons, add_mul, one_mul, ← add_assoc, add_right_comm, add_assoc]
      using (a'.trans (by linarith : _ ≤ E + ((ops.length + 1) * (24 * u + 2 * ν)))), b'⟩

end

/-! ### C153 -/

theorem floor_near {a b : ℝ} (h : |a - b| < 1) : |⌊a⌋ - ⌊b⌋| ≤ 1 := by
  have h2 := abs_lt.1 h
  have a1 := Int.floor_le a
  have a2 := Int.lt_floor_add_one a
  have b1 := Int.floor_le b
  have b2 := Int.lt_floor_add_one b
  rw [abs_le]
  constructor
  · have : (⌊b⌋ : ℝ) < ⌊a⌋ + 2 := by linarith
    have : ⌊b⌋ < ⌊a⌋ + 2 := by exact_mod_cast this
    omega
  · have : (⌊a⌋ : ℝ) < ⌊b⌋ + 2 := by linarith
    have : ⌊a⌋ < ⌊b⌋ + 2 := by exact_mod_cast this
    omega

/-- C153 for every history of a cell, any number of calls and any rounding with relative error `u`: the rounded
occupancy differs from the exact one by at most `β + k (24 u + 2 ν)` after `k` calls, where `β` and `ν` bound the errors
of the merged occupancies and of the evidence of the rays; and the cell counts as a Gaussian in both or in none, if in
exact arithmetic the occupancy is further from zero than this whenever the sign decides.  The published value differs by
one percent at most as long as the error is below 0.009.  Partial: near zero the flag can differ, and the published
value is not always the same (`C153_false`). -/
theorem C153_partial {F : Fmt ℝ} {u β ν : ℝ} (h0 : 0 ≤ u) (h1 : u ≤ 1 / 1000) (hF : ∀ x, |F.s x - x| ≤ u * |x|)
    (hβ : 0 ≤ β) (hν0 : 0 ≤ ν) (hν : ν ≤ 1 / 10) {ops ops' : List OccOp} (hop : List.Forall₂ (Same β ν) ops ops')
    (hm : ∀ n o, OccOp.merge n o ∈ ops → |o| ≤ 1)
    (hc : Clear (β + ops.length * (24 * u + 2 * ν)) Occ.init ops) :
    |(occRun F Occ.init ops').occ - (occRun exactFmt Occ.init ops).occ| ≤ β + ops.length * (24 * u + 2 * ν) ∧
    (occRun F Occ.init ops').gaussian = (occRun exactFmt Occ.init ops).gaussian ∧
    (β + ops.length * (24 * u + 2 * ν) + u ≤ 9 / 1000 →
      |published F (occRun F Occ.init ops').occ - published exactFmt (occRun exactFmt Occ.init ops).occ| ≤ 1) := by
  obtain ⟨a, b, c, d⟩ := run_err h0 h1 hF hν0 hν hop hm (s := Occ.init) (s' := Occ.init) (by simp [Occ.init])
    (by simp [Occ.init]) rfl (E := β) (by simpa using hβ) le_rfl le_rfl hc
  refine ⟨a, b, fun hE => ?_⟩
  generalize (occRun F Occ.init ops').occ = o' at a c
  generalize (occRun exactFmt Occ.init ops).occ = o at a d
  generalize β + ops.length * (24 * u + 2 * ν) = E at a hE
  have hs := hF (o' * 100)
  rw [abs_mul, abs_of_pos (by norm_num : (0 : ℝ) < 100)] at hs
  have hs2 : |F.s (o' * 100) - o' * 100| ≤ 100 * u := hs.trans (by nlinarith)
  have key : |F.s (o' * 100) - o * 100| < 1 := by
    have e := abs_add_le (F.s (o' * 100) - o' * 100) (o' * 100 - o * 100)
    rw [sub_add_sub_cancel, ← sub_mul, abs_mul, abs_of_pos (by norm_num : (0 : ℝ) < 100)] at e
    linarith
  have no : ∀ x : ℝ, |x| ≤ 1 → ¬ x < -1 := fun x hx => not_lt.2 (abs_le.1 hx).1
  unfold published
  by_cases p : o' ≥ 1 <;> by_cases q : o ≥ 1
  · rw [if_pos p, if_pos q]; simp
  · rw [if_pos p, if_neg q, if_neg (no _ d)]
    have hl : |(100 : ℝ) - o * 100| < 1 := by
      have o1 : o' = 1 := le_antisymm (abs_le.1 c).2 p
      subst o1
      have e := abs_le.1 a
      rw [abs_lt]
      constructor <;> linarith
    have := floor_near hl
    simpa [exactFmt] using this
  · rw [if_neg p, if_neg (no _ c), if_pos q]
    have o1 : o = 1 := le_antisymm (abs_le.1 d).2 q
    subst o1
    rw [one_mul] at key
    have := floor_near key
    simpa using this
  · rw [if_neg p, if_neg (no _ c), if_neg q, if_neg (no _ d)]
    exact floor_near key

/-- Rounding as in the code: 24 bits.  After `k` calls without merged cells the error of the occupancy is at most
`k (24 · 2⁻²⁴ + 2 ν)`, where `ν` is the error of the evidence of the rays. -/
theorem C153_ieee_partial {ν : ℝ} (hν0 : 0 ≤ ν) (hν : ν ≤ 1 / 10) {ops ops' : List OccOp}
    (hop : List.Forall₂ (Same 0 ν) ops ops') (hm : ∀ n o, OccOp.merge n o ∈ ops → |o| ≤ 1)
    (hc : Clear (ops.length * (24 * 2⁻¹ ^ 24 + 2 * ν)) Occ.init ops) :
    |(occRun ieee Occ.init ops').occ - (occRun exactFmt Occ.init ops).occ| ≤
      ops.length * (24 * 2⁻¹ ^ 24 + 2 * ν) ∧
    (occRun ieee Occ.init ops').gaussian = (occRun exactFmt Occ.init ops).gaussian ∧
    (ops.length * (24 * 2⁻¹ ^ 24 + 2 * ν) + 2⁻¹ ^ 24 ≤ 9 / 1000 →
      |published ieee (occRun ieee Occ.init ops').occ -
        published exactFmt (occRun exactFmt Occ.init ops).occ| ≤ 1) := by
  have := C153_partial (F := ieee) (u := 2⁻¹ ^ 24) (β := 0) (by positivity) (by norm_num)
    (fun x => binary_err 24 x) le_rfl hν0 hν hop hm (by simpa using hc)
  simpa using this

/-! ### The exact run is the one of the model of the cell -/

theorem batch_exact (eig : Eig) (c : Cell) {o : ℝ} (ho : c.occ = some o) :
    (computeGaussian eig c).occ = some (occStep exactFmt ⟨o, c.gaussian⟩ (.batch c.pending.length)).occ ∧
    (computeGaussian eig c).gaussian = (occStep exactFmt ⟨o, c.gaussian⟩ (.batch c.pending.length)).gaussian := by
  have e : addOcc c.occ (some (c.pending.length * logLike)) =
      some (addOccF exactFmt o (hit exactFmt c.pending.length)) := by rw [ho]; rfl
  simp only [computeGaussian, occStep]
  rw [e]
  by_cases h1 : addOccF exactFmt o (hit exactFmt c.pending.length) ≤ 0
  · have hz : occLe (some (addOccF exactFmt o (hit exactFmt c.pending.length))) := ⟨_, rfl, h1⟩
    rw [if_pos hz, if_pos h1]; exact ⟨rfl, rfl⟩
  · have : ¬ occLe (some (addOccF exactFmt o (hit exactFmt c.pending.length))) := by
      rintro ⟨x, hx, h⟩; cases hx; exact h1 h
    rw [if_neg this, if_neg h1]
    by_cases h2 : c.pending.length < 6
    · rw [if_pos h2, if_pos h2]; exact ⟨rfl, rfl⟩
    · rw [if_neg h2, if_neg h2]
      by_cases h3 : c.gaussian = false
      · rw [if_pos h3]; exact ⟨rfl, rfl⟩
      · rw [if_neg h3]
        unfold updateGaussian
        simp only
        split_ifs <;> exact ⟨rfl, rfl⟩

theorem merge_exact (eig : Eig) (c d : Cell) {o o2 : ℝ} (ho : c.occ = some o) (hp : 2 < d.points)
    (hd : d.gaussian = true) (ho2 : d.occ = some o2) :
    (merge eig c d).occ = some (occStep exactFmt ⟨o, c.gaussian⟩ (.merge d.points o2)).occ ∧
    (merge eig c d).gaussian = (occStep exactFmt ⟨o, c.gaussian⟩ (.merge d.points o2)).gaussian := by
  have e : addOcc c.occ (some (d.points * logLike)) =
      some (addOccF exactFmt o (hit exactFmt d.points)) := by rw [ho]; rfl
  simp only [merge, occStep]
  rw [if_neg (by omega), if_neg (by simp [hd])]
  by_cases hg : c.gaussian = true
  · rw [if_pos hg, if_pos hg, e]
    by_cases h1 : addOccF exactFmt o (hit exactFmt d.points) < 0
    · have hz : occLt (some (addOccF exactFmt o (hit exactFmt d.points))) := ⟨_, rfl, h1⟩
      rw [if_pos hz, if_pos h1]; exact ⟨rfl, rfl⟩
    · have : ¬ occLt (some (addOccF exactFmt o (hit exactFmt d.points))) := by
        rintro ⟨x, hx, h⟩; cases hx; exact h1 h
      rw [if_neg this, if_neg h1]; exact ⟨rfl, rfl⟩
  · rw [if_neg hg, if_neg hg]; exact ⟨ho2, rfl⟩

theorem ray_exact (c c' : Cell) (a e : Vec) (n : ℕ) {o o' : ℝ} (ho : c.occ = some o)
    (h : rayUpdate c a e n = .ok c') (ho' : c'.occ = some o') :
    ∃ atEnd x, o' = (occStep exactFmt ⟨o, c.gaussian⟩ (.ray n atEnd x)).occ ∧
      c'.gaussian = (occStep exactFmt ⟨o, c.gaussian⟩ (.ray n atEnd x)).gaussian := by
  unfold rayUpdate at h
  by_cases hg : c.gaussian = false
  · rw [if_pos hg] at h
    cases h
    refine ⟨false, 0, ?_, ?_⟩
    · simp only [ho, addOcc, Option.some.injEq] at ho'
      simp only [occStep, hg, ← ho']; rfl
    · simp [occStep, hg]
  · rw [if_neg hg] at h
    rw [Bool.not_eq_false] at hg
    by_cases hz : (∑ i, |c.mean i - e i|) < 0.01
    · rw [if_pos hz] at h
      cases h
      refine ⟨true, 0, ?_, ?_⟩
      · simp only [ho, addOcc, Option.some.injEq] at ho'
        simp only [occStep, hg, ← ho']; rfl
      · simp [occStep, hg]
    · rw [if_neg hz] at h
      cases hl : lineLik c a e with
      | ok r =>
        rw [hl] at h
        cases h
        simp only at ho' ⊢
        generalize (r.bind _ : Option ℝ) = upd at ho' ⊢
        cases upd with
        | none => rw [ho] at ho'; cases ho'
        | some x =>
          have e1 : addOcc c.occ (some x) = some (addOccF exactFmt o (exactFmt.s x)) := by rw [ho]; rfl
          rw [e1] at ho' ⊢
          refine ⟨false, x, ?_, ?_⟩
          · cases ho'; simp [occStep, hg]
          · simp only [occStep, hg, Bool.not_true, Bool.false_eq_true, if_false]
            by_cases h1 : addOccF exactFmt o (exactFmt.s x) ≤ 0
            · have hz : occLe (some (addOccF exactFmt o (exactFmt.s x))) := ⟨_, rfl, h1⟩
              rw [if_pos hz, if_pos h1]
            · have : ¬ occLe (some (addOccF exactFmt o (exactFmt.s x))) := by
                rintro ⟨y, hy, h⟩; cases hy; exact h1 h
              rw [if_neg this, if_neg h1]
      | ub c => rw [hl] at h; cases h
      | throw => rw [hl] at h; cases h

/-! ### Rounding shows in a published map -/

theorem binary_eq (b : ℕ) (e m : ℤ) {x : ℝ} (h1 : (2 : ℝ) ^ e ≤ |x|) (h2 : |x| < 2 ^ (e + 1))
    (h3 : |x / 2 ^ (e + 1 - b) - m| < 1 / 2) : binary b x = m * 2 ^ (e + 1 - b) := by
  have hp : 0 < |x| := lt_of_lt_of_le (by positivity) h1
  have hl : Int.log 2 |x| = e := by
    have a1 := (Int.zpow_le_iff_le_log (b := 2) (by norm_num) hp).1 (by exact_mod_cast h1 : ((2 : ℕ) : ℝ) ^ e ≤ |x|)
    have a2 := (Int.lt_zpow_iff_log_lt (b := 2) (by norm_num) hp).1
      (by exact_mod_cast h2 : |x| < ((2 : ℕ) : ℝ) ^ (e + 1))
    omega
  unfold binary
  rw [if_neg (abs_pos.1 hp)]
  simp only
  rw [hl]
  congr 2
  rw [round_eq, Int.floor_eq_iff]
  have := abs_lt.1 h3
  constructor <;> linarith

/-- A cell with five points, then three passing points: exactly 40 percent, but 39 with rounding. -/
theorem C153_false : published exactFmt (occRun exactFmt Occ.init [.batch 5, .ray 3 false 0]).occ = 40 ∧
    published ieee (occRun ieee Occ.init [.batch 5, .ray 3 false 0]).occ = 39 := by
  have big : ∀ F : Fmt ℝ, (∀ x, |F.s x - x| ≤ 2⁻¹ ^ 24 * |x|) →
      occStep F Occ.init (.batch 5) = ⟨1, false⟩ := by
    intro F hF
    have p := prod_err (u := 2⁻¹ ^ 24) (by positivity) (by norm_num) hF ((5 : ℕ) : ℝ) logLike
    have p2 : 2 ≤ hit F 5 := by
      unfold hit
      rw [abs_of_pos (by unfold logLike; norm_num : (0 : ℝ) < (5 : ℕ) * logLike)] at p
      have := (abs_le.1 p).1
      unfold logLike at this ⊢
      norm_num at this ⊢
      linarith
    have q := hF (0 + hit F 5)
    rw [zero_add, abs_of_pos (by linarith : 0 < hit F 5)] at q
    have q1 : 1 ≤ F.s (hit F 5) := by
      have := (abs_le.1 q).1
      norm_num at this
      linarith
    have e : addOccF F 0 (hit F 5) = 1 := by
      unfold addOccF
      rw [zero_add, clamp_one q1]
    simp [occStep, Occ.init, e]
  constructor
  · have e : (occRun exactFmt Occ.init [.batch 5, .ray 3 false 0]).occ = 2 / 5 := by
      simp only [occRun, List.foldl_cons, List.foldl_nil]
      rw [big exactFmt (fun x => by simp [exactFmt])]
      simp [occStep, addOccF, miss, exactFmt, noGaussianUpdate, clamp]
      norm_num
    rw [e]
    unfold published
    rw [if_neg (by norm_num), if_neg (by norm_num), Int.floor_eq_iff]
    simp only [exactFmt, id]
    norm_num
  · have s3 : (ieee : Fmt ℝ).s ((3 : ℕ) : ℝ) = 3 := by
      have := binary_exact 24 3 0 (by norm_num)
      norm_num at this ⊢
      exact this
    have s2 : (ieee : Fmt ℝ).s noGaussianUpdate = -13421773 / 2 ^ 26 := by
      have := binary_eq 24 (-3) (-13421773) (x := noGaussianUpdate) (by unfold noGaussianUpdate; norm_num [abs_of_neg])
        (by unfold noGaussianUpdate; norm_num [abs_of_neg]) (by unfold noGaussianUpdate; norm_num [abs_lt])
      show binary 24 noGaussianUpdate = _
      rw [this]; norm_num
    have s1 : (ieee : Fmt ℝ).s (-13421773 / 2 ^ 26 * 3) = -10066330 / 2 ^ 24 := by
      have := binary_eq 24 (-1) (-10066330) (x := -13421773 / 2 ^ 26 * 3) (by norm_num [abs_of_neg])
        (by norm_num [abs_of_neg]) (by norm_num [abs_lt])
      show binary 24 _ = _
      rw [this]; norm_num
    have s0 : (ieee : Fmt ℝ).s (1 + -10066330 / 2 ^ 24) = 6710886 / 2 ^ 24 := by
      have := binary_exact 24 6710886 (-24) (by norm_num)
      show binary 24 _ = _
      norm_num at this ⊢
      exact this
    have e : (occRun ieee Occ.init [.batch 5, .ray 3 false 0]).occ = 6710886 / 2 ^ 24 := by
      simp only [occRun, List.foldl_cons, List.foldl_nil]
      rw [big ieee (fun x => binary_err 24 x)]
      simp only [occStep, addOccF, miss, Bool.not_false, if_true]
      rw [s2, s3, s1, s0]
      unfold clamp
      norm_num
    rw [e]
    unfold published
    rw [if_neg (by norm_num), if_neg (by norm_num)]
    have l : (ieee : Fmt ℝ).s (6710886 / 2 ^ 24 * 100) = 10485759 / 2 ^ 18 := by
      have := binary_eq 24 5 10485759 (x := 6710886 / 2 ^ 24 * 100) (by norm_num [abs_of_pos])
        (by norm_num [abs_of_pos]) (by norm_num [abs_lt])
      show binary 24 _ = _
      rw [this]; norm_num
    rw [l, Int.floor_eq_iff]
    norm_num

/-- The hypotheses are met: one batch of ten points. -/
example : Clear (2⁻¹ ^ 10) Occ.init [.batch 10, .ray 2 true 0] ∧
    List.Forall₂ (Same 0 0) [.batch 10, .ray 2 true 0] [.batch 10, .ray 2 true 0] := by
  refine ⟨⟨fun _ => ?_, fun h => absurd h.2 (by simp), trivial⟩, ?_⟩
  · have : (occStep exactFmt Occ.init (.batch 10)).occ = 1 := by
      simp only [occStep, addOccF, hit, exactFmt, id, Occ.init]
      exact clamp_one (by unfold logLike; norm_num)
    rw [this]
    norm_num
  · exact .cons (.batch _) (.cons (.ray _ _ (by simp)) .nil)

end Verif.Round
