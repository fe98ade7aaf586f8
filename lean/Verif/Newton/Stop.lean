import Verif.Newton.Props

/- C154: when the iteration on one grid stops. -/
namespace Verif.Newton

open Verif Verif.Geo

/-! ### Specification -/

/-- The matcher moves from `x` to `x'` in one pass of its loop. -/
def Moves (cfg : Config) (env : Env) (x x' : Vec) : Prop :=
  ∃ len, newtonStep cfg env x = .next x' len (env.calcScore x)

/-- `p 0, …, p k` are the positions of a matcher that starts at `x`. -/
def Visits (cfg : Config) (env : Env) (x : Vec) (k : ℕ) (p : ℕ → Vec) : Prop :=
  p 0 = x ∧ ∀ i < k, Moves cfg env (p i) (p (i + 1))

/-- Step `i` (counted from zero) is shorter than the limit. -/
def Short (cfg : Config) (p : ℕ → Vec) (i : ℕ) : Prop := dist (p (i + 1)) (p i) < cfg.eps

/-! ### Lemmas -/

/-- The positions with one more before them. -/
def before (x : Vec) (p : ℕ → Vec) : ℕ → Vec
  | 0 => x
  | i + 1 => p i

theorem moves_iff {cfg : Config} {env : Env} {x x' : Vec} {len : ℝ} {s : Score} (he : 0 < cfg.eps)
    (h : newtonStep cfg env x = .next x' len s) :
    Moves cfg env x x' ∧ |len| = dist x' x ∧ s = env.calcScore x := by
  obtain ⟨h1, h2, -⟩ := newtonStep_next he h
  subst h2
  refine ⟨⟨_, h⟩, ?_, rfl⟩
  rw [h1, abs_of_nonneg]
  rw [← h1]
  exact Real.sqrt_nonneg _

/-- A loop that stops by a rule on the number of passes and the length of the last step. -/
structure Rule (cfg : Config) (env : Env) (loop : Vec → ℕ → Single) (last checked : ℕ → Prop) : Prop where
  fail : ∀ x nr, newtonStep cfg env x = .fail → loop x nr = .fail
  stop : ∀ x nr x' len s, newtonStep cfg env x = .next x' len s → (last nr ∨ (checked nr ∧ |len| < cfg.eps)) →
    loop x nr = .ok x' (nr + 1) s
  go : ∀ x nr x' len s, newtonStep cfg env x = .next x' len s → ¬ (last nr ∨ (checked nr ∧ |len| < cfg.eps)) →
    loop x nr = loop x' (nr + 1)

section
variable {cfg : Config} (he : 0 < cfg.eps) {env : Env} {loop : Vec → ℕ → Single} {last checked : ℕ → Prop}
  (hr : Rule cfg env loop last checked)
include he hr

theorem Rule.ok_of {k : ℕ} : ∀ {x : Vec} {nr : ℕ} {p : ℕ → Vec}, Visits cfg env x (k + 1) p →
    (∀ i < k, ¬ (last (nr + i) ∨ (checked (nr + i) ∧ Short cfg p i))) →
    (last (nr + k) ∨ (checked (nr + k) ∧ Short cfg p k)) →
    loop x nr = .ok (p (k + 1)) (nr + k + 1) (env.calcScore (p k)) := by
  induction k with
  | zero =>
    intro x nr p hv _ hl
    obtain ⟨rfl, hm⟩ := hv
    obtain ⟨len, h⟩ := hm 0 (by omega)
    obtain ⟨-, h2, -⟩ := moves_iff he h
    refine hr.stop _ _ _ _ _ h ?_
    rw [h2]
    exact hl
  | succ k ih =>
    intro x nr p hv hn hl
    obtain ⟨rfl, hm⟩ := hv
    obtain ⟨len, h⟩ := hm 0 (by omega)
    obtain ⟨-, h2, -⟩ := moves_iff he h
    rw [hr.go _ _ _ _ _ h (by rw [h2]; exact hn 0 (by omega))]
    have := ih (x := p 1) (nr := nr + 1) (p := fun i => p (i + 1)) ⟨rfl, fun i hi => hm (i + 1) (by omega)⟩
      (fun i hi => by have := hn (i + 1) (by omega); rwa [← add_assoc, add_right_comm] at this)
      (by rwa [← add_assoc, add_right_comm] at hl)
    rw [this]
    congr 1
    omega

theorem Rule.fail_of {k : ℕ} : ∀ {x : Vec} {nr : ℕ} {p : ℕ → Vec}, Visits cfg env x k p →
    (∀ i < k, ¬ (last (nr + i) ∨ (checked (nr + i) ∧ Short cfg p i))) → newtonStep cfg env (p k) = .fail →
    loop x nr = .fail := by
  induction k with
  | zero =>
    intro x nr p hv _ hf
    obtain ⟨rfl, -⟩ := hv
    exact hr.fail _ _ hf
  | succ k ih =>
    intro x nr p hv hn hf
    obtain ⟨rfl, hm⟩ := hv
    obtain ⟨len, h⟩ := hm 0 (by omega)
    obtain ⟨-, h2, -⟩ := moves_iff he h
    rw [hr.go _ _ _ _ _ h (by rw [h2]; exact hn 0 (by omega))]
    exact ih (x := p 1) (nr := nr + 1) (p := fun i => p (i + 1)) ⟨rfl, fun i hi => hm (i + 1) (by omega)⟩
      (fun i hi => by have := hn (i + 1) (by omega); rwa [← add_assoc, add_right_comm] at this) hf

/-- One of the two happens before the last pass. -/
theorem Rule.total (m : ℕ) : ∀ {x : Vec} {nr : ℕ}, last (nr + m) → ∃ k ≤ m, ∃ p, Visits cfg env x k p ∧
    (∀ i < k, ¬ (last (nr + i) ∨ (checked (nr + i) ∧ Short cfg p i))) ∧
    (newtonStep cfg env (p k) = .fail ∨
      Moves cfg env (p k) (p (k + 1)) ∧ (last (nr + k) ∨ (checked (nr + k) ∧ Short cfg p k))) := by
  induction m with
  | zero =>
    intro x nr hl
    cases h : newtonStep cfg env x with
    | fail => exact ⟨0, le_rfl, fun _ => x, ⟨rfl, fun i hi => by omega⟩, fun i hi => by omega, Or.inl h⟩
    | broken => exact absurd h (newtonStep_not_broken he)
    | next x' len s =>
      exact ⟨0, le_rfl, before x fun _ => x', ⟨rfl, fun i hi => by omega⟩, fun i hi => by omega,
        Or.inr ⟨(moves_iff he h).1, Or.inl hl⟩⟩
  | succ m ih =>
    intro x nr hl
    cases h : newtonStep cfg env x with
    | fail => exact ⟨0, by omega, fun _ => x, ⟨rfl, fun i hi => by omega⟩, fun i hi => by omega, Or.inl h⟩
    | broken => exact absurd h (newtonStep_not_broken he)
    | next x' len s =>
      obtain ⟨h1, h2, -⟩ := moves_iff he h
      by_cases hs : last nr ∨ (checked nr ∧ |len| < cfg.eps)
      · exact ⟨0, by omega, before x fun _ => x', ⟨rfl, fun i hi => by omega⟩, fun i hi => by omega,
          Or.inr ⟨h1, by rw [h2] at hs; exact hs⟩⟩
      · obtain ⟨k, hk, p, ⟨hp, hv⟩, hn, ho⟩ := ih (x := x') (nr := nr + 1)
          (by rwa [add_assoc, add_comm 1 m])
        subst hp
        refine ⟨k + 1, by omega, before x p, ⟨rfl, fun i hi => ?_⟩, fun i hi => ?_, ?_⟩
        · cases i with
          | zero => exact h1
          | succ i => exact hv i (by omega)
        · cases i with
          | zero => rw [h2] at hs; exact hs
          | succ i =>
            have := hn i (by omega)
            rwa [add_right_comm] at this
        · rcases ho with ho | ho
          · exact Or.inl ho
          · right
            rw [add_right_comm] at ho
            exact ho

/-- What the loop returns and when. -/
theorem Rule.spec {m : ℕ} (hm : last m) (x : Vec) :
    (∀ y k s, loop x 0 = .ok y k s ↔ ∃ j p, k = j + 1 ∧ Visits cfg env x k p ∧ y = p k ∧ s = env.calcScore (p j) ∧
      (∀ i < j, ¬ (last i ∨ (checked i ∧ Short cfg p i))) ∧ (last j ∨ (checked j ∧ Short cfg p j))) ∧
    (loop x 0 = .fail ↔ ∃ j p, Visits cfg env x j p ∧ (∀ i < j, ¬ (last i ∨ (checked i ∧ Short cfg p i))) ∧
      newtonStep cfg env (p j) = .fail) ∧ loop x 0 ≠ .broken := by
  have back : ∀ j p, Visits cfg env x (j + 1) p → (∀ i < j, ¬ (last i ∨ (checked i ∧ Short cfg p i))) →
      (last j ∨ (checked j ∧ Short cfg p j)) → loop x 0 = .ok (p (j + 1)) (j + 1) (env.calcScore (p j)) := by
    intro j p h1 h2 h3
    have := hr.ok_of he h1 (nr := 0) (fun i hi => by simpa using h2 i hi) (by simpa using h3)
    simpa using this
  have back2 : ∀ j p, Visits cfg env x j p → (∀ i < j, ¬ (last i ∨ (checked i ∧ Short cfg p i))) →
      newtonStep cfg env (p j) = .fail → loop x 0 = .fail := by
    intro j p h1 h2 h3
    exact hr.fail_of he h1 (nr := 0) (fun i hi => by simpa using h2 i hi) h3
  obtain ⟨j, -, p, hv, hn, ho⟩ := hr.total he m (x := x) (nr := 0) (by simpa using hm)
  simp only [zero_add] at hn ho
  have hv' : Moves cfg env (p j) (p (j + 1)) → Visits cfg env x (j + 1) p := fun h => ⟨hv.1, fun i hi => by
    rcases Nat.lt_succ_iff_lt_or_eq.1 hi with hi | rfl
    · exact hv.2 i hi
    · exact h⟩
  refine ⟨fun y k s => ⟨fun h => ?_, ?_⟩, ⟨fun h => ?_, fun ⟨j, p, h1, h2, h3⟩ => back2 j p h1 h2 h3⟩, fun h => ?_⟩
  · rcases ho with ho | ⟨ho, hl⟩
    · rw [back2 j p hv hn ho] at h; cases h
    · rw [back j p (hv' ho) hn hl] at h
      cases h
      exact ⟨j, p, rfl, hv' ho, rfl, rfl, hn, hl⟩
  · rintro ⟨j, p, rfl, h1, rfl, rfl, h2, h3⟩
    exact back j p h1 h2 h3
  · rcases ho with ho | ⟨ho, hl⟩
    · exact ⟨j, p, hv, hn, ho⟩
    · rw [back j p (hv' ho) hn hl] at h; cases h
  · rcases ho with ho | ⟨ho, hl⟩
    · rw [back2 j p hv hn ho] at h; cases h
    · rw [back j p (hv' ho) hn hl] at h; cases h

end

theorem d2d_rule (cfg : Config) (env : Env) :
    Rule cfg env (d2dLoop cfg env) (fun nr => cfg.maxIter ≤ nr + 1) (fun _ => True) := by
  refine ⟨fun x nr h => ?_, fun x nr x' len s h hs => ?_, fun x nr x' len s h hs => ?_⟩
  · unfold d2dLoop; rw [h]
  · unfold d2dLoop; rw [h]; simp only
    rw [if_pos]
    rcases hs with hs | ⟨-, hs⟩
    · exact Or.inl hs
    · exact Or.inr ⟨by omega, hs⟩
  · rw [d2dLoop, h]; simp only
    rw [if_neg]
    rintro (h' | ⟨-, h'⟩)
    · exact hs (Or.inl h')
    · exact hs (Or.inr ⟨trivial, h'⟩)

theorem ndt_rule (cfg : Config) (env : Env) :
    Rule cfg env (ndtLoop cfg env) (fun nr => cfg.maxIter < nr) (fun nr => nr ≠ 0) := by
  refine ⟨fun x nr h => ?_, fun x nr x' len s h hs => ?_, fun x nr x' len s h hs => ?_⟩
  · unfold ndtLoop; rw [h]
  · unfold ndtLoop; rw [h]; simp only
    rw [if_pos hs]
  · rw [ndtLoop, h]; simp only
    rw [if_neg hs]

/-! ### C154 -/

/-- C154 for the distribution to distribution matcher: on each grid it moves until a step is shorter than the limit or
the largest number of steps is made (one step at least), and not further; it fails exactly if before that a step cannot
be computed. -/
theorem C154_d2d (cfg : Config) (he : 0 < cfg.eps) (env : Env) (x : Vec) :
    (∀ y k s, d2dLoop cfg env x 0 = .ok y k s ↔ ∃ j p, k = j + 1 ∧ Visits cfg env x k p ∧ y = p k ∧
      s = env.calcScore (p j) ∧ (∀ i < j, i + 1 < cfg.maxIter ∧ ¬ Short cfg p i) ∧
      (cfg.maxIter ≤ j + 1 ∨ Short cfg p j)) ∧
    (d2dLoop cfg env x 0 = .fail ↔ ∃ j p, Visits cfg env x j p ∧ (∀ i < j, i + 1 < cfg.maxIter ∧ ¬ Short cfg p i) ∧
      newtonStep cfg env (p j) = .fail) := by
  obtain ⟨h1, h2, -⟩ := (d2d_rule cfg env).spec he (m := cfg.maxIter) (by omega) x
  simp only [true_and, not_or, not_le] at h1 h2
  exact ⟨h1, h2⟩

/-- C154 for the point to distribution matcher.  Partial: the length of the first step is not looked at and two steps
more than the largest number can be made (`C154_false`). -/
theorem C154_ndt_partial (cfg : Config) (he : 0 < cfg.eps) (env : Env) (x : Vec) :
    (∀ y k s, ndtLoop cfg env x 0 = .ok y k s ↔ ∃ j p, k = j + 1 ∧ Visits cfg env x k p ∧ y = p k ∧
      s = env.calcScore (p j) ∧ (∀ i < j, i ≤ cfg.maxIter ∧ (i ≠ 0 → ¬ Short cfg p i)) ∧
      (cfg.maxIter < j ∨ (j ≠ 0 ∧ Short cfg p j))) ∧
    (ndtLoop cfg env x 0 = .fail ↔ ∃ j p, Visits cfg env x j p ∧
      (∀ i < j, i ≤ cfg.maxIter ∧ (i ≠ 0 → ¬ Short cfg p i)) ∧ newtonStep cfg env (p j) = .fail) := by
  obtain ⟨h1, h2, -⟩ := (ndt_rule cfg env).spec he (m := cfg.maxIter + 1) (by omega) x
  simp only [not_or, not_and, not_lt] at h1 h2
  exact ⟨h1, h2⟩

/-- Negation of C154 for the point to distribution matcher with the parameters of the front end: after a first step
that is shorter than the limit it makes a second one. -/
theorem C154_false (x : Vec) : ∃ p s, Visits frontEnd slope x 2 p ∧ Short frontEnd p 0 ∧
    ndtLoop frontEnd slope x 0 = .ok (p 2) 2 s := by
  have he : 0 < frontEnd.eps := by norm_num [frontEnd]
  rcases frontEnd_loop slope x with h | ⟨y, s, h, -⟩
  · exfalso
    obtain ⟨j, p, -, -, h3⟩ := ((C154_ndt_partial frontEnd he slope x).2).1 h
    have hn : norm (![1, 0, 0] : Vec) = 1 := by simp [norm, dot]
    rw [newtonStep_eval he (d := ![1, 0, 0]) rfl (by rw [hn]; norm_num)] at h3
    cases h3
  · obtain ⟨j, p, hk, hv, rfl, -, -, -⟩ := (((C154_ndt_partial frontEnd he slope x).1) y 2 s).1 h
    refine ⟨p, s, hv, ?_, h⟩
    obtain ⟨len, hm⟩ := hv.2 0 (by omega)
    obtain ⟨h1, -, h3⟩ := newtonStep_next he hm
    unfold Short
    rw [h1]
    have := len_le he h3
    refine lt_of_le_of_lt this ?_
    norm_num [frontEnd]

example : 0 < d2dDefault.eps ∧ ∃ y k s, d2dLoop d2dDefault bowl ![0.01, 0, 0] 0 = .ok y k s :=
  ⟨by norm_num [d2dDefault], _, _, _, C92_false.2.1⟩

end Verif.Newton
