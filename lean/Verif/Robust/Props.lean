import Verif.Robust.Model
import Mathlib.Tactic.Linarith

/-
Properties of the robust matcher.
-/
namespace Verif.Robust

variable {T : Type}

/-- A transform found by one of the matchers: the D2D matcher started from the guess, or the D2D matcher
started from a converged result of the correlative matcher. -/
def Found (env : Env T) (guess t : T) : Prop :=
  t = (env.d2d guess).final ∨
    (env.corr guess).converged = true ∧ (env.d2d (env.corr guess).final).converged = true ∧
      t = (env.d2d (env.corr guess).final).final

/-- A success is justified: the transform was found by one of the matchers, its verification score is the
reported quality and reaches the rejection limit, or at least 0.6 for the direct match. -/
def Justified (env : Env T) (limit : ℝ) (guess : T) (r : Result T) : Prop :=
  ∃ t, r.final = some t ∧ Found env guess t ∧ r.quality = env.proof t ∧
    (limit ≤ env.proof t ∨ t = (env.d2d guess).final ∧ 0.6 < env.proof t)

/-- C57 at full strength: for every rejection limit that can be set, every success is justified, and a failure
also leaves a transform that was set. -/
def SuccessIsJustified : Prop := ∀ (T : Type) (env : Env T) (l limit : ℝ) (guess : T),
  setRejectionLimit l = .ok limit →
    ((computeTransformation env limit guess).converged = true →
      Justified env limit guess (computeTransformation env limit guess)) ∧
    (computeTransformation env limit guess).final ≠ none

/-- C57, what holds: for rejection limits up to 0.7 (the default is 0.4, the loop closing uses 0.6) every
success is justified, and the transform is always set.  Missing: larger limits. -/
theorem C57_justified_partial (env : Env T) {limit : ℝ} (hl : limit ≤ 0.7) (guess : T) :
    ((computeTransformation env limit guess).converged = true →
      Justified env limit guess (computeTransformation env limit guess)) ∧
    (computeTransformation env limit guess).final ≠ none := by
  unfold computeTransformation
  simp only
  by_cases h1 : (env.d2d guess).converged = true ∧ env.proof (env.d2d guess).final > 0.7
  · rw [if_neg (not_not_intro h1)]
    unfold verify
    simp only
    rw [if_neg (by linarith [h1.2])]
    exact ⟨fun _ => ⟨_, rfl, .inl rfl, rfl, .inl (by linarith [h1.2])⟩, by simp⟩
  · rw [if_pos h1]
    by_cases h2 : (env.corr guess).converged = false
    · simp [h2]
    · rw [if_neg h2]
      by_cases h3 : (env.d2d (env.corr guess).final).converged = false
      · simp [h3]
      · rw [if_neg h3]
        unfold verify
        simp only
        by_cases h4 : env.proof (env.d2d (env.corr guess).final).final < limit
        · rw [if_pos h4]
          by_cases h5 : env.proof (env.d2d guess).final > 0.6
          · rw [if_pos h5]
            exact ⟨fun _ => ⟨_, rfl, .inl rfl, rfl, .inr ⟨rfl, h5⟩⟩, by simp⟩
          · rw [if_neg h5]
            simp
        · rw [if_neg h4]
          exact ⟨fun _ => ⟨_, rfl, .inr ⟨by simpa using h2, by simpa using h3, rfl⟩, rfl, .inl (not_lt.1 h4)⟩,
            by simp⟩

/-- C57, exactly when the returned transform is indeterminate: the direct match converged with a score above
0.7 but below the rejection limit. -/
theorem C57_unset_partial (env : Env T) (limit : ℝ) (guess : T) :
    (computeTransformation env limit guess).final = none ↔
      (env.d2d guess).converged = true ∧ 0.7 < env.proof (env.d2d guess).final ∧
        env.proof (env.d2d guess).final < limit := by
  constructor
  · intro h
    unfold computeTransformation verify at h
    simp only at h
    split_ifs at h with h1 h2 h3 h4 h5 h6 h7
    simp_all
  · rintro ⟨h1, h2, h3⟩
    unfold computeTransformation verify
    simp only
    rw [if_neg (not_not_intro ⟨h1, h2⟩), if_pos h3, if_pos (by linarith)]

/-- C57 is false: with rejection limit 0.9 a direct match with score 0.8 is reported as success with a
transform that was never set. -/
theorem C57_false : ¬ SuccessIsJustified := by
  intro h
  have := (h Unit ⟨fun _ => ⟨true, (), ()⟩, fun _ => ⟨true, (), ()⟩, fun _ => 0.8, ()⟩ 0.9 0.9 ()
    (by unfold setRejectionLimit; rw [if_pos (by norm_num)])).2
  exact this ((C57_unset_partial _ _ _).2 ⟨rfl, by norm_num, by norm_num⟩)

/-- C57, completeness: a transform that reaches the limit is accepted, unless the correlative matcher or the
second D2D match fails. -/
theorem C57_accepts (env : Env T) {limit : ℝ} (guess : T)
    (h : (env.d2d guess).converged = true ∧ 0.7 < env.proof (env.d2d guess).final ∧
        limit ≤ env.proof (env.d2d guess).final ∨
      (env.corr guess).converged = true ∧ (env.d2d (env.corr guess).final).converged = true ∧
        limit ≤ env.proof (env.d2d (env.corr guess).final).final) :
    (computeTransformation env limit guess).converged = true := by
  unfold computeTransformation verify
  simp only
  rcases h with ⟨h1, h2, h3⟩ | ⟨h1, h2, h3⟩
  · rw [if_neg (not_not_intro ⟨h1, h2⟩), if_neg (not_lt.2 h3)]
  · simp only [h1, h2, if_neg (not_lt.2 h3)]
    split_ifs <;> simp_all
    linarith

/-- C57 for the matcher used by the loop closing, whose rejection limit is 0.6: a reported success has a
transform found by one of the matchers, and its score is the verification score of that transform and at least
0.6.  (Partial as `C57_justified_partial`.) -/
theorem C57_scanmatcher_partial {S : Type} (env : Env T) (convert : S → T) (back : T → S) (guess : S)
    (h : (scanMatch env 0.6 convert back guess).success = true) :
    ∃ t, (scanMatch env 0.6 convert back guess).transform = some (back t) ∧ Found env (convert guess) t ∧
      (scanMatch env 0.6 convert back guess).score = env.proof t ∧ 0.6 ≤ env.proof t := by
  obtain ⟨t, h1, h2, h3, h4⟩ := (C57_justified_partial env (by norm_num : (0.6 : ℝ) ≤ 0.7) (convert guess)).1 h
  refine ⟨t, ?_, h2, h3, ?_⟩
  · unfold scanMatch
    simp only [h1, Option.map_some]
  · rcases h4 with h4 | ⟨-, h4⟩
    exacts [h4, h4.le]

/-- C57, the setter: exactly the limits strictly between 0 and 1 are accepted. -/
theorem C57_limit (l : ℝ) :
    (0 < l ∧ l < 1 → setRejectionLimit l = .ok l) ∧
    (¬ (0 < l ∧ l < 1) → setRejectionLimit l = .throw .invalidArgument) := by
  unfold setRejectionLimit
  exact ⟨fun h => if_pos h.symm, fun h => if_neg fun h' => h h'.symm⟩

/-- The conditions of `C57_justified_partial` can be met by a call that succeeds. -/
example : ∃ (env : Env ℝ) (limit guess : ℝ), limit ≤ 0.7 ∧
    (computeTransformation env limit guess).converged = true ∧
    (computeTransformation env limit guess).final = some 3 :=
  ⟨⟨fun t => ⟨true, t + 1, t + 1⟩, fun t => ⟨true, t + 2, t + 2⟩, fun t => if t = 3 then 0.65 else 0, 0⟩, 0.6, 0, by norm_num, by
    unfold computeTransformation verify; norm_num, by unfold computeTransformation verify; norm_num⟩

/-- The conditions of `C57_accepts` can be met. -/
example : ∃ (env : Env ℝ) (limit guess : ℝ), (env.d2d guess).converged = true ∧ 0.7 < env.proof (env.d2d guess).final ∧
    limit ≤ env.proof (env.d2d guess).final :=
  ⟨⟨fun t => ⟨true, t, t⟩, fun t => ⟨true, t, t⟩, fun _ => 0.9, 0⟩, 0.8, 0, rfl, by norm_num, by norm_num⟩

/-! ### C117: quality and output cloud belong to the reported transform -/

/-- What the two matchers promise about their output clouds: the source moved by the final transform after a
success, the source itself after a failure. -/
def Contract (env : Env T) : Prop :=
  ∀ g, ∀ o ∈ [env.d2d g, env.corr g],
    (o.converged = true → o.moved = o.final) ∧ (o.converged = false → o.moved = env.one)

/-- C117 at full strength: the output cloud is the source moved by the reported transform, and the reported
quality is the verification score of this transform, or 0 for a failure. -/
def Described (env : Env T) (r : Result T) : Prop :=
  ∃ t, r.final = some t ∧ r.moved = some t ∧
    (r.quality = env.proof t ∨ r.converged = false ∧ r.quality = 0)

/-- C117 is false: when the correlative matcher succeeds but the second D2D match fails, the output cloud is the
unmoved source although the reported transform is the one of the correlative matcher. -/
theorem C117_false_output : ∃ (env : Env ℝ) (guess : ℝ), Contract env ∧
    (computeTransformation env 0.6 guess).final = some 2 ∧
    (computeTransformation env 0.6 guess).moved = some 0 := by
  refine ⟨⟨fun t => ⟨false, t + 1, 0⟩, fun _ => ⟨true, 2, 2⟩, fun _ => 0, 0⟩, 0, ?_, ?_, ?_⟩
  · intro g o ho
    simp only [List.mem_cons, List.not_mem_nil, or_false] at ho
    rcases ho with rfl | rfl <;> simp
  all_goals
    unfold computeTransformation
    norm_num

/-- C117 is false also for the quality: when the second match is rejected, its transform is reported with the
quality of the first one (here 0.5, with a reported transform whose verification score is 0.1). -/
theorem C117_false_quality : ∃ (env : Env ℝ) (guess : ℝ), Contract env ∧
    (computeTransformation env 0.6 guess).final = some 3 ∧ env.proof 3 = 0.1 ∧
    (computeTransformation env 0.6 guess).quality = 0.5 := by
  refine ⟨⟨fun t => ⟨true, t + 1, t + 1⟩, fun _ => ⟨true, 2, 2⟩, fun t => if t = 1 then 0.5 else 0.1, 0⟩, 0,
    ?_, ?_, ?_, ?_⟩
  · intro g o ho
    simp only [List.mem_cons, List.not_mem_nil, or_false] at ho
    rcases ho with rfl | rfl <;> simp
  · unfold computeTransformation verify
    norm_num
  · norm_num
  · unfold computeTransformation verify
    norm_num

/-- C117, what holds: for rejection limits up to 0.7 every success is described by its quality and its output
cloud.  Missing: failures (see the two witnesses) and larger limits (C57). -/
theorem C117_success_partial (env : Env T) {limit : ℝ} (hl : limit ≤ 0.7) (guess : T)
    (h : (computeTransformation env limit guess).converged = true) :
    Described env (computeTransformation env limit guess) := by
  obtain ⟨t, h1, -, h3, -⟩ := (C57_justified_partial env hl guess).1 h
  refine ⟨t, h1, ?_, .inl h3⟩
  rw [← h1]
  revert h
  unfold computeTransformation verify
  simp only
  split_ifs <;> simp

/-- C117, what holds for failures.  The correlative matcher failed: quality 0 and the identity, with its output
cloud.  The second D2D match failed: quality 0 and the transform of the correlative matcher, with the output cloud
of the D2D matcher.  Otherwise the quality is the verification score of the direct match, which is at most 0.6, and
the transform reported (and used for the output cloud) is the rejected one. -/
theorem C117_failure_partial (env : Env T) (limit : ℝ) (guess : T)
    (h : (computeTransformation env limit guess).converged = false) :
    (env.corr guess).converged = false ∧
        computeTransformation env limit guess = ⟨false, 0, some env.one, some (env.corr guess).moved⟩ ∨
      ((env.corr guess).converged = true ∧ (env.d2d (env.corr guess).final).converged = false ∧
        computeTransformation env limit guess =
          ⟨false, 0, some (env.corr guess).final, some (env.d2d (env.corr guess).final).moved⟩) ∨
      (computeTransformation env limit guess).quality = env.proof (env.d2d guess).final ∧
        env.proof (env.d2d guess).final ≤ 0.6 ∧
        (computeTransformation env limit guess).final = some (env.d2d (env.corr guess).final).final ∧
        (computeTransformation env limit guess).moved = some (env.d2d (env.corr guess).final).final ∧
        env.proof (env.d2d (env.corr guess).final).final < limit := by
  revert h
  unfold computeTransformation verify
  simp only
  by_cases h1 : (env.d2d guess).converged = true ∧ env.proof (env.d2d guess).final > 0.7
  · rw [if_neg (not_not_intro h1), if_pos (show env.proof (env.d2d guess).final > 0.6 by linarith [h1.2])]
    split_ifs <;> simp
  · rw [if_pos h1]
    by_cases h2 : (env.corr guess).converged = false
    · rw [if_pos h2]
      exact fun _ => .inl ⟨h2, rfl⟩
    · rw [if_neg h2]
      by_cases h3 : (env.d2d (env.corr guess).final).converged = false
      · rw [if_pos h3]
        exact fun _ => .inr (.inl ⟨by simpa using h2, h3, rfl⟩)
      · rw [if_neg h3]
        split_ifs with h4 h5
        · simp
        · exact fun _ => .inr (.inr ⟨rfl, not_lt.1 h5, rfl, rfl, h4⟩)
        · simp

/-- The conditions of `C117_success_partial` and `C117_failure_partial` can be met. -/
example : ∃ (env : Env ℝ) (guess : ℝ), (computeTransformation env 0.6 guess).converged = true ∧
    (computeTransformation env 0.6 guess).moved = some 1 :=
  ⟨⟨fun t => ⟨true, t + 1, t + 1⟩, fun _ => ⟨true, 2, 2⟩, fun _ => 0.8, 0⟩, 0,
    by unfold computeTransformation verify; norm_num, by unfold computeTransformation verify; norm_num⟩

example : ∃ (env : Env ℝ) (guess : ℝ), (computeTransformation env 0.6 guess).converged = false ∧
    (computeTransformation env 0.6 guess).quality = 0.5 :=
  ⟨⟨fun t => ⟨true, t + 1, t + 1⟩, fun _ => ⟨true, 2, 2⟩, fun t => if t = 1 then 0.5 else 0.1, 0⟩, 0,
    by unfold computeTransformation verify; norm_num, by unfold computeTransformation verify; norm_num⟩

end Verif.Robust
