import Verif.Round.Search

/-
The sum over the source cells by several threads (`calcScore`, include/ndt_gslam/registration/d2d_ndt2d.h:534-579) with
the rounding of `double`.  `Newton.parallelScore` is the same sum in exact arithmetic.

Simplification: one of the thirteen numbers (score, gradient, Hessian) at a time; they are added separately.
-/
namespace Verif.Round

open Verif

set_option linter.unusedSectionVars false

variable {K : Type v} [Field K] [LinearOrder K] [IsStrictOrderedRing K] [FloorRing K]

/-- `omp_ret[thread_id] += local_ret`, d2d_ndt2d.h:573, for the pair of a thread and a cell. -/
def addAtF (F : Fmt K) (x : ℕ → K) (it : ℕ × ℕ) (l : List K) : Res (List K) :=
  match l[it.1]? with
  | some v => .ok (l.set it.1 (F.d (v + x it.2)))
  | none => .ub .outOfBounds

/-- d2d_ndt2d.h:540-575: `schedule` lists the iterations done, each with its thread, in the order in which the results
are added. -/
def threadSums (F : Fmt K) (x : ℕ → K) : (l : List K) → (schedule : List (ℕ × ℕ)) → Res (List K)
  | l, [] => .ok l
  | l, it :: rest => (addAtF F x it l).bind fun l => threadSums F x l rest

/-- d2d_ndt2d.h:534-579: two entries for each thread, all zero, then the sums of the threads are added. -/
def parallelF (F : Fmt K) (threads : ℕ) (x : ℕ → K) (schedule : List (ℕ × ℕ)) : Res K :=
  (threadSums F x (List.replicate threads 0 ++ List.replicate threads 0) schedule).map fun l =>
    l.foldl (fun a s => F.d (a + s)) 0

/-! ### Specification -/

/-- The cells of thread `j` in their order. -/
def cellsOf (schedule : List (ℕ × ℕ)) (j : ℕ) : List ℕ := (schedule.filter fun it => it.1 = j).map (·.2)

/-- Every cell below `n` is done exactly once, by one of the threads. -/
structure Complete (threads n : ℕ) (schedule : List (ℕ × ℕ)) : Prop where
  threads : ∀ it ∈ schedule, it.1 < threads
  cells : (schedule.map (·.2)).Perm (List.range n)

/-! ### Lemmas -/

/-- A sum with rounding after each addition. -/
theorem fold_err {F : Fmt K} {u : K} (hu : 0 ≤ u) (hF : ∀ x, |F.d x - x| ≤ u * |x|) : ∀ (l : List K) (a : K),
    |l.foldl (fun a s => F.d (a + s)) a - (a + l.sum)| ≤ ((1 + u) ^ l.length - 1) * (|a| + (l.map abs).sum) ∧
    |l.foldl (fun a s => F.d (a + s)) a| ≤ (1 + u) ^ l.length * (|a| + (l.map abs).sum) := by
  intro l
  induction l with
  | nil => intro a; simp
  | cons s l ih =>
    intro a
    obtain ⟨h1, h2⟩ := ih (F.d (a + s))
    simp only [List.foldl_cons, List.sum_cons, List.length_cons, List.map_cons]
    have h3 := hF (a + s)
    have h4 := abs_add_le a s
    have hn : 0 ≤ (l.map abs).sum := by
      refine List.sum_nonneg fun y hy => ?_
      obtain ⟨z, -, rfl⟩ := List.mem_map.1 hy
      exact abs_nonneg z
    have hpow : (1 : K) ≤ (1 + u) ^ l.length := one_le_pow₀ (by linarith)
    have h5 : |F.d (a + s)| ≤ (1 + u) * (|a| + |s|) := by
      have : |F.d (a + s)| ≤ |F.d (a + s) - (a + s)| + |a + s| := by
        have := abs_add_le (F.d (a + s) - (a + s)) (a + s)
        rwa [sub_add_cancel] at this
      nlinarith [abs_nonneg (a + s)]
    obtain ⟨P, hP⟩ : ∃ P, P = (1 + u) ^ l.length := ⟨_, rfl⟩
    obtain ⟨S, hS⟩ : ∃ S, S = (l.map abs).sum := ⟨_, rfl⟩
    obtain ⟨A, hA⟩ : ∃ A, A = |a| + |s| := ⟨_, rfl⟩
    have hA0 : 0 ≤ A := by rw [hA]; positivity
    rw [← hP] at h1 h2 hpow
    rw [← hS] at h1 h2 hn
    rw [← hA] at h4 h5
    have e1 : (1 + u) ^ (l.length + 1) = P * (1 + u) := by rw [pow_succ, hP]
    rw [e1, ← hS, ← add_assoc |a| |s| S, ← hA]
    have key : P * (|F.d (a + s)| + S) ≤ P * (1 + u) * (A + S) := by
      have q1 : P * (|F.d (a + s)| + S) ≤ P * ((1 + u) * A + S) := mul_le_mul_of_nonneg_left (by linarith) (by linarith)
      have q2 : 0 ≤ P * (u * S) := by positivity
      nlinarith
    refine ⟨?_, h2.trans key⟩
    have tri : |l.foldl (fun a s => F.d (a + s)) (F.d (a + s)) - (a + (s + l.sum))| ≤
        |l.foldl (fun a s => F.d (a + s)) (F.d (a + s)) - (F.d (a + s) + l.sum)| + |F.d (a + s) - (a + s)| := by
      refine le_trans (le_of_eq ?_) (abs_add_le _ _)
      congr 1; ring
    refine tri.trans ?_
    have h6 : |F.d (a + s) - (a + s)| ≤ u * A := h3.trans (mul_le_mul_of_nonneg_left h4 hu)
    have h7 : (P - 1) * (|F.d (a + s)| + S) ≤ (P - 1) * ((1 + u) * A + S) :=
      mul_le_mul_of_nonneg_left (by linarith) (by linarith)
    have h8 : 0 ≤ P * (u * S) := by positivity
    nlinarith

/-- What the threads hold in the end. -/
theorem threadSums_eq {F : Fmt K} {x : ℕ → K} : ∀ (schedule : List (ℕ × ℕ)) (l : List K),
    (∀ it ∈ schedule, it.1 < l.length) →
    ∃ l', threadSums F x l schedule = .ok l' ∧ l'.length = l.length ∧
      ∀ j (hj : j < l'.length) (hj' : j < l.length),
        l'[j] = ((cellsOf schedule j).map x).foldl (fun a s => F.d (a + s)) l[j] := by
  intro schedule
  induction schedule with
  | nil => intro l _; exact ⟨l, rfl, rfl, fun j _ _ => rfl⟩
  | cons it rest ih =>
    intro l h
    have h1 : it.1 < l.length := h it (by simp)
    obtain ⟨l', a, b, c⟩ := ih (l.set it.1 (F.d (l[it.1] + x it.2))) (by
      intro q hq; rw [List.length_set]; exact h q (List.mem_cons_of_mem _ hq))
    rw [List.length_set] at b
    refine ⟨l', ?_, b, ?_⟩
    · unfold threadSums addAtF
      rw [List.getElem?_eq_getElem h1]
      exact a
    · intro j hj hj'
      rw [c j hj (by rw [List.length_set]; exact hj')]
      unfold cellsOf
      by_cases e : it.1 = j
      · subst e
        rw [List.filter_cons_of_pos (by simp)]
        simp
      · rw [List.filter_cons_of_neg (by simpa using e), List.getElem_set_ne e]

/-- Every number of a schedule belongs to one thread. -/
theorem sum_cellsOf {M : Type*} [AddCommMonoid M] (f : ℕ → M) (N : ℕ) : ∀ schedule : List (ℕ × ℕ),
    (∀ it ∈ schedule, it.1 < N) →
    ∑ j ∈ Finset.range N, ((cellsOf schedule j).map f).sum = (schedule.map fun it => f it.2).sum := by
  intro schedule
  induction schedule with
  | nil => intro _; simp [cellsOf]
  | cons it rest ih =>
    intro h
    have h1 := ih fun q hq => h q (List.mem_cons_of_mem _ hq)
    have h2 : ∀ j, ((cellsOf (it :: rest) j).map f).sum = (if it.1 = j then f it.2 else 0) +
        ((cellsOf rest j).map f).sum := by
      intro j
      unfold cellsOf
      by_cases e : it.1 = j
      · rw [List.filter_cons_of_pos (by simpa using e), if_pos e]; simp
      · rw [List.filter_cons_of_neg (by simpa using e), if_neg e, zero_add]
    simp only [h2, Finset.sum_add_distrib, h1, List.map_cons, List.sum_cons]
    rw [Finset.sum_ite_eq, if_pos (Finset.mem_range.2 (h it (by simp)))]

theorem list_sum_range {M : Type*} [AddCommMonoid M] (f : ℕ → M) : ∀ n : ℕ,
    ((List.range n).map f).sum = ∑ i ∈ Finset.range n, f i := by
  intro n
  induction n with
  | zero => simp
  | succ n ih => rw [List.range_succ, List.map_append, List.sum_append, ih, Finset.sum_range_succ]; simp

theorem getD_getElem {l : List K} {j : ℕ} (h : j < l.length) : l.getD j 0 = l[j] := by
  rw [List.getD_eq_getElem?_getD, List.getElem?_eq_getElem h]; rfl

theorem list_sum_getD {M : Type*} [AddCommMonoid M] (f : K → M) (l : List K) :
    (l.map f).sum = ∑ j ∈ Finset.range l.length, f (l.getD j 0) := by
  rw [← list_sum_range]
  congr 1
  refine List.ext_getElem (by simp) fun j h1 h2 => ?_
  rw [List.length_map] at h1
  rw [List.getElem_map, List.getElem_map, List.getElem_range, getD_getElem h1]

end Verif.Round
