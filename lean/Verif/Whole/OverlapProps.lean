import Verif.Whole.Overlap
import Verif.Whole.DetectProps

/- C162: the overlap test of the loop detector. -/
namespace Verif.Whole

open Verif Verif.Geo Verif.World

/-- What the cache knows is true. -/
theorem asked_known {o : Loop.Overread} {eig : NDT.Eig} {c : Cache} {s : State} (h : Asked o eig c s) :
    ∀ id i, c.known id = some i → frameInfo s id = some i := by
  induction h with
  | init => intro id i h; simp [Cache.known] at h
  | setDistance _ _ ih => exact ih
  | setRadius _ _ ih => exact ih
  | update _ hu ih => exact fun id i h => frameInfo_mono (gridsOf_update hu) (ih id i h)
  | @ask c s id _ ih =>
    intro j i hj
    obtain ⟨-, a, b⟩ := calc_spec (frameInfo s) id c
    by_cases e : j = id
    · subst e
      rw [a] at hj
      cases hk : c.known j with
      | none => rw [hk] at hj; exact hj
      | some i' => rw [hk] at hj; cases hj; exact ih j _ hk
    · rw [b j e] at hj
      exact ih j i hj

/-- **C162**, radius and centroid: in every state of the algorithm, after whatever questions, the detector gets those of
the frame as it is now, for every node; a node that does not exist is reported by an exception. -/
theorem C162_params_partial {o : Loop.Overread} {eig : NDT.Eig} {c : Cache} {s : State} (h : Asked o eig c s) (id : ℕ) :
    (calcScanParams (frameInfo s) id c).1 =
      match s.store[id]? with
      | some m => .ok ⟨getRadius m, getCentroid m⟩
      | none => .throw .outOfRange := by
  rw [(calc_spec (frameInfo s) id c).1]
  have hk := asked_known h id
  have e : frameInfo s id = (s.store[id]?).map fun m => ⟨getRadius m, getCentroid m⟩ := rfl
  cases hc : c.known id with
  | some i =>
    have := hk i hc
    rw [e] at this
    obtain ⟨m, hm, rfl⟩ := Option.map_eq_some_iff.1 this
    rw [hm]
  | none =>
    rw [e]
    cases s.store[id]? <;> rfl

/-- **C162**, decision: the test only looks at the length of the way in the graph. -/
theorem C162_decision_partial {o : Loop.Overread} {eig : NDT.Eig} {c : Cache} {s : State} (h : Asked o eig c s)
    (minDist : ℝ) (edge : EdgeCov) (h1 : edge.start < s.store.length) (h2 : edge.node < s.store.length) :
    ∃ b c', isCloseMatch (frameInfo s) minDist edge c = (.ok b, c') ∧ (b = true ↔ minDist ≤ edge.dist) ∧
      Asked o eig c' s := by
  have e1 := C162_params_partial h edge.start
  rw [List.getElem?_eq_getElem h1] at e1
  have h' := Asked.ask edge.start h
  have e2 := C162_params_partial h' edge.node
  rw [List.getElem?_eq_getElem h2] at e2
  have h'' := Asked.ask edge.node h'
  rcases q1 : calcScanParams (frameInfo s) edge.start c with ⟨r1, c1⟩
  rw [q1] at e1 e2 h' h''
  simp only [] at e1 e2 h' h''
  rcases q2 : calcScanParams (frameInfo s) edge.node c1 with ⟨r2, c2⟩
  rw [q2] at e2 h''
  simp only [] at e2 h''
  subst e1 e2
  refine ⟨if edge.dist < minDist then false else true, c2, ?_, ?_, h''⟩
  · unfold isCloseMatch
    rw [q1]
    simp only []
    rw [q2]
  · split
    · rename_i hlt; simp [hlt]
    · rename_i hlt; simp at hlt; simp [hlt]

theorem Own.asked {o : Loop.Overread} {eig : NDT.Eig} {log : List Entry} {s : State} (h : Own o eig log s) :
    Asked o eig [] s := by
  induction h with
  | init => exact .init
  | setDistance d _ ih => exact .setDistance d ih
  | setRadius r _ ih => exact .setRadius r ih
  | update _ _ hu ih => exact .update ih hu

/-- A run with two frames, and the question about the first of them before the second is added. -/
example {eig : NDT.Eig} (he : NDT.EigOk eig) (env : Loop.Env) : ∃ c s, Asked .tolerant eig c s ∧ s.store.length = 2 ∧
    (c.known 0).isSome = true := by
  obtain ⟨log, s, h, hl, -, -, -, hn⟩ := frame_run he
  obtain ⟨d, out, s', -, -, hu, hl'⟩ := hn env
  refine ⟨_, s', .update (.ask 0 h.asked) hu, hl', ?_⟩
  rw [(calc_spec (frameInfo s) 0 []).2.1]
  show (frameInfo s 0).isSome = true
  unfold frameInfo
  rw [List.getElem?_eq_getElem (by omega)]
  rfl

/-- **C162** is false: in every state, for any two frames, for every gap and every uncertainty, there is a chained motion
according to which the two frames lie further apart than this gap and which passes the test. -/
theorem C162_false {o : Loop.Overread} {eig : NDT.Eig} {c : Cache} {s : State} (h : Asked o eig c s) (minDist gap : ℝ)
    (cov : Trans) (i j : ℕ) (a b : Map) (hi : s.store[i]? = some a) (hj : s.store[j]? = some b) :
    ∃ (edge : EdgeCov) (c' : Cache), edge.start = i ∧ edge.node = j ∧ edge.cov = cov ∧
      Apart gap edge.t ⟨getRadius a, getCentroid a⟩ ⟨getRadius b, getCentroid b⟩ ∧
      isCloseMatch (frameInfo s) minDist edge c = (.ok true, c') := by
  obtain ⟨x, hx⟩ : ∃ x : ℝ, x = getRadius a + getRadius b + |gap| + 1 - (getCentroid b).1 + (getCentroid a).1 := ⟨_, rfl⟩
  have li : i < s.store.length := by
    by_contra hn; rw [List.getElem?_eq_none (by omega)] at hi; cases hi
  have lj : j < s.store.length := by
    by_contra hn; rw [List.getElem?_eq_none (by omega)] at hj; cases hj
  obtain ⟨q, c', h1, h2, -⟩ := C162_decision_partial h minDist
    ⟨i, j, 0, cov, !![1, 0, x; 0, 1, 0; 0, 0, 1], minDist, 0⟩ li lj
  refine ⟨⟨i, j, 0, cov, !![1, 0, x; 0, 1, 0; 0, 0, 1], minDist, 0⟩, c', rfl, rfl, rfl, ?_, ?_⟩
  · unfold Apart
    have e : ∀ z w : ℝ, z ≤ Real.sqrt (z ^ 2 + w ^ 2) := fun z w =>
      (le_abs_self z).trans (Real.abs_le_sqrt (by nlinarith [sq_nonneg w]))
    refine lt_of_lt_of_le ?_ (e _ _)
    simp
    have := le_abs_self gap
    rw [hx]
    linarith
  · rw [h1, h2.2 le_rfl]

end Verif.Whole
