import Verif.Opt.Kinds
import Verif.Opt.TextProps

/-
Property theorems C142 (which component is used) and C143 (writing and reading back) for the mixture edges between poses
and landmarks and between poses in space.
-/
namespace Verif.Opt

open Verif Verif.Geo Matrix

variable {k n : ℕ} {E : Type}

/-! ### Specification -/

/-- Likelihood of the current estimates under a component: weight times the (unnormalised) Gaussian density with the
inverse information matrix as covariance. -/
noncomputable def compLikelihood (err : Comp k n → E → Fin n → ℝ) (w : ℝ) (e : Comp k n) (est : E) : ℝ :=
  w * (1 / Real.sqrt (e.info⁻¹).det) * Real.exp (-(err e est ⬝ᵥ (e.info *ᵥ err e est)) / 2)

/-- The component in use (ends, measurement, information and error) has maximal likelihood for the estimates `est`, and
is the first one if there are several. -/
def MostProbable (err : Comp k n → E → Fin n → ℝ) (edges : List (Comp k n)) (weights : List ℝ) (est : E) (m : Mix k n) :
    Prop :=
  ∃ i e w, edges[i]? = some e ∧ weights[i]? = some w ∧ 0 < w ∧ m.best = some i ∧ m.belief = e ∧ m.err = err e est ∧
    (∀ (j : ℕ) e' w', edges[j]? = some e' → weights[j]? = some w' →
      compLikelihood err w' e' est ≤ compLikelihood err w e est) ∧
    ∀ (j : ℕ) e' w', j < i → edges[j]? = some e' → weights[j]? = some w' →
      compLikelihood err w' e' est < compLikelihood err w e est

/-- Components and weights that make sense: as many weights as components, positive definite information, weights not
negative and not all zero. -/
structure Sensible (edges : List (Comp k n)) (weights : List ℝ) : Prop where
  length : edges.length = weights.length
  info : ∀ e ∈ edges, e.info.PosDef
  nonneg : ∀ w ∈ weights, 0 ≤ w
  pos : ∃ w ∈ weights, 0 < w

/-- A new edge after its constructor, when the estimates were `est`, and after calls of `computeError` or `linearizeOplus`
(`true`) for a series of estimates. -/
noncomputable def lifeOf (err : Comp k n → E → Fin n → ℝ) (lin : Mix k n → E → Res (Mix k n)) (edges : List (Comp k n))
    (weights : List ℝ) (est : E) (later : List (Bool × E)) : Res (Mix k n) :=
  later.foldl (fun r c => r.bind fun m => if c.1 then lin m c.2 else m.computeError err c.2)
    (Mix.empty.initializeComponents err edges weights est)

/-- The estimates of the last call. -/
def latest (est : E) (later : List (Bool × E)) : E := ((later.map (·.2)).getLast?).getD est

/-- Every `linearizeOplus` comes with the estimates of the call before it: g2o computes the errors first. -/
def ErrorsFirst (est : E) : List (Bool × E) → Prop
  | [] => True
  | c :: l => (c.1 = true → c.2 = est) ∧ ErrorsFirst c.2 l

/-! ### C142 -/

theorem mix_search {err : Comp k n → E → Fin n → ℝ} {m : Mix k n} {est : E} {f : ℕ → Option ℝ} :
    ∀ (j i : ℕ) (r : Option (ℕ × ℝ)), (∀ c < i + j, m.negLogProb err est c = .ok (f c)) → Best f i r →
    ∃ r', m.search err est i j r = .ok r' ∧ Best f (i + j) r'
  | 0, i, r, _, h => ⟨r, rfl, h⟩
  | j + 1, i, r, hf, h => by
    obtain ⟨r', h1, h2⟩ := mix_search j (i + 1) (better r i (f i)) (fun c hc => hf c (by omega)) h.better
    refine ⟨r', ?_, ?_⟩
    · rw [Mix.search, hf i (by omega)]
      exact h1
    · rwa [show i + (j + 1) = i + 1 + j by omega]

/-- The state of an edge for the given components. -/
def MixHolds (edges : List (Comp k n)) (weights : List ℝ) (m : Mix k n) : Prop :=
  m.number = edges.length ∧ m.comps = edges ∧ m.weights = weights ∧ m.dets = edges.map fun e => (e.info⁻¹).det

theorem mix_computeError {err : Comp k n → E → Fin n → ℝ} {edges : List (Comp k n)} {weights : List ℝ} {m : Mix k n}
    (hm : MixHolds edges weights m) (hs : Sensible edges weights) (est : E) :
    ∃ m', m.computeError err est = .ok m' ∧ MixHolds edges weights m' ∧ MostProbable err edges weights est m' := by
  obtain ⟨h1, h2, h3, h4⟩ := hm
  have hl := hs.length
  let f : ℕ → Option ℝ := fun c =>
    if 0 < weights.getD c 0 ∧ 0 < (edges.map fun e => (e.info⁻¹).det).getD c 0 then
      some (-Real.log (weights.getD c 0) + 0.5 * Real.log ((edges.map fun e => (e.info⁻¹).det).getD c 0) +
        0.5 * compChi2 err (edges.getD c .blank) est)
    else none
  have hf : ∀ c < 0 + m.number, m.negLogProb err est c = .ok (f c) := by
    intro c hc
    have hc : c < edges.length := by omega
    unfold Mix.negLogProb at?
    simp only [f]
    rw [h2, h3, h4, List.getElem?_eq_getElem hc, List.getElem?_eq_getElem (by omega),
      List.getElem?_eq_getElem (by simpa using hc)]
    simp only [Res.bind_ok, List.getD_eq_getElem?_getD, List.getElem?_eq_getElem hc,
      List.getElem?_eq_getElem (show c < weights.length by omega),
      List.getElem?_eq_getElem (show c < (edges.map fun e => (e.info⁻¹).det).length by simpa using hc), Option.getD_some]
  have hdet : ∀ e ∈ edges, 0 < (e.info⁻¹).det := fun e he => by
    rw [Matrix.det_nonsing_inv, Ring.inverse_eq_inv']
    exact inv_pos.2 (hs.info e he).det_pos
  have lk : ∀ (j : ℕ) e' w', edges[j]? = some e' → weights[j]? = some w' →
      (f j = none ∧ compLikelihood err w' e' est = 0) ∨
      ∃ p, f j = some p ∧ 0 < w' ∧ compLikelihood err w' e' est = Real.exp (-p) := by
    intro j e' w' he hw
    have hd' := hdet e' (List.mem_of_getElem? he)
    have g1 : edges.getD j .blank = e' := by rw [List.getD_eq_getElem?_getD, he]; rfl
    have g2 : weights.getD j 0 = w' := by rw [List.getD_eq_getElem?_getD, hw]; rfl
    have g3 : (edges.map fun e => (e.info⁻¹).det).getD j 0 = (e'.info⁻¹).det := by
      rw [List.getD_eq_getElem?_getD, List.getElem?_map, he]; rfl
    simp only [f, g1, g2, g3]
    rcases (hs.nonneg w' (List.mem_of_getElem? hw)).eq_or_lt with rfl | h0
    · left
      simp [compLikelihood]
    · right
      rw [if_pos ⟨h0, hd'⟩]
      refine ⟨_, rfl, h0, ?_⟩
      unfold compLikelihood compChi2
      rw [show ∀ a b c : ℝ, -(-a + 0.5 * b + 0.5 * c) = a + (-(b / 2) + -c / 2) by intros; ring, Real.exp_add,
        Real.exp_log h0, Real.exp_add, Real.exp_neg, Real.exp_half (Real.log _), Real.exp_log hd', one_div, mul_assoc]
  obtain ⟨r, hr, hb⟩ := mix_search m.number 0 none hf (.inl ⟨rfl, by omega⟩)
  unfold Mix.computeError
  rw [hr]
  rw [h1, Nat.zero_add] at hb
  rcases hb with ⟨rfl, h⟩ | ⟨i, p, rfl, hi, hp, hmin, hst⟩
  · exfalso
    obtain ⟨w, hw1, hw2⟩ := hs.pos
    obtain ⟨j, hj, rfl⟩ := List.getElem_of_mem hw1
    have hj' : j < edges.length := by omega
    rcases lk j _ _ (List.getElem?_eq_getElem hj') (List.getElem?_eq_getElem hj) with ⟨-, h'⟩ | ⟨p, h', -⟩
    · have := Real.sqrt_pos.2 (hdet _ (List.getElem_mem hj'))
      have : 0 < compLikelihood err weights[j] edges[j] est := by
        unfold compLikelihood
        positivity
      linarith
    · rw [h j hj'] at h'; cases h'
  · have hwi := List.getElem?_eq_getElem (show i < weights.length by omega)
    have hei := List.getElem?_eq_getElem hi
    rcases lk i _ _ hei hwi with ⟨h, -⟩ | ⟨p', hp', hw0, hlik⟩
    · rw [h] at hp; cases hp
    rw [hp] at hp'
    cases hp'
    simp only [Res.bind_ok]
    unfold at?
    rw [h2, hei]
    refine ⟨_, rfl, ⟨h1, rfl, h3, h4⟩, i, edges[i], weights[i], hei, hwi, hw0, rfl, rfl, rfl, ?_, ?_⟩
    · intro j e' w' he' hw'
      rcases lk j e' w' he' hw' with ⟨-, h⟩ | ⟨q, hq, -, h⟩
      · rw [h, hlik]; exact (Real.exp_pos _).le
      · rw [h, hlik, Real.exp_le_exp]
        have := hmin j (List.getElem?_eq_some_iff.1 he').1 q hq
        linarith
    · intro j e' w' hji he' hw'
      rcases lk j e' w' he' hw' with ⟨-, h⟩ | ⟨q, hq, -, h⟩
      · rw [h, hlik]; exact Real.exp_pos _
      · rw [h, hlik, Real.exp_lt_exp]
        have := hst j hji q hq
        linarith

theorem mix_new {err : Comp k n → E → Fin n → ℝ} {edges : List (Comp k n)} {weights : List ℝ} (hs : Sensible edges weights)
    (est : E) : ∃ m, Mix.empty.initializeComponents err edges weights est = .ok m ∧ MixHolds edges weights m ∧
      MostProbable err edges weights est m :=
  mix_computeError ⟨rfl, rfl, rfl, rfl⟩ hs est

/-- C142, poses in space: after the constructor and any later calls of the optimiser the component in use is the most
probable one for the estimates of the last call, whatever the error function.  Missing: an edge that is initialised
twice (as in C66). -/
theorem C142_space_partial (err : Comp 7 6 → E → Fin 6 → ℝ) {edges : List (Comp 7 6)} {weights : List ℝ}
    (hs : Sensible edges weights) (est : E) (later : List (Bool × E)) :
    ∃ m, lifeOf err (fun m est => m.linearizeSpace err est) edges weights est later = .ok m ∧
      MostProbable err edges weights (latest est later) m := by
  suffices ∃ m, lifeOf err (fun m est => m.linearizeSpace err est) edges weights est later = .ok m ∧
      MixHolds edges weights m ∧ MostProbable err edges weights (latest est later) m by
    obtain ⟨m, h1, -, h2⟩ := this
    exact ⟨m, h1, h2⟩
  induction later using List.reverseRecOn with
  | nil => exact mix_new hs est
  | append_singleton later c ih =>
    obtain ⟨m, h1, h2, -⟩ := ih
    unfold lifeOf at h1 ⊢
    rw [List.foldl_append, h1]
    simp only [List.foldl_cons, List.foldl_nil, Res.bind_ok, Mix.linearizeSpace, ite_self]
    rw [show latest est (later ++ [c]) = c.2 by simp [latest]]
    exact mix_computeError h2 hs c.2

theorem errorsFirst_append {est : E} {l : List (Bool × E)} {c : Bool × E} :
    ErrorsFirst est (l ++ [c]) ↔ ErrorsFirst est l ∧ (c.1 = true → c.2 = latest est l) := by
  induction l generalizing est with
  | nil => simp [ErrorsFirst, latest]
  | cons a l ih =>
    rw [List.cons_append, ErrorsFirst, ErrorsFirst, ih, and_assoc]
    have : latest a.2 l = latest est (a :: l) := by
      rcases List.eq_nil_or_concat l with rfl | ⟨l', b, rfl⟩
      · simp [latest]
      · rw [List.concat_eq_append, ← List.cons_append]
        simp only [latest, List.map_append, List.map_cons, List.map_nil, List.getLast?_append, List.getLast?_singleton,
          Option.some_or, Option.getD_some]
    rw [this]

/-- C142, landmarks: the component in use is the most probable one for the estimates of the last call, provided that the
errors are computed before every linearisation.  Missing: a linearisation at new estimates (`C142_landmark_false`). -/
theorem C142_landmark_partial {edges : List (Comp 2 2)} {weights : List ℝ} (hs : Sensible edges weights) (est : Estimates)
    (later : List (Bool × Estimates)) (ho : ErrorsFirst est later) :
    ∃ m, lifeOf landmarkError (fun m est => m.linearizeLandmark landmarkError est) edges weights est later = .ok m ∧
      MostProbable landmarkError edges weights (latest est later) m := by
  suffices ∃ m, lifeOf landmarkError (fun m est => m.linearizeLandmark landmarkError est) edges weights est later = .ok m ∧
      MixHolds edges weights m ∧ MostProbable landmarkError edges weights (latest est later) m by
    obtain ⟨m, h1, -, h2⟩ := this
    exact ⟨m, h1, h2⟩
  induction later using List.reverseRecOn with
  | nil => exact mix_new hs est
  | append_singleton later c ih =>
    obtain ⟨ho, hc⟩ := errorsFirst_append.1 ho
    obtain ⟨m, h1, h2, h3⟩ := ih ho
    have h0 : latest est (later ++ [c]) = c.2 := by simp [latest]
    unfold lifeOf at h1 ⊢
    rw [List.foldl_append, h1, h0]
    simp only [List.foldl_cons, List.foldl_nil, Res.bind_ok]
    cases hb : c.1 with
    | false => simpa using mix_computeError h2 hs c.2
    | true =>
      rw [← hc hb] at h3
      obtain ⟨i, e, w, a1, a2, a3, a4, a5, a6, a7⟩ := h3
      simp only [if_true, Mix.linearizeLandmark]
      exact ⟨_, rfl, h2, i, e, w, a1, a2, a3, a4, a5, by rw [a5], a7⟩

/-- C142 for landmarks at full strength. -/
def LandmarkMostProbable : Prop := ∀ (edges : List (Comp 2 2)) (weights : List ℝ) (est : Estimates)
  (later : List (Bool × Estimates)), Sensible edges weights →
  ∃ m, lifeOf landmarkError (fun m est => m.linearizeLandmark landmarkError est) edges weights est later = .ok m ∧
    MostProbable landmarkError edges weights (latest est later) m

/-- Two landmarks, 0 and 1, and a pose at the origin that has seen one of them at (1, 0). -/
noncomputable def ambiguous : List (Comp 2 2) := [⟨0, 0, ![1, 0], 1⟩, ⟨0, 1, ![1, 0], 1⟩]

theorem ambiguous_sensible : Sensible ambiguous [1, 1] :=
  ⟨rfl, by simp [ambiguous, Matrix.PosDef.one], by simp, ⟨1, by simp⟩⟩

/-- Landmark 0 at `a` and landmark 1 at `b` on the first axis. -/
def landmarksAt (a b : ℝ) : Estimates := ⟨fun _ => ⟨0, 0, 0⟩, fun i => if i = 0 then (a, 0) else (b, 0)⟩

theorem ambiguous_likelihood (a b : ℝ) : compLikelihood landmarkError 1 ⟨0, 0, ![1, 0], 1⟩ (landmarksAt a b) =
      Real.exp (-(a - 1) ^ 2 / 2) ∧
    compLikelihood landmarkError 1 ⟨0, 1, ![1, 0], 1⟩ (landmarksAt a b) = Real.exp (-(b - 1) ^ 2 / 2) := by
  constructor <;>
  · unfold compLikelihood landmarkError landmarksAt
    simp [dotProduct, Fin.sum_univ_two]
    ring

/-- C142 is false for landmarks: linearised is the component that was most probable before the estimates changed. -/
theorem C142_landmark_false : ¬ LandmarkMostProbable := by
  intro h
  obtain ⟨m₀, h0, -, i, e, w, a1, a2, -, a4, a5, -, a7, -⟩ := mix_new (err := landmarkError) ambiguous_sensible (landmarksAt 1 3)
  obtain ⟨m, h1, i', e', w', b1, b2, -, b4, b5, -, b7, -⟩ :=
    h ambiguous [1, 1] (landmarksAt 1 3) [(true, landmarksAt 3 1)] ambiguous_sensible
  unfold lifeOf at h1
  rw [h0] at h1
  simp only [List.foldl_cons, List.foldl_nil, Res.bind_ok, Mix.linearizeLandmark, if_true] at h1
  cases h1
  have hi : i' = i := by
    have : m₀.best = some i' := b4
    rw [a4] at this
    cases this; rfl
  subst hi
  rw [a1] at b1; cases b1
  rw [a2] at b2; cases b2
  obtain ⟨l0, l1⟩ := ambiguous_likelihood 1 3
  obtain ⟨r0, r1⟩ := ambiguous_likelihood 3 1
  have hlast : latest (landmarksAt 1 3) [(true, landmarksAt 3 1)] = landmarksAt 3 1 := rfl
  rw [hlast] at b7
  have hlt : Real.exp (-(3 - 1 : ℝ) ^ 2 / 2) < Real.exp (-(1 - 1 : ℝ) ^ 2 / 2) := Real.exp_lt_exp.2 (by norm_num)
  match i', a1, a2 with
  | 0, a1, a2 =>
    simp only [ambiguous, List.getElem?_cons_zero, Option.some.injEq] at a1 a2
    subst a1 a2
    have := b7 1 _ _ rfl rfl
    rw [r0, r1] at this
    linarith
  | 1, a1, a2 =>
    simp only [ambiguous, List.getElem?_cons_succ, List.getElem?_cons_zero, Option.some.injEq] at a1 a2
    subst a1 a2
    have := a7 0 _ _ rfl rfl
    rw [l0, l1] at this
    linarith
  | i + 2, a1, a2 => simp at a2

/-- C142, the error of a sighting: its square length is the square distance between the landmark and the place where it
was seen, and it is zero only there. -/
theorem C142_error (c : Comp 2 2) (est : Estimates) :
    let seen := toWorld (est.pose c.v0) (c.meas 0, c.meas 1)
    landmarkError c est ⬝ᵥ landmarkError c est =
      ((est.point c.v1).1 - seen.1) ^ 2 + ((est.point c.v1).2 - seen.2) ^ 2 ∧
    (landmarkError c est = 0 ↔ est.point c.v1 = seen) := by
  intro seen
  have hsc := Real.sin_sq_add_cos_sq (est.pose c.v0).th
  have h1 : landmarkError c est ⬝ᵥ landmarkError c est =
      ((est.point c.v1).1 - seen.1) ^ 2 + ((est.point c.v1).2 - seen.2) ^ 2 := by
    simp only [landmarkError, seen, toWorld, dotProduct, Fin.sum_univ_two, Matrix.cons_val]
    set C := Real.cos (est.pose c.v0).th
    set S := Real.sin (est.pose c.v0).th
    linear_combination ((est.point c.v1).1 - (est.pose c.v0).x) ^ 2 * hsc + ((est.point c.v1).2 - (est.pose c.v0).y) ^ 2 * hsc -
      (c.meas 0 ^ 2 + c.meas 1 ^ 2) * hsc
  refine ⟨h1, fun h => ?_, fun h => ?_⟩
  · rw [h, dotProduct_zero] at h1
    have := sq_nonneg ((est.point c.v1).1 - seen.1)
    have := sq_nonneg ((est.point c.v1).2 - seen.2)
    have a : ((est.point c.v1).1 - seen.1) ^ 2 = 0 := by linarith
    have b : ((est.point c.v1).2 - seen.2) ^ 2 = 0 := by linarith
    exact Prod.ext (sub_eq_zero.1 (pow_eq_zero_iff (two_ne_zero) |>.1 a)) (sub_eq_zero.1 (pow_eq_zero_iff (two_ne_zero) |>.1 b))
  · rw [h, sub_self, sub_self] at h1
    simp only [ne_eq, OfNat.ofNat_ne_zero, not_false_eq_true, zero_pow, add_zero] at h1
    exact dotProduct_self_eq_zero.1 h1

example : ErrorsFirst (landmarksAt 1 3) [(true, landmarksAt 1 3), (false, landmarksAt 3 1), (true, landmarksAt 3 1)] := by
  simp [ErrorsFirst]

end Verif.Opt
