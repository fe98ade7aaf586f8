import Verif.Match.Spec
import Verif.Corr.Props
import Verif.Newton.Props
import Verif.Robust.Props

/-
Lemmas about the loop matcher as a whole.
-/
namespace Verif.Match

open Verif Verif.Geo

variable {m : Matcher} {s : Scene} {limit : ℝ}

/-! ### The configuration -/

theorem configured {limit : ℝ} {m : Matcher} (h : Configured limit m) : m.limit = limit ∧ 0 < limit ∧ limit < 1 ∧
    m.corr = ⟨0.5, 0.2, 4, 3⟩ ∧ m.newton = ⟨0.1, 0.1, 10⟩ ∧ m.layers.sizes.length = 4 ∧ m.layers.params.length = 4 := by
  obtain ⟨m0, h0, h1⟩ := h
  unfold scanmatcher Matcher.setRejectionLimit at h0
  rw [(Robust.C57_limit 0.6).1 (by norm_num), Res.map_ok, Res.map_ok] at h0
  have h0 := Res.ok.inj h0
  unfold Matcher.setRejectionLimit at h1
  by_cases hl : 0 < limit ∧ limit < 1
  · rw [(Robust.C57_limit limit).1 hl, Res.map_ok] at h1
    have h1 := Res.ok.inj h1
    subst h0 h1
    have hn : ((Newton.Layers.new 0.55).setCellSize 0.25).sizes.length = 4 := by
      have h1 : (Newton.Layers.new 0.55).sizes.length = 4 ∧ (Newton.Layers.new 0.55).count = 4 := by
        unfold Newton.Layers.new Newton.Layers.initParams Newton.Layers.initCellSizes
        rw [if_neg (by simp)]
        simp
      unfold Newton.Layers.setCellSize Newton.Layers.initCellSizes
      split_ifs <;> simp_all [Newton.Layers.initParams]
    exact ⟨rfl, hl.1, hl.2, rfl, rfl, hn, by
      show (List.map _ _).length = 4
      rw [List.length_map]; exact hn⟩
  · rw [(Robust.C57_limit limit).2 hl] at h1
    cases h1

theorem configured_exists {limit : ℝ} (h0 : 0 < limit) (h1 : limit < 1) : ∃ m, Configured limit m := by
  unfold Configured scanmatcher Matcher.setRejectionLimit
  rw [(Robust.C57_limit 0.6).1 (by norm_num), (Robust.C57_limit limit).1 ⟨h0, h1⟩]
  exact ⟨_, _, rfl, rfl⟩

theorem layersOf_length (h : Configured limit m) (s : Scene) : (layersOf (m.setInputTarget s) s).length = 4 := by
  obtain ⟨-, -, -, -, -, h1, h2⟩ := configured h
  unfold layersOf Matcher.setInputTarget
  simp [h1, h2]

theorem Plausible.sharp (h : Plausible m s) : Corr.Sharp (Corr.sigma s.cell 0.5) :=
  (Corr.C63_sharp _ _).1 (by have := h.size; linarith)

/-! ### The parts -/

theorem Run.bind_ok {α β : Type} (a : α) (f : α → Run β) : Run.bind (some (.ok a)) f = f a := rfl

/-- The direct match. -/
theorem d2d_ok (h : Configured limit m) (s : Scene) (r : Newton.Report) {guess : Trans} (hg : IsRigid guess) :
    ∃ r', d2dAlign (m.setInputTarget s) s r guess = some (.ok r') ∧ IsRigid r'.final ∧
      (r'.final 0 2 - guess 0 2) ^ 2 + (r'.final 1 2 - guess 1 2) ^ 2 ≤ 16 := by
  obtain ⟨-, -, -, -, hn, -, -⟩ := configured h
  have hn' : (m.setInputTarget s).newton = ⟨0.1, 0.1, 10⟩ := hn
  obtain ⟨⟨r', v, w, h1, h2, h3, h4⟩, -⟩ := Newton.C93_reach (m.setInputTarget s).newton (by rw [hn']; norm_num)
    (layersOf (m.setInputTarget s) s) r guess hg
  refine ⟨r', by unfold d2dAlign; rw [h1]; rfl, ?_, ?_⟩
  · rw [(Newton.describes_iff _ _).1 h3]
    exact getTransFromPose_rigid _
  · rw [layersOf_length h, hn'] at h4
    obtain ⟨-, -, -, -, e1, e2, -⟩ := h2
    obtain ⟨-, -, -, -, e3, e4, -⟩ := h3
    rw [e1, e2, e3, e4]
    have h5 : Newton.dist w v ≤ 4 := by
      refine h4.trans ?_
      norm_num
    unfold Newton.dist at h5
    have h6 : (w 0 - v 0) ^ 2 + (w 1 - v 1) ^ 2 + (w 2 - v 2) ^ 2 ≤ 4 ^ 2 := Real.sqrt_le_left (by norm_num) |>.1 h5 |> fun h => h
    nlinarith [sq_nonneg (w 2 - v 2)]

/-- The search. -/
theorem corr_ok (h : Configured limit m) (hp : Plausible m s) (guess : Trans) :
    ∃ best, Corr.computeTransformation (m.setInputTarget s).corr s.sort s.schedule s.source s.target guess =
        some (.ok (best, Corr.vecToMat best)) ∧ |best.x| ≤ 4 ∧ |best.y| ≤ 4 := by
  obtain ⟨-, -, -, hc, -, -, -⟩ := configured h
  have hc' : (m.setInputTarget s).corr = ⟨s.cell, 0.2, 4, 3⟩ := by
    unfold Matcher.setInputTarget
    simp only [hc]
  obtain ⟨n, hn, hsch⟩ := hp.schedule
  rw [hc']
  rw [hc] at hn
  obtain ⟨best, t, sc, e, hcand, -⟩ := Corr.C62_best_candidate_partial ⟨s.cell, 0.2, 4, 3⟩ s.source s.target guess hp.pos
    (by norm_num) (by norm_num) (by norm_num) hp.sharp hp.sort hn hsch
  refine ⟨best, e, ?_⟩
  obtain ⟨⟨k, hk⟩, h1, ⟨l, hl⟩, h2, -⟩ := hcand
  simp only at hk h1 hl h2
  have k0 : 0 ≤ (k : ℝ) * s.cell := mul_nonneg (Nat.cast_nonneg _) hp.pos.le
  have l0 : 0 ≤ (l : ℝ) * s.cell := mul_nonneg (Nat.cast_nonneg _) hp.pos.le
  exact ⟨abs_le.2 ⟨by linarith, h1.le⟩, abs_le.2 ⟨by linarith, h2.le⟩⟩

/-- The verification. -/
theorem proof_ok (hp : Plausible m s) (t : Trans) :
    ∃ sc, proofTransform (m.setInputTarget s) s t = .ok sc := by
  obtain ⟨table, f, e, hb⟩ := Corr.built_of_sharp hp.pos hp.sharp s.target
  have : ∃ sc, table.getScore (s.source.map (act t)) = .ok sc := by
    choose v hv hv0 using hb.ptScore hp.pos
    unfold Corr.Table.getScore
    rw [Corr.accumulate (v := v) _ 0 fun a _ => hv a]
    exact ⟨_, rfl⟩
  obtain ⟨sc, hsc⟩ := this
  refine ⟨sc, ?_⟩
  unfold proofTransform
  rw [show (m.setInputTarget s).cell = s.cell from rfl, e, Res.bind_ok, hsc]

/-- What every match comes to.  `near`: the transform is within 4 m of the guess or of a place of the search window. -/
structure Outcome (m : Matcher) (s : Scene) (limit : ℝ) (guess : Trans) (r : Result) : Prop where
  set : limit ≤ 0.7 → r.final ≠ none
  near : ∀ t, r.final = some t → IsRigid t ∧ ∃ x y : ℝ, (x = guess 0 2 ∧ y = guess 1 2 ∨ |x| ≤ 4 ∧ |y| ≤ 4) ∧
    (t 0 2 - x) ^ 2 + (t 1 2 - y) ^ 2 ≤ 16
  scored : ∀ t, r.converged = true → limit ≤ 0.6 → r.final = some t →
    ∃ sc, proofTransform (m.setInputTarget s) s t = .ok sc ∧ r.quality = sc ∧ ∀ x, sc = some x → limit ≤ x

theorem verify_ok {guess : Trans} (h : Configured limit m) (hp : Plausible m s) {score : Option ℝ} {first : Trans} {second : Trans}
    (f0 : proofTransform (m.setInputTarget s) s first = .ok score)
    (f1 : IsRigid first ∧ ∃ x y : ℝ, (x = guess 0 2 ∧ y = guess 1 2 ∨ |x| ≤ 4 ∧ |y| ≤ 4) ∧
      (first 0 2 - x) ^ 2 + (first 1 2 - y) ^ 2 ≤ 16)
    (s1 : IsRigid second ∧ ∃ x y : ℝ, (x = guess 0 2 ∧ y = guess 1 2 ∨ |x| ≤ 4 ∧ |y| ≤ 4) ∧
      (second 0 2 - x) ^ 2 + (second 1 2 - y) ^ 2 ≤ 16) (firstTrans : Option Trans)
    (hf : firstTrans = some first ∨ firstTrans = none ∧ second = first ∧ above score 0.7) :
    ∃ r, verify (m.setInputTarget s) s score firstTrans second = some (.ok r) ∧ Outcome m s limit guess r := by
  obtain ⟨hl, -⟩ := configured h
  have hl' : (m.setInputTarget s).limit = limit := hl
  obtain ⟨score2, e2⟩ := proof_ok hp second
  unfold verify
  rw [e2, Run.bind_ok, hl']
  refine ⟨_, rfl, ?_⟩
  split_ifs with h1 h2
  · rcases hf with rfl | ⟨rfl, rfl, x, hx, hx'⟩
    · refine ⟨fun _ => by simp, ?_, ?_⟩
      · rintro t ht
        cases ht
        exact f1
      · rintro t - hl6 ht
        cases ht
        refine ⟨score, f0, rfl, ?_⟩
        obtain ⟨y, hy, hy'⟩ := h2
        rintro x hx
        rw [hy] at hx
        cases hx
        linarith
    · refine ⟨fun h7 => ?_, by simp, by simp⟩
      rw [f0] at e2
      cases e2
      obtain ⟨y, hy, hy'⟩ := h1
      rw [hx] at hy
      cases hy
      linarith
  · refine ⟨fun _ => by simp, ?_, by simp⟩
    rintro t ht
    cases ht
    exact s1
  · refine ⟨fun _ => by simp, ?_, ?_⟩
    · rintro t ht
      cases ht
      exact s1
    · rintro t - hl6 ht
      cases ht
      refine ⟨score2, e2, rfl, ?_⟩
      rintro x rfl
      by_contra hx
      exact h1 ⟨x, rfl, not_le.1 hx⟩

/-- Every match ends. -/
theorem compute_ok (h : Configured limit m) (hp : Plausible m s) {guess : Trans} (hg : IsRigid guess) :
    ∃ r, computeTransformation (m.setInputTarget s) s guess = some (.ok r) ∧ Outcome m s limit guess r := by
  obtain ⟨first, e1, r1, n1⟩ := d2d_ok h s s.report hg
  obtain ⟨score, e2⟩ := proof_ok hp first.final
  have f1 : IsRigid first.final ∧ ∃ x y : ℝ, (x = guess 0 2 ∧ y = guess 1 2 ∨ |x| ≤ 4 ∧ |y| ≤ 4) ∧
      (first.final 0 2 - x) ^ 2 + (first.final 1 2 - y) ^ 2 ≤ 16 := ⟨r1, _, _, .inl ⟨rfl, rfl⟩, n1⟩
  unfold computeTransformation
  rw [e1, Run.bind_ok, e2, Run.bind_ok]
  split_ifs with h1
  · exact verify_ok h hp e2 f1 f1 none (.inr ⟨rfl, rfl, h1.2⟩)
  · obtain ⟨best, e3, b1, b2⟩ := corr_ok h hp guess
    have hr : IsRigid (Corr.vecToMat best) := getTransFromPose_rigid _
    obtain ⟨second, e4, r4, n4⟩ := d2d_ok h s first hr
    rw [e3, Run.bind_ok, e4, Run.bind_ok]
    split_ifs with h3
    · refine ⟨_, rfl, fun _ => by simp, ?_, by simp⟩
      rintro t ht
      cases ht
      exact ⟨hr, _, _, .inr ⟨b1, b2⟩, by simp [Corr.vecToMat, getTransFromPose]⟩
    · exact verify_ok h hp e2 f1 ⟨r4, _, _, .inr ⟨b1, b2⟩, by simpa [Corr.vecToMat, getTransFromPose] using n4⟩ _ (.inl rfl)

/-! ### Overlap -/

theorem cell_half {step : ℝ} (h1 : step ≤ 1) : Corr.sigma step 0.5 = 0.5 ∧ Corr.reach step 0.5 = 1 := by
  have hs : Corr.sigma step 0.5 = 0.5 := by
    unfold Corr.sigma
    rw [max_eq_left]
    exact (min_le_right _ _).trans (by linarith)
  refine ⟨hs, ?_⟩
  unfold Corr.reach
  rw [hs, show (2 * 0.5 : ℝ) = 1 by norm_num, round_one]
  rfl

theorem bell_beside {r c : ℤ} (h : ¬ (r = 0 ∧ c = 0)) : Corr.bell 0.5 r c ≤ 14 := by
  have h1 : (1 : ℝ) ≤ (r : ℝ) ^ 2 + (c : ℝ) ^ 2 := by
    have : (1 : ℤ) ≤ r ^ 2 + c ^ 2 := by
      by_contra h'
      have h2 := sq_nonneg r
      have h3 := sq_nonneg c
      exact h ⟨by nlinarith, by nlinarith⟩
    exact_mod_cast this
  have h2 : Real.exp (-((r : ℝ) ^ 2 + (c : ℝ) ^ 2) / (2 * 0.5 ^ 2)) ≤ Real.exp (-2) := by
    apply Real.exp_le_exp.2
    rw [div_le_iff₀ (by norm_num)]
    linarith
  have h3 : Real.exp (-2) < 0.145 := by
    rw [Real.exp_neg, inv_lt_comm₀ (Real.exp_pos _) (by norm_num), show (2 : ℝ) = 1 + 1 by norm_num, Real.exp_add]
    have := Real.exp_one_gt_d9
    norm_num at this ⊢
    nlinarith
  unfold Corr.bell
  rw [round_eq]
  have : ⌊100 * Real.exp (-((r : ℝ) ^ 2 + (c : ℝ) ^ 2) / (2 * 0.5 ^ 2)) + 1 / 2⌋ < 15 := by
    rw [Int.floor_lt]
    push_cast
    linarith
  omega

theorem floor_near {a b : ℝ} {n : ℤ} (h : |⌊a⌋ - ⌊b⌋| ≤ n) : |a - b| < n + 1 := by
  have h1 := Int.floor_le a
  have h2 := Int.lt_floor_add_one a
  have h3 := Int.floor_le b
  have h4 := Int.lt_floor_add_one b
  obtain ⟨h5, h6⟩ := abs_le.1 h
  have h5 : (-(n : ℝ)) ≤ (⌊a⌋ : ℝ) - ⌊b⌋ := by exact_mod_cast h5
  have h6 : (⌊a⌋ : ℝ) - ⌊b⌋ ≤ n := by exact_mod_cast h6
  rw [abs_lt]
  constructor <;> linarith

/-- Places of two points in the table and their distance. -/
theorem near_of_place {t : Corr.Table} (hcs : 0 < t.cs) {p q : Pt} {n : ℤ} (hr : |t.row p - t.row q| ≤ n)
    (hc : |t.col p - t.col q| ≤ n) : Near ((n + 1) * t.cs) p q := by
  unfold Corr.Table.row at hr
  unfold Corr.Table.col at hc
  rw [add_sub_add_right_eq_sub] at hr hc
  have h1 := floor_near hr
  have h2 := floor_near hc
  constructor
  · rw [show (p.1 - t.minx) / t.cs + 1 / 2 - ((q.1 - t.minx) / t.cs + 1 / 2) = (p.1 - q.1) / t.cs by field_simp; ring, abs_div,
      abs_of_pos hcs, div_lt_iff₀ hcs] at h2
    exact h2
  · rw [show (t.maxy - p.2) / t.cs + 1 / 2 - ((t.maxy - q.2) / t.cs + 1 / 2) = (q.2 - p.2) / t.cs by field_simp; ring, abs_div,
      abs_of_pos hcs, div_lt_iff₀ hcs, abs_sub_comm] at h1
    exact h1

open Classical in
/-- Score of one point: at most 100, at most 14 unless it is within a cell of a target point, and 0 unless it is within
two cells of one. -/
theorem point_score {target : List Pt} {step : ℝ} {t : Corr.Table} {f : ℕ → ℕ → ℤ} (h0 : 0 < step) (h1 : step ≤ 1)
    (hb : Corr.Built target step 0.5 t f) (p : Pt) :
    ∃ v, t.ptScore p = .ok v ∧ v ≤ 86 * (if ∃ q ∈ target, Near step p q then 1 else 0) +
      14 * (if ∃ q ∈ target, Near (2 * step) p q then 1 else 0) := by
  obtain ⟨e1, e2⟩ := cell_half h1
  have hcs : t.cs = step := (hb.shape h0).cs
  by_cases hp : Corr.InBox target p
  · obtain ⟨i, j, hi, hj, -, -, e⟩ := hb.ptScore_in h0 hp
    refine ⟨_, e, ?_⟩
    rcases (hb.greatest i j).1 with h | ⟨a, b, ⟨q, hq, -, qa, qb⟩, ha, hb', h⟩
    · rw [h]
      split_ifs <;> norm_num
    · rw [e2] at ha hb'
      rw [e1] at h
      have near2 : ∃ q ∈ target, Near (2 * step) p q := by
        refine ⟨q, hq, ?_⟩
        have := near_of_place (t := t) (by rw [hcs]; exact h0) (p := p) (q := q) (n := 1)
          (by rw [hi, qa]; exact_mod_cast ha) (by rw [hj, qb]; exact_mod_cast hb')
        rw [hcs] at this
        norm_num at this
        exact this
      rw [if_pos near2]
      by_cases hz : (i : ℤ) - a = 0 ∧ (j : ℤ) - b = 0
      · have near1 : ∃ q ∈ target, Near step p q := by
          refine ⟨q, hq, ?_⟩
          have := near_of_place (t := t) (by rw [hcs]; exact h0) (p := p) (q := q) (n := 0)
            (by rw [hi, qa, hz.1]; simp) (by rw [hj, qb, hz.2]; simp)
          rw [hcs] at this
          norm_num at this
          exact this
        rw [if_pos near1, h]
        have := Corr.bell_le 0.5 ((i : ℤ) - a) ((j : ℤ) - b)
        omega
      · have := bell_beside hz
        rw [h]
        split_ifs <;> omega
  · refine ⟨0, hb.ptScore_out hp, ?_⟩
    split_ifs <;> norm_num

theorem sum_filter (l : List Pt) (P Q : Pt → Prop) [DecidablePred P] [DecidablePred Q] (v : Pt → ℤ)
    (h : ∀ p ∈ l, v p ≤ 86 * (if P p then 1 else 0) + 14 * (if Q p then 1 else 0)) :
    (l.map v).sum ≤ 86 * ((l.filter fun p => P p).length : ℤ) + 14 * ((l.filter fun p => Q p).length : ℤ) := by
  induction l with
  | nil => simp
  | cons p l ih =>
    have h1 := h p (by simp)
    have h2 := ih fun q hq => h q (by simp [hq])
    rw [List.map_cons, List.sum_cons, List.filter_cons, List.filter_cons]
    by_cases hP : P p <;> by_cases hQ : Q p <;> simp only [hP, hQ, if_true, if_false, decide_true, decide_false,
      Bool.false_eq_true, List.length_cons] at h1 ⊢ <;> push_cast <;> linarith

open Classical in
/-- The score and the numbers of points near target points. -/
theorem score_overlap {m : Matcher} {s : Scene} (hp : Plausible m s) (hc : s.cell ≤ 1) (ht : s.target ≠ []) {t : Trans} {sc : Option ℝ}
    (h : proofTransform (m.setInputTarget s) s t = .ok sc) : ∃ x, sc = some x ∧
      100 * x * s.target.length ≤ 86 * overlap s.cell s.source s.target t + 14 * overlap (2 * s.cell) s.source s.target t := by
  obtain ⟨table, f, e, hb⟩ := Corr.built_of_sharp hp.pos hp.sharp s.target
  unfold proofTransform at h
  rw [show (m.setInputTarget s).cell = s.cell from rfl, e, Res.bind_ok] at h
  choose v hv hv0 using point_score hp.pos hc hb
  unfold Corr.Table.getScore at h
  rw [Corr.accumulate (v := v) _ 0 fun a _ => hv a, Res.map_ok] at h
  have h := Res.ok.inj h
  have hT : 0 < (s.target.length : ℝ) := by exact_mod_cast List.length_pos_iff.2 ht
  unfold Corr.Table.ratio at h
  rw [hb.targets, if_neg (fun h => ht (List.length_eq_zero_iff.1 h))] at h
  split_ifs at h with hz
  · refine ⟨0, h.symm, ?_⟩
    rw [mul_zero, zero_mul]
    positivity
  · refine ⟨_, h.symm, ?_⟩
    have key := sum_filter s.source (fun p => ∃ q ∈ s.target, Near s.cell (act t p) q)
      (fun p => ∃ q ∈ s.target, Near (2 * s.cell) (act t p) q) (fun p => v (act t p)) fun p _ => hv0 (act t p)
    rw [List.map_map, zero_add]
    have key' : (((s.source.map (v ∘ act t)).sum : ℤ) : ℝ) ≤ 86 * (overlap s.cell s.source s.target t : ℝ) +
        14 * (overlap (2 * s.cell) s.source s.target t : ℝ) := by
      have key : (s.source.map (v ∘ act t)).sum ≤ 86 * (overlap s.cell s.source s.target t : ℤ) +
        14 * (overlap (2 * s.cell) s.source s.target t : ℤ) := key
      exact_mod_cast key
    refine le_trans (le_of_eq ?_) key'
    unfold Corr.OCCUPIED
    generalize (s.source.map (v ∘ act t)).sum = z
    push_cast
    field_simp

theorem overlap_mono {r r' : ℝ} (h : r ≤ r') (source target : List Pt) (t : Trans) :
    overlap r source target t ≤ overlap r' source target t := by
  classical
  unfold overlap
  refine (List.monotone_filter_right source ?_).length_le
  intro p hp
  simp only [decide_eq_true_eq] at hp ⊢
  obtain ⟨q, hq, h1, h2⟩ := hp
  exact ⟨q, hq, h1.trans_le h, h2.trans_le h⟩

end Verif.Match
