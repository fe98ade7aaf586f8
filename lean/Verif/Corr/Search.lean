import Verif.Corr.Init
import Verif.Pose.Lemmas

/-
Lemmas about scores and the search.
-/
namespace Verif.Corr

open Verif Verif.Geo

/-! ### Scores -/

/-- A table made by `initGrid`. -/
def Built (target : List Pt) (step std : ℝ) (t : Table) (f : ℕ → ℕ → ℤ) : Prop :=
  ∃ cells, t = { frame target step std with cells := cells } ∧ Tab t.m t.n cells f ∧
    ∀ i j, IsGreatest (Offers step std 0 (Occupied t target) i j) (f i j)

theorem built_of_sharp {step std : ℝ} (h : 0 < step) (hs : Sharp (sigma step std)) (target : List Pt) :
    ∃ t f, initGrid target step std = .ok t ∧ Built target step std t f := by
  obtain ⟨cells, f, e, ht, hf⟩ := initGrid_ok h hs target
  exact ⟨_, f, e, cells, rfl, ht, hf⟩

variable {target : List Pt} {step std : ℝ} {t : Table} {f : ℕ → ℕ → ℤ}

theorem Built.shape (hb : Built target step std t f) (h : 0 < step) : Shape t step std := by
  obtain ⟨cells, rfl, -, -⟩ := hb
  obtain ⟨h1, h2, h3, h4, h5⟩ := frame_shape (std := std) h target
  exact ⟨h1, h2, h3, h4, h5⟩

theorem Built.inside (hb : Built target step std t f) (p : Pt) : t.inside p ↔ InBox target p := by
  obtain ⟨cells, rfl, -, -⟩ := hb
  exact inside_iff target step std p

theorem Built.tab (hb : Built target step std t f) : Tab t.m t.n t.cells f := by
  obtain ⟨cells, rfl, h, -⟩ := hb
  exact h

theorem Built.greatest (hb : Built target step std t f) (i j : ℕ) :
    IsGreatest (Offers step std 0 (Occupied t target) i j) (f i j) := by
  obtain ⟨cells, rfl, -, h⟩ := hb
  exact h i j

theorem Built.targets (hb : Built target step std t f) : t.targets = target.length := by
  obtain ⟨cells, rfl, -, -⟩ := hb
  rfl

theorem Built.bounds (hb : Built target step std t f) (i j : ℕ) : 0 ≤ f i j ∧ f i j ≤ 100 := by
  obtain ⟨h1, h2⟩ := hb.greatest i j
  refine ⟨h2 (.inl rfl), ?_⟩
  rcases h1 with h1 | ⟨a, b, -, -, -, h1⟩
  · rw [h1]; norm_num
  · rw [h1]; exact bell_le _ _ _

theorem Built.cells (hb : Built target step std t f) {v : ℤ} (hv : v ∈ t.cells) : 0 ≤ v ∧ v ≤ 100 := by
  obtain ⟨q, hq, rfl⟩ := List.getElem_of_mem hv
  have ht := hb.tab
  have hq' : q < t.m * t.n := by rw [← ht.1]; exact hq
  have hn : 0 < t.n := by
    rcases Nat.eq_zero_or_pos t.n with h | h
    · rw [h] at hq'; omega
    · exact h
  have hdiv : q / t.n < t.m := by rw [Nat.div_lt_iff_lt_mul hn]; exact hq'
  have hv := ht.2 _ _ hdiv (Nat.mod_lt q hn)
  rw [Nat.mul_comm, Nat.div_add_mod, List.getElem?_eq_getElem hq, Option.some.injEq] at hv
  rw [hv]
  exact hb.bounds _ _

theorem Built.ptScore_in (hb : Built target step std t f) (h : 0 < step) {p : Pt} (hp : InBox target p) :
    ∃ i j : ℕ, t.row p = i ∧ t.col p = j ∧ i < t.m ∧ j < t.n ∧ t.ptScore p = .ok (f i j) := by
  have hin := (hb.inside p).2 hp
  obtain ⟨i, j, hi, hj, h1, h2, h3, h4, e⟩ := (hb.shape h).place hin
  refine ⟨i, j, hi, hj, by omega, by omega, ?_⟩
  unfold Table.ptScore
  rw [if_pos hin, e, Res.bind_ok]
  exact hb.tab.at? (by omega) (by omega)

theorem Built.ptScore_out (hb : Built target step std t f) {p : Pt} (hp : ¬ InBox target p) : t.ptScore p = .ok 0 := by
  unfold Table.ptScore
  rw [if_neg fun h => hp ((hb.inside p).1 h)]

theorem Built.ptScore (hb : Built target step std t f) (h : 0 < step) (p : Pt) :
    ∃ v, t.ptScore p = .ok v ∧ 0 ≤ v ∧ v ≤ 100 := by
  by_cases hp : InBox target p
  · obtain ⟨i, j, -, -, -, -, e⟩ := hb.ptScore_in h hp
    exact ⟨_, e, hb.bounds i j⟩
  · exact ⟨0, hb.ptScore_out hp, le_rfl, by norm_num⟩

theorem Built.idxScore_in (hb : Built target step std t f) {i j : ℕ} (hi : i < t.m) (hj : j < t.n) :
    t.idxScore ((j : ℤ), (i : ℤ)) = .ok (f i j) := by
  unfold Table.idxScore
  rw [if_neg (by simp only; omega)]
  exact hb.tab.at? hi hj

theorem Built.idxScore (hb : Built target step std t f) (p : ℤ × ℤ) :
    ∃ v, t.idxScore p = .ok v ∧ 0 ≤ v ∧ v ≤ 100 := by
  by_cases hp : p.1 < 0 ∨ p.2 < 0 ∨ p.1 ≥ t.n ∨ p.2 ≥ t.m
  · refine ⟨0, ?_, le_rfl, by norm_num⟩
    unfold Table.idxScore
    rw [if_pos hp]
  · push Not at hp
    refine ⟨_, ?_, hb.bounds p.2.toNat p.1.toNat⟩
    rw [← hb.idxScore_in (by omega) (by omega), Int.toNat_of_nonneg hp.1, Int.toNat_of_nonneg hp.2.1]

/-- The accumulating loop. -/
theorem accumulate {α : Type} {g : α → Res ℤ} {v : α → ℤ} :
    ∀ (l : List α) (s : ℤ), (∀ a ∈ l, g a = .ok (v a)) →
      forEach (fun s p => (g p).map fun v => s + v) s l = .ok (s + (l.map v).sum)
  | [], s, _ => by simp [forEach]
  | a :: l, s, h => by
    rw [forEach, h a (by simp), Res.map_ok, Res.bind_ok, accumulate l _ fun b hb => h b (by simp [hb])]
    simp [add_assoc]

theorem sum_bounds {α : Type} {v : α → ℤ} (l : List α) (h : ∀ a ∈ l, 0 ≤ v a ∧ v a ≤ 100) :
    0 ≤ (l.map v).sum ∧ (l.map v).sum ≤ 100 * l.length := by
  induction l with
  | nil => simp
  | cons a l ih =>
    have h1 := h a (by simp)
    have h2 := ih fun b hb => h b (by simp [hb])
    simp only [List.map_cons, List.sum_cons, List.length_cons]
    push_cast
    omega

theorem ratio_bounds (ht : t.targets ≠ 0) {n : ℕ} {res : ℤ} (h0 : 0 ≤ res) (h1 : res ≤ 100 * n) :
    ∃ s, t.ratio n res = some s ∧ 0 ≤ s ∧ s ≤ (n : ℝ) / t.targets := by
  unfold Table.ratio
  by_cases hn : n = 0
  · rw [if_pos hn, hn]; exact ⟨0, rfl, le_rfl, by simp⟩
  · rw [if_neg hn, if_neg ht]
    have h0' : (0 : ℝ) ≤ res := by exact_mod_cast h0
    have h1' : (res : ℝ) ≤ 100 * n := by exact_mod_cast h1
    have ht' : (0 : ℝ) < t.targets := by exact_mod_cast Nat.pos_of_ne_zero ht
    refine ⟨_, rfl, ?_, ?_⟩
    · unfold OCCUPIED; push_cast; positivity
    · unfold OCCUPIED
      push_cast
      rw [div_le_div_iff₀ (by positivity) ht']
      nlinarith

theorem Built.getScore (hb : Built target step std t f) (h : 0 < step) (htg : target ≠ []) (cloud : List Pt) :
    ∃ s, t.getScore cloud = .ok (some s) ∧ 0 ≤ s ∧ s ≤ (cloud.length : ℝ) / target.length := by
  choose v hv hv0 using hb.ptScore h
  unfold Table.getScore
  rw [accumulate (v := v) cloud 0 fun a _ => hv a, Res.map_ok]
  obtain ⟨h1, h2⟩ := sum_bounds cloud fun a _ => hv0 a
  have ht : t.targets ≠ 0 := by rw [hb.targets]; simpa using htg
  obtain ⟨s, e, h3, h4⟩ := ratio_bounds ht (n := cloud.length) (res := 0 + (cloud.map v).sum) (by omega) (by omega)
  rw [hb.targets] at h4
  exact ⟨s, by rw [e], h3, h4⟩

theorem Built.getScoreIdx (hb : Built target step std t f) (htg : target ≠ []) (cloud : List (ℤ × ℤ)) :
    ∃ s, t.getScoreIdx cloud = .ok (some s) ∧ 0 ≤ s ∧ s ≤ (cloud.length : ℝ) / target.length := by
  choose v hv hv0 using hb.idxScore
  unfold Table.getScoreIdx
  rw [accumulate (v := v) cloud 0 fun a _ => hv a, Res.map_ok]
  obtain ⟨h1, h2⟩ := sum_bounds cloud fun a _ => hv0 a
  have ht : t.targets ≠ 0 := by rw [hb.targets]; simpa using htg
  obtain ⟨s, e, h3, h4⟩ := ratio_bounds ht (n := cloud.length) (res := 0 + (cloud.map v).sum) (by omega) (by omega)
  rw [hb.targets] at h4
  exact ⟨s, by rw [e], h3, h4⟩

theorem Built.getScoreIdx_ok (hb : Built target step std t f) (cloud : List (ℤ × ℤ)) :
    ∃ s, t.getScoreIdx cloud = .ok s := by
  choose v hv hv0 using hb.idxScore
  unfold Table.getScoreIdx
  rw [accumulate (v := v) cloud 0 fun a _ => hv a, Res.map_ok]
  exact ⟨_, rfl⟩

/-! ### Indexes of moved clouds -/

theorem toIndexes_move (hcs : 0 < t.cs) (cloud : List Pt) (th : ℝ) (k l : ℤ) :
    t.transformIndexes (t.toIndexes (rotatePointCloud cloud th)) (k * t.cs) (l * t.cs) =
      t.toIndexes (cloud.map (act (vecToMat ⟨k * t.cs, l * t.cs, th⟩))) := by
  have e : ∀ z : ℤ, ⌊(z * t.cs : ℝ) / t.cs⌋ = z := by
    intro z
    rw [mul_div_cancel_right₀ _ hcs.ne', Int.floor_intCast]
  unfold Table.transformIndexes Table.toIndexes rotatePointCloud
  simp only [List.map_map, e]
  apply List.map_congr_left
  intro p _
  simp only [Function.comp, vecToMat, act_trans, toWorld, Prod.mk.injEq]
  constructor
  · rw [← Int.floor_add_intCast]
    congr 1
    field_simp
    ring
  · rw [← sub_eq_add_neg, ← Int.floor_sub_intCast]
    congr 1
    field_simp
    ring

/-! ### Search -/

theorem collect {α β : Type} {g : α → Res β} {v : α → β} :
    ∀ (l : List α) (s : List β), (∀ a ∈ l, g a = .ok (v a)) →
      forEach (fun s p => (g p).map fun v => s ++ [v]) s l = .ok (s ++ l.map v)
  | [], s, _ => by simp [forEach]
  | a :: l, s, h => by
    rw [forEach, h a (by simp), Res.map_ok, Res.bind_ok, collect l _ fun b hb => h b (by simp [hb])]
    simp

theorem collectAll {α β : Type} {g : α → Res (List β)} {v : α → List β} :
    ∀ (l : List α) (s : List β), (∀ a ∈ l, g a = .ok (v a)) →
      forEach (fun s p => (g p).map fun v => s ++ v) s l = .ok (s ++ l.flatMap v)
  | [], s, _ => by simp [forEach]
  | a :: l, s, h => by
    rw [forEach, h a (by simp), Res.map_ok, Res.bind_ok, collectAll l _ fun b hb => h b (by simp [hb])]
    simp

theorem loopValues_some {range step start : ℝ} (h : 0 < step) :
    ∃ n : ℕ, loopValues range step start = some ((List.range n).map fun (k : ℕ) => start + k * step) ∧
      ∀ k : ℕ, k < n ↔ start + k * step < range := by
  unfold loopValues
  by_cases hlt : start < range
  · rw [if_pos hlt, if_pos h]
    refine ⟨_, rfl, fun k => ?_⟩
    rw [Nat.lt_ceil, lt_div_iff₀ h]
    constructor <;> intro h' <;> linarith
  · rw [if_neg hlt]
    refine ⟨0, by simp, fun k => ?_⟩
    have : 0 ≤ (k : ℝ) * step := by positivity
    constructor
    · intro h'; omega
    · intro h'; exfalso; linarith

theorem gather_ok (hb : Built target step std t f) (cloud : List Pt) (axis rotations : List ℝ)
    (schedule : List (List ℕ)) (hs : ValidSchedule schedule rotations.length) :
    ∃ voxels, gather t cloud axis rotations schedule = .ok voxels ∧
      ∀ v : Voxel, v ∈ voxels ↔ v.transform.th ∈ rotations ∧ v.transform.x ∈ axis ∧ v.transform.y ∈ axis ∧
        t.getScoreIdx (t.transformIndexes (t.toIndexes (rotatePointCloud cloud v.transform.th)) v.transform.x
          v.transform.y) = .ok v.score := by
  choose sc hsc using hb.getScoreIdx_ok
  have hrot : ∀ th, rotation t cloud axis th = .ok ((axis.flatMap fun dx => axis.map fun dy => (dx, dy)).map fun d =>
      (⟨⟨d.1, d.2, th⟩, sc (t.transformIndexes (t.toIndexes (rotatePointCloud cloud th)) d.1 d.2)⟩ : Voxel)) := by
    intro th
    unfold rotation
    simp only
    rw [collect (v := fun d : ℝ × ℝ =>
      (⟨⟨d.1, d.2, th⟩, sc (t.transformIndexes (t.toIndexes (rotatePointCloud cloud th)) d.1 d.2)⟩ : Voxel))]
    · rfl
    · intro d _
      unfold candidate
      rw [hsc, Res.map_ok]
  unfold gather
  rw [collectAll _ _ fun th _ => hrot th]
  refine ⟨_, rfl, fun v => ?_⟩
  have hmem : ∀ th, th ∈ schedule.flatten.filterMap (fun i => rotations[i]?) ↔ th ∈ rotations := by
    intro th
    rw [List.mem_filterMap]
    constructor
    · rintro ⟨i, -, hi⟩
      exact List.mem_of_getElem? hi
    · intro h
      obtain ⟨i, hi, rfl⟩ := List.getElem_of_mem h
      exact ⟨i, hs.mem_iff.2 (List.mem_range.2 hi), List.getElem?_eq_getElem hi⟩
  simp only [List.nil_append, List.mem_flatMap, hmem, List.mem_map]
  constructor
  · rintro ⟨th, hth, d, ⟨dx, hdx, dy, hdy, rfl⟩, rfl⟩
    exact ⟨hth, hdx, hdy, hsc _⟩
  · rintro ⟨h1, h2, h3, h4⟩
    refine ⟨_, h1, (v.transform.x, v.transform.y), ⟨_, h2, _, h3, rfl⟩, ?_⟩
    rw [hsc] at h4
    have h5 := Res.ok.inj h4
    rcases v with ⟨⟨x, y, th⟩, score⟩
    simp only at h5 ⊢
    rw [h5]

theorem act_mul {a b : Trans} (ha : IsRigid a) (hb : IsRigid b) (p : Pt) : act (a * b) p = act a (act b p) := by
  rw [← trans_pose ha, ← trans_pose hb, trans_mul, act_trans, act_trans, act_trans]
  unfold toWorld compose
  simp only [toWorld, Real.cos_add, Real.sin_add, Prod.mk.injEq]
  constructor <;> ring

end Verif.Corr
