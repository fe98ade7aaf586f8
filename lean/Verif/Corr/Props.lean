import Verif.Corr.Search
import Mathlib.Data.List.Sort
import Mathlib.Analysis.Complex.ExponentialBounds

/-
Properties of the correlative matcher.
-/
namespace Verif.Corr

open Verif Verif.Geo

/-! ### C63: look-up table -/

/-- Building the table succeeds without any access outside of it, the entries are between 0 and 100, the places
of target points have 100 and the scores of clouds, given by points or by indexes, lie between 0 and the ratio
of the sizes of the clouds. -/
def TableSound (target : List Pt) (step std : ℝ) : Prop :=
  ∃ t, initGrid target step std = .ok t ∧ (∀ v ∈ t.cells, 0 ≤ v ∧ v ≤ 100) ∧
    (∀ p ∈ target, t.ptScore p = .ok 100) ∧
    (∀ cloud, ∃ s, t.getScore cloud = .ok (some s) ∧ 0 ≤ s ∧ s ≤ (cloud.length : ℝ) / target.length) ∧
    ∀ cloud, ∃ s, t.getScoreIdx cloud = .ok (some s) ∧ 0 ≤ s ∧ s ≤ (cloud.length : ℝ) / target.length

/-- What holds for target clouds and parameters whose deviation in cells is small enough; missing: the points on
the border of the bounding box of the target and the origin are not entered. -/
theorem C63_table_partial (target : List Pt) {step std : ℝ} (hstep : 0 < step) (hs : Sharp (sigma step std)) :
    ∃ t, initGrid target step std = .ok t ∧ (∀ v ∈ t.cells, 0 ≤ v ∧ v ≤ 100) ∧
      (∀ p ∈ target, InBox target p → t.ptScore p = .ok 100) ∧
      (∀ p, ¬ InBox target p → t.ptScore p = .ok 0) ∧
      (target ≠ [] → ∀ cloud, ∃ s, t.getScore cloud = .ok (some s) ∧ 0 ≤ s ∧ s ≤ (cloud.length : ℝ) / target.length) ∧
      (target ≠ [] → ∀ cloud, ∃ s, t.getScoreIdx cloud = .ok (some s) ∧ 0 ≤ s ∧
        s ≤ (cloud.length : ℝ) / target.length) := by
  obtain ⟨t, f, e, hb⟩ := built_of_sharp hstep hs target
  refine ⟨t, e, fun v hv => hb.cells hv, fun p hp hin => ?_, fun p hp => hb.ptScore_out hp,
    fun ht => hb.getScore hstep ht, fun ht => hb.getScoreIdx ht⟩
  obtain ⟨i, j, hi, hj, -, -, h⟩ := hb.ptScore_in hstep hin
  rw [h]
  congr 1
  apply le_antisymm (hb.bounds i j).2
  apply (hb.greatest i j).2
  refine .inr ⟨i, j, ⟨p, hp, (hb.inside p).2 hin, hi, hj⟩, by simp, by simp, ?_⟩
  rw [sub_self, sub_self, bell_zero]

/-- The condition holds for every deviation times cell size up to 9.97 and fails from 10 on. -/
theorem C63_sharp (step std : ℝ) :
    (std * step ≤ 9.97 → Sharp (sigma step std)) ∧ (10 ≤ std * step → ¬ Sharp (sigma step std)) := by
  constructor
  · intro h
    apply sharp_of_le (sigma_pos step std)
    unfold sigma
    exact max_le (by norm_num) ((min_le_right _ _).trans h)
  · intro h hs
    have e : sigma step std = 10 := by
      unfold sigma; rw [min_eq_left h]; norm_num
    rw [e] at hs
    have := bell_lt (by norm_num) hs (r := 1) (c := 0) (by simp)
    have h2 := bell_ten (o := (1, 0)) (.inl rfl)
    simp only at h2
    omega

/-- For all other parameters building the table runs out of it, whatever the target, as soon as one point is
entered. -/
theorem C63_overrun {target : List Pt} {step std : ℝ} (hstep : 0 < step) (hs : ¬ Sharp (sigma step std)) {p : Pt}
    (hp : p ∈ target) (hin : InBox target p) : (initGrid target step std).IsUB :=
  initGrid_overrun hstep hs hp hin

/-- The parameters of the matcher are in the safe range. -/
example : Sharp (sigma Params.default.step 0.5) := (C63_sharp _ _).1 (by norm_num [Params.default])

example : ¬ Sharp (sigma 20 0.5) := (C63_sharp _ _).2 (by norm_num)

/-- A target with a point that is entered. -/
theorem inBox_example {a : ℝ} (ha : 0 < a) : InBox [(-a, -a), (0, 0), (a, a)] (0, 0) :=
  ⟨⟨(-a, -a), by simp, by simpa⟩, ⟨(a, a), by simp, by simpa⟩, ⟨(-a, -a), by simp, by simpa⟩, ⟨(a, a), by simp, by simpa⟩⟩

example : ∃ target : List Pt, ∃ p ∈ target, InBox target p := ⟨_, (0, 0), by simp, inBox_example one_pos⟩

/-- The property is false: a target of a single point is not entered at all, and large cells overrun the
table. -/
theorem C63_false : ¬ ∀ (target : List Pt) (step std : ℝ), 0 < step → target ≠ [] → TableSound target step std := by
  intro h
  obtain ⟨t, e, -, hp, -⟩ := h [(1, 1)] 0.5 0.5 (by norm_num) (by simp)
  obtain ⟨t', e', -, -, hout, -⟩ := C63_table_partial [(1, 1)] (step := 0.5) (std := 0.5) (by norm_num)
    ((C63_sharp _ _).1 (by norm_num))
  rw [e] at e'
  cases e'
  have h1 := hp (1, 1) (by simp)
  rw [hout] at h1
  · exact absurd (Res.ok.inj h1) (by norm_num)
  · rintro ⟨-, ⟨q, hq, hlt⟩, -⟩
    simp only [List.mem_cons, List.not_mem_nil, or_false] at hq
    rcases hq with rfl | rfl <;> norm_num at hlt

/-! ### C90: values of the table -/

/-- The table is the target smeared with a Gaussian of the given width in cells, in a window of twice that
width. -/
def Smeared (target : List Pt) (step std σ : ℝ) : Prop :=
  ∃ t, initGrid target step std = .ok t ∧ ∀ i j : ℕ, i < t.m → j < t.n →
    ∃ v, t.idxScore (j, i) = .ok v ∧ IsSmeared t target σ (round (2 * σ)).toNat i j v

/-- The table is the smeared target; missing: the width in cells is the deviation multiplied by the cell size,
not divided by it. -/
theorem C90_smeared_partial (target : List Pt) {step std : ℝ} (hstep : 0 < step) (hs : Sharp (sigma step std)) :
    Smeared target step std (sigma step std) := by
  obtain ⟨t, f, e, hb⟩ := built_of_sharp hstep hs target
  refine ⟨t, e, fun i j hi hj => ⟨f i j, hb.idxScore_in hi hj, ?_⟩⟩
  have hg := hb.greatest i j
  have hsh := hb.shape hstep
  unfold IsSmeared
  convert hg using 1
  ext v
  constructor
  · rintro (h | ⟨p, hp, hin, h1, h2, h3⟩)
    · exact .inl h
    · obtain ⟨a, b, ha, hb', -⟩ := hsh.place ((hb.inside p).2 hin)
      refine .inr ⟨a, b, ⟨p, hp, (hb.inside p).2 hin, ha, hb'⟩, ?_, ?_, ?_⟩
      · rw [← ha]; exact h1
      · rw [← hb']; exact h2
      · rw [← ha, ← hb']; exact h3
  · rintro (h | ⟨a, b, ⟨p, hp, hin, ha, hb'⟩, h1, h2, h3⟩)
    · exact .inl h
    · refine .inr ⟨p, hp, (hb.inside p).1 hin, ?_, ?_, ?_⟩
      · rw [ha]; exact h1
      · rw [hb']; exact h2
      · rw [ha, hb']; exact h3

/-- With cells of one metre the width is right. -/
theorem C90_unit_cells_partial (target : List Pt) {std : ℝ} (h1 : 0.5 ≤ std) (h2 : std ≤ 9.97) :
    Smeared target 1 std (std / 1) := by
  have e : sigma 1 std = std / 1 := by
    unfold sigma
    rw [mul_one, div_one, min_eq_right (by linarith), max_eq_right h1]
  rw [← e]
  exact C90_smeared_partial target one_pos ((C63_sharp _ _).1 (by linarith))

/-- The property is false: with cells of half a metre and a deviation of one metre the bell is half a cell wide
instead of two cells. -/
theorem C90_false : ¬ ∀ (target : List Pt) (step std : ℝ), 0 < step → 0.5 ≤ std / step → std / step ≤ 9.97 →
    Smeared target step std (std / step) := by
  intro h
  have hin : InBox [(-2, -2), (0, 0), (2, 2)] (0, 0) := inBox_example two_pos
  obtain ⟨t, e, hv⟩ := h [(-2, -2), (0, 0), (2, 2)] 0.5 1 (by norm_num) (by norm_num) (by norm_num)
  obtain ⟨t', e', hv'⟩ := C90_smeared_partial [(-2, -2), (0, 0), (2, 2)] (step := 0.5) (std := 1) (by norm_num)
    ((C63_sharp _ _).1 (by norm_num))
  obtain ⟨t'', f, e'', hb⟩ := built_of_sharp (step := 0.5) (std := 1) (by norm_num)
    ((C63_sharp _ _).1 (by norm_num)) [(-2, -2), (0, 0), (2, 2)]
  rw [e] at e' e''
  cases e'
  cases e''
  obtain ⟨i, j, hi, hj, h1, h2, h3, h4, -⟩ := (hb.shape (by norm_num)).place ((hb.inside (0, 0)).2 hin)
  have hr := (reach_bounds 0.5 1).1
  obtain ⟨v, hs, hg⟩ := hv i (j + 1) (by omega) (by omega)
  obtain ⟨v', hs', hg'⟩ := hv' i (j + 1) (by omega) (by omega)
  rw [hs] at hs'
  have hvv := Res.ok.inj hs'
  subst hvv
  have hσ : sigma 0.5 1 = 0.5 := by unfold sigma; norm_num
  -- the value is at most 50
  have hlow : v ≤ 50 := by
    have hm := hg'.1
    rw [hσ] at hm
    rcases hm with hm | ⟨p, hp, hpin, -, -, hm⟩
    · omega
    · have hp0 : p = (0, 0) := by
        simp only [List.mem_cons, List.not_mem_nil, or_false] at hp
        rcases hp with rfl | rfl | rfl
        · obtain ⟨⟨q, hq, hlt⟩, -⟩ := hpin
          simp only [List.mem_cons, List.not_mem_nil, or_false] at hq
          rcases hq with rfl | rfl | rfl | rfl <;> norm_num at hlt
        · rfl
        · obtain ⟨-, ⟨q, hq, hlt⟩, -⟩ := hpin
          simp only [List.mem_cons, List.not_mem_nil, or_false] at hq
          rcases hq with rfl | rfl | rfl | rfl <;> norm_num at hlt
      rw [hp0, hi, hj] at hm
      rw [hm, show ((i : ℤ) - i) = 0 by omega, show (((j + 1 : ℕ) : ℤ) - j) = 1 by omega]
      unfold bell
      rw [round_eq]
      have he : Real.exp (-(((0 : ℤ) : ℝ) ^ 2 + ((1 : ℤ) : ℝ) ^ 2) / (2 * 0.5 ^ 2)) ≤ 0.4 := by
        rw [show -(((0 : ℤ) : ℝ) ^ 2 + ((1 : ℤ) : ℝ) ^ 2) / (2 * 0.5 ^ 2) = -2 by norm_num, Real.exp_neg]
        have := Real.add_one_le_exp (2 : ℝ)
        rw [inv_le_comm₀ (Real.exp_pos 2) (by norm_num)]
        norm_num at this ⊢
        linarith
      apply Int.le_of_lt_add_one
      rw [Int.floor_lt]
      push_cast at he ⊢
      linarith
  -- it should be at least 80
  have hhigh : bell 2 0 1 ≤ v := by
    apply hg.2
    refine .inr ⟨(0, 0), by simp, hin, ?_, ?_, ?_⟩
    · rw [hi]; simp
    · rw [hj]
      have : (4 : ℕ) = (round (2 * (1 / 0.5 : ℝ))).toNat := by
        rw [show (2 * (1 / 0.5) : ℝ) = ((4 : ℤ) : ℝ) by norm_num, round_intCast]; rfl
      rw [← this]
      rw [show (((j + 1 : ℕ) : ℤ) - j) = 1 by omega]
      norm_num
    · rw [hi, hj, show ((i : ℤ) - i) = 0 by omega, show (((j + 1 : ℕ) : ℤ) - j) = 1 by omega]
      norm_num
  have : 80 ≤ bell 2 0 1 := by
    unfold bell
    rw [round_eq, Int.le_floor]
    have := Real.add_one_le_exp (-1 / 8 : ℝ)
    norm_num at this ⊢
    linarith
  omega

/-! ### C64: scores of points and of indexes -/

/-- The two scores of a cloud in the table of a target agree. -/
def ScoresAgree (target : List Pt) (step std : ℝ) : Prop :=
  ∀ t, initGrid target step std = .ok t → ∀ cloud, t.getScore cloud = t.getScoreIdx (t.toIndexes cloud)

/-- For clouds inside the box of the target the two scores agree if the indexes are moved by the border of the
table; missing: `toIndexes` does not do so. -/
theorem C64_border_partial (target : List Pt) {step std : ℝ} (hstep : 0 < step) (hs : Sharp (sigma step std)) :
    ∃ t, initGrid target step std = .ok t ∧ ∀ cloud : List Pt, (∀ p ∈ cloud, InBox target p) →
      t.getScore cloud = t.getScoreIdx (moveIndexes (t.toIndexes cloud) t.border t.border) := by
  obtain ⟨t, f, e, hb⟩ := built_of_sharp hstep hs target
  refine ⟨t, e, fun cloud hc => ?_⟩
  have hsh := hb.shape hstep
  have key : ∀ p, InBox target p → t.idxScore ((⌊(p.1 - t.minx + t.cs / 2) / t.cs⌋ + t.border,
      ⌊(-p.2 + t.maxy + t.cs / 2) / t.cs⌋ + t.border)) = t.ptScore p := by
    intro p hp
    obtain ⟨i, j, hi, hj, h1, h2, h3⟩ := hb.ptScore_in hstep hp
    rw [h3, ← hb.idxScore_in h1 h2, ← hi, ← hj]
    unfold Table.row Table.col
    have hcs : 0 < t.cs := by rw [hsh.cs]; exact hstep
    congr 2
    · congr 2; field_simp
    · congr 2; field_simp; ring
  have loop : ∀ (l : List Pt) (s : ℤ), (∀ p ∈ l, InBox target p) →
      forEach (fun s p => (t.ptScore p).map fun v => s + v) s l =
      forEach (fun s p => (t.idxScore p).map fun v => s + v) s (moveIndexes (t.toIndexes l) t.border t.border) := by
    intro l
    induction l with
    | nil => intro s _; rfl
    | cons a l ih =>
      intro s h
      have hcons : moveIndexes (t.toIndexes (a :: l)) t.border t.border =
          (⌊(a.1 - t.minx + t.cs / 2) / t.cs⌋ + (t.border : ℤ), ⌊(-a.2 + t.maxy + t.cs / 2) / t.cs⌋ + (t.border : ℤ)) ::
            moveIndexes (t.toIndexes l) t.border t.border := rfl
      rw [hcons]
      simp only [forEach]
      rw [key a (h a (by simp))]
      obtain ⟨v, hv, -⟩ := hb.ptScore hstep a
      rw [hv, Res.map_ok, Res.bind_ok, Res.bind_ok]
      exact ih _ fun p hp => h p (by simp [hp])
  unfold Table.getScore Table.getScoreIdx
  rw [loop cloud 0 hc]
  congr 2
  unfold moveIndexes Table.toIndexes
  simp

/-- The property is false: the indexes lack the border of the table. -/
theorem C64_false : ¬ ∀ (target : List Pt) (step std : ℝ), 0 < step → Sharp (sigma step std) →
    ScoresAgree target step std := by
  intro h
  have hsharp : Sharp (sigma 1 0.5) := (C63_sharp _ _).1 (by norm_num)
  have hin : InBox [(-2, -2), (0, 0), (2, 2)] (0, 0) := inBox_example two_pos
  obtain ⟨t, f, e, hb⟩ := built_of_sharp one_pos hsharp [(-2, -2), (0, 0), (2, 2)]
  have hag := h [(-2, -2), (0, 0), (2, 2)] 1 0.5 one_pos hsharp t e [(0, 0)]
  have hsh := hb.shape one_pos
  obtain ⟨i, j, hi, hj, h1, h2, h3⟩ := hb.ptScore_in one_pos hin
  obtain ⟨i', j', hi', hj', g1, g2, g3, g4, -⟩ := hsh.place ((hb.inside _).2 hin)
  have hr := (reach_bounds 1 0.5).1
  have hii : i = i' := by omega
  have hjj : j = j' := by omega
  subst hii hjj
  have hfull : f i j = 100 := by
    apply le_antisymm (hb.bounds i j).2
    apply (hb.greatest i j).2
    refine .inr ⟨i, j, ⟨(0, 0), by simp, (hb.inside _).2 hin, hi, hj⟩, by simp, by simp, ?_⟩
    rw [sub_self, sub_self, bell_zero]
  -- the place without the border
  obtain ⟨a, ha⟩ : ∃ a, i = a + reach 1 0.5 := ⟨i - reach 1 0.5, by omega⟩
  obtain ⟨b, hb'⟩ : ∃ b, j = b + reach 1 0.5 := ⟨j - reach 1 0.5, by omega⟩
  have hidx : t.toIndexes [(0, 0)] = [((b : ℤ), (a : ℤ))] := by
    unfold Table.row at hi
    unfold Table.col at hj
    rw [hsh.border] at hi hj
    unfold Table.toIndexes
    have hcs : 0 < t.cs := by rw [hsh.cs]; exact one_pos
    have e1 : ⌊((0 : ℝ) - t.minx + t.cs / 2) / t.cs⌋ = b := by
      have : ((0 : ℝ) - t.minx + t.cs / 2) / t.cs = (0 - t.minx) / t.cs + 1 / 2 := by field_simp
      rw [this]
      simp only at hj
      omega
    have e2 : ⌊(-(0 : ℝ) + t.maxy + t.cs / 2) / t.cs⌋ = a := by
      have : (-(0 : ℝ) + t.maxy + t.cs / 2) / t.cs = (t.maxy - 0) / t.cs + 1 / 2 := by field_simp; ring
      rw [this]
      simp only at hi
      omega
    simp only [List.map_cons, List.map_nil, e1, e2]
  have hless : f a b < 100 := by
    rcases (hb.greatest a b).1 with h0 | ⟨r, c, ⟨p, hp, hpin, hpr, hpc⟩, -, -, h0⟩
    · omega
    · rw [h0]
      apply bell_lt (sigma_pos _ _) hsharp
      have hp0 : p = (0, 0) := by
        have hpin := (hb.inside p).1 hpin
        simp only [List.mem_cons, List.not_mem_nil, or_false] at hp
        rcases hp with rfl | rfl | rfl
        · obtain ⟨⟨q, hq, hlt⟩, -⟩ := hpin
          simp only [List.mem_cons, List.not_mem_nil, or_false] at hq
          rcases hq with rfl | rfl | rfl | rfl <;> norm_num at hlt
        · rfl
        · obtain ⟨-, ⟨q, hq, hlt⟩, -⟩ := hpin
          simp only [List.mem_cons, List.not_mem_nil, or_false] at hq
          rcases hq with rfl | rfl | rfl | rfl <;> norm_num at hlt
      rw [hp0] at hpr hpc
      omega
  have hsc := hb.idxScore_in (i := a) (j := b) (by omega) (by omega)
  unfold Table.getScore Table.getScoreIdx at hag
  rw [hidx] at hag
  simp only [forEach, h3, hsc, Res.map_ok, Res.bind_ok, hfull, Table.ratio, hb.targets] at hag
  have := Option.some.inj (Res.ok.inj hag)
  simp only [OCCUPIED, List.length_cons, List.length_nil] at this
  norm_num at this
  have h100 : (f a b : ℝ) = 100 := by linarith
  have : f a b = 100 := by exact_mod_cast h100
  omega

/-! ### C91: candidates are scored by the moved cloud -/

/-- The score of a candidate of the search is the score of the cloud moved by the candidate. -/
def CandidateScored (t : Table) (cloud : List Pt) (q : Pose) : Prop :=
  (candidate t (t.toIndexes (rotatePointCloud cloud q.th)) q.th q.x q.y).map Voxel.score =
    movedScore t cloud (vecToMat q)

/-- The property holds for translations by whole cells. -/
theorem C91_whole_cells_partial (t : Table) (hcs : 0 < t.cs) (cloud : List Pt) (th : ℝ) (k l : ℤ) :
    CandidateScored t cloud ⟨k * t.cs, l * t.cs, th⟩ := by
  unfold CandidateScored candidate movedScore
  simp only
  rw [toIndexes_move hcs]
  cases t.getScoreIdx (t.toIndexes (cloud.map (act (vecToMat ⟨k * t.cs, l * t.cs, th⟩)))) <;> rfl

/-- The same for `moveIndexes`: rows are counted downwards. -/
theorem C91_moveIndexes (t : Table) (hcs : 0 < t.cs) (cloud : List Pt) (k l : ℤ) :
    moveIndexes (t.toIndexes cloud) k l = t.toIndexes (cloud.map fun p => (p.1 + k * t.cs, p.2 - l * t.cs)) := by
  unfold moveIndexes Table.toIndexes
  simp only [List.map_map]
  apply List.map_congr_left
  intro p _
  simp only [Function.comp, Prod.mk.injEq]
  constructor
  · rw [← Int.floor_add_intCast]
    congr 1
    field_simp
    ring
  · rw [← Int.floor_add_intCast]
    congr 1
    field_simp
    ring

/-- All candidates of the default search window are such translations. -/
theorem C91_default_window (q : Pose) (h : Candidate Params.default q) :
    ∃ k l : ℤ, q.x = k * Params.default.step ∧ q.y = l * Params.default.step := by
  obtain ⟨⟨a, ha⟩, -, ⟨b, hb⟩, -⟩ := h
  refine ⟨a - 8, b - 8, ?_, ?_⟩
  · rw [ha]; simp only [Params.default]; push_cast; ring
  · rw [hb]; simp only [Params.default]; push_cast; ring

example : Candidate Params.default ⟨-4, -3.5, -1.6⟩ :=
  ⟨⟨0, by simp [Params.default]⟩, by norm_num [Params.default], ⟨1, by norm_num [Params.default]⟩,
    by norm_num [Params.default], ⟨0, by simp [Params.default]⟩, by norm_num [Params.default]⟩

/-- The property is false for other translations: a shift by a quarter of a cell to the left moves every point by
a whole cell. -/
theorem C91_false : ¬ ∀ (target : List Pt) (step std : ℝ) (t : Table) (cloud : List Pt) (q : Pose),
    0 < step → Sharp (sigma step std) → initGrid target step std = .ok t → CandidateScored t cloud q := by
  intro h
  have hsharp : Sharp (sigma 1 0.5) := (C63_sharp _ _).1 (by norm_num)
  have hin : InBox [(-2, -2), (0, 0), (2, 2)] (0, 0) := inBox_example two_pos
  obtain ⟨t, f, e, hb⟩ := built_of_sharp one_pos hsharp [(-2, -2), (0, 0), (2, 2)]
  have hsh := hb.shape one_pos
  obtain ⟨i, j, hi, hj, g1, g2, g3, g4, -⟩ := hsh.place ((hb.inside _).2 hin)
  have hr := (reach_bounds 1 0.5).1
  have hrx : reach 1 0.5 = 1 := by
    unfold reach
    have : (2 * sigma 1 0.5 : ℝ) = ((1 : ℤ) : ℝ) := by unfold sigma; norm_num
    rw [this, round_intCast]; rfl
  have hfull : f i j = 100 := by
    apply le_antisymm (hb.bounds i j).2
    apply (hb.greatest i j).2
    refine .inr ⟨i, j, ⟨(0, 0), by simp, (hb.inside _).2 hin, hi, hj⟩, by simp, by simp, ?_⟩
    rw [sub_self, sub_self, bell_zero]
  have hless : f i (j - 1) < 100 := by
    rcases (hb.greatest i (j - 1)).1 with h0 | ⟨r, c, ⟨p, hp, hpin, hpr, hpc⟩, -, -, h0⟩
    · omega
    · rw [h0]
      apply bell_lt (sigma_pos _ _) hsharp
      have hp0 : p = (0, 0) := by
        have hpin := (hb.inside p).1 hpin
        simp only [List.mem_cons, List.not_mem_nil, or_false] at hp
        rcases hp with rfl | rfl | rfl
        · obtain ⟨⟨q, hq, hlt⟩, -⟩ := hpin
          simp only [List.mem_cons, List.not_mem_nil, or_false] at hq
          rcases hq with rfl | rfl | rfl | rfl <;> norm_num at hlt
        · rfl
        · obtain ⟨-, ⟨q, hq, hlt⟩, -⟩ := hpin
          simp only [List.mem_cons, List.not_mem_nil, or_false] at hq
          rcases hq with rfl | rfl | rfl | rfl <;> norm_num at hlt
      rw [hp0] at hpr hpc
      omega
  have hminx : t.minx = -2 := by
    obtain ⟨cells, rfl, -, -⟩ := hb
    norm_num [frame, getMinMax2D]
  have hmaxy : t.maxy = 2 := by
    obtain ⟨cells, rfl, -, -⟩ := hb
    norm_num [frame, getMinMax2D]
  have hcs := hsh.cs
  have hi3 : i = 3 := by
    unfold Table.row at hi
    rw [hsh.border, hmaxy, hcs, hrx] at hi
    norm_num at hi
    omega
  have hj3 : j = 3 := by
    unfold Table.col at hj
    rw [hsh.border, hminx, hcs, hrx] at hj
    norm_num at hj
    omega
  -- the point (1.25, -1) belongs to the index of the entry with 100
  have hc := h _ 1 0.5 t [(1.25, -1)] ⟨-0.25, 0, 0⟩ one_pos hsharp e
  have f1 : ⌊(1.25 - -2 + 1 / 2 : ℝ) / 1⌋ = 3 := by rw [Int.floor_eq_iff]; norm_num
  have f2 : ⌊(-(-1) + 2 + 1 / 2 : ℝ) / 1⌋ = 3 := by rw [Int.floor_eq_iff]; norm_num
  have f3 : ⌊(-0.25 : ℝ) / 1⌋ = -1 := by rw [Int.floor_eq_iff]; norm_num
  have f4 : ⌊(1 - -2 + 1 / 2 : ℝ) / 1⌋ = 3 := by rw [Int.floor_eq_iff]; norm_num
  have hrot : rotatePointCloud [(1.25, -1)] 0 = [(1.25, -1)] := by
    simp [rotatePointCloud]
  have hact : act (vecToMat ⟨-0.25, 0, 0⟩) (1.25, -1) = (1, -1) := by
    unfold vecToMat
    rw [act_trans]
    norm_num [toWorld]
  unfold CandidateScored candidate movedScore at hc
  simp only [hrot, List.map_cons, List.map_nil, hact, Table.toIndexes, Table.transformIndexes, hminx, hmaxy, hcs,
    f1, f2, f3, f4, zero_div, Int.floor_zero, neg_zero, add_zero] at hc
  have s1 := hb.idxScore_in (i := i) (j := j) (by omega) (by omega)
  have s2 := hb.idxScore_in (i := i) (j := j - 1) (by omega) (by omega)
  rw [hfull] at s1
  rw [hi3, hj3] at s1 s2 hless
  norm_num at s1 s2 hc hless
  unfold Table.getScoreIdx at hc
  simp only [forEach, s1, s2, Res.map_ok, Res.bind_ok, Table.ratio, hb.targets] at hc
  have := Option.some.inj (Res.ok.inj hc)
  simp only [OCCUPIED, List.length_cons, List.length_nil] at this
  norm_num at this
  have h100 : (f 3 2 : ℝ) = 100 := by linarith
  have : f 3 2 = 100 := by exact_mod_cast h100
  omega

/-! ### C62: search -/

/-- The score given to a candidate: of the rotated cloud with its indexes shifted. -/
noncomputable def searchScore (t : Table) (cloud : List Pt) (q : Pose) : Res (Option ℝ) :=
  t.getScoreIdx (t.transformIndexes (t.toIndexes (rotatePointCloud cloud q.th)) q.x q.y)

/-- For any parameters, any distribution of the rotations to threads and any order of equal scores the search
ends with a candidate of the window and no candidate has a larger score. -/
theorem C62_best_candidate_partial (par : Params) {sort : List Voxel → List Voxel} {schedule : List (List ℕ)} {n : ℕ}
    (source target : List Pt) (guess : Trans) (hstep : 0 < par.step) (hrot : 0 < par.rotStep) (hrange : 0 < par.range)
    (hrrange : 0 < par.rotRange) (hs : Sharp (sigma par.step 0.5)) (hsort : IsSort sort) (hn : RotationCount par n)
    (hsch : ValidSchedule schedule n) :
    ∃ best t s, computeTransformation par sort schedule source target guess = some (.ok (best, vecToMat best)) ∧
      Candidate par best ∧ initGrid target par.step 0.5 = .ok t ∧
      searchScore t (source.map (act guess)) best = .ok s ∧
      ∀ q, Candidate par q → ∃ s', searchScore t (source.map (act guess)) q = .ok s' ∧ ¬ Less s s' := by
  obtain ⟨t, f, e, hb⟩ := built_of_sharp hstep hs target
  obtain ⟨nr, er, hr⟩ := loopValues_some (range := par.rotRange) (start := -par.rotRange) hrot
  obtain ⟨na, ea, ha⟩ := loopValues_some (range := par.range) (start := -par.range) hstep
  have hnr : n = nr := by
    have h1 : ∀ k, k < n ↔ k < nr := fun k => (hn k).trans (hr k).symm
    have := h1 n
    have := h1 nr
    omega
  subst hnr
  obtain ⟨voxels, eg, hv⟩ := gather_ok hb (source.map (act guess))
    ((List.range na).map fun (k : ℕ) => -par.range + k * par.step)
    ((List.range n).map fun (k : ℕ) => -par.rotRange + k * par.rotStep) schedule (by simpa using hsch)
  have memR : ∀ x, x ∈ ((List.range n).map fun (k : ℕ) => -par.rotRange + k * par.rotStep) ↔
      (∃ k : ℕ, x = -par.rotRange + k * par.rotStep) ∧ x < par.rotRange := by
    intro x
    simp only [List.mem_map, List.mem_range]
    constructor
    · rintro ⟨k, hk, rfl⟩; exact ⟨⟨k, rfl⟩, (hr k).1 hk⟩
    · rintro ⟨⟨k, rfl⟩, hk⟩; exact ⟨k, (hr k).2 hk, rfl⟩
  have memA : ∀ x, x ∈ ((List.range na).map fun (k : ℕ) => -par.range + k * par.step) ↔
      (∃ k : ℕ, x = -par.range + k * par.step) ∧ x < par.range := by
    intro x
    simp only [List.mem_map, List.mem_range]
    constructor
    · rintro ⟨k, hk, rfl⟩; exact ⟨⟨k, rfl⟩, (ha k).1 hk⟩
    · rintro ⟨⟨k, rfl⟩, hk⟩; exact ⟨k, (ha k).2 hk, rfl⟩
  have memV : ∀ v : Voxel, v ∈ voxels ↔ Candidate par v.transform ∧
      searchScore t (source.map (act guess)) v.transform = .ok v.score := by
    intro v
    rw [hv, memR, memA, memA]
    unfold Candidate searchScore
    tauto
  obtain ⟨hperm, hpair⟩ := hsort voxels
  -- the window is not empty
  have hsc : ∀ q, ∃ s, searchScore t (source.map (act guess)) q = .ok s := fun q => hb.getScoreIdx_ok _
  have hne : sort voxels ≠ [] := by
    obtain ⟨s, hs0⟩ := hsc ⟨-par.range, -par.range, -par.rotRange⟩
    have : (⟨⟨-par.range, -par.range, -par.rotRange⟩, s⟩ : Voxel) ∈ voxels := by
      rw [memV]
      refine ⟨⟨⟨0, by simp⟩, by simp only; linarith, ⟨0, by simp⟩, by simp only; linarith, ⟨0, by simp⟩,
        by simp only; linarith⟩, hs0⟩
    intro h0
    have h1 := hperm.mem_iff.2 this
    rw [h0] at h1
    simp at h1
  refine ⟨((sort voxels).getLast hne).transform, t, ((sort voxels).getLast hne).score, ?_, ?_, e, ?_, ?_⟩
  · unfold computeTransformation
    rw [er, ea]
    simp only
    rw [e, Res.bind_ok, eg, Res.bind_ok, List.getLast?_eq_getLast_of_ne_nil hne]
  · exact ((memV _).1 (hperm.mem_iff.1 (List.getLast_mem hne))).1
  · exact ((memV _).1 (hperm.mem_iff.1 (List.getLast_mem hne))).2
  · intro q hq
    obtain ⟨s', hs'⟩ := hsc q
    refine ⟨s', hs', ?_⟩
    have hmem : (⟨q, s'⟩ : Voxel) ∈ sort voxels := hperm.mem_iff.2 ((memV _).2 ⟨hq, hs'⟩)
    have hlast := List.dropLast_append_getLast hne
    rw [← hlast] at hmem hpair
    rcases List.mem_append.1 hmem with h1 | h1
    · exact (List.pairwise_append.1 hpair).2.2 _ h1 _ (by simp)
    · rw [List.mem_singleton] at h1
      rw [← h1]
      rintro ⟨x, y, hx, hy, hxy⟩
      simp only at hx hy
      rw [hx] at hy
      cases hy
      exact lt_irrefl _ hxy

/-- If the range is a number of steps, the score of a candidate is the score of the source moved by the guess and
the candidate. -/
theorem C62_best_motion_partial (par : Params) {sort : List Voxel → List Voxel} {schedule : List (List ℕ)} {n : ℕ}
    (source target : List Pt) {guess : Trans} (hg : IsRigid guess) (hstep : 0 < par.step) (hrot : 0 < par.rotStep)
    (hrange : 0 < par.range) (hrrange : 0 < par.rotRange) (hs : Sharp (sigma par.step 0.5)) (hsort : IsSort sort)
    (hn : RotationCount par n) (hsch : ValidSchedule schedule n) (hk : ∃ k : ℤ, par.range = k * par.step) :
    ∃ best t s, computeTransformation par sort schedule source target guess = some (.ok (best, vecToMat best)) ∧
      Candidate par best ∧ initGrid target par.step 0.5 = .ok t ∧
      movedScore t source (vecToMat best * guess) = .ok s ∧
      ∀ q, Candidate par q → ∃ s', movedScore t source (vecToMat q * guess) = .ok s' ∧ ¬ Less s s' := by
  obtain ⟨best, t, s, h1, h2, h3, h4, h5⟩ := C62_best_candidate_partial par source target guess hstep hrot hrange hrrange
    hs hsort hn hsch
  obtain ⟨k, hk⟩ := hk
  have hcs : t.cs = par.step := by
    obtain ⟨t', f, e, hb⟩ := built_of_sharp hstep hs target
    rw [h3] at e
    cases e
    exact (hb.shape hstep).cs
  have key : ∀ q, Candidate par q →
      searchScore t (source.map (act guess)) q = movedScore t source (vecToMat q * guess) := by
    rintro ⟨x, y, th⟩ ⟨⟨a, ha⟩, -, ⟨b, hb⟩, -⟩
    simp only at ha hb
    have hx : x = ((a - k : ℤ) : ℝ) * t.cs := by rw [ha, hk, hcs]; push_cast; ring
    have hy : y = ((b - k : ℤ) : ℝ) * t.cs := by rw [hb, hk, hcs]; push_cast; ring
    unfold searchScore movedScore
    simp only
    rw [hx, hy, toIndexes_move (by rw [hcs]; exact hstep), List.map_map]
    congr 3
    funext p
    exact (act_mul (getTransFromPose_rigid _) hg p).symm
  refine ⟨best, t, s, h1, h2, h3, by rw [← key best h2]; exact h4, fun q hq => ?_⟩
  rw [← key q hq]
  exact h5 q hq

/-- The result combined with the guess: moved by it the source has the largest score of the window. -/
def SearchResult (par : Params) (source target : List Pt) (guess : Trans) (r : Option (Res (Pose × Trans))) : Prop :=
  ∃ best t s final, r = some (.ok (best, final)) ∧ Candidate par best ∧ final = vecToMat best * guess ∧
    initGrid target par.step 0.5 = .ok t ∧ movedScore t source final = .ok s ∧
    ∀ q, Candidate par q → ∃ s', movedScore t source (vecToMat q * guess) = .ok s' ∧ ¬ Less s s'

/-- The full property without a guess (identity). -/
theorem C62_no_guess_partial (par : Params) {sort : List Voxel → List Voxel} {schedule : List (List ℕ)} {n : ℕ}
    (source target : List Pt) (hstep : 0 < par.step) (hrot : 0 < par.rotStep)
    (hrange : 0 < par.range) (hrrange : 0 < par.rotRange) (hs : Sharp (sigma par.step 0.5)) (hsort : IsSort sort)
    (hn : RotationCount par n) (hsch : ValidSchedule schedule n) (hk : ∃ k : ℤ, par.range = k * par.step) :
    SearchResult par source target 1 (computeTransformation par sort schedule source target 1) := by
  have h1 : IsRigid 1 := by
    refine ⟨?_, ?_, by simp, by simp, by simp⟩
    · ext i j; fin_cases i <;> fin_cases j <;> simp [linear, Matrix.mul_apply]
    · simp [linear, Matrix.det_fin_two]
  obtain ⟨best, t, s, h1, h2, h3, h4, h5⟩ := C62_best_motion_partial par source target h1 hstep hrot hrange hrrange
    hs hsort hn hsch hk
  exact ⟨best, t, s, vecToMat best, h1, h2, (mul_one _).symm, h3, by rw [mul_one] at h4; exact h4, h5⟩

/-- An empty window is undefined behaviour: the last element of an empty list is taken. -/
theorem C62_empty_window (par : Params) {sort : List Voxel → List Voxel} {schedule : List (List ℕ)}
    (source target : List Pt) (guess : Trans) (hstep : 0 < par.step) (hs : Sharp (sigma par.step 0.5))
    (hsort : IsSort sort) (h : par.rotRange ≤ 0 ∧ schedule.flatten = []) :
    computeTransformation par sort schedule source target guess = some (.ub .emptyContainer) := by
  obtain ⟨t, f, e, hb⟩ := built_of_sharp hstep hs target
  obtain ⟨na, ea, ha⟩ := loopValues_some (range := par.range) (start := -par.range) hstep
  have er : loopValues par.rotRange par.rotStep (-par.rotRange) = some [] := by
    unfold loopValues
    rw [if_neg (by linarith [h.1])]
  have hsort0 : sort [] = [] := List.perm_nil.1 (hsort []).1
  unfold computeTransformation
  rw [er, ea]
  simp only
  rw [e, Res.bind_ok]
  unfold gather
  rw [h.2]
  simp [forEach, hsort0]

/-- A step that is not positive never ends. -/
theorem C62_no_step (par : Params) (sort : List Voxel → List Voxel) (schedule : List (List ℕ)) (source target : List Pt)
    (guess : Trans) (h : (par.step ≤ 0 ∧ 0 < par.range) ∨ (par.rotStep ≤ 0 ∧ 0 < par.rotRange)) :
    computeTransformation par sort schedule source target guess = none := by
  unfold computeTransformation
  rcases h with ⟨h1, h2⟩ | ⟨h1, h2⟩
  · have : loopValues par.range par.step (-par.range) = none := by
      unfold loopValues
      rw [if_pos (by linarith), if_neg (by linarith)]
    rw [this]
    cases loopValues par.rotRange par.rotStep (-par.rotRange) <;> rfl
  · have : loopValues par.rotRange par.rotStep (-par.rotRange) = none := by
      unfold loopValues
      rw [if_pos (by linarith), if_neg (by linarith)]
    rw [this]

/-- Score of a voxel in an order with NaN below all numbers. -/
def Voxel.rank (v : Voxel) : WithBot ℝ :=
  match v.score with
  | none => ⊥
  | some x => (x : WithBot ℝ)

open Classical in
/-- A sort as assumed: by score, NaN first. -/
noncomputable def sortVoxels (l : List Voxel) : List Voxel :=
  l.mergeSort fun a b => decide (a.rank ≤ b.rank)

open Classical in
theorem isSort_sortVoxels : IsSort sortVoxels := by
  intro l
  refine ⟨List.mergeSort_perm _ _, ?_⟩
  have h := List.pairwise_mergeSort (le := fun a b : Voxel => decide (a.rank ≤ b.rank))
    (by intro a b c h1 h2; simp only [decide_eq_true_eq] at *; exact h1.trans h2)
    (by intro a b; simp only [Bool.or_eq_true, decide_eq_true_eq]; exact le_total _ _) l
  refine h.imp ?_
  intro a b hab
  rw [decide_eq_true_eq] at hab
  rintro ⟨x, y, hx, hy, hxy⟩
  unfold Voxel.rank at hab
  rw [hx, hy] at hab
  exact absurd (WithBot.coe_le_coe.1 hab) (not_le.2 hxy)

theorem rotationCount_exists (par : Params) (h : 0 < par.rotStep) : ∃ n, RotationCount par n := by
  obtain ⟨n, -, hn⟩ := loopValues_some (range := par.rotRange) (start := -par.rotRange) h
  exact ⟨n, hn⟩

/-- The hypotheses can be met for the parameters of the constructor, with two threads taking even and odd
rotations. -/
example : ∃ sort schedule n, 0 < Params.default.step ∧ 0 < Params.default.rotStep ∧ 0 < Params.default.range ∧
    0 < Params.default.rotRange ∧ Sharp (sigma Params.default.step 0.5) ∧ IsSort sort ∧ RotationCount Params.default n ∧
    ValidSchedule schedule n ∧ ∃ k : ℤ, Params.default.range = k * Params.default.step := by
  obtain ⟨n, hn⟩ := rotationCount_exists Params.default (by norm_num [Params.default])
  refine ⟨_, [(List.range n).filter (· % 2 = 0), (List.range n).filter fun k => !decide (k % 2 = 0)], n,
    by norm_num [Params.default], by norm_num [Params.default], by norm_num [Params.default],
    by norm_num [Params.default], (C63_sharp _ _).1 (by norm_num [Params.default]), isSort_sortVoxels, hn, ?_, 8,
    by norm_num [Params.default]⟩
  unfold ValidSchedule
  simp only [List.flatten_cons, List.flatten_nil, List.append_nil]
  exact List.filter_append_perm _ _

/-- The property is false: the guess is lost. -/
theorem C62_false : ¬ ∀ (par : Params) (sort : List Voxel → List Voxel) (schedule : List (List ℕ)) (n : ℕ)
    (source target : List Pt) (guess : Trans), IsRigid guess → 0 < par.step → 0 < par.rotStep → 0 < par.range →
    0 < par.rotRange → Sharp (sigma par.step 0.5) → IsSort sort → RotationCount par n → ValidSchedule schedule n →
    (∃ k : ℤ, par.range = k * par.step) →
    SearchResult par source target guess (computeTransformation par sort schedule source target guess) := by
  intro h
  obtain ⟨n, hn⟩ := rotationCount_exists Params.default (by norm_num [Params.default])
  have h1 : (0 : ℝ) < Params.default.step := by norm_num [Params.default]
  have h2 : (0 : ℝ) < Params.default.rotStep := by norm_num [Params.default]
  have h3 : (0 : ℝ) < Params.default.range := by norm_num [Params.default]
  have h4 : (0 : ℝ) < Params.default.rotRange := by norm_num [Params.default]
  have hsharp : Sharp (sigma Params.default.step 0.5) := (C63_sharp _ _).1 (by norm_num [Params.default])
  have hsch : ValidSchedule [List.range n] n := by unfold ValidSchedule; simp
  obtain ⟨best, t, s, final, e, -, ef, -⟩ := h Params.default sortVoxels [List.range n] n [(1, 1)] [(2, 2)]
    (getTransFromPose ⟨1, 0, 0⟩) (getTransFromPose_rigid _) h1 h2 h3 h4 hsharp isSort_sortVoxels hn hsch
    ⟨8, by norm_num [Params.default]⟩
  obtain ⟨best', t', s', e', -⟩ := C62_best_candidate_partial Params.default [(1, 1)] [(2, 2)]
    (getTransFromPose ⟨1, 0, 0⟩) h1 h2 h3 h4 hsharp isSort_sortVoxels hn hsch
  rw [e] at e'
  have e2 := Res.ok.inj (Option.some.inj e')
  simp only [Prod.mk.injEq] at e2
  obtain ⟨hbb, hff⟩ := e2
  rw [hff, ← hbb] at ef
  have hinv := trans_inv_mul best
  have h5 : getTransFromPose ⟨1, 0, 0⟩ = 1 := by
    have := congrArg (fun m => (getTransFromPose best)⁻¹ * m) ef
    simp only [vecToMat] at this
    rw [← mul_assoc, hinv, one_mul] at this
    exact this.symm
  have h6 := congrFun (congrFun h5 0) 2
  simp [getTransFromPose] at h6

end Verif.Corr
