import Verif.NDTGrid.Machine
import Verif.NDTGrid.Real

/-
Property C164.
-/
namespace Verif.NDTGrid.Machine

open Verif Verif.Voxel Verif.NDTGrid

set_option linter.unusedSectionVars false

variable {K : Type v} [Field K] [LinearOrder K] [IsStrictOrderedRing K] [FloorRing K] {γ : Type u}

/-- C164, for any cell type with `MeansWithin`.  Partial: what is handed over lies within 2^30 cells, moves are shorter
than 2^31 cells, and fewer than 2^63 cells and points are handed over in all (`C164_false_*`). -/
theorem C164_run_partial {I : CellI K γ} (hI : MeansWithin I) (mem : ℕ) (ox oy th : K) {cs : K} (hcs : 0 < cs)
    (hist : List (Call K γ)) (hn : (hist.map Call.size).sum < 2 ^ 63) (hm : ∀ c ∈ hist, Moderate I cs c) :
    execAll I mem (init I ox oy th cs) hist = runAll I (init I ox oy th cs) hist ∨
    execAll I mem (init I ox oy th cs) hist = .throw .badAlloc :=
  (execAll_same hI mem hist (init_good I ox oy th hcs) (by omega) hm).1

/-- Means of numbers stay within a bound on the numbers. -/
theorem abs_mean_le {α : Type*} (f : α → ℝ) {r : ℝ} (hr : 0 ≤ r) (l : List α) (h : ∀ p ∈ l, |f p| ≤ r) :
    |1 / (l.length : ℝ) * (l.map f).sum| ≤ r := by
  have hs : ∀ l : List α, (∀ p ∈ l, |f p| ≤ r) → |(l.map f).sum| ≤ l.length * r := by
    intro l
    induction l with
    | nil => intro _; simp
    | cons a l ih =>
      intro h
      rw [List.map_cons, List.sum_cons, List.length_cons]
      have h1 := h a List.mem_cons_self
      have h2 := ih fun p hp => h p (List.mem_cons_of_mem _ hp)
      have h3 := abs_add_le (f a) (l.map f).sum
      push_cast
      linarith
  rcases Nat.eq_zero_or_pos l.length with h0 | h0
  · rw [h0]; simpa using hr
  · have h1 : (0 : ℝ) < l.length := by exact_mod_cast h0
    rw [abs_mul, abs_of_pos (by positivity), one_div, inv_mul_le_iff₀ h1]
    exact hs l h

theorem sum_apply (l : List NDT.Vec) (i : Fin 3) : l.sum i = (l.map fun p => p i).sum := by
  induction l with
  | nil => rfl
  | cons a l ih => rw [List.sum_cons, List.map_cons, List.sum_cons, ← ih]; rfl

theorem cell_meansWithin (eig : NDT.Eig) : MeansWithin (cellI eig) := by
  intro ps r hr h
  have key : ∀ i : Fin 3, (∀ p ∈ ps, |p i| ≤ r) → |(cellOf (cellI eig) ps).mean i| ≤ r := by
    intro i hi
    have e : cellOf (cellI eig) ps = NDT.computeGaussian eig { NDT.init with pending := ps } := by
      show NDT.computeGaussian eig (ps.foldl NDT.addPoint NDT.init) = _
      rw [fold_addPoint]
      simp [NDT.init]
    have h0 : |NDT.init.mean i| ≤ r := by
      have : NDT.init.mean i = 0 := rfl
      rw [this, abs_zero]; exact hr
    rw [e]
    unfold NDT.computeGaussian
    simp only
    split_ifs with h1 h2 h3
    · exact h0
    · exact h0
    · show |NDT.batchMean ps i| ≤ r
      unfold NDT.batchMean
      rw [Pi.smul_apply, sum_apply, smul_eq_mul]
      exact abs_mean_le (fun p : NDT.Vec => p i) hr ps hi
    · exact absurd rfl h3
  exact ⟨key 0 fun p hp => (h p hp).1, key 1 fun p hp => (h p hp).2⟩

/-- C164 for the map of the program, `NDTGrid2D<NDTCell, ..>`; partial as above. -/
theorem C164_ndt_partial (eig : NDT.Eig) (mem : ℕ) (ox oy th : ℝ) {cs : ℝ} (hcs : 0 < cs)
    (hist : List (Call ℝ NDT.Cell)) (hn : (hist.map Call.size).sum < 2 ^ 63)
    (hm : ∀ c ∈ hist, Moderate (cellI eig) cs c) :
    execAll (cellI eig) mem (init (cellI eig) ox oy th cs) hist = runAll (cellI eig) (init (cellI eig) ox oy th cs) hist ∨
    execAll (cellI eig) mem (init (cellI eig) ox oy th cs) hist = .throw .badAlloc :=
  C164_run_partial (cell_meansWithin eig) mem ox oy th hcs hist hn hm

/-- A history that meets the hypotheses: a scan, a cell merged while tracing, a move. -/
example (eig : NDT.Eig) : let hist : List (Call ℝ NDT.Cell) :=
      [.scan [![1, 2, 0], ![-3, 4, 0]] true, .op (.mergeTraced 0 0 [{ NDT.init with mean := ![5, 6, 0] }] false),
        .op (.move 7 (-8))]
    (hist.map Call.size).sum < 2 ^ 63 ∧ ∀ c ∈ hist, Moderate (cellI eig) (1 / 4) c := by
  refine ⟨by simp [Call.size], ?_⟩
  intro c hc
  simp only [List.mem_cons, List.not_mem_nil, or_false] at hc
  rcases hc with rfl | rfl | rfl
  · intro p hp
    simp only [List.mem_cons, List.not_mem_nil, or_false] at hp
    rcases hp with rfl | rfl <;> norm_num [Within, head, abs_le]
  · intro c hc
    simp only [List.mem_cons, List.not_mem_nil, or_false] at hc
    subst hc
    norm_num [Within, head, cellI, abs_le]
  · norm_num [Moderate, abs_lt]

theorem axisSteps_mul {cs : K} (hcs : 0 < cs) (z : ℤ) (hz : z ≠ 0) : axisSteps cs (z * cs) = z := by
  have h1 : (z * cs : K) / cs = z := by field_simp
  have h2 : |(z * cs : K)| / cs = (|z| : ℤ) := by
    rw [abs_mul, abs_of_pos hcs]; push_cast; field_simp
  unfold axisSteps
  rw [h1, h2, Int.floor_intCast, if_pos (abs_pos.2 hz), Int.ceil_intCast, Int.floor_intCast, ite_self]

/-- Negation of C164 for moves: 2^31 cells to the right do not fit into an `int`, and 2^31 cells to the left fit but
their negation does not.  With unbounded integers both moves succeed. -/
theorem C164_false_move (I : CellI K γ) (mem : ℕ) (ox oy : K) {cs : K} (hcs : 0 < cs) :
    exec I mem (init I ox oy 0 cs) (.op (.move (2 ^ 31 * cs) 0)) = .ub .badCast ∧
    exec I mem (init I ox oy 0 cs) (.op (.move (-2 ^ 31 * cs) 0)) = .ub .overflow ∧
    (∃ n, Call.run I (init I ox oy 0 cs) (.op (.move (2 ^ 31 * cs) 0)) = .ok n) ∧
    ∃ n, Call.run I (init I ox oy 0 cs) (.op (.move (-2 ^ 31 * cs) 0)) = .ok n := by
  have hg : (init I ox oy 0 cs).grid.cellSize = cs := rfl
  have a1 : axisSteps cs (2 ^ 31 * cs) = 2 ^ 31 := by
    have := axisSteps_mul hcs (2 ^ 31) (by norm_num)
    norm_num at this ⊢
    exact this
  have a2 : axisSteps cs (-2 ^ 31 * cs) = -2 ^ 31 := by
    have := axisSteps_mul hcs (-2 ^ 31) (by norm_num)
    norm_num at this ⊢
    exact this
  have a0 : axisSteps cs 0 = 0 := by unfold axisSteps; simp
  have hth : ¬ |(init I ox oy 0 cs).th| > 1 / 10000000 := by
    show ¬ |(0 : K)| > _
    rw [abs_zero]; norm_num
  have hex : ∀ tx : K, ∃ n, Call.run I (init I ox oy 0 cs) (.op (.move tx 0)) = .ok n := by
    intro tx
    obtain ⟨r, n', mx, my, moved, h, -⟩ := move_spec I (init_wf I ox oy 0 cs) hcs (not_lt.1 hth) tx 0
    refine ⟨n', ?_⟩
    show (NDTGrid.move I _ tx 0).map Prod.snd = .ok _
    rw [h]
    rfl
  refine ⟨?_, ?_, hex _, hex _⟩
  · show (move I mem _ _ _).map Prod.snd = _
    unfold move
    rw [if_neg hth, hg, if_neg (fun h => hcs.ne' h.1)]
    simp only [a1]
    rfl
  · show (move I mem _ _ _).map Prod.snd = _
    unfold move
    rw [if_neg hth, hg, if_neg (fun h => hcs.ne' h.1)]
    simp only [a2, a0]
    have hc : 0 < ⌊|(-2 ^ 31 * cs : K)| / cs⌋ := by
      have : |(-2 ^ 31 * cs : K)| / cs = ((2 ^ 31 : ℤ) : K) := by
        rw [abs_mul, abs_of_pos hcs, abs_neg, abs_of_pos (by positivity)]
        push_cast
        field_simp
        norm_num
      rw [this, Int.floor_intCast]
      norm_num
    have e1 : toInt (-2 ^ 31) = .ok (-2 ^ 31) := by decide +kernel
    have e2 : toInt 0 = .ok 0 := by decide +kernel
    have e3 : Voxel.Machine.int (-(-2 ^ 31)) = .ub .overflow := by decide +kernel
    rw [e1, e2, Res.bind_ok, Res.bind_ok, if_pos (.inl hc), e3]
    rfl

/-- Negation of C164 for distances: merging a cell whose mean lies 2^32 - 1 cells to the right of and above the origin
makes the number of cells wrap to zero, whatever the memory, and a cell is written past the end of the storage; with
unbounded integers the merge succeeds. -/
theorem C164_false_far (I : CellI K γ) (mem : ℕ) (ox oy th : K) {cs : K} (hcs : 0 < cs) {c : γ}
    (hc : head (I.mean c) = ((2 ^ 32 - 1) * cs, (2 ^ 32 - 1) * cs)) :
    exec I mem (init I ox oy th cs) (.op (.mergeCells [c] true)) = .ub .outOfBounds ∧
    ∃ n, Call.run I (init I ox oy th cs) (.op (.mergeCells [c] true)) = .ok n := by
  have hpos : (0 : K) < (2 ^ 32 - 1) * cs := by
    have : (0 : K) < 2 ^ 32 - 1 := by norm_num
    positivity
  have hb : minMax [head (I.mean c)] = ⟨0, 0, (2 ^ 32 - 1) * cs, (2 ^ 32 - 1) * cs⟩ := by
    rw [hc]
    unfold minMax
    simp only [List.foldl_cons, List.foldl_nil, boundsStep]
    rw [if_neg (not_lt.2 hpos.le), if_pos hpos]
  constructor
  · have hceil : ⌈((2 ^ 32 - 1) * cs - ((0 : ℕ) * cs + cs / 2) : K) / cs⌉ = 2 ^ 32 - 1 := by
      have : ((2 ^ 32 - 1) * cs - ((0 : ℕ) * cs + cs / 2) : K) / cs = 2 ^ 32 - 1 - 1 / 2 := by
        field_simp; push_cast; ring
      rw [this, Int.ceil_eq_iff]
      norm_num
    have hg : (init I ox oy th cs).grid = (⟨cs, 0, 0, 0, 0, 1, [some I.default]⟩ : Grid K γ) := rfl
    show mergeCells I mem (init I ox oy th cs) [c] true = _
    unfold mergeCells
    rw [if_pos (by rfl)]
    simp only [List.map_cons, List.map_nil, hb]
    have hl : Voxel.Machine.calcIncLeft (⟨cs, 0, 0, 0, 0, 1, [some I.default]⟩ : Grid K γ) 0 = .ok 0 := by
      unfold Voxel.Machine.calcIncLeft
      rw [if_neg]
      simp only [Grid.half, Nat.cast_zero, neg_zero, zero_mul, zero_sub]
      intro h; linarith
    have hd : Voxel.Machine.calcIncDown (⟨cs, 0, 0, 0, 0, 1, [some I.default]⟩ : Grid K γ) 0 = .ok 0 := by
      unfold Voxel.Machine.calcIncDown
      rw [if_neg]
      simp only [Grid.half, Nat.cast_zero, neg_zero, zero_mul, zero_sub]
      intro h; linarith
    have hlt : ((0 : ℕ) * cs + cs / 2 : K) < (2 ^ 32 - 1) * cs := by push_cast; linarith
    have hr : Voxel.Machine.calcIncRight (⟨cs, 0, 0, 0, 0, 1, [some I.default]⟩ : Grid K γ) ((2 ^ 32 - 1) * cs)
        = .ok (2 ^ 32 - 1) := by
      unfold Voxel.Machine.calcIncRight
      rw [if_pos (by exact hlt), if_neg (by exact hcs.ne')]
      simp only [Grid.half]
      rw [hceil]; rfl
    have hu : Voxel.Machine.calcIncUp (⟨cs, 0, 0, 0, 0, 1, [some I.default]⟩ : Grid K γ) ((2 ^ 32 - 1) * cs)
        = .ok (2 ^ 32 - 1) := by
      unfold Voxel.Machine.calcIncUp
      rw [if_pos (by exact hlt), if_neg (by exact hcs.ne')]
      simp only [Grid.half]
      rw [hceil]; rfl
    rw [hg]
    unfold Voxel.Machine.enlarge
    rw [hl, hr, hu, hd]
    simp only [Res.bind_ok]
    have : Voxel.Machine.enlargeGrid mem (⟨cs, 0, 0, 0, 0, 1, [some I.default]⟩ : Grid K γ) 0 (2 ^ 32 - 1) (2 ^ 32 - 1) 0
        = .ub .outOfBounds := by
      unfold Voxel.Machine.enlargeGrid
      simp [Voxel.Machine.width, Voxel.Machine.height, Voxel.Machine.add64, Voxel.Machine.mul64, Voxel.Machine.loop,
        Voxel.Machine.enlargeStep, writeSlot, Voxel.Machine.newIndex, List.range_succ]
    rw [this]; rfl
  · obtain ⟨g1, h1, gr, -⟩ := enlarge_spec (init_wf I ox oy th cs) hcs 0 0 ((2 ^ 32 - 1) * cs) ((2 ^ 32 - 1) * cs)
    have hcs1 : g1.cellSize = cs := gr.cs
    obtain ⟨g2, h2, -⟩ := addCell_spec I.toCellOps gr.wf (by rw [hcs1]; exact hcs) (p := head (I.mean c)) (by
      rw [hc]
      rintro (⟨k, hk⟩ | ⟨k, hk⟩)
      · rw [hcs1] at hk
        have : ((2 * (2 ^ 32 - 1) : ℕ) : K) = ((2 * (g1.right + k) + 1 : ℕ) : K) := by
          have := mul_right_cancel₀ hcs.ne' hk
          push_cast [Nat.cast_sub]
          linarith
        have := Nat.cast_injective this
        omega
      · rw [hcs1] at hk
        have h3 : (0 : K) ≤ (g1.down + k + 1 / 2) * cs := by positivity
        linarith) c false
    show ∃ n, NDTGrid.mergeCells I (init I ox oy th cs) [c] true = .ok n
    unfold NDTGrid.mergeCells
    rw [if_pos (by rfl)]
    simp only [List.map_cons, List.map_nil, hb]
    rw [h1, Res.bind_ok]
    unfold NDTGrid.overwriteAll
    split_ifs
    · rw [h2]; exact ⟨_, rfl⟩
    · exact ⟨_, rfl⟩

end Verif.NDTGrid.Machine
