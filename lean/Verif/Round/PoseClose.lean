import Verif.Round.PoseRun

/- Property C147 for runs in which loops are closed: the optimiser moves the last node, and the pose of the robot
is computed anew from the place where the optimiser put it. -/
namespace Verif.Round

open Verif Verif.Geo

/-- What happens in an update: the frame stays, a new frame is started, or a new frame is started and the optimiser
has put the node of the old one at `p`. -/
inductive Event where
  | stay
  | frame
  | closed (p : Pose)

/-- `updateGraph`, ndt_slam_algorithm.h:294-357.  After the insertion of the node and a possible optimisation
(lines 315-331) the pose of the node is read from the graph (line 333) and the position computed from it. -/
noncomputable def Track.next (F : Fmt ℝ) (ang : Trans → ℝ) (s : Track) (increase : Trans) (e : Event) : Track :=
  let temp := mulT F s.temp increase
  let restart (node : Pose) : Track :=
    let position := mulT F (transOf F node) temp
    ⟨poseOf ang position, 1, position⟩
  match e with
  | .stay => ⟨s.origin, temp, mulT F s.position increase⟩
  | .frame => restart s.origin
  | .closed p => restart p

/-- An update: the computed increment, the motion that it stands for, and what happens. -/
structure Step where
  inc : Trans
  motion : Pose
  event : Event

/-- A run. -/
noncomputable def Track.run (F : Fmt ℝ) (ang : Trans → ℝ) (s : Track) (xs : List Step) : Track :=
  xs.foldl (fun s x => s.next F ang x.inc x.event) s

/-- The specification, in exact arithmetic: the pose of the last node and the motion since then. -/
noncomputable def Step.exact (ol : Pose × Pose) (x : Step) : Pose × Pose :=
  match x.event with
  | .stay => (ol.1, comp ol.2 x.motion)
  | .frame => (comp ol.1 (comp ol.2 x.motion), ⟨0, 0, 0⟩)
  | .closed p => (comp p (comp ol.2 x.motion), ⟨0, 0, 0⟩)

/-- The exact pose of the robot after a run: the motions since the last closed loop, composed from where the
optimiser put the last node then. -/
noncomputable def exactPose (xs : List Step) : Pose :=
  let ol := xs.foldl Step.exact (⟨0, 0, 0⟩, ⟨0, 0, 0⟩)
  comp ol.1 ol.2

/-- Without closed loops `Track.next` is `Track.update`. -/
theorem Track.update_next (F : Fmt ℝ) (ang : Trans → ℝ) (far : Trans → Bool) (s : Track) (inc : Trans) :
    s.update F ang far inc = s.next F ang inc (if far (mulT F s.temp inc) then .frame else .stay) := by
  unfold Track.update Track.next
  by_cases h : far (mulT F s.temp inc) = true <;> simp [h]

/-- Without closed loops the exact pose is the composition of all motions. -/
theorem exactPose_open (xs : List Step) (h : ∀ x ∈ xs, ∀ p, x.event ≠ .closed p) :
    exactPose xs = (xs.map Step.motion).foldl comp ⟨0, 0, 0⟩ := by
  unfold exactPose
  induction xs using List.reverseRecOn with
  | nil => exact comp_zero _
  | append_singleton xs x ih =>
    have ih := ih fun y hy => h y (by simp [hy])
    simp only at ih ⊢
    rw [List.foldl_append, List.map_append, List.foldl_append, ← ih]
    generalize xs.foldl Step.exact (⟨0, 0, 0⟩, ⟨0, 0, 0⟩) = ol
    have hx := h x (by simp)
    simp only [List.foldl_cons, List.foldl_nil, List.map_cons, List.map_nil, Step.exact]
    cases he : x.event with
    | stay => exact (comp_assoc _ _ _).symm
    | frame => simp only; rw [comp_zero, comp_assoc]
    | closed p => exact absurd he (hx p)

section
variable {F : Fmt ℝ} {ang : Trans → ℝ} {v ω ρ S τ : ℝ} {M : ℕ} (hE : Errors F ang v ω ρ)
  (hτ : 0 ≤ τ) (hS : 0 ≤ S)
  (hκ : (2 * M + 2) * kap v ω ≤ 1 / 4)
  (hσ : 6 * ((M + 1) * eta v ω ρ * S) + 6 * τ ≤ S)

include hE hτ hS hκ hσ

/-- One update. -/
theorem next_inv {N j : ℕ} {s : Track} {ol : Pose × Pose} {x : Step}
    (h : Inv (kap v ω) ρ S τ ((M + 1) * eta v ω ρ * S) N j s ol.1 ol.2) (hN : N + 1 ≤ M)
    (ht : Near ω τ x.inc x.motion) (hm : |x.motion.x| + |x.motion.y| ≤ S)
    (hc : ∀ p, x.event = .closed p → |(comp p (comp ol.2 x.motion)).x| ≤ (N + 1) * S ∧
      |(comp p (comp ol.2 x.motion)).y| ≤ (N + 1) * S) :
    ∃ j', Inv (kap v ω) ρ S τ ((M + 1) * eta v ω ρ * S) (N + 1) j' (s.next F ang x.inc x.event)
      (x.exact ol).1 (x.exact ol).2 := by
  have C : Consts v ω ρ S τ (kap v ω) ((M + 1) * eta v ω ρ * S) M :=
    ⟨hE.v_nonneg, hE.v_le, hE.ρ_nonneg, hτ, hS, by have := hE.ω_nonneg; unfold kap; linarith, rfl,
      by exact_mod_cast (by omega : 1 ≤ M), rfl, hκ, hσ⟩
  have h1 := stay_inv C hE.double h hN ht hm
  unfold Track.next Step.exact
  cases he : x.event with
  | stay => exact ⟨j + 1, h1⟩
  | frame => exact ⟨0, frame_inv C hE.double hE.angle h1 (by omega) (by omega)⟩
  | closed p =>
    obtain ⟨c1, c2⟩ := hc p he
    have κ0 := C.κ0
    have ρ0 := C.ρ0
    have A0 := C.A0
    have hj : ((j + 1 : ℕ) : ℝ) ≤ ((N + 1 : ℕ) : ℝ) := by have := h.le; exact_mod_cast (by omega : j + 1 ≤ N + 1)
    have e : ((N + 1 : ℕ) : ℝ) = N + 1 := by push_cast; ring
    have hn : (0 : ℝ) ≤ ((N + 1 : ℕ) : ℝ) := Nat.cast_nonneg _
    have z : Inv (kap v ω) ρ S τ ((M + 1) * eta v ω ρ * S) (N + 1) (j + 1)
        ⟨p, mulT F s.temp x.inc, getTransFromPose (comp p (comp ol.2 x.motion))⟩ p (comp ol.2 x.motion) := by
      refine ⟨h1.le, h1.temp, h1.temp_x, h1.temp_y, h1.len_x, h1.len_y, ⟨p.th, ?_, rfl⟩, ?_, ?_,
        ⟨(comp p (comp ol.2 x.motion)).th, ?_, ?_⟩, ?_, ?_, ?_, ?_⟩
      · rw [sub_self, abs_zero]
        exact mul_nonneg (by linarith) (by linarith)
      · rw [sub_self, abs_zero]
        exact mul_nonneg (by linarith) (by linarith)
      · rw [sub_self, abs_zero]
        exact mul_nonneg (by linarith) (by linarith)
      · rw [sub_self, abs_zero]
        exact mul_nonneg hn (by linarith)
      · intro i
        have : row (getTransFromPose (comp p (comp ol.2 x.motion))) i - rot (comp p (comp ol.2 x.motion)).th i = 0 := by
          rw [sub_eq_zero]
          fin_cases i <;> apply Complex.ext <;> simp [row, rot, getTransFromPose]
        rw [this, norm_zero]
        exact mul_nonneg (by linarith) κ0
      · have : getTransFromPose (comp p (comp ol.2 x.motion)) 0 2 - (comp p (comp ol.2 x.motion)).x = 0 := by
          simp [getTransFromPose]
        rw [this, abs_zero]
        exact mul_nonneg hn (by linarith)
      · have : getTransFromPose (comp p (comp ol.2 x.motion)) 1 2 - (comp p (comp ol.2 x.motion)).y = 0 := by
          simp [getTransFromPose]
        rw [this, abs_zero]
        exact mul_nonneg hn (by linarith)
      · rw [e]; exact c1
      · rw [e]; exact c2
    have w := frame_inv C hE.double hE.angle z (by omega) (by omega)
    exact ⟨0, w⟩

/-- A run. -/
theorem run_inv (xs : List Step) (hM : xs.length ≤ M)
    (hin : ∀ x ∈ xs, Near ω τ x.inc x.motion ∧ |x.motion.x| + |x.motion.y| ≤ S)
    (hc : ∀ n x, xs[n]? = some x → ∀ p, x.event = .closed p →
      |(exactPose (xs.take (n + 1))).x| ≤ (n + 1) * S ∧ |(exactPose (xs.take (n + 1))).y| ≤ (n + 1) * S) :
    ∃ j, Inv (kap v ω) ρ S τ ((M + 1) * eta v ω ρ * S) xs.length j (Track.start.run F ang xs)
        (xs.foldl Step.exact (⟨0, 0, 0⟩, ⟨0, 0, 0⟩)).1 (xs.foldl Step.exact (⟨0, 0, 0⟩, ⟨0, 0, 0⟩)).2 := by
  induction xs using List.reverseRecOn with
  | nil =>
    refine ⟨0, start_inv ?_⟩
    have := hE.v_nonneg
    have := hE.ω_nonneg
    unfold kap; linarith
  | append_singleton xs x ih =>
    rw [List.length_append, List.length_singleton] at hM
    obtain ⟨j, h⟩ := ih (by omega) (fun y hy => hin y (by simp [hy])) (by
      intro n y hy p he
      have hn := (List.getElem?_eq_some_iff.1 hy).1
      have := hc n y (by rw [List.getElem?_append_left hn]; exact hy) p he
      rwa [List.take_append_of_le_length (by omega)] at this)
    obtain ⟨h1, h2⟩ := hin x (by simp)
    have hx : ∀ p, x.event = .closed p →
        |(comp p (comp (xs.foldl Step.exact (⟨0, 0, 0⟩, ⟨0, 0, 0⟩)).2 x.motion)).x| ≤ (xs.length + 1) * S ∧
        |(comp p (comp (xs.foldl Step.exact (⟨0, 0, 0⟩, ⟨0, 0, 0⟩)).2 x.motion)).y| ≤ (xs.length + 1) * S := by
      intro p he
      have := hc xs.length x (by simp) p he
      rw [List.take_of_length_le (by simp)] at this
      unfold exactPose at this
      simp only [List.foldl_append, List.foldl_cons, List.foldl_nil, Step.exact, he, comp_zero] at this
      exact this
    obtain ⟨j', h'⟩ := next_inv hE hτ hS hκ hσ h (by omega) h1 h2 hx
    refine ⟨j', ?_⟩
    rw [List.length_append, List.length_singleton]
    unfold Track.run at h' ⊢
    rw [List.foldl_append, List.foldl_append]
    exact h'

end

/-- **C147** with closed loops.  Wherever new frames are started and wherever the optimiser puts the last node, the
pose estimate after `N` updates differs from the exact composition of the motions, counted from the pose that the
optimiser returned last, by at most `(2·N + 1)·η` in the heading and `N·(6·(N + 1)·η·S + 6·τ)` in the position.
The optimiser must not take the robot further away than it can have driven.  Constants as in `C147_partial`. -/
theorem C147_closures_partial {F : Fmt ℝ} {ang : Trans → ℝ} {v ω ρ S τ : ℝ} (hE : Errors F ang v ω ρ) (hτ : 0 ≤ τ)
    (hS : 0 ≤ S) (xs : List Step)
    (hin : ∀ x ∈ xs, Near ω τ x.inc x.motion ∧ |x.motion.x| + |x.motion.y| ≤ S)
    (hc : ∀ n x, xs[n]? = some x → ∀ p, x.event = .closed p →
      |(exactPose (xs.take (n + 1))).x| ≤ (n + 1) * S ∧ |(exactPose (xs.take (n + 1))).y| ≤ (n + 1) * S)
    (hκ : (2 * xs.length + 2) * (2 * ω + 15 * v) ≤ 1 / 4)
    (hσ : 6 * ((xs.length + 1) * (28 * ω + 210 * v + ρ) * S) + 6 * τ ≤ S) :
    let p := poseOf ang (Track.start.run F ang xs).position
    |p.x - (exactPose xs).x| ≤ xs.length * (6 * ((xs.length + 1) * (28 * ω + 210 * v + ρ) * S) + 6 * τ) ∧
    |p.y - (exactPose xs).y| ≤ xs.length * (6 * ((xs.length + 1) * (28 * ω + 210 * v + ρ) * S) + 6 * τ) ∧
    ∃ k : ℤ, |p.th - (exactPose xs).th - k * (2 * Real.pi)| ≤ (2 * xs.length + 1) * (28 * ω + 210 * v + ρ) := by
  have e : 28 * ω + 210 * v + ρ = eta v ω ρ := by unfold eta kap; ring
  have e2 : 2 * ω + 15 * v = kap v ω := rfl
  rw [e] at hσ ⊢
  rw [e2] at hκ
  obtain ⟨j, h⟩ := run_inv hE hτ hS hκ hσ xs le_rfl hin hc
  intro p
  have h1 := h.position_x
  have h2 := h.position_y
  obtain ⟨φ, h3, h4⟩ := h.position
  refine ⟨h1, h2, ?_⟩
  obtain ⟨k, hk⟩ := hE.angle _ _ _ hκ h4
  refine ⟨k, ?_⟩
  have κ0 : 0 ≤ kap v ω := by
    have := hE.v_nonneg
    have := hE.ω_nonneg
    unfold kap; linarith
  have hn : (0 : ℝ) ≤ xs.length := Nat.cast_nonneg _
  have l1 : 0 ≤ (xs.length : ℝ) * kap v ω := mul_nonneg hn κ0
  have l2 : 0 ≤ (xs.length : ℝ) * ρ := mul_nonneg hn hE.ρ_nonneg
  have := abs_sub_le (p.th - k * (2 * Real.pi)) φ (exactPose xs).th
  rw [sub_right_comm p.th _ (exactPose xs).th, sub_right_comm p.th _ φ] at this
  unfold eta
  have l3 : |p.th - φ - k * (2 * Real.pi)| ≤ 3 * ((2 * xs.length + 2) * kap v ω) + ρ := hk
  have l4 : |φ - (exactPose xs).th| ≤ xs.length * (12 * kap v ω + ρ) := h3
  linarith

/-! ### Connection with the algorithm -/

open Classical in
/-- What happens in `updateGraph`; the optimiser does not move the first node. -/
noncomputable def eventOf (s : Algo.State) (b : Slam.Book Algo.Frame) (inp : Algo.Input) (inc : Trans) : Event :=
  if Algo.movedFar s (s.transTemp * inc) then
    if inp.loops = [] ∨ b.poses = [] then .frame else .closed (inp.est b.poses.length)
  else .stay

/-- In exact arithmetic `Track.next` is `updateGraph`; the pose of a closure is the one that the optimiser
returns for the last node. -/
theorem Track.next_exact {t : Track} {s : Algo.State} {b : Slam.Book Algo.Frame} (inv : Algo.AInv s b) (h : t.Of s)
    {inp : Algo.Input} (adm : Algo.Admissible s inp) {inc : Trans} (hinc : IsRigid inc) (cov : Trans) :
    ∃ s' b', Algo.updateGraph inc cov inp s = .ok s' ∧ Algo.AInv s' b' ∧
      (t.next exact getAngle inc (eventOf s b inp inc)).Of s' := by
  obtain ⟨s', b', h1, inv', -, h3, ins, g1, -, g3⟩ := Algo.inv_updateGraph inv adm hinc cov
  refine ⟨s', b', h1, inv', ?_⟩
  have ht : mulT exact t.temp inc = s.transTemp * inc := by
    rw [h.temp]; exact mulT_exact inv.temp hinc
  have hpos : IsRigid s.position := Algo.rigid_pos inv
  have hrig := rigid_mul inv.temp hinc
  have hr : IsRigid s'.position := Algo.rigid_pos inv'
  unfold Track.next eventOf
  rcases g3 with ⟨-, g4, g5, g6⟩ | ⟨gb, -, g4, ⟨g5, g7⟩, g6⟩
  · rw [if_neg g6]
    simp only [ht]
    refine ⟨g5.symm, ?_, ?_⟩
    · simp only
      rw [mulT_exact (h.position ▸ hpos) hinc, h.position, inv'.pos, g4, g5, inv.pos, Matrix.mul_assoc]
    · rw [g4]; exact h.origin
  · rw [if_pos g6]
    rw [g4, Matrix.mul_one] at g1
    have key : ∀ q : Pose, getTransFromPose q * (s.transTemp * inc) = s'.position →
        (⟨poseOf getAngle (mulT exact (transOf exact q) (s.transTemp * inc)), 1,
          mulT exact (transOf exact q) (s.transTemp * inc)⟩ : Track).Of s' := by
      intro q hq
      have e : mulT exact (transOf exact q) (s.transTemp * inc) = s'.position := by
        rw [transOf_exact, mulT_exact (getTransFromPose_rigid _) hrig, hq]
      refine ⟨g5.symm, e, ?_⟩
      simp only
      rw [e, g1]
      exact trans_pose hr
    obtain ⟨y, hy⟩ : ∃ y, b'.poses.getLast? = some y := by
      have hne : b'.poses ≠ [] := by
        rw [gb]
        intro h0
        have := congrArg List.length h0
        unfold Algo.inserted at this
        rw [Algo.length_optimised] at this
        simp at this
      exact ⟨_, List.getLast?_eq_some_getLast hne⟩
    have hch := inv'.chain y hy
    rw [g7, g1] at hch
    by_cases hl : inp.loops = []
    · rw [if_pos (.inl hl)]
      simp only [ht]
      refine key _ ?_
      rw [h.origin, h3 hl, inv.pos, Matrix.mul_assoc]
    · have hop : b'.poses = (b.poses ++ [(s.temp.origin, s.temp)]).mapIdx fun i x =>
          let p := if i = 0 then x.1 else inp.est i
          (p, x.2.updatePosition p) := by
        rw [gb]; unfold Algo.inserted Algo.optimised; simp only [if_neg hl]
      rw [hop, List.mapIdx_append, List.mapIdx_singleton, List.getLast?_append] at hy
      simp only [Nat.zero_add, List.getLast?_singleton, Option.some_or, Option.some.injEq] at hy
      by_cases hb : b.poses = []
      · rw [if_pos (.inr hb)]
        simp only [ht]
        refine key _ ?_
        rw [hch, h.origin, ← hy, hb]
        rfl
      · rw [if_neg (by tauto)]
        simp only [ht]
        refine key _ ?_
        rw [hch, ← hy]
        simp only
        rw [if_neg (by simpa using hb)]

/-! ### Matches -/

/-- The updates for a sequence of matched poses, ndt_slam_algorithm.h:250-262. -/
noncomputable def stepsOf (F : Fmt ℝ) : Pose → List (Pose × Event) → List Step
  | _, [] => []
  | last, x :: xs => ⟨increment F last x.1, between last x.1, x.2⟩ :: stepsOf F x.1 xs

theorem stepsOf_length (F : Fmt ℝ) (o : Pose) (xs : List (Pose × Event)) : (stepsOf F o xs).length = xs.length := by
  induction xs generalizing o with
  | nil => rfl
  | cons x xs ih => simp [stepsOf, ih]

theorem near_stepsOf {F : Fmt ℝ} {v D R : ℝ} (h0 : 0 ≤ v) (h1 : v ≤ 1 / 128)
    (hd : ∀ x, |F.d x - x| ≤ v * |x|) (o : Pose) (xs : List (Pose × Event)) (hs : Steps D o (xs.map Prod.fst))
    (ho : |o.x| + |o.y| ≤ R) (hR : ∀ x ∈ xs, |x.1.x| + |x.1.y| ≤ R) :
    ∀ x ∈ stepsOf F o xs, Near (41 * v) (64 * v * R) x.inc x.motion ∧ |x.motion.x| + |x.motion.y| ≤ 2 * D := by
  have hmem : ∀ (o : Pose) (xs : List (Pose × Event)), ∀ x ∈ stepsOf F o xs,
      (x.inc, x.motion) ∈ (increments F o (xs.map Prod.fst)).zip (motions o (xs.map Prod.fst)) := by
    intro o xs
    induction xs generalizing o with
    | nil => intro x hx; cases hx
    | cons y ys ih =>
      intro x hx
      simp only [stepsOf, List.mem_cons] at hx
      simp only [List.map_cons, increments, motions, List.zip_cons_cons, List.mem_cons]
      rcases hx with rfl | hx
      · exact .inl rfl
      · exact .inr (ih _ x hx)
  intro x hx
  refine near_increments h0 h1 hd o (xs.map Prod.fst) hs ho ?_ _ (hmem o xs x hx)
  intro p hp
  obtain ⟨y, hy, rfl⟩ := List.mem_map.1 hp
  exact hR y hy

/-- **C147** in numbers, with closed loops: with IEEE `double`, 100000 matches with steps of up to 1 m within
1000 m of the start leave the estimated pose within 2 cm and a millionth of a radian of the exact one, however often
loops are closed. -/
theorem C147_closures_ieee_partial {F : Fmt ℝ} {ang : Trans → ℝ} (hd : ∀ x, |F.d x - x| ≤ 2⁻¹ ^ 53 * |x|)
    (hang : AngleOk ang (100 * 2⁻¹ ^ 53)) (xs : List (Pose × Event)) (hM : xs.length ≤ 100000)
    (hs : Steps 1 ⟨0, 0, 0⟩ (xs.map Prod.fst)) (hR : ∀ x ∈ xs, |x.1.x| + |x.1.y| ≤ 1000)
    (hc : ∀ n x, xs[n]? = some x → ∀ p, x.2 = .closed p →
      |(exactPose (stepsOf F ⟨0, 0, 0⟩ (xs.take (n + 1)))).x| ≤ 2 * (n + 1) ∧
      |(exactPose (stepsOf F ⟨0, 0, 0⟩ (xs.take (n + 1)))).y| ≤ 2 * (n + 1)) :
    let p := poseOf ang (Track.start.run F ang (stepsOf F ⟨0, 0, 0⟩ xs)).position
    let q := exactPose (stepsOf F ⟨0, 0, 0⟩ xs)
    |p.x - q.x| ≤ 1 / 50 ∧ |p.y - q.y| ≤ 1 / 50 ∧ ∃ k : ℤ, |p.th - q.th - k * (2 * Real.pi)| ≤ 1 / 1000000 := by
  have hn : (xs.length : ℝ) ≤ 100000 := by exact_mod_cast hM
  have hn0 : (0 : ℝ) ≤ xs.length := Nat.cast_nonneg _
  have hE : Errors F ang (2⁻¹ ^ 53) (41 * 2⁻¹ ^ 53) (100 * 2⁻¹ ^ 53) :=
    ⟨by positivity, by norm_num, hd, by positivity, by positivity, hang⟩
  have htake : ∀ (o : Pose) (xs : List (Pose × Event)) n, (stepsOf F o xs).take n = stepsOf F o (xs.take n) := by
    intro o xs n
    induction xs generalizing o n with
    | nil => simp [stepsOf]
    | cons y ys ih =>
      cases n with
      | zero => simp [stepsOf]
      | succ n => simp [stepsOf, ih]
  have hget : ∀ (o : Pose) (xs : List (Pose × Event)) (n : ℕ) (x : Step), (stepsOf F o xs)[n]? = some x →
      ∃ y : Pose × Event, xs[n]? = some y ∧ y.2 = x.event := by
    intro o xs
    induction xs generalizing o with
    | nil => intro n x hx; simp [stepsOf] at hx
    | cons y ys ih =>
      intro n x hx
      cases n with
      | zero => simp only [stepsOf, List.getElem?_cons_zero, Option.some.injEq] at hx; exact ⟨y, rfl, by rw [← hx]⟩
      | succ n => simp only [stepsOf, List.getElem?_cons_succ] at hx; exact ih _ n x hx
  have main := C147_closures_partial hE (τ := 64 * 2⁻¹ ^ 53 * 1000) (S := 2) (by positivity) (by norm_num)
    (stepsOf F ⟨0, 0, 0⟩ xs)
    (by
      have := near_stepsOf (D := 1) (R := 1000) (by positivity) (by norm_num) hd ⟨0, 0, 0⟩ xs hs (by norm_num) hR
      simpa using this)
    (by
      intro n x hx p he
      obtain ⟨y, hy, h2⟩ := hget _ _ _ _ hx
      have := hc n y hy p (h2.trans he)
      rw [htake, mul_comm]
      exact this)
    (by rw [stepsOf_length]; norm_num; linarith) (by rw [stepsOf_length]; norm_num; linarith)
  rw [stepsOf_length] at main
  intro p q
  obtain ⟨a, b, k, c⟩ := main
  have bound : (xs.length : ℝ) * (6 * ((xs.length + 1) * (28 * (41 * 2⁻¹ ^ 53) + 210 * 2⁻¹ ^ 53 + 100 * 2⁻¹ ^ 53) * 2) +
      6 * (64 * 2⁻¹ ^ 53 * 1000)) ≤ 1 / 50 := by
    have := mul_le_mul hn (by linarith : 6 * (((xs.length : ℝ) + 1) * (28 * (41 * 2⁻¹ ^ 53) + 210 * 2⁻¹ ^ 53 +
      100 * 2⁻¹ ^ 53) * 2) + 6 * (64 * 2⁻¹ ^ 53 * 1000) ≤ 6 * ((100000 + 1) * (28 * (41 * 2⁻¹ ^ 53) + 210 * 2⁻¹ ^ 53 +
      100 * 2⁻¹ ^ 53) * 2) + 6 * (64 * 2⁻¹ ^ 53 * 1000)) (by positivity) (by norm_num)
    refine this.trans ?_
    norm_num
  exact ⟨a.trans bound, b.trans bound, k, c.trans (by norm_num; linarith)⟩

theorem between_line (a b : ℝ) : between ⟨a, 0, 0⟩ ⟨b, 0, 0⟩ = ⟨b - a, 0, 0⟩ := by
  simp [between, inv, comp]; ring

theorem comp_line (a b : ℝ) : comp ⟨a, 0, 0⟩ ⟨b, 0, 0⟩ = ⟨a + b, 0, 0⟩ := by simp [comp]

theorem exact_stay (o l m : Pose) (t : Trans) : Step.exact (o, l) ⟨t, m, .stay⟩ = (o, comp l m) := (rfl)

theorem exact_frame (o l m : Pose) (t : Trans) :
    Step.exact (o, l) ⟨t, m, .frame⟩ = (comp o (comp l m), ⟨0, 0, 0⟩) := (rfl)

theorem exact_closed (o l m p : Pose) (t : Trans) :
    Step.exact (o, l) ⟨t, m, .closed p⟩ = (comp p (comp l m), ⟨0, 0, 0⟩) := (rfl)

theorem stepsOf_cons (F : Fmt ℝ) (o p : Pose) (e : Event) (xs : List (Pose × Event)) :
    stepsOf F o ((p, e) :: xs) = ⟨increment F o p, between o p, e⟩ :: stepsOf F p xs := (rfl)

theorem stepsOf_nil (F : Fmt ℝ) (o : Pose) : stepsOf F o [] = [] := (rfl)

theorem exactPose_eq {xs : List Step} {o l : Pose} (h : xs.foldl Step.exact (⟨0, 0, 0⟩, ⟨0, 0, 0⟩) = (o, l)) :
    exactPose xs = comp o l := by unfold exactPose; rw [h]

/-- A robot that drives 3 m along a line and whose last node is moved 1 m back by the optimiser at the second
update. -/
def sampleRun : List (Pose × Event) := [(⟨1, 0, 0⟩, .frame), (⟨2, 0, 0⟩, .closed ⟨0, 0, 0⟩), (⟨3, 0, 0⟩, .stay)]

example : Steps 1 ⟨0, 0, 0⟩ (sampleRun.map Prod.fst) := by
  simp only [sampleRun, List.map_cons, List.map_nil, Steps]
  norm_num

example : ∀ x ∈ sampleRun, |x.1.x| + |x.1.y| ≤ 1000 := by
  intro x hx
  simp only [sampleRun, List.mem_cons, List.not_mem_nil, or_false] at hx
  rcases hx with rfl | rfl | rfl <;> norm_num

example (F : Fmt ℝ) : ∀ n x, sampleRun[n]? = some x → ∀ p, x.2 = .closed p →
      |(exactPose (stepsOf F ⟨0, 0, 0⟩ (sampleRun.take (n + 1)))).x| ≤ 2 * (n + 1) ∧
      |(exactPose (stepsOf F ⟨0, 0, 0⟩ (sampleRun.take (n + 1)))).y| ≤ 2 * (n + 1) := by
  intro n x hx p he
  have hn : n = 1 := by
    by_contra h1
    have hl : n < 3 := (List.getElem?_eq_some_iff.1 hx).1
    rcases (by omega : n = 0 ∨ n = 2) with rfl | rfl
    · simp only [sampleRun, List.getElem?_cons_zero, Option.some.injEq] at hx
      rw [← hx] at he
      exact Event.noConfusion he
    · simp only [sampleRun, List.getElem?_cons_succ, List.getElem?_cons_zero, Option.some.injEq] at hx
      rw [← hx] at he
      exact Event.noConfusion he
  have e : exactPose (stepsOf F ⟨0, 0, 0⟩ (sampleRun.take 2)) = ⟨1, 0, 0⟩ := by
    rw [sampleRun, List.take_succ_cons, List.take_succ_cons, List.take_zero, stepsOf_cons, stepsOf_cons, stepsOf_nil,
      between_line, between_line]
    rw [exactPose_eq (by rw [List.foldl_cons, List.foldl_cons, List.foldl_nil, exact_frame, exact_closed]), comp_line,
      comp_line, comp_line]
    norm_num
  rw [hn, e]
  norm_num

/-- The exact pose after this run is (2, 0, 0) instead of (3, 0, 0). -/
example (F : Fmt ℝ) : exactPose (stepsOf F ⟨0, 0, 0⟩ sampleRun) = ⟨2, 0, 0⟩ := by
  rw [sampleRun, stepsOf_cons, stepsOf_cons, stepsOf_cons, stepsOf_nil, between_line, between_line, between_line]
  rw [exactPose_eq (by rw [List.foldl_cons, List.foldl_cons, List.foldl_cons, List.foldl_nil, exact_frame,
    exact_closed, exact_stay]), comp_line, comp_line, comp_line, comp_line]
  norm_num

end Verif.Round
