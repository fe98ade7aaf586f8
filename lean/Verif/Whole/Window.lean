import Verif.Whole.Extent
import Verif.Whole.Examples

/-
C127: size and place of the running window.
-/
namespace Verif.Whole

open Verif Verif.Geo Verif.NDTGrid Verif.World Verif.Voxel

theorem Runs.reach {eig : NDT.Eig} {P : Algo.Input → Prop} {log0 : List Entry} {s0 : State} (h0 : Reach eig P log0 s0)
    {log : List Entry} {s : State} (h : Runs eig P s0 log s) : Reach eig P (log0 ++ log) s := by
  induction h with
  | refl => simpa using h0
  | setDistance d _ ih => exact .setDistance d ih
  | setRadius r _ ih => exact .setRadius r ih
  | update _ hp adm hu ih =>
    rw [← List.append_assoc]
    exact .update ih hp adm hu

theorem Reach.cell {eig : NDT.Eig} (he : NDT.EigOk eig) {P : Algo.Input → Prop} {log : List Entry} {s : State}
    (h : Reach eig P log s) : s.alg.cellSize = 1 / 4 := by
  induction h with
  | init => rfl
  | setDistance d _ ih => exact ih
  | setRadius r _ ih => exact ih
  | update hr hp adm hu ih =>
    obtain ⟨⟨b, inv⟩, -⟩ := hr.inv he
    obtain ⟨-, -, hc, -⟩ := update_spec he inv.full adm.alg (inv.window.winB.inv he) inv.window.winO
      inv.window.winC hu
    rw [hc, ih]

theorem Reach.fresh {eig : NDT.Eig} {P : Algo.Input → Prop} {log : List Entry} {s : State}
    (h : Reach eig P log s) (hl : log = []) : s.alg.initialized = false := by
  induction h with
  | init => rfl
  | setDistance d _ ih => exact ih hl
  | setRadius r _ ih => exact ih hl
  | update => simp at hl

/-- One update of an initialised algorithm. -/
theorem step_ext {eig : NDT.Eig} (he : NDT.EigOk eig) {P : Algo.Input → Prop} {log : List Entry} {s s' : State}
    (h : Reach eig P log s) (hi : s.alg.initialized = true) {inp : Input} (adm : Admissible s inp)
    {o : Algo.Event × Pose} (hu : update eig inp s = .ok (o, s')) {R T : ℝ} (hR : 0 ≤ R) (hs : InRange R inp.scan)
    (hT : NearWindow T inp.alg) :
    s'.alg.initialized = true ∧ extOf s.window.grid ≤ extOf s'.window.grid ∧
    extOf s'.window.grid ≤ extOf s.window.grid ⊔ square (side (1 / 4) (R + T)) ∧
    ∀ g m q, o.1 = .matched g m q → |q.x - (origin s'.window).x| < 1 / 4 ∧ |q.y - (origin s'.window).y| < 1 / 4 := by
  obtain ⟨⟨b, inv⟩, -⟩ := h.inv he
  obtain ⟨hu', hd, hc, -, hwc⟩ := update_spec he inv.full adm.alg (inv.window.winB.inv he) inv.window.winO
    inv.window.winC hu
  obtain ⟨e, p, a', b', hu2, -, hi', -⟩ := Algo.update_step inv.full adm.alg
  rw [hu'] at hu2
  have e3 : s'.alg = a' := congrArg Prod.snd (Res.ok.inj hu2)
  refine ⟨by rw [e3]; exact hi', ?_⟩
  have hth : s.window.th = 0 := by
    have := inv.full.win.th
    rw [← inv.window.winO] at this
    exact this
  have cell := h.cell he
  obtain ⟨ev, po⟩ := o
  simp only at hd ⊢
  cases hd with
  | first h0 => rw [hi] at h0; cases h0
  | idle _ _ hw => rw [hw]; exact ⟨le_rfl, le_sup_left, fun _ _ _ h => by cases h⟩
  | failed _ _ hw => rw [hw]; exact ⟨le_rfl, le_sup_left, fun _ _ _ h => by cases h⟩
  | @matched g m q r cumul _ hmat hq _ hw =>
    rw [cell] at hw
    have hreg := adm.alg.matcher r hmat
    obtain ⟨-, l, u, x1, x2⟩ := updateWindow_ext he (by norm_num) (inv.window.winB.inv he) (inv.window.winC.trans cell)
      hth hR hs (T := T) (hT r hmat) hw
    refine ⟨l, u, fun g' m' q' h => ?_⟩
    cases h
    have hx : q.x = s.window.ox + convertToTransform r 0 2 ∧ q.y = s.window.oy + convertToTransform r 1 2 := by
      obtain ⟨-, -, -, -, -, g3⟩ := (isRigid_iff _).1 hreg
      rw [hq]
      unfold getPoseFromTransform getTransFromPose origin
      rw [hth]
      constructor <;> simp [Matrix.mul_apply, Fin.sum_univ_three, g3, add_comm]
    rw [hx.1, hx.2]
    exact ⟨x1, x2⟩

/-- Extents in a run after the first update. -/
theorem run_ext {eig : NDT.Eig} (he : NDT.EigOk eig) {P : Algo.Input → Prop} {R T : ℝ} (hR : 0 ≤ R)
    (hP : ∀ a, P a → NearWindow T a) {s0 s1 s : State} (h0 : Reach eig P [] s0) {inp : Input}
    {o : Algo.Event × Pose} (hp : P inp.alg) (adm : Admissible s0 inp) (h1 : update eig inp s0 = .ok (o, s1))
    {log : List Entry} (h : Runs eig P s1 log s) (hs1 : InRange R inp.scan) (hs : ∀ e ∈ log, InRange R e.scan) :
    s.alg.initialized = true ∧ square (side (1 / 4) s0.radius) ≤ extOf s.window.grid ∧
    extOf s.window.grid ≤ square (side (1 / 4) s0.radius) ⊔ square (side (1 / 4) R) ⊔ square (side (1 / 4) (R + T)) := by
  have h01 : Reach eig P [⟨o.1, o.2, inp.scan⟩] s1 := .update h0 hp adm h1
  induction h with
  | refl =>
    obtain ⟨⟨b, inv⟩, ir⟩ := h0.inv he
    have hi0 := h0.fresh rfl
    obtain ⟨hu', hd, hc, -, hwc⟩ := update_spec he inv.full adm.alg (inv.window.winB.inv he) inv.window.winO
      inv.window.winC h1
    obtain ⟨e, p, a', b', hu2, -, hi', -⟩ := Algo.update_step inv.full adm.alg
    rw [hu'] at hu2
    have e3 : s1.alg = a' := congrArg Prod.snd (Res.ok.inj hu2)
    refine ⟨by rw [e3]; exact hi', ?_⟩
    have cell := h0.cell he
    obtain ⟨ev, po⟩ := o
    simp only at hd
    cases hd with
    | idle h => rw [hi0] at h; cases h
    | failed h => rw [hi0] at h; cases h
    | matched h => rw [hi0] at h; cases h
    | @first g _ hg hw _ _ _ _ _ =>
      obtain ⟨-, -, w0, -⟩ := inv.start hi0
      rw [w0, cell] at hg
      have ib : MapInv (setCellSize (setOrigin (emptyMap eig (1 / 4)) ⟨0, 0, 0⟩) (1 / 4)) :=
        setOrigin_inv (n := emptyMap eig (1 / 4)) (init_inv eig 0 0 0 (by norm_num)) ⟨0, 0, 0⟩
      have e1 := enlarge_ext (b := ⟨-s0.radius, -s0.radius, s0.radius, s0.radius⟩) ib.wf ib.cs hg
      rw [needed_radius] at e1
      have e0 : extOf (setCellSize (setOrigin (emptyMap eig (1 / 4)) ⟨0, 0, 0⟩) (1 / 4)).grid = (0, 0, 0, 0) := rfl
      have e0' : (setCellSize (setOrigin (emptyMap eig (1 / 4)) ⟨0, 0, 0⟩) (1 / 4)).grid.cellSize = 1 / 4 := rfl
      rw [e0, e0'] at e1
      have e1' : extOf g = square (side (1 / 4) s0.radius) := by
        rw [e1]
        simp
      obtain ⟨k1, k2, -, k3⟩ := enlarge_stored ib.wf ib.cs hg
      have ig : MapInv { setCellSize (setOrigin s0.window ⟨0, 0, 0⟩) s0.alg.cellSize with grid := g } :=
        ⟨k1, by show 0 < g.cellSize; rw [k2]; exact ib.cs, fun x hx => ib.ginv x ((k3 x).1 hx)⟩
      obtain ⟨-, l, u⟩ := initialize_ext ig hR hs1 hw
      have kc : g.cellSize = 1 / 4 := k2
      have l' : extOf g ≤ extOf s1.window.grid := l
      have u' : extOf s1.window.grid ≤ extOf g ⊔ square (side g.cellSize R) := u
      rw [e1'] at l' u'
      rw [kc] at u'
      exact ⟨l', u'.trans le_sup_left⟩
  | setDistance d _ ih => exact ih hs
  | setRadius r _ ih => exact ih hs
  | @update log s' inp' o' s'' hr hp' adm' hu ih =>
    obtain ⟨i1, i2, i3⟩ := ih fun e he => hs e (List.mem_append_left _ he)
    obtain ⟨j1, j2, j3, -⟩ := step_ext he (hr.reach h01) i1 adm' hu hR
      (hs _ (List.mem_append_right _ (List.mem_singleton_self _))) (hP _ hp')
    exact ⟨j1, i2.trans j2, j3.trans (sup_le i3 le_sup_right)⟩

theorem covers_square {n : Map} (hcs : n.grid.cellSize = 1 / 4) {N : ℕ} (h : square N ≤ extOf n.grid) {x y : ℝ}
    (hx : |x| < (N + 1 / 2) * (1 / 4)) (hy : |y| < (N + 1 / 2) * (1 / 4)) : Covers n (x, y) := by
  obtain ⟨h1, h2, h3, h4⟩ := h
  have h1 : (N : ℝ) ≤ n.grid.left := by exact_mod_cast h1
  have h2 : (N : ℝ) ≤ n.grid.right := by exact_mod_cast h2
  have h3 : (N : ℝ) ≤ n.grid.up := by exact_mod_cast h3
  have h4 : (N : ℝ) ≤ n.grid.down := by exact_mod_cast h4
  rw [covers_iff (by rw [hcs]; norm_num), hcs]
  rw [abs_lt] at hx hy
  refine ⟨⟨?_, ?_⟩, ?_, ?_⟩ <;> linarith

theorem square_covers {n : Map} (hcs : n.grid.cellSize = 1 / 4) {N : ℕ} (h : extOf n.grid ≤ square N) {p : ℝ × ℝ}
    (hp : Covers n p) : |p.1| ≤ (N + 1 / 2) * (1 / 4) ∧ |p.2| ≤ (N + 1 / 2) * (1 / 4) := by
  obtain ⟨h1, h2, h3, h4⟩ := h
  have h1 : (n.grid.left : ℝ) ≤ N := by exact_mod_cast h1
  have h2 : (n.grid.right : ℝ) ≤ N := by exact_mod_cast h2
  have h3 : (n.grid.up : ℝ) ≤ N := by exact_mod_cast h3
  have h4 : (n.grid.down : ℝ) ≤ N := by exact_mod_cast h4
  rw [show p = (p.1, p.2) from rfl, covers_iff (by rw [hcs]; norm_num), hcs] at hp
  obtain ⟨⟨a1, a2⟩, a3, a4⟩ := hp
  rw [abs_le, abs_le]
  refine ⟨⟨?_, ?_⟩, ?_, ?_⟩ <;> linarith

theorem square_sup {cs : ℝ} (hcs : 0 < cs) {r R T : ℝ} (hT : 0 ≤ T) :
    square (side cs r) ⊔ square (side cs R) ⊔ square (side cs (R + T)) ≤ square (side cs (max r (R + T))) := by
  have h1 := side_mono hcs (le_max_left r (R + T))
  have h2 := side_mono hcs (le_max_right r (R + T))
  have h3 := (side_mono hcs (show R ≤ R + T by linarith)).trans h2
  exact sup_le (sup_le ⟨h1, h1, h1, h1⟩ ⟨h3, h3, h3, h3⟩) ⟨h2, h2, h2, h2⟩

/-! ### C127: the running window -/

/-- C127, what holds: let the sensor have range `R` and the matcher find the robot at most `T` from the origin of the
window.  Then, however long the run, the window covers everything within the radius that was set before the first
scan, it covers nothing farther away than one cell beyond the radius or `R + T`, and the memory it takes is bounded.
Missing: the radius alone does not limit the window. -/
theorem C127_size_partial {eig : NDT.Eig} (he : NDT.EigOk eig) {P : Algo.Input → Prop} {R T : ℝ} (hR : 0 ≤ R)
    (hT : 0 ≤ T) (hP : ∀ a, P a → NearWindow T a) {s0 s1 s : State} (h0 : Reach eig P [] s0) {inp : Input}
    {o : Algo.Event × Pose} (hp : P inp.alg) (adm : Admissible s0 inp) (h1 : update eig inp s0 = .ok (o, s1))
    {log : List Entry} (h : Runs eig P s1 log s) (hs1 : InRange R inp.scan) (hs : ∀ e ∈ log, InRange R e.scan) :
    (∀ p : ℝ × ℝ, |p.1| < s0.radius → |p.2| < s0.radius → Covers s.window p) ∧
    (∀ p : ℝ × ℝ, Covers s.window p →
      |p.1| ≤ max s0.radius (R + T) + 1 / 4 ∧ |p.2| ≤ max s0.radius (R + T) + 1 / 4) ∧
    (s.window.grid.cells.length : ℝ) ≤ (8 * max s0.radius (R + T) + 2) ^ 2 := by
  obtain ⟨-, l, u⟩ := run_ext he hR hP h0 hp adm h1 h hs1 hs
  have hr := h.reach (.update h0 hp adm h1)
  obtain ⟨⟨b, inv⟩, -⟩ := hr.inv he
  have cell : s.window.grid.cellSize = 1 / 4 := inv.window.winC.trans (hr.cell he)
  have u' := u.trans (square_sup (by norm_num) hT)
  have hB : 0 ≤ max s0.radius (R + T) := le_trans (by linarith) (le_max_right _ _)
  have hN := side_lt (cs := 1 / 4) (by norm_num) hB
  refine ⟨fun p h1 h2 => ?_, fun p hp => ?_, ?_⟩
  · have := le_side (cs := 1 / 4) (B := s0.radius) (by norm_num)
    exact covers_square cell l (by linarith) (by linarith)
  · obtain ⟨a1, a2⟩ := square_covers cell u' hp
    exact ⟨by linarith, by linarith⟩
  · have wf := (inv.window.winB.inv he).wf
    unfold WF at wf
    rw [wf]
    obtain ⟨u1, u2, u3, u4⟩ := u'
    have u1 : (s.window.grid.left : ℝ) ≤ side (1 / 4) (max s0.radius (R + T)) := by exact_mod_cast u1
    have u2 : (s.window.grid.right : ℝ) ≤ side (1 / 4) (max s0.radius (R + T)) := by exact_mod_cast u2
    have u3 : (s.window.grid.up : ℝ) ≤ side (1 / 4) (max s0.radius (R + T)) := by exact_mod_cast u3
    have u4 : (s.window.grid.down : ℝ) ≤ side (1 / 4) (max s0.radius (R + T)) := by exact_mod_cast u4
    unfold Grid.width Grid.height
    push_cast
    rw [sq]
    have k1 : (0 : ℝ) ≤ s.window.grid.left := Nat.cast_nonneg _
    have k2 : (0 : ℝ) ≤ s.window.grid.right := Nat.cast_nonneg _
    have k3 : (0 : ℝ) ≤ s.window.grid.up := Nat.cast_nonneg _
    have k4 : (0 : ℝ) ≤ s.window.grid.down := Nat.cast_nonneg _
    exact mul_le_mul (by linarith) (by linarith) (by linarith) (by linarith)

/-- C127: if the range of the sensor and the way of the robot between two scans fit into the radius, the area of the
window (in its own frame) is the same after any number of updates. -/
theorem C127_constant_partial {eig : NDT.Eig} (he : NDT.EigOk eig) {P : Algo.Input → Prop} {R T : ℝ} (hR : 0 ≤ R)
    (hT : 0 ≤ T) (hP : ∀ a, P a → NearWindow T a) {s0 s1 s : State} (h0 : Reach eig P [] s0) {inp : Input}
    {o : Algo.Event × Pose} (hp : P inp.alg) (adm : Admissible s0 inp) (h1 : update eig inp s0 = .ok (o, s1))
    {log : List Entry} (h : Runs eig P s1 log s) (hs1 : InRange R inp.scan) (hs : ∀ e ∈ log, InRange R e.scan)
    (hfit : R + T ≤ s0.radius) (p : ℝ × ℝ) : Covers s.window p ↔ Covers s1.window p := by
  have key : ∀ {log : List Entry} {s : State}, Runs eig P s1 log s → (∀ e ∈ log, InRange R e.scan) →
      extOf s.window.grid = square (side (1 / 4) s0.radius) ∧ s.window.grid.cellSize = 1 / 4 := by
    intro log s h hs
    obtain ⟨-, l, u⟩ := run_ext he hR hP h0 hp adm h1 h hs1 hs
    have hr := h.reach (.update h0 hp adm h1)
    obtain ⟨⟨b, inv⟩, -⟩ := hr.inv he
    have u' := u.trans (square_sup (by norm_num) hT)
    rw [max_eq_left hfit] at u'
    exact ⟨le_antisymm u' l, inv.window.winC.trans (hr.cell he)⟩
  obtain ⟨e1, c1⟩ := key h hs
  obtain ⟨e2, c2⟩ := key .refl (by simp)
  have e := e1.trans e2.symm
  unfold extOf at e
  simp only [Prod.mk.injEq] at e
  rw [show p = (p.1, p.2) from rfl, covers_iff (by rw [c1]; norm_num), covers_iff (by rw [c2]; norm_num), e.1, e.2.1,
    e.2.2.1, e.2.2.2, c1, c2]

/-- C127: after every successful match the position the matcher found is less than one cell from the origin of the
window, in the direction of either axis. -/
theorem C127_centred {eig : NDT.Eig} (he : NDT.EigOk eig) {P : Algo.Input → Prop} {log : List Entry} {s s' : State}
    (h : Reach eig P log s) {inp : Input} (adm : Admissible s inp) {g m : Trans} {q p : Pose}
    (hu : update eig inp s = .ok ((.matched g m q, p), s')) :
    |q.x - (origin s'.window).x| < 1 / 4 ∧ |q.y - (origin s'.window).y| < 1 / 4 := by
  obtain ⟨⟨b, inv⟩, -⟩ := h.inv he
  obtain ⟨-, hd, -⟩ := update_spec he inv.full adm.alg (inv.window.winB.inv he) inv.window.winO
    inv.window.winC hu
  have hd : Done eig inp s s' (.matched g m q) := hd
  cases hd with
  | @matched _ _ _ r _ hi hmat =>
    refine (step_ext he h hi adm hu (R := (inp.scan.map fun p => |p 0| + |p 1|).sum)
      (T := max |r 0 3| |r 1 3|) ?_ ?_ ?_).2.2.2 g m q rfl
    · refine List.sum_nonneg ?_
      intro x hx
      obtain ⟨p, -, rfl⟩ := List.mem_map.1 hx
      positivity
    · intro p hp
      have h1 := List.single_le_sum (l := inp.scan.map fun p => |p 0| + |p 1|) (by
        intro x hx
        obtain ⟨p, -, rfl⟩ := List.mem_map.1 hx
        positivity) (|p 0| + |p 1|) (List.mem_map.2 ⟨p, hp, rfl⟩)
      have h2 : p 0 ^ 2 + p 1 ^ 2 ≤ (|p 0| + |p 1|) ^ 2 := by
        have e0 := sq_abs (p 0)
        have e1 := sq_abs (p 1)
        nlinarith [abs_nonneg (p 0), abs_nonneg (p 1)]
      exact h2.trans (pow_le_pow_left₀ (by positivity) h1 2)
    · intro r' hr'
      rw [hmat] at hr'
      cases hr'
      exact ⟨le_max_left _ _, le_max_right _ _⟩

/-! ### Runs -/

theorem exOrigin (f : Algo.Frame) : (Algo.Frame.initialize { f with origin := ⟨0, 0, 0⟩ }).origin =
    (⟨((0 : ℤ) : ℝ), 0, 0⟩ : Pose) := by
  simp [Algo.Frame.initialize, Algo.Frame.mergeTraced]

/-- The first update with the scan `exScan 5`. -/
theorem first_run {eig : NDT.Eig} (he : NDT.EigOk eig) {P : Algo.Input → Prop} {s0 : State}
    (h0 : Reach eig P [] s0) (hP : ∀ m a est order, P ⟨m, none, a, [], est, order⟩) (htt : s0.alg.transTemp = 1) :
    ∃ inp o s1, P inp.alg ∧ (inp.scan = exScan 5 ∧ inp.alg.motion = 1) ∧ Admissible s0 inp ∧ update eig inp s0 = .ok (o, s1) ∧
      gaussians s1.window = [cellOf (cellI eig) (exScan 5)] ∧ FrameOk s1.temp ∧ s1.alg.window = ⟨0, 0, 0⟩ ∧
      s1.alg.lastMatcherPose = ⟨0, 0, 0⟩ ∧ s1.alg.transTemp = 1 ∧ s1.alg.unused = s0.alg.unused ∧
      s1.alg.initialized = true ∧ Covers s1.window (5, 0) := by
  obtain ⟨sc, sq⟩ := exScan_ok 5 (by norm_num) (by norm_num)
  obtain ⟨⟨b, inv⟩, -⟩ := h0.inv he
  have hi0 := h0.fresh rfl
  have cell := h0.cell he
  obtain ⟨-, t0, w0, st0⟩ := inv.start hi0
  rw [cell] at t0 w0
  have g0 : gaussians s0.temp = [] := by rw [t0]; exact gaussians_init eig (1 / 4) ⟨0, 0, 0⟩
  obtain ⟨a, ha, -⟩ := fresh_two s0.alg.engine.graph
  set inp : Input := ⟨⟨1, none, a, [], fun _ => ⟨0, 0, 0⟩, List.range (s0.alg.engine.graph.nodes.length + 1)⟩, exScan 5,
    0, s0.order ++ [s0.store.length]⟩ with hinp
  have adm : Admissible s0 inp := by
    refine ⟨⟨Algo.rigid_one, by simp [hinp], by simp [hinp], ?_, by simp [hinp], List.Perm.refl _⟩, List.Perm.refl _⟩
    intro x hx
    rw [List.mem_singleton.1 hx]
    exact ha
  have safe : Safe s0 inp := by
    refine ⟨by rw [cell]; exact sc, ?_, ?_, by simp [hinp], by simp [hinp]⟩
    · rw [cell, htt, transform_none rfl, Matrix.one_mul, transformCloud_one]
      exact sc
    · exact exFrame_in 0 5 (by norm_num) (by norm_num)
        (by rw [t0]; simp [origin, emptyMap, NDTGrid.init]) (by rw [g0]; simp)
  obtain ⟨o, s1, hu⟩ := C116_update_partial he h0 adm safe
  obtain ⟨ha', hd, -⟩ := update_spec he inv.full adm.alg (inv.window.winB.inv he) inv.window.winO inv.window.winC hu
  unfold Algo.update at ha'
  rw [if_pos (by simp [hi0])] at ha'
  have ha2 : s1.alg = { s0.alg with
      window := ⟨0, 0, 0⟩
      position := 1
      lastMatcherPose := ⟨0, 0, 0⟩
      initialized := true
      temp := Algo.Frame.initialize { s0.alg.temp with origin := ⟨0, 0, 0⟩ } } :=
    (congrArg Prod.snd (Res.ok.inj ha')).symm
  refine ⟨inp, o, s1, hP _ _ _ _, ⟨rfl, rfl⟩, adm, hu, ?_⟩
  obtain ⟨⟨_, inv1⟩, -⟩ := (Reach.update h0 (hP _ _ _ _) adm hu).inv he
  obtain ⟨ev, po⟩ := o
  simp only at hd
  cases hd with
  | idle h => rw [hi0] at h; cases h
  | failed h => rw [hi0] at h; cases h
  | matched h => rw [hi0] at h; cases h
  | @first g _ hen hw ht _ _ _ _ =>
  rw [w0, cell] at hen hw
  rw [t0, cell] at ht
  have iw : MapInv (setCellSize (setOrigin (emptyMap eig (1 / 4)) ⟨0, 0, 0⟩) (1 / 4)) :=
    setOrigin_inv (n := emptyMap eig (1 / 4)) (init_inv eig 0 0 0 (by norm_num)) ⟨0, 0, 0⟩
  obtain ⟨e1, e2, -, -⟩ := enlarge_stored iw.wf iw.cs hen
  have gt : gaussians s1.temp = [cellOf (cellI eig) (exScan 5)] := by
    rw [initializeMap_eq] at ht
    exact exScan_binned_in he 5 iw.wf (cs := 1 / 4) rfl (by norm_num) (fun p hp => (sc p hp).1) sq true ht
  have hcov : Covers s1.window (5, 0) := by
    have hmem : (![((5 : ℤ) : ℝ), 0, 0] : NDT.Vec) ∈ exScan 5 :=
      List.mem_replicate.2 ⟨by norm_num, rfl⟩
    have h5 : squareOf (1 / 4 : ℝ) (5, 0) = (20, 0) := by
      have := sq _ hmem
      simpa [head] using this
    have hwc : s1.window.grid.cellSize = 1 / 4 :=
      inv1.window.winC.trans ((Reach.update h0 (hP _ _ _ _) adm hu).cell he)
    have hin := (((C74_initialize_partial (n := { setCellSize (setOrigin (emptyMap eig (1 / 4)) ⟨0, 0, 0⟩) (1 / 4)
      with grid := g }) he e1 (by show 0 < g.cellSize; rw [e2]; exact iw.cs)
      (fun p hp => by
        show OffLines g.cellSize (head p)
        rw [e2]
        exact (sc p hp).1) hw).2 (20, 0)).1).2 (by
        show 6 ≤ ((exScan 5).filter fun p => squareOf g.cellSize (head p) = (20, 0)).length
        rw [e2, List.filter_eq_self.2 (fun p hp => by
          have := sq p hp
          exact decide_eq_true this)]
        unfold exScan
        rw [List.length_replicate]
        norm_num)
    obtain ⟨c, hc, -⟩ := hin
    unfold Covers
    rw [hwc, h5]
    by_contra hn
    rw [content_of_not_in hn] at hc
    cases hc
  have gw : gaussians s1.window = [cellOf (cellI eig) (exScan 5)] := by
    rw [initializeMap_eq] at hw
    exact exScan_binned_in he 5
      (n := { setCellSize (setOrigin (emptyMap eig (1 / 4)) ⟨0, 0, 0⟩) (1 / 4) with grid := g })
      (cs := 1 / 4) e1 e2 (by norm_num) (fun p hp => (sc p hp).1) sq true hw
  obtain ⟨-, mm⟩ := exScan_mean he 5
  refine ⟨gw, ?_, by rw [ha2], by rw [ha2], by rw [ha2]; exact htt, by rw [ha2], by rw [ha2], hcov⟩
  refine exFrame_in 0 5 (by norm_num) (by norm_num) (by rw [inv1.frames.tempO, ha2]; exact exOrigin s0.alg.temp) ?_
  intro c hc
  rw [gt, List.mem_singleton] at hc
  rw [hc, mm]
  rfl

theorem exScan_take : TakeOk (1 / 4) (exScan 5) (Algo.ahead 1) := by
  obtain ⟨-, sq⟩ := exScan_ok 5 (by norm_num) (by norm_num)
  have hin : ∀ q, 6 ≤ (inScan (1 / 4) (exScan 5) q).length → inScan (1 / 4) (exScan 5) q = exScan 5 := by
    intro q hq
    unfold inScan at hq ⊢
    obtain ⟨p, hp⟩ := List.exists_mem_of_length_pos (lt_of_lt_of_le (by norm_num) hq)
    obtain ⟨hp, hpq⟩ := List.mem_filter.1 hp
    have hq0 : q = (4 * 5, 0) := (of_decide_eq_true hpq).symm.trans (sq p hp)
    refine List.filter_eq_self.2 fun p hp => decide_eq_true ?_
    rw [hq0]
    exact sq p hp
  have hang : getAngle (Algo.ahead 1) = 0 := getAngle_zero _ _
  have hm : ∀ q, 6 ≤ (inScan (1 / 4) (exScan 5) q).length →
      turnedMean (1 / 4) (exScan 5) (Algo.ahead 1) q = ![((5 : ℤ) : ℝ), 0, 0] := by
    intro q hq
    unfold turnedMean
    rw [hin q hq, hang, rotZ_zero, Matrix.one_mulVec]
    unfold NDT.sampleMean exScan
    rw [List.sum_replicate, List.length_replicate]
    funext i
    fin_cases i <;> simp
  have e0 : Algo.ahead 1 0 2 = ((1 : ℤ) : ℝ) := by rw [Algo.ahead_eq]; simp
  have e1 : Algo.ahead 1 1 2 = 0 := by rw [Algo.ahead_eq]; simp
  refine ⟨fun q hq => ?_, ?_, fun q v hv => ?_⟩
  · rw [hm q hq]
    exact off_quarter 5
  · rw [e0, e1]
    exact off_quarter 1
  · have hv' : v ∈ convexHull ℝ {(![((5 : ℤ) : ℝ), 0, 0] : NDT.Vec)} := by
      refine convexHull_mono ?_ hv
      rintro x ⟨q', h1, h2, -⟩
      rw [h2, hm q' h1]
      rfl
    rw [convexHull_singleton] at hv'
    have hv' : v = ![((5 : ℤ) : ℝ), 0, 0] := hv'
    rw [hv', e0, e1]
    have : ((![((5 : ℤ) : ℝ), 0, 0] : NDT.Vec) 0 + ((1 : ℤ) : ℝ), (![((5 : ℤ) : ℝ), 0, 0] : NDT.Vec) 1 + 0) =
        (((6 : ℤ) : ℝ), (0 : ℝ)) := by
      ext <;> simp
      norm_num
    rw [this]
    refine ⟨off_quarter 6, ?_⟩
    unfold RayLength
    norm_num

/-- A run with a successful match: the first scan, then the robot is found a metre ahead. -/
theorem matched_step {eig : NDT.Eig} (he : NDT.EigOk eig) {P : Algo.Input → Prop} {s0 : State}
    (h0 : Reach eig P [] s0) (hP : ∀ m a est order, P ⟨m, none, a, [], est, order⟩) (htt : s0.alg.transTemp = 1)
    (hun : s0.alg.unused = 1)
    (hP' : ∀ m a est order, P ⟨m, some (convertFromTransform (Algo.ahead 1)), a, [], est, order⟩) :
    ∃ inp o s1 inp1 g m q p s, P inp.alg ∧ (inp.scan = exScan 5 ∧ inp.alg.motion = 1) ∧ Admissible s0 inp ∧ update eig inp s0 = .ok (o, s1) ∧
      P inp1.alg ∧ inp1.scan = exScan 5 ∧ Admissible s1 inp1 ∧ update eig inp1 s1 = .ok ((.matched g m q, p), s) ∧
      q = ⟨1, 0, 0⟩ := by
  obtain ⟨sc, -⟩ := exScan_ok 5 (by norm_num) (by norm_num)
  obtain ⟨sc6, -⟩ := exScan_ok 6 (by norm_num) (by norm_num)
  obtain ⟨inp, o, s1, hp, hsc, adm, hu, -, fo, hw, hl, ht, hn, hi, -⟩ := first_run he h0 hP htt
  have h1 := Reach.update h0 hp adm hu
  obtain ⟨⟨b, inv⟩, -⟩ := h1.inv he
  have cell := h1.cell he
  obtain ⟨a, ha, -⟩ := fresh_two s1.alg.engine.graph
  have hconv : convertToTransform (convertFromTransform (Algo.ahead 1)) = Algo.ahead 1 :=
    C44_round_trips.2.2.2.2.2.2.2.1 _ (Algo.ahead_rigid 1)
  set inp1 : Input := ⟨⟨Algo.ahead 1, some (convertFromTransform (Algo.ahead 1)), a, [], fun _ => ⟨0, 0, 0⟩,
    List.range (s1.alg.engine.graph.nodes.length + 1)⟩, exScan 5, 0, s1.order ++ [s1.store.length]⟩ with hinp
  have adm1 : Admissible s1 inp1 := by
    refine ⟨⟨Algo.ahead_rigid 1, ?_, by simp [hinp], ?_, by simp [hinp], List.Perm.refl _⟩, List.Perm.refl _⟩
    · intro r hr
      cases hr
      rw [hconv]
      exact Algo.ahead_rigid 1
    · intro x hx
      rw [List.mem_singleton.1 hx]
      exact ha
  have hpose : getPoseFromTransform (getTransFromPose (⟨0, 0, 0⟩ : Pose) * Algo.ahead 1) = ⟨1, 0, 0⟩ := by
    rw [trans_zero, Matrix.one_mul]
    exact (C44_round_trips.1 ⟨1, 0, 0⟩).trans (by
      rw [normalizeAngle_of_mem (by linarith [Real.pi_pos]) Real.pi_pos.le])
  have hinc : increment s1 inp1 = Algo.ahead ((1 : ℤ) : ℝ) := by
    unfold increment
    simp only [hinp]
    rw [hconv, hw, hl, hpose, trans_zero, inv_one, Matrix.one_mul]
    simp [Algo.ahead]
  have safe : Safe s1 inp1 := by
    refine ⟨by rw [cell]; exact sc, ?_, fo, by simp [hinp], ?_⟩
    · rw [cell, ht, hinc, Matrix.one_mul, show inp1.scan = exScan 5 from rfl, exScan_ahead]
      exact sc6
    · intro r hr
      cases hr
      rw [hconv, cell]
      exact exScan_take
  obtain ⟨⟨ev, p⟩, s, hu1⟩ := C116_update_partial he h1 adm1 safe
  obtain ⟨ha1, -, -⟩ := update_spec he inv.full adm1.alg (inv.window.winB.inv he) inv.window.winO inv.window.winC hu1
  have ha1 : Algo.update inp1.alg s1.alg = .ok ((ev, p), s.alg) := ha1
  obtain ⟨_, -, fl, -⟩ := (h1.inv he).2.full
  obtain ⟨e, p', a', b', hu2, -, -, -, -, -, -, scs⟩ := Algo.update_step inv.full adm1.alg
  rw [ha1] at hu2
  have h2 := Res.ok.inj hu2
  simp only [Prod.mk.injEq] at h2
  obtain ⟨⟨rfl, rfl⟩, rfl⟩ := h2
  have hmv : Algo.movedEnough s1.alg (s1.alg.unused * inp1.alg.motion) := by
    rw [hn, hun, Matrix.one_mul]
    exact (Algo.ahead_moved fl.minD fl.minR (by norm_num)).2 (by norm_num)
  cases scs with
  | first h => rw [hi] at h; cases h
  | idle _ h => exact absurd hmv h
  | failed _ _ h => cases h
  | @matched m q _ _ hm hq =>
    cases hm
    rw [hconv, hw, hpose] at hq
    exact ⟨inp, o, s1, inp1, _, _, _, _, _, hp, hsc, adm, hu, hP' _ _ _ _, rfl, adm1, hu1, hq⟩

theorem matched_run {eig : NDT.Eig} (he : NDT.EigOk eig) {P : Algo.Input → Prop} {s0 : State}
    (h0 : Reach eig P [] s0) (hP : ∀ m a est order, P ⟨m, none, a, [], est, order⟩) (htt : s0.alg.transTemp = 1)
    (hun : s0.alg.unused = 1)
    (hP' : ∀ m a est order, P ⟨m, some (convertFromTransform (Algo.ahead 1)), a, [], est, order⟩) :
    ∃ inp o s1 g m q p s, P inp.alg ∧ inp.scan = exScan 5 ∧ Admissible s0 inp ∧ update eig inp s0 = .ok (o, s1) ∧
      Runs eig P s1 [⟨.matched g m q, p, exScan 5⟩] s ∧ q = ⟨1, 0, 0⟩ := by
  obtain ⟨inp, o, s1, inp1, g, m, q, p, s, hp, hsc, adm, hu, hp1, hsc1, adm1, hu1, hq⟩ :=
    matched_step he h0 hP htt hun hP'
  have hr : Runs eig P s1 ([] ++ [⟨.matched g m q, p, inp1.scan⟩]) s := .update .refl hp1 adm1 hu1
  rw [hsc1] at hr
  exact ⟨inp, o, s1, g, m, q, p, s, hp, hsc.1, adm, hu, hr, hq⟩

theorem exScan_range : InRange 5 (exScan 5) := by
  intro p hp
  rw [List.eq_of_mem_replicate hp]
  norm_num

/-- C127 as stated is false: with a radius of one metre, the window covers a point five metres away after the first
scan. -/
theorem C127_false : ∃ eig, NDT.EigOk eig ∧ ∃ s0 inp o s1, Reach eig (fun _ => True) [] s0 ∧ s0.radius = 1 ∧
    Admissible s0 inp ∧ update eig inp s0 = .ok (o, s1) ∧ Covers s1.window (5, 0) := by
  obtain ⟨eig, he⟩ := NDT.exists_eig
  obtain ⟨inp, o, s1, -, -, adm, hu, -, -, -, -, -, -, -, hc⟩ :=
    first_run he (P := fun _ => True) (.setRadius 1 .init) (fun _ _ _ _ => trivial) rfl
  exact ⟨eig, he, _, inp, o, s1, .setRadius 1 .init, rfl, adm, hu, hc⟩

/-- The hypotheses of C127 (and those of `C116_update_partial`, for a successful match) are met: range of the sensor
five metres, the robot is found one metre ahead. -/
example : ∃ eig, NDT.EigOk eig ∧ ∃ s0 inp o s1 g m q p s,
    Reach eig (NearWindow 1) [] s0 ∧ s0.radius = 80 ∧ NearWindow 1 inp.alg ∧ Admissible s0 inp ∧
    update eig inp s0 = .ok (o, s1) ∧ Runs eig (NearWindow 1) s1 [⟨.matched g m q, p, exScan 5⟩] s ∧
    InRange 5 inp.scan ∧ InRange 5 (exScan 5) ∧ (5 : ℝ) + 1 ≤ s0.radius ∧ q = ⟨1, 0, 0⟩ := by
  obtain ⟨eig, he⟩ := NDT.exists_eig
  obtain ⟨inp, o, s1, g, m, q, p, s, hp, hsc, adm, hu, hr, hq⟩ :=
    matched_run he (P := NearWindow 1) .init (fun _ _ _ _ r hr => by cases hr) rfl rfl (fun _ _ _ _ r hr => by
      cases hr
      rw [Algo.ahead_eq]
      simp [convertFromTransform, planar4, getPoseFromTransform])
  refine ⟨eig, he, init eig, inp, o, s1, g, m, q, p, s, .init, rfl, hp, adm, hu, hr, by rw [hsc]; exact exScan_range,
    exScan_range, ?_, hq⟩
  show (5 : ℝ) + 1 ≤ 80
  norm_num

end Verif.Whole
