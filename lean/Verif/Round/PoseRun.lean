import Verif.Round.PoseMatch
import Verif.Round.Maps
import Verif.Algo.Lemmas

/- Property C147: the pose reported after a number of matches, with the rounding of `double`; connection with
the model of `updateGraph` in exact arithmetic. -/
namespace Verif.Round

open Verif Verif.Geo

/-! ### Exact arithmetic -/

/-- No rounding. -/
def exact : Fmt ℝ := ⟨id, id⟩

theorem mulT_exact {a b : Trans} (ha : IsRigid a) (hb : IsRigid b) : mulT exact a b = a * b := by
  obtain ⟨-, -, a20, a21, a22⟩ := ha
  obtain ⟨-, -, b20, b21, b22⟩ := hb
  apply mat_ext <;> simp [mulT, exact, Matrix.mul_apply, Fin.sum_univ_three, a20, a21, a22, b20, b21, b22]

theorem transOf_exact (p : Pose) : transOf exact p = getTransFromPose p := by
  apply mat_ext <;> simp [transOf, exact, getTransFromPose]

/-- A `Track` describes the part of the state of the algorithm that determines the pose. -/
structure Track.Of (t : Track) (s : Algo.State) : Prop where
  temp : t.temp = s.transTemp
  position : t.position = s.position
  origin : getTransFromPose t.origin = getTransFromPose s.temp.origin

open Classical in
/-- In exact arithmetic `Track.update` is `updateGraph` as long as no loop is closed. -/
theorem Track.update_exact {t : Track} {s : Algo.State} {b : Slam.Book Algo.Frame} (inv : Algo.AInv s b) (h : t.Of s)
    {inp : Algo.Input} (adm : Algo.Admissible s inp) (hl : inp.loops = []) {inc : Trans} (hinc : IsRigid inc)
    (cov : Trans) : ∃ s', Algo.updateGraph inc cov inp s = .ok s' ∧
      (t.update exact getAngle (fun x => decide (Algo.movedFar s x)) inc).Of s' := by
  obtain ⟨s', b', h1, inv', -, h3, ins, g1, -, g3⟩ := Algo.inv_updateGraph inv adm hinc cov
  refine ⟨s', h1, ?_⟩
  have hp := h3 hl
  have ht : mulT exact t.temp inc = s.transTemp * inc := by
    rw [h.temp]; exact mulT_exact inv.temp hinc
  have hpos : IsRigid s.position := Algo.rigid_pos inv
  unfold Track.update
  simp only [ht]
  rcases g3 with ⟨-, g4, g5, g6⟩ | ⟨-, -, g4, ⟨g5, -⟩, g6⟩
  · rw [if_neg (by simpa using g6)]
    refine ⟨g5.symm, ?_, ?_⟩
    · simp only
      rw [hp, h.position, mulT_exact hpos hinc]
    · rw [g4]; exact h.origin
  · rw [if_pos (by simpa using g6)]
    have e : mulT exact (transOf exact t.origin) (s.transTemp * inc) = s'.position := by
      rw [transOf_exact, mulT_exact (getTransFromPose_rigid _) (rigid_mul inv.temp hinc), h.origin, hp, inv.pos,
        Matrix.mul_assoc]
    refine ⟨g5.symm, e, ?_⟩
    simp only
    rw [e]
    have hr : IsRigid s'.position := Algo.rigid_pos inv'
    rw [g4, Matrix.mul_one] at g1
    rw [g1]
    exact trans_pose hr

/-- The state after the first scan is described by `Track.start`. -/
theorem Track.start_exact (s : Algo.State) (h1 : s.transTemp = 1) (h2 : s.position = 1)
    (h3 : s.temp.origin = ⟨0, 0, 0⟩) : Track.start.Of s :=
  ⟨h1.symm, h2.symm, by rw [h3]; rfl⟩

/-! ### Matches -/

/-- The increments that are computed for a sequence of matched poses, ndt_slam_algorithm.h:250-262. -/
noncomputable def increments (F : Fmt ℝ) : Pose → List Pose → List Trans
  | _, [] => []
  | last, p :: ps => increment F last p :: increments F p ps

/-- The motions between successive poses. -/
noncomputable def motions : Pose → List Pose → List Pose
  | _, [] => []
  | last, p :: ps => between last p :: motions p ps

/-- The steps between successive poses are not longer than `D`. -/
def Steps (D : ℝ) : Pose → List Pose → Prop
  | _, [] => True
  | last, p :: ps => |p.x - last.x| + |p.y - last.y| ≤ D ∧ Steps D p ps

theorem motions_compose (o : Pose) (ps : List Pose) :
    (motions o ps).foldl comp o = (o :: ps).getLast (by simp) := by
  induction ps generalizing o with
  | nil => rfl
  | cons p ps ih =>
    rw [motions, List.foldl_cons, comp_between, ih, List.getLast_cons (a := o) (by simp)]

theorem zip_increments (F : Fmt ℝ) (o : Pose) (ps : List Pose) :
    ((increments F o ps).zip (motions o ps)).map Prod.fst = increments F o ps ∧
    ((increments F o ps).zip (motions o ps)).map Prod.snd = motions o ps ∧
    ((increments F o ps).zip (motions o ps)).length = ps.length := by
  induction ps generalizing o with
  | nil => exact ⟨rfl, rfl, rfl⟩
  | cons p ps ih =>
    obtain ⟨h1, h2, h3⟩ := ih p
    simp only [increments, motions, List.zip_cons_cons, List.map_cons, List.length_cons, h1, h2, h3, and_self]

theorem near_increments {F : Fmt ℝ} {v D R : ℝ} (h0 : 0 ≤ v) (h1 : v ≤ 1 / 128)
    (hd : ∀ x, |F.d x - x| ≤ v * |x|) (o : Pose) (ps : List Pose) (hs : Steps D o ps)
    (ho : |o.x| + |o.y| ≤ R) (hR : ∀ p ∈ ps, |p.x| + |p.y| ≤ R) :
    ∀ x ∈ (increments F o ps).zip (motions o ps),
      Near (41 * v) (64 * v * R) x.1 x.2 ∧ |x.2.x| + |x.2.y| ≤ 2 * D := by
  induction ps generalizing o with
  | nil => intro x hx; cases hx
  | cons p ps ih =>
    intro x hx
    rw [increments, motions, List.zip_cons_cons] at hx
    have hp := hR p (List.mem_cons_self ..)
    rcases List.mem_cons.1 hx with rfl | hx
    · refine ⟨?_, (between_len o p).trans (by linarith [hs.1])⟩
      obtain ⟨a, b, c⟩ := increment_near h0 h1 hd o p
      have hb : 32 * v * (|o.x| + |o.y| + (|p.x| + |p.y|)) ≤ 64 * v * R := by
        have := mul_le_mul_of_nonneg_left (add_le_add ho hp) (by linarith : 0 ≤ 32 * v)
        linarith
      exact ⟨a, b.trans hb, c.trans hb⟩
    · exact ih p hs.2 hp (fun q hq => hR q (List.mem_cons_of_mem _ hq)) x hx

/-- **C147**, matches.  After a sequence of matches the estimated pose is the last matched pose up to rounding;
steps of at most `D`, matched poses within `R` of the start, error `ρ` in reading an angle. -/
theorem C147_matches_partial {F : Fmt ℝ} {ang : Trans → ℝ} {v ρ D R : ℝ} (h0 : 0 ≤ v) (h1 : v ≤ 1 / 128)
    (hd : ∀ x, |F.d x - x| ≤ v * |x|) (hρ : 0 ≤ ρ) (hang : AngleOk ang ρ) (far : Trans → Bool) (ps : List Pose)
    (hD : 0 ≤ D) (hR0 : 0 ≤ R) (hs : Steps D ⟨0, 0, 0⟩ ps) (hR : ∀ p ∈ ps, |p.x| + |p.y| ≤ R)
    (hκ : (2 * ps.length + 2) * (97 * v) ≤ 1 / 4)
    (hσ : 12 * ((ps.length + 1) * (1358 * v + ρ) * D) + 384 * (v * R) ≤ 2 * D) :
    let p := poseOf ang (Track.start.updates F ang far (increments F ⟨0, 0, 0⟩ ps)).position
    let last := ((⟨0, 0, 0⟩ : Pose) :: ps).getLast (by simp)
    |p.x - last.x| ≤ ps.length * (12 * ((ps.length + 1) * (1358 * v + ρ) * D) + 384 * (v * R)) ∧
    |p.y - last.y| ≤ ps.length * (12 * ((ps.length + 1) * (1358 * v + ρ) * D) + 384 * (v * R)) ∧
    ∃ k : ℤ, |p.th - last.th - k * (2 * Real.pi)| ≤ (2 * ps.length + 1) * (1358 * v + ρ) := by
  have hE : Errors F ang v (41 * v) ρ := ⟨h0, by linarith, hd, by linarith, hρ, hang⟩
  obtain ⟨z1, z2, z3⟩ := zip_increments F ⟨0, 0, 0⟩ ps
  have e1 : 6 * (((ps.length : ℝ) + 1) * (28 * (41 * v) + 210 * v + ρ) * (2 * D)) + 6 * (64 * v * R) =
      12 * ((ps.length + 1) * (1358 * v + ρ) * D) + 384 * (v * R) := by ring
  have e2 : 28 * (41 * v) + 210 * v + ρ = 1358 * v + ρ := by ring
  have main := C147_partial hE (τ := 64 * v * R) (S := 2 * D) (by positivity) (by linarith) far
    ((increments F ⟨0, 0, 0⟩ ps).zip (motions ⟨0, 0, 0⟩ ps))
    (near_increments h0 h1 hd _ ps hs (by simpa using hR0) hR) (by rw [z3]; linarith) (by rw [z3, e1]; exact hσ)
  rw [z1, z2, z3, motions_compose, e1, e2] at main
  exact main

/-- **C147** in numbers: with IEEE `double`, 100000 matches with steps of up to 1 m within 1000 m of the start
leave the estimated pose within 2 cm and a millionth of a radian of the last matched pose. -/
theorem C147_ieee_partial {F : Fmt ℝ} {ang : Trans → ℝ} (hd : ∀ x, |F.d x - x| ≤ 2⁻¹ ^ 53 * |x|)
    (hang : AngleOk ang (100 * 2⁻¹ ^ 53)) (far : Trans → Bool) (ps : List Pose)
    (hM : ps.length ≤ 100000) (hs : Steps 1 ⟨0, 0, 0⟩ ps) (hR : ∀ p ∈ ps, |p.x| + |p.y| ≤ 1000) :
    let p := poseOf ang (Track.start.updates F ang far (increments F ⟨0, 0, 0⟩ ps)).position
    let last := ((⟨0, 0, 0⟩ : Pose) :: ps).getLast (by simp)
    |p.x - last.x| ≤ 1 / 50 ∧ |p.y - last.y| ≤ 1 / 50 ∧
    ∃ k : ℤ, |p.th - last.th - k * (2 * Real.pi)| ≤ 1 / 1000000 := by
  have hn : (ps.length : ℝ) ≤ 100000 := by exact_mod_cast hM
  have hn0 : (0 : ℝ) ≤ ps.length := Nat.cast_nonneg _
  have main := C147_matches_partial (F := F) (v := 2⁻¹ ^ 53) (D := 1) (R := 1000) (by positivity) (by norm_num) hd
    (by positivity) hang far ps (by norm_num) (by norm_num) hs hR (by norm_num; linarith) (by norm_num; linarith)
  intro p last
  obtain ⟨a, b, k, c⟩ := main
  have bound : (ps.length : ℝ) * (12 * ((ps.length + 1) * (1358 * 2⁻¹ ^ 53 + 100 * 2⁻¹ ^ 53) * 1) +
      384 * (2⁻¹ ^ 53 * 1000)) ≤ 1 / 50 := by
    have := mul_le_mul hn (by linarith : 12 * (((ps.length : ℝ) + 1) * (1358 * 2⁻¹ ^ 53 + 100 * 2⁻¹ ^ 53) * 1) +
      384 * (2⁻¹ ^ 53 * 1000) ≤ 12 * ((100000 + 1) * (1358 * 2⁻¹ ^ 53 + 100 * 2⁻¹ ^ 53) * 1) +
      384 * (2⁻¹ ^ 53 * 1000)) (by positivity) (by norm_num)
    refine this.trans ?_
    norm_num
  exact ⟨a.trans bound, b.trans bound, k, c.trans (by norm_num; linarith)⟩

/-- Reading the angle with `atan2` in `double` is accurate enough. -/
example : AngleOk (fun t => (ieee : Fmt ℝ).d (getAngle t)) (100 * 2⁻¹ ^ 53) := by
  intro t θ ε he h
  obtain ⟨k, hk⟩ := angle_ok (F := ieee) (v := 2⁻¹ ^ 53) (by positivity) (binary_err 53) t θ ε he h
  exact ⟨k, hk.trans (by norm_num)⟩

/-- The conditions are met: the formats of the code, a robot that drives 60 m along a line. -/
example : (∀ x : ℝ, |(ieee : Fmt ℝ).d x - x| ≤ 2⁻¹ ^ 53 * |x|) ∧
    ∃ ps : List Pose, ps.length = 61 ∧ Steps 1 ⟨0, 0, 0⟩ ps ∧ (∀ p ∈ ps, |p.x| + |p.y| ≤ 1000) ∧
      ps.getLast? = some ⟨60, 0, 0⟩ := by
  refine ⟨binary_err 53, (List.range 61).map fun i : ℕ => (⟨i, 0, 0⟩ : Pose), by simp, ?_, ?_, by simp [List.range_succ]⟩
  · have key : ∀ n k : ℕ, Steps 1 ⟨k, 0, 0⟩ ((List.range' (k + 1) n).map fun i : ℕ => (⟨i, 0, 0⟩ : Pose)) := by
      intro n
      induction n with
      | zero => intro k; trivial
      | succ n ih =>
        intro k
        rw [List.range'_succ, List.map_cons]
        exact ⟨by simp, ih (k + 1)⟩
    have h := key 60 0
    refine ⟨by simp, ?_⟩
    simpa [List.range_eq_range', List.range'_succ] using h
  · intro p hp
    simp only [List.mem_map, List.mem_range] at hp
    obtain ⟨i, hi, rfl⟩ := hp
    have : (i : ℝ) ≤ 60 := by exact_mod_cast (by omega : i ≤ 60)
    simp
    linarith

end Verif.Round
