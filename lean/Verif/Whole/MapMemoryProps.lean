import Verif.Whole.MapMemory

/-
C170: the memory taken by the map is limited by the area the robot was thought to be in.
-/
namespace Verif.Whole

open Verif Verif.Geo Verif.NDTGrid Verif.World Verif.Voxel

/-- **C170**: with a sensor of range `R`, a generation distance of at most `D'`, and all frames, whenever an update
was finished, within the distance `B` of the start, the map has at most `(8 (R + D' + B) + 2)²` cells, however long the run. -/
theorem C170_map {eig : NDT.Eig} (he : NDT.EigOk eig) {P : Algo.Input → Prop} {D' B R : ℝ} (hR : 0 ≤ R)
    (hD' : 0 ≤ D') (hB : 0 ≤ B) {log : List Entry} {s : State} (h : Stays eig P D' B log s)
    (hs : ∀ e ∈ log, InRange R e.scan) :
    (s.global.grid.cells.length : ℝ) ≤ (8 * (R + D' + B) + 2) ^ 2 := by
  obtain ⟨⟨b, inv⟩, -⟩ := h.reach.inv he
  exact cells_le (inv.mapped.globalB.inv he).wf (by linarith) (h.extents he hR hD' hB hs).2.2

/-- **C170**, reach of the map: every square of the map has its centre within `R + D' + B` and half a cell of the start, along
both axes. -/
theorem C170_reach {eig : NDT.Eig} (he : NDT.EigOk eig) {P : Algo.Input → Prop} {D' B R : ℝ} (hR : 0 ≤ R)
    (hD' : 0 ≤ D') (hB : 0 ≤ B) {log : List Entry} {s : State} (h : Stays eig P D' B log s)
    (hs : ∀ e ∈ log, InRange R e.scan) {q : ℤ × ℤ} (hq : InExtent s.global.grid q) :
    |(squareCentre s.global q).1| ≤ R + D' + B + 1 / 8 ∧ |(squareCentre s.global q).2| ≤ R + D' + B + 1 / 8 := by
  obtain ⟨⟨b, inv⟩, -⟩ := h.reach.inv he
  have hN := side_lt (cs := 1 / 4) (B := R + D' + B) (by norm_num) (by linarith)
  obtain ⟨u1, u2, u3, u4⟩ := (h.extents he hR hD' hB hs).2.2
  have u1 : (s.global.grid.left : ℝ) ≤ side (1 / 4) (R + D' + B) := by exact_mod_cast u1
  have u2 : (s.global.grid.right : ℝ) ≤ side (1 / 4) (R + D' + B) := by exact_mod_cast u2
  have u3 : (s.global.grid.up : ℝ) ≤ side (1 / 4) (R + D' + B) := by exact_mod_cast u3
  have u4 : (s.global.grid.down : ℝ) ≤ side (1 / 4) (R + D' + B) := by exact_mod_cast u4
  obtain ⟨q1, q2, q3, q4⟩ := hq
  have q1 : -(s.global.grid.left : ℝ) ≤ q.1 := by exact_mod_cast q1
  have q2 : (q.1 : ℝ) ≤ s.global.grid.right := by exact_mod_cast q2
  have q3 : -(s.global.grid.down : ℝ) ≤ q.2 := by exact_mod_cast q3
  have q4 : (q.2 : ℝ) ≤ s.global.grid.up := by exact_mod_cast q4
  have e : squareCentre s.global q = ((q.1 : ℝ) * (1 / 4), (q.2 : ℝ) * (1 / 4)) := by
    unfold squareCentre
    rw [inv.mapped.globalO, inv.mapped.globalC]
    simp [toWorld]
  rw [e]
  constructor
  · rw [abs_le]; constructor <;> simp only <;> linarith
  · rw [abs_le]; constructor <;> simp only <;> linarith

/-- **C170**, in terms of the way: without loop closures the map has at most `(8 (R + D' + way) + 2)²` cells. -/
theorem C170_way {eig : NDT.Eig} (he : NDT.EigOk eig) {P : Algo.Input → Prop} (hP : ∀ i, P i → i.loops = [])
    {D D' R : ℝ} (hR : 0 ≤ R) (hD' : 0 ≤ D') {log : List Entry} {s : State} (h : Drive eig P D D' log s)
    (hs : ∀ e ∈ log, InRange R e.scan) :
    (s.global.grid.cells.length : ℝ) ≤ (8 * (R + D' + way log) + 2) ^ 2 := by
  obtain ⟨h0, h1, -⟩ := h.stays he hP
  exact C170_map he hR hD' h0 h1 hs

/-- A run with one frame in the map, to which `C170_way` applies with sensor range 6 and which stays within a metre. -/
example : ∃ eig log s, NDT.EigOk eig ∧ Drive eig (fun i => i.loops = []) (1 / 2) (1 / 2) log s ∧
    (∀ e ∈ log, InRange 6 e.scan) ∧ s.store.length = 1 ∧ way log = 1 ∧
    Stays eig (fun i => i.loops = []) (1 / 2) 1 log s := by
  obtain ⟨eig, he⟩ := NDT.exists_eig
  obtain ⟨log, s, h1, h2, h3, h4⟩ := drive_one he
  have := (h1.stays he fun _ h => h).2.1
  rw [h4] at this
  exact ⟨eig, log, s, he, h1, h2, h3, h4, this⟩

end Verif.Whole
