import Verif.Grid.MachineLemmas
import Verif.Grid.Props

/- C155: 64-bit integers suffice for the voxel grid. -/
namespace Verif.Voxel.Machine

open Verif Verif.Voxel

set_option linter.unusedSectionVars false

variable {K : Type v} [Field K] [LinearOrder K] [IsStrictOrderedRing K] [FloorRing K] {α : Type u}

/-! ### Specification -/

/-- Executing one call with the integers of the machine and at most `mem` cells. -/
def exec (ops : CellOps α) (mem : ℕ) (g : Grid K α) : Op K α → Res (Grid K α)
  | .addCell p c merging => addCell ops mem g p c merging
  | .removeCell p => (removeCell g p).map Prod.snd
  | .enlarge a b c d => enlarge mem g a b c d
  | .translate tx ty discard => translate mem g tx ty discard
  | .clear => .ok (Voxel.clear g)
  | .setCellSize cs => .ok (Voxel.setCellSize g cs)
  | .rayTrace s e => (rayTrace ops g s e).map Prod.snd

/-- Executing a history of calls with the integers of the machine. -/
def execAll (ops : CellOps α) (mem : ℕ) (g : Grid K α) : List (Op K α) → Res (Grid K α)
  | [] => .ok g
  | o :: os => (exec ops mem g o).bind fun g => execAll ops mem g os

/-- The arguments of a call are moderate: points for which the grid can grow are within 2^30 cells of the origin, moves
are values of `int` other than the smallest, a move that keeps all cells does not make the grid wider than 2^30 cells
from the origin, cell sizes are positive. -/
def Moderate (g : Grid K α) : Op K α → Prop
  | .addCell p _ _ => |p.1| ≤ 2 ^ 30 * g.cellSize ∧ |p.2| ≤ 2 ^ 30 * g.cellSize
  | .enlarge a b c d => |a| ≤ 2 ^ 30 * g.cellSize ∧ |b| ≤ 2 ^ 30 * g.cellSize ∧ |c| ≤ 2 ^ 30 * g.cellSize ∧
      |d| ≤ 2 ^ 30 * g.cellSize
  | .translate tx ty discard => |tx| < 2 ^ 31 ∧ |ty| < 2 ^ 31 ∧ (discard = false →
      g.left - tx ≤ 2 ^ 30 ∧ g.right + tx ≤ 2 ^ 30 ∧ g.up + ty ≤ 2 ^ 30 ∧ g.down - ty ≤ 2 ^ 30)
  | .setCellSize cs => 0 < cs
  | .removeCell _ => True
  | .clear => True
  | .rayTrace _ _ => True

/-- Every call of the history is moderate when it is made. -/
def AllModerate (ops : CellOps α) (g : Grid K α) : List (Op K α) → Prop
  | [] => True
  | o :: os => Moderate g o ∧ ∀ g', o.exec ops g = .ok g' → AllModerate ops g' os

/-! ### Lemmas -/

/-- What holds of the grid along a moderate history. -/
structure Fine (g : Grid K α) : Prop where
  small : Small g
  wf : WF g
  pos : 0 < g.cellSize

theorem removeCell_eq {g : Grid K α} (hf : Fine g) (p : K × K) : removeCell g p = Voxel.removeCell g p := by
  unfold removeCell Voxel.removeCell removeCellEffect
  by_cases h : isInside g p = true
  · rw [if_pos h, if_pos h, calcIndex_eq hf.small hf.pos (near_of_inside hf.small hf.pos h)]
    cases Voxel.calcIndex g p with
    | ok idx =>
      simp only [Res.bind_ok]
      cases readSlot g.cells idx with
      | ok old =>
        simp only [Res.bind_ok]
        cases writeSlot g.cells idx none <;> rfl
      | throw e => rfl
      | ub u => rfl
    | throw e => rfl
    | ub u => rfl
  · rw [if_neg h, if_neg h]

theorem rayLoop_eq (ops : CellOps α) {g : Grid K α} (hf : Fine g) (delta : K × K) : ∀ (n : ℕ) (p : K × K) (a b : ℕ)
    (s : RayState α), rayLoop ops g delta n p a b s = Voxel.rayLoop ops g delta n p a b s
  | 0, _, _, _, _ => rfl
  | n + 1, p, a, b, s => by
    rw [rayLoop, Voxel.rayLoop]
    congr 1
    funext s
    simp only []
    split_ifs with h
    · rfl
    · simp only [not_or, not_le, ge_iff_le] at h
      rw [calcIndex_eq hf.small hf.pos (near_of_inside hf.small hf.pos ?_)]
      · congr 1
        funext idx
        exact rayLoop_eq ops hf delta n _ _ _ _
      · unfold isInside
        simp only [Bool.and_eq_true, decide_eq_true_eq, ge_iff_le]
        exact ⟨⟨⟨h.2.1.le, h.1.le⟩, h.2.2.2.le⟩, h.2.2.1.le⟩

theorem rayTrace_eq (ops : CellOps α) {g : Grid K α} (hf : Fine g) (s e : K × K) :
    rayTrace ops g s e = Voxel.rayTrace ops g s e := by
  unfold rayTrace Voxel.rayTrace
  by_cases h : isInside g s = true
  · rw [calcIndex_eq hf.small hf.pos (near_of_inside hf.small hf.pos h)]
    simp only [rayLoop_eq ops hf]
  · simp only [Bool.not_eq_true] at h
    rw [h]; rfl

theorem addCell_eq (ops : CellOps α) {g : Grid K α} (hf : Fine g) (mem : ℕ) (p : K × K) (c : α) (m : Bool)
    (h1 : |p.1| ≤ 2 ^ 30 * g.cellSize) (h2 : |p.2| ≤ 2 ^ 30 * g.cellSize) (hv : g.validCells + 1 < 2 ^ 64) :
    (addCell ops mem g p c m = Voxel.addCell ops g p c m ∨ addCell ops mem g p c m = .throw .badAlloc) ∧
    ∀ g', Voxel.addCell ops g p c m = .ok g' → Fine g' ∧ g'.validCells ≤ g.validCells + 1 := by
  obtain ⟨he, hsm⟩ := enlargeToFit_eq hf.small hf.wf hf.pos mem h1 h2
  obtain ⟨g1, hg1, hgr, hin, -⟩ := enlargeToFit_spec hf.wf hf.pos p
  have hf1 : Fine g1 := ⟨hsm g1 hg1, hgr.wf, by rw [hgr.cs]; exact hf.pos⟩
  constructor
  · rcases he with he | he
    · left
      unfold addCell Voxel.addCell
      rw [he, hg1, Res.bind_ok, Res.bind_ok, calcIndex_eq hf1.small hf1.pos (near_of_inside hf1.small hf1.pos hin),
        add64_eq (by rw [hgr.valid]; omega)]
      rfl
    · right
      unfold addCell
      rw [he]; rfl
  · intro g' h
    have hwf := addCell_wf hf.wf h
    unfold Voxel.addCell at h
    rw [hg1, Res.bind_ok] at h
    obtain ⟨idx, -, h⟩ := Res.bind_eq_ok.1 h
    obtain ⟨old, -, h⟩ := Res.bind_eq_ok.1 h
    have hval := hgr.valid
    cases old with
    | none =>
      obtain ⟨cells, -, h⟩ := Res.bind_eq_ok.1 h
      cases h
      exact ⟨⟨⟨hf1.small.1, hf1.small.2, hf1.small.3, hf1.small.4⟩, hwf, hf1.pos⟩, by simp only []; omega⟩
    | some o =>
      obtain ⟨cells, -, h⟩ := Res.bind_eq_ok.1 h
      cases h
      exact ⟨⟨⟨hf1.small.1, hf1.small.2, hf1.small.3, hf1.small.4⟩, hwf, hf1.pos⟩, by simp only []; omega⟩

theorem moves_eq {g : Grid K α} (hs : Small g) (hwf : WF g) (l r u d : ℕ) :
    ((moveLeft g l).bind fun g => (moveRight g r).bind fun g => (moveUp g u).bind fun g => moveDown g d) =
      .ok (Voxel.moveDown (Voxel.moveUp (Voxel.moveRight (Voxel.moveLeft g l) r) u) d) := by
  have e : ∀ {g g' : Grid K α}, Small g → SameFrame g g' → Small g' :=
    fun h f => ⟨f.left ▸ h.1, f.right ▸ h.2, f.up ▸ h.3, f.down ▸ h.4⟩
  rw [moveLeft_eq hs hwf, Res.bind_ok]
  obtain ⟨w1, f1, -⟩ := moveLeft_spec hwf l
  have s1 := e hs f1
  rw [moveRight_eq s1 w1, Res.bind_ok]
  obtain ⟨w2, f2, -⟩ := moveRight_spec w1 r
  have s2 := e s1 f2
  rw [moveUp_eq s2 w2, Res.bind_ok]
  obtain ⟨w3, f3, -⟩ := moveUp_spec w2 u
  exact moveDown_eq (e s2 f3) w3 d

theorem translate_eq {g : Grid K α} (hf : Fine g) (mem : ℕ) (tx ty : ℤ) (discard : Bool)
    (h : Moderate g (.translate tx ty discard)) :
    (translate mem g tx ty discard = Voxel.translate g tx ty discard ∨
      translate mem g tx ty discard = .throw .badAlloc) ∧
    ∀ g', Voxel.translate g tx ty discard = .ok g' → Fine g' ∧ g'.validCells = g.validCells := by
  obtain ⟨h1, h2, h3⟩ := h
  have h1' := abs_lt.1 h1
  have h2' := abs_lt.1 h2
  have hsm := hf.small
  constructor
  · unfold translate Voxel.translate
    have el : (if tx < 0 then int (-tx) else .ok 0) = .ok ((if tx < 0 then tx.natAbs else 0 : ℕ) : ℤ) := by
      split_ifs with ht
      · rw [int_eq (by omega) (by omega)]; congr 1; omega
      · rfl
    have ed : (if ty < 0 then int (ty * -1) else .ok 0) = .ok ((if ty < 0 then (ty * -1).toNat else 0 : ℕ) : ℤ) := by
      split_ifs with ht
      · rw [int_eq (by omega) (by omega)]; congr 1; omega
      · rfl
    have er : (if tx < 0 then 0 else tx) = ((if tx < 0 then 0 else tx.toNat : ℕ) : ℤ) := by split_ifs <;> omega
    have eu : (if ty < 0 then 0 else ty) = ((if ty < 0 then 0 else ty.toNat : ℕ) : ℤ) := by split_ifs <;> omega
    rw [el, ed, er, eu]
    obtain ⟨l, hl⟩ : ∃ l, (if tx < 0 then tx.natAbs else 0) = l := ⟨_, rfl⟩
    obtain ⟨r, hr⟩ : ∃ r, (if tx < 0 then 0 else tx.toNat) = r := ⟨_, rfl⟩
    obtain ⟨u, hu⟩ : ∃ u, (if ty < 0 then 0 else ty.toNat) = u := ⟨_, rfl⟩
    obtain ⟨d, hd⟩ : ∃ d, (if ty < 0 then (ty * -1).toNat else 0) = d := ⟨_, rfl⟩
    rw [hl, hr, hu, hd]
    have hl' : l < 2 ^ 31 := by rw [← hl]; split_ifs <;> omega
    have hr' : r < 2 ^ 31 := by rw [← hr]; split_ifs <;> omega
    have hu' : u < 2 ^ 31 := by rw [← hu]; split_ifs <;> omega
    have hd' : d < 2 ^ 31 := by rw [← hd]; split_ifs <;> omega
    simp only [Res.bind_ok]
    rw [ofLong_nat (n := l) (by omega), ofLong_nat (n := r) (by omega), ofLong_nat (n := u) (by omega),
      ofLong_nat (n := d) (by omega)]
    cases discard with
    | true =>
      left
      exact moves_eq hsm hf.wf l r u d
    | false =>
      obtain ⟨a1, a2, a3, a4⟩ := h3 rfl
      have q1 := hsm.left; have q2 := hsm.right; have q3 := hsm.up; have q4 := hsm.down
      obtain ⟨he, hes⟩ := enlargeGrid_eq hsm hf.wf mem (l := l) (r := r) (u := u) (d := d)
        (by rw [← hl]; split_ifs <;> omega) (by rw [← hr]; split_ifs <;> omega)
        (by rw [← hu]; split_ifs <;> omega) (by rw [← hd]; split_ifs <;> omega)
      obtain ⟨g1, hg1, hwf1, -⟩ := enlargeGrid_spec hf.wf l r u d
      simp only [Bool.false_eq_true, if_false]
      rcases he with he | he
      · left
        rw [he, hg1, Res.bind_ok, Res.map_ok]
        exact moves_eq (hes g1 hg1) hwf1 l r u d
      · right
        rw [he]; rfl
  · intro g' hg'
    cases discard with
    | true =>
      obtain ⟨g2, h4, hwf, hL, hR, hU, hD, hcs, hv, -⟩ := translate_spec hf.wf tx ty true
      rw [hg'] at h4
      cases h4
      simp only [if_true, Nat.add_zero] at hL hR hU hD
      exact ⟨⟨⟨hL ▸ hsm.1, hR ▸ hsm.2, hU ▸ hsm.3, hD ▸ hsm.4⟩, hwf, by rw [hcs]; exact hf.pos⟩, hv⟩
    | false =>
      obtain ⟨a1, a2, a3, a4⟩ := h3 rfl
      obtain ⟨g2, h4, hwf, hL, hR, hU, hD, hcs, hv, -⟩ := translate_spec hf.wf tx ty false
      rw [hg'] at h4
      cases h4
      simp only [Bool.false_eq_true, if_false] at hL hR hU hD
      have q1 := hsm.left; have q2 := hsm.right; have q3 := hsm.up; have q4 := hsm.down
      exact ⟨⟨⟨by omega, by omega, by omega, by omega⟩, hwf, by rw [hcs]; exact hf.pos⟩, hv⟩

theorem exec_eq (ops : CellOps α) (mem : ℕ) {g : Grid K α} (hf : Fine g) (hv : g.validCells + 1 < 2 ^ 64) (o : Op K α)
    (h : Moderate g o) :
    (exec ops mem g o = o.exec ops g ∨ exec ops mem g o = .throw .badAlloc) ∧
    ∀ g', o.exec ops g = .ok g' → Fine g' ∧ g'.validCells ≤ g.validCells + 1 := by
  cases o with
  | addCell p c m => exact addCell_eq ops hf mem p c m h.1 h.2 hv
  | removeCell p =>
    refine ⟨Or.inl ?_, fun g' hg' => ?_⟩
    · simp only [exec, Op.exec, removeCell_eq hf]
    · simp only [Op.exec, Voxel.removeCell] at hg'
      split_ifs at hg'
      · obtain ⟨x, hx, -⟩ := Res.map_eq_ok.1 hg'
        obtain ⟨y, -, hy⟩ := Res.bind_eq_ok.1 hx
        cases hy
      · cases hg'; exact ⟨hf, Nat.le_succ _⟩
  | enlarge a b c d =>
    obtain ⟨h1, h2, h3, h4⟩ := h
    obtain ⟨he, hes⟩ := enlarge_eq hf.small hf.wf hf.pos mem h1 h2 h3 h4
    refine ⟨he, fun g' hg' => ?_⟩
    obtain ⟨g2, hg2, hgr, -⟩ := enlarge_spec hf.wf hf.pos a b c d
    have hg2' := hg'
    simp only [Op.exec] at hg'
    rw [hg2] at hg'
    cases hg'
    exact ⟨⟨hes _ hg2, hgr.wf, by rw [hgr.cs]; exact hf.pos⟩, by rw [hgr.valid]; omega⟩
  | translate tx ty dis =>
    obtain ⟨h1, h2⟩ := translate_eq hf mem tx ty dis h
    exact ⟨h1, fun g' hg' => ⟨(h2 g' hg').1, by rw [(h2 g' hg').2]; omega⟩⟩
  | clear =>
    refine ⟨Or.inl rfl, fun g' hg' => ?_⟩
    have hwf := exec_wf (ops := ops) hf.wf .clear hg'
    cases hg'
    exact ⟨⟨⟨hf.small.1, hf.small.2, hf.small.3, hf.small.4⟩, hwf, hf.pos⟩, by simp only [clear]; omega⟩
  | setCellSize cs =>
    refine ⟨Or.inl rfl, fun g' hg' => ?_⟩
    have hwf := exec_wf (ops := ops) hf.wf (.setCellSize cs) hg'
    cases hg'
    exact ⟨⟨⟨hf.small.1, hf.small.2, hf.small.3, hf.small.4⟩, hwf, h⟩, by simp only [setCellSize]; omega⟩
  | rayTrace s e =>
    refine ⟨Or.inl ?_, fun g' hg' => ?_⟩
    · simp only [exec, Op.exec, rayTrace_eq ops hf]
    · have hwf := exec_wf (ops := ops) hf.wf (.rayTrace s e) hg'
      simp only [Op.exec] at hg'
      obtain ⟨⟨v, x⟩, hx, rfl⟩ := Res.map_eq_ok.1 hg'
      unfold Voxel.rayTrace at hx
      split_ifs at hx
      · cases hx; exact ⟨hf, by simp only []; omega⟩
      · simp only at hx
        obtain ⟨idx, -, hx⟩ := Res.bind_eq_ok.1 hx
        obtain ⟨s1, h1, hx⟩ := Res.bind_eq_ok.1 hx
        split_ifs at hx
        obtain ⟨n, -, hx⟩ := Res.bind_eq_ok.1 hx
        obtain ⟨s2, h2, hx⟩ := Res.bind_eq_ok.1 hx
        cases hx
        exact ⟨⟨⟨hf.small.1, hf.small.2, hf.small.3, hf.small.4⟩, hwf, hf.pos⟩, by simp only []; omega⟩

theorem execAll_eq (ops : CellOps α) (mem : ℕ) (hist : List (Op K α)) : ∀ {g : Grid K α}, Fine g →
    g.validCells + hist.length < 2 ^ 64 → AllModerate ops g hist →
    (execAll ops mem g hist = Voxel.execAll ops g hist ∨ execAll ops mem g hist = .throw .badAlloc) ∧
    ∀ g', Voxel.execAll ops g hist = .ok g' → Fine g' := by
  induction hist with
  | nil => intro g hf _ _; exact ⟨Or.inl rfl, fun g' h => by cases h; exact hf⟩
  | cons o os ih =>
    intro g hf hv hm
    rw [List.length_cons] at hv
    obtain ⟨h1, h2⟩ := exec_eq ops mem hf (by omega) o hm.1
    constructor
    · rcases h1 with h1 | h1
      · cases h : o.exec ops g with
        | ok g1 =>
          obtain ⟨hf1, hv1⟩ := h2 g1 h
          rw [execAll, Voxel.execAll, h1, h]
          exact (ih hf1 (by omega) (hm.2 g1 h)).1
        | throw e => left; rw [execAll, Voxel.execAll, h1, h]; rfl
        | ub u => left; rw [execAll, Voxel.execAll, h1, h]; rfl
      · right; rw [execAll, h1]; rfl
    · intro g' h
      rw [Voxel.execAll] at h
      obtain ⟨g1, e1, h⟩ := Res.bind_eq_ok.1 h
      obtain ⟨hf1, hv1⟩ := h2 g1 e1
      exact (ih hf1 (by omega) (hm.2 g1 e1)).2 g' h

theorem init_fine (ops : CellOps α) : Fine (Voxel.init ops : Grid K α) :=
  ⟨⟨Nat.zero_le _, Nat.zero_le _, Nat.zero_le _, Nat.zero_le _⟩, by unfold WF; rfl, by
    show (0 : K) < 1 / 4
    norm_num⟩

theorem cellExists_eq {g : Grid K α} (hf : Fine g) (p : K × K) : cellExists g p = Voxel.cellExists g p := by
  unfold cellExists Voxel.cellExists
  by_cases h : isInside g p = true
  · rw [if_pos h, if_pos h, calcIndex_eq hf.small hf.pos (near_of_inside hf.small hf.pos h)]
  · rw [if_neg h, if_neg h]

theorem windowStart_eq {c radius : ℕ} (hc : c < 2 ^ 32) (hr : radius < 2 ^ 62) :
    windowStart c radius = .ok (c - radius) := by
  unfold windowStart
  rw [toLong_eq (by omega), toLong_eq (by omega), long_eq (by omega) (by omega), Res.bind_ok]
  split_ifs
  · rw [ofLong_eq le_rfl (by norm_num)]; congr 1; omega
  · rw [ofLong_eq (by omega) (by omega)]; congr 1; omega

theorem windowEnd_eq {c radius size : ℕ} (hc : c < 2 ^ 32) (hr : radius < 2 ^ 62) :
    windowEnd c radius size = min (c + radius + 1) size := by
  unfold windowEnd
  rw [add64_eq (a := c) (by omega), add64_eq (by omega)]

theorem getNeighbors_eq {g : Grid K α} (hf : Fine g) (p : K × K) {radius : ℕ} (hr : radius < 2 ^ 62) :
    getNeighbors g p radius = Voxel.getNeighbors g p radius := by
  have hw := width_le hf.small
  have hh := height_le hf.small
  unfold getNeighbors Voxel.getNeighbors
  by_cases h : isInside g p = true
  swap
  · simp only [Bool.not_eq_true] at h
    rw [h]; rfl
  have hn := near_of_inside hf.small hf.pos h
  obtain ⟨hc1, hc2⟩ := calcCoordinates_eq' hf.small hf.pos hn
  rw [cellExists_eq hf, calcIndex_eq hf.small hf.pos hn, hc1]
  split_ifs
  · rfl
  · rfl
  cases hc : Voxel.calcCoordinates g p with
  | throw e => rfl
  | ub u => rfl
  | ok c =>
    obtain ⟨b1, b2⟩ := hc2 c hc
    simp only [Res.bind_ok]
    rw [windowStart_eq b1 hr, windowStart_eq b2 hr]
    simp only [Res.bind_ok]
    rw [windowEnd_eq b1 hr, windowEnd_eq b2 hr, width_eq hf.small, height_eq hf.small]
    congr 1
    refine List.flatMap_congr fun row hrow => ?_
    refine List.map_congr_left fun col hcol => ?_
    rw [List.mem_range'_1] at hrow hcol
    exact indexOf_eq hf.small (by simp only []; omega) (by simp only []; omega)

/-! ### C155 -/

/-- C155 for calls that change a grid.  Partial: calls must be moderate and fewer than 2^63 (`C155_false_*`). -/
theorem C155_run_partial (ops : CellOps α) (mem : ℕ) (hist : List (Op K α)) (hn : hist.length < 2 ^ 63)
    (hm : AllModerate ops (Voxel.init ops) hist) :
    execAll ops mem (Voxel.init ops) hist = Voxel.execAll ops (Voxel.init ops) hist ∨
    execAll ops mem (Voxel.init ops) hist = .throw .badAlloc :=
  (execAll_eq ops mem hist (init_fine ops) (by show 1 + hist.length < 2 ^ 64; omega) hm).1

/-- C155 for calls that read a grid.  Partial: radius below 2^62. -/
theorem C155_query_partial (ops : CellOps α) (hist : List (Op K α)) (hn : hist.length < 2 ^ 63)
    (hm : AllModerate ops (Voxel.init ops) hist) (g : Grid K α) (hg : Voxel.execAll ops (Voxel.init ops) hist = .ok g)
    (p : K × K) (radius : ℕ) (hr : radius < 2 ^ 62) :
    width g = g.width ∧ height g = g.height ∧ cellExists g p = Voxel.cellExists g p ∧
    (isInside g p = true → getCellPtr g p = Voxel.getCellPtr g p) ∧
    getNeighbors g p radius = Voxel.getNeighbors g p radius := by
  have hf := (execAll_eq ops 0 hist (init_fine ops) (by show 1 + hist.length < 2 ^ 64; omega) hm).2 g hg
  refine ⟨width_eq hf.small, height_eq hf.small, cellExists_eq hf p, fun h => ?_, getNeighbors_eq hf p hr⟩
  unfold getCellPtr Voxel.getCellPtr
  rw [calcIndex_eq hf.small hf.pos (near_of_inside hf.small hf.pos h)]

/-- A history that meets the hypotheses: the grid grows, is moved and a ray is drawn. -/
example : AllModerate natOps (Voxel.init (K := ℚ) natOps)
    [.addCell (1 / 2, -1 / 4) 5 true, .translate (-1) 1 false, .rayTrace (0, 0) (1 / 4, 0)] := by
  refine ⟨?_, fun g1 h1 => ⟨?_, fun g2 h2 => ⟨trivial, fun g3 h3 => trivial⟩⟩⟩
  · constructor <;> norm_num [Voxel.init, abs_le]
  · have e : Op.exec natOps (Voxel.init (K := ℚ) natOps) (.addCell (1 / 2, -1 / 4) 5 true) =
      .ok ⟨1 / 4, 0, 2, 0, 1, 2, [some 0, none, none, none, none, some 5]⟩ := by decide +kernel
    rw [e] at h1
    cases h1
    refine ⟨by decide, by decide, fun _ => ⟨by decide, by decide, by decide, by decide⟩⟩

/-- Negation of C155 for growing: a point 2^32 - 1 cells to the right of and above a new grid makes the number of cells
wrap to zero, `resize` succeeds with any memory, and the copy of the old cell is written past the end. -/
theorem C155_false_grow (ops : CellOps α) (mem : ℕ) (c : α) (m : Bool) :
    addCell ops mem (Voxel.init ops : Grid K α) ((2 ^ 32 - 1) / 4, (2 ^ 32 - 1) / 4) c m = .ub .outOfBounds ∧
    ∃ g, Voxel.addCell ops (Voxel.init ops : Grid K α) ((2 ^ 32 - 1) / 4, (2 ^ 32 - 1) / 4) c m = .ok g := by
  have hf := init_fine (K := K) ops
  constructor
  · have hin : isInside (Voxel.init ops : Grid K α) ((2 ^ 32 - 1) / 4, (2 ^ 32 - 1) / 4) ≠ true := by
      rw [Ne, isInside_iff hf.pos]
      rintro ⟨⟨-, h⟩, -⟩
      norm_num [Voxel.init] at h
    have hceil : ⌈((2 ^ 32 - 1) / 4 - ((0 : ℕ) * (1 / 4) + 1 / 4 / 2) : K) / (1 / 4)⌉ = 2 ^ 32 - 1 := by
      rw [Int.ceil_eq_iff]
      norm_num
    have hl : calcIncLeft (Voxel.init ops : Grid K α) ((2 ^ 32 - 1) / 4) = .ok 0 := by
      unfold calcIncLeft
      rw [if_neg]
      norm_num [Voxel.init, Grid.half]
    have hd : calcIncDown (Voxel.init ops : Grid K α) ((2 ^ 32 - 1) / 4) = .ok 0 := by
      unfold calcIncDown
      rw [if_neg]
      norm_num [Voxel.init, Grid.half]
    have hr : calcIncRight (Voxel.init ops : Grid K α) ((2 ^ 32 - 1) / 4) = .ok (2 ^ 32 - 1) := by
      unfold calcIncRight
      rw [if_pos (by norm_num [Voxel.init, Grid.half]), if_neg (ne_of_gt hf.pos)]
      simp only [Voxel.init, Grid.half]
      rw [hceil]; rfl
    have hu : calcIncUp (Voxel.init ops : Grid K α) ((2 ^ 32 - 1) / 4) = .ok (2 ^ 32 - 1) := by
      unfold calcIncUp
      rw [if_pos (by norm_num [Voxel.init, Grid.half]), if_neg (ne_of_gt hf.pos)]
      simp only [Voxel.init, Grid.half]
      rw [hceil]; rfl
    unfold addCell enlargeToFit enlarge
    rw [if_neg hin, hl, hr, hu, hd]
    simp only [Res.bind_ok]
    have : enlargeGrid mem (Voxel.init ops : Grid K α) 0 (2 ^ 32 - 1) (2 ^ 32 - 1) 0 = .ub .outOfBounds := by
      unfold enlargeGrid
      simp [Voxel.init, width, height, add64, mul64, loop, enlargeStep, writeSlot, newIndex, List.range_succ]
    rw [this]; rfl
  · obtain ⟨g, hg, -⟩ := addCell_spec ops hf.wf hf.pos (p := (((2 ^ 32 - 1) / 4, (2 ^ 32 - 1) / 4) : K × K)) (by
      rintro (⟨k, hk⟩ | ⟨k, hk⟩)
      · simp only [Voxel.init] at hk
        have : ((2 * (2 ^ 32 - 1) : ℕ) : K) = ((2 * k + 1 : ℕ) : K) := by
          push_cast [Nat.cast_sub] at hk ⊢
          linarith
        have := Nat.cast_injective this
        omega
      · simp only [Voxel.init] at hk
        have : (0 : K) ≤ k := Nat.cast_nonneg k
        norm_num at hk
        linarith) c m
    exact ⟨g, hg⟩

/-- Negation of C155 for moves: the smallest `int`. -/
theorem C155_false_move (g : Grid K α) (mem : ℕ) (ty : ℤ) (discard : Bool) :
    translate mem g (-2 ^ 31) ty discard = .ub .overflow := by
  rfl

/-- Negation of C155 for neighbours: with the largest radius the cell itself is not found. -/
theorem C155_false_radius (ops : CellOps α) :
    getNeighbors (Voxel.init ops : Grid K α) (0, 0) (2 ^ 64 - 1) = .ok [] ∧
    Voxel.getNeighbors (Voxel.init ops : Grid K α) (0, 0) (2 ^ 64 - 1) = .ok [(0, ops.default)] := by
  have hin : isInside (Voxel.init ops : Grid K α) (0, 0) = true := by
    rw [isInside_iff (init_fine ops).pos]; norm_num [Voxel.init]
  have hfl : ⌊((0 : K) + 1 / 4 * (0 : ℕ) + 1 / 4 / 2) / (1 / 4)⌋ = 0 := by
    rw [Int.floor_eq_iff]; norm_num
  have hfl' : ⌊(-(0 : K) + 1 / 4 * (0 : ℕ) + 1 / 4 / 2) / (1 / 4)⌋ = 0 := by
    rw [Int.floor_eq_iff]; norm_num
  have h1 : calcCoordinates (Voxel.init ops : Grid K α) (0, 0) = .ok (0, 0) := by
    unfold calcCoordinates
    rw [if_neg (ne_of_gt (init_fine ops).pos)]
    simp only [Voxel.init, Grid.half]
    rw [hfl, hfl']; rfl
  have h2 : Voxel.calcCoordinates (Voxel.init ops : Grid K α) (0, 0) = .ok (0, 0) := by
    unfold Voxel.calcCoordinates
    rw [if_neg (ne_of_gt (init_fine ops).pos)]
    simp only [Voxel.init, Grid.half]
    rw [hfl, hfl']; rfl
  unfold getNeighbors Voxel.getNeighbors
  rw [hin, h1, h2]
  exact ⟨rfl, rfl⟩

end Verif.Voxel.Machine
