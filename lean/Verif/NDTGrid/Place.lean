import Verif.NDTGrid.Trace
import Mathlib.Algebra.Order.Group.Nat

/-
Helper lemmas: every call keeps the Gaussians in their squares; moving the frame; filling a grid with
points.
-/
namespace Verif.NDTGrid

open Verif Verif.Voxel

set_option linter.unusedSectionVars false

variable {K : Type v} [Field K] [LinearOrder K] [IsStrictOrderedRing K] [FloorRing K] {γ : Type u}

theorem mem_inSquare {I : CellI K γ} {cs : K} {cells : List γ} {q : ℤ × ℤ} {c : γ} :
    c ∈ inSquare I cs cells q ↔ c ∈ cells ∧ I.gaussian c = true ∧ squareOfMean I cs c = q := by
  unfold inSquare
  simp [List.mem_filter]

theorem foldl_merge_placed {I : CellI K γ} (hI : Lawful I) {cs : K} (hcs : 0 < cs) {q : ℤ × ℤ} :
    ∀ (l : List γ) (old : Option γ), (∀ c ∈ l, I.gaussian c = true ∧ squareOfMean I cs c = q) →
      (∀ o, old = some o → I.gaussian o = true → squareOfMean I cs o = q) →
      ∀ c, l.foldl (mergeStep I) old = some c → I.gaussian c = true → squareOfMean I cs c = q := by
  intro l
  induction l with
  | nil => intro old _ ho c h hg; exact ho c h hg
  | cons a l ih =>
    intro old hl ho
    rw [List.foldl_cons]
    apply ih _ (fun c hc => hl c (List.mem_cons_of_mem _ hc))
    obtain ⟨ha, hq⟩ := hl a List.mem_cons_self
    intro o h hg
    unfold mergeStep at h
    cases h
    cases old with
    | none => exact hq
    | some x =>
      simp only at hg ⊢
      obtain ⟨t, h0, h1, hx, hm⟩ := hI.merge x a ha hg
      unfold squareOfMean head
      rw [hm 0, hm 1]
      by_cases hgx : I.gaussian x = true
      · exact square_convex hcs (a := head (I.mean x)) (b := head (I.mean a)) (ho x rfl hgx) hq h0 h1
      · have := hx (by simpa using hgx)
        subst this
        simp only [sub_self, zero_mul, one_mul, zero_add]
        exact hq

theorem mergeCells_placed {I : CellI K γ} (hI : Lawful I) {n n' : NGrid K γ} (hwf : WF n.grid)
    (hcs : 0 < n.grid.cellSize) {cells : List γ} {resize : Bool}
    (hoff : CellsOffLines I n.grid.cellSize cells) (hp : Placed I n.grid)
    (h : mergeCells I n cells resize = .ok n') :
    WF n'.grid ∧ n'.grid.cellSize = n.grid.cellSize ∧ Placed I n'.grid ∧ Synced I n' := by
  by_cases hres : resize = true ∨ n.initialized = false
  · obtain ⟨g', h', hwf', hcs', -, -, -, -, hcont, -⟩ := mergeCells_resize I hwf hcs cells resize hres
      (fun c hc hg => (hoff c hc hg).notOpen)
    rw [h] at h'
    cases h'
    refine ⟨hwf', hcs', ?_, updateMeans_synced I hwf'⟩
    intro q c hc hg
    change content g' q = some c at hc
    change squareOfMean I g'.cellSize c = q
    rw [hcs']
    rw [hcont] at hc
    cases hl : (inSquare I n.grid.cellSize cells q).getLast? with
    | none => rw [hl, Option.none_or] at hc; exact hp q c hc hg
    | some x =>
      rw [hl, Option.some_or] at hc
      cases hc
      exact (mem_inSquare.1 (List.mem_of_getLast? hl)).2.2
  · push Not at hres
    have hr : resize = false := by simpa using hres.1
    have hi : n.initialized = true := by simpa using hres.2
    subst hr
    obtain ⟨g', h', hwf', hbox, hcont⟩ := mergeCells_noresize I hwf hcs cells hi
      (fun c hc hg _ => (hoff c hc hg).notOpen)
    rw [h] at h'
    cases h'
    refine ⟨hwf', hbox.cs, ?_, updateMeans_synced I hwf'⟩
    intro q c hc hg
    change content g' q = some c at hc
    change squareOfMean I g'.cellSize c = q
    rw [hbox.cs]
    rw [hcont] at hc
    split_ifs at hc with hin
    exact foldl_merge_placed hI hcs _ _ (fun d hd => (mem_inSquare.1 hd).2)
      (fun o ho hgo => hp q o ho hgo) c hc hg

theorem mergeTraced_placed {I : CellI K γ} (hI : Lawful I) {n n' : NGrid K γ} (hwf : WF n.grid)
    (hcs : 0 < n.grid.cellSize) {sx sy : K} {cells : List γ} {resize : Bool}
    (hoff : CellsOffLines I n.grid.cellSize cells) (hp : Placed I n.grid)
    (h : mergeTraced I n sx sy cells resize = .ok n') :
    WF n'.grid ∧ n'.grid.cellSize = n.grid.cellSize ∧ Placed I n'.grid ∧ Synced I n' := by
  unfold mergeTraced at h
  obtain ⟨g, hg, h⟩ := Res.bind_eq_ok.1 h
  obtain ⟨hbox, -, ht⟩ := traceAll_traced hI hg
  have hp' : Placed I g := by
    intro q c hc hgc
    obtain ⟨c0, h0, hg0, hm⟩ := (ht.content hbox q).2 c hc hgc
    have := hp q c0 h0 hg0
    unfold squareOfMean at this ⊢
    rw [hm, hbox.cs]
    exact this
  have := mergeCells_placed (n := { n with grid := g }) hI (hbox.wf ht hwf)
    (by change 0 < g.cellSize; rw [hbox.cs]; exact hcs)
    (by change CellsOffLines I g.cellSize cells; rw [hbox.cs]; exact hoff) hp' h
  refine ⟨this.1, this.2.1.trans hbox.cs, this.2.2⟩

/-! ### Moving -/

theorem axisSteps_spec {cs : K} (hcs : 0 < cs) (t : K) :
    |t - axisSteps cs t * cs| < cs ∧ (¬ 0 < ⌊|t| / cs⌋ → axisSteps cs t = 0) := by
  have hne : cs ≠ 0 := ne_of_gt hcs
  unfold axisSteps
  split_ifs with h h'
  · refine ⟨?_, fun hn => absurd h hn⟩
    have e : t - (⌈t / cs⌉ : K) * cs = (t / cs - ⌈t / cs⌉) * cs := by field_simp
    rw [e, abs_mul, abs_of_pos hcs]
    have h1 := Int.le_ceil (t / cs)
    have h2 := Int.ceil_lt_add_one (t / cs)
    have : |t / cs - ⌈t / cs⌉| < 1 := by rw [abs_lt]; constructor <;> linarith
    nlinarith
  · refine ⟨?_, fun hn => absurd h hn⟩
    have e : t - (⌊t / cs⌋ : K) * cs = (t / cs - ⌊t / cs⌋) * cs := by field_simp
    rw [e, abs_mul, abs_of_pos hcs]
    have h1 := Int.floor_le (t / cs)
    have h2 := Int.lt_floor_add_one (t / cs)
    have : |t / cs - ⌊t / cs⌋| < 1 := by rw [abs_lt]; constructor <;> linarith
    nlinarith
  · refine ⟨?_, fun _ => rfl⟩
    simp only [Int.cast_zero, zero_mul, sub_zero]
    have h3 : ⌊|t| / cs⌋ < 1 := by omega
    rw [Int.floor_lt, Int.cast_one, div_lt_one hcs] at h3
    exact h3

/-- The steps never overshoot: what remains of `t` has the sign of `t` and is not longer than `t`. -/
theorem axisSteps_rest {cs : K} (hcs : 0 < cs) (t : K) :
    0 ≤ (t - axisSteps cs t * cs) * t ∧ |t - axisSteps cs t * cs| ≤ |t| := by
  have hne : cs ≠ 0 := ne_of_gt hcs
  have ht : t = t / cs * cs := by field_simp
  unfold axisSteps
  split_ifs with h h'
  · have h1 := Int.le_ceil (t / cs)
    have h2 : ⌈t / cs⌉ ≤ 0 := Int.ceil_le.2 (by push_cast; exact h'.le)
    have h3 : (⌈t / cs⌉ : K) ≤ 0 := by exact_mod_cast h2
    have t0 : t ≤ 0 := by rw [ht]; nlinarith
    have r0 : t - ⌈t / cs⌉ * cs ≤ 0 := by
      have : t / cs * cs ≤ ⌈t / cs⌉ * cs := mul_le_mul_of_nonneg_right h1 hcs.le
      linarith
    refine ⟨mul_nonneg_of_nonpos_of_nonpos r0 t0, ?_⟩
    rw [abs_of_nonpos r0, abs_of_nonpos t0]
    nlinarith
  · have h1 := Int.floor_le (t / cs)
    have h2 : 0 ≤ ⌊t / cs⌋ := Int.floor_nonneg.2 (not_lt.1 h')
    have h3 : (0 : K) ≤ ⌊t / cs⌋ := by exact_mod_cast h2
    have t0 : 0 ≤ t := by rw [ht]; exact mul_nonneg (not_lt.1 h') hcs.le
    have r0 : 0 ≤ t - ⌊t / cs⌋ * cs := by
      have : ⌊t / cs⌋ * cs ≤ t / cs * cs := mul_le_mul_of_nonneg_right h1 hcs.le
      linarith
    refine ⟨mul_nonneg r0 t0, ?_⟩
    rw [abs_of_nonneg r0, abs_of_nonneg t0]
    nlinarith
  · simp only [Int.cast_zero, zero_mul, sub_zero]
    exact ⟨mul_self_nonneg t, le_rfl⟩

/-- Effect of `move` on an axis-parallel grid: one description for both branches. -/
theorem move_spec (I : CellI K γ) {n : NGrid K γ} (hwf : WF n.grid) (hcs : 0 < n.grid.cellSize)
    (hth : |n.th| ≤ 1 / 10000000) (tx ty : K) :
    ∃ (r : K × K) (n' : NGrid K γ) (mx my : ℤ) (moved : Prop),
      move I n tx ty = .ok (r, n') ∧
      r = (tx - mx * n.grid.cellSize, ty - my * n.grid.cellSize) ∧
      |r.1| < n.grid.cellSize ∧ |r.2| < n.grid.cellSize ∧
      n'.ox = n.ox + mx * n.grid.cellSize ∧ n'.oy = n.oy + my * n.grid.cellSize ∧ n'.th = n.th ∧
      n'.initialized = n.initialized ∧ n'.timestamp = n.timestamp ∧
      WF n'.grid ∧ SameBox n.grid n'.grid ∧
      (¬ moved → mx = 0 ∧ my = 0 ∧ n' = n) ∧
      (moved → n' = updateMeans I n' ∧
        ∀ q, InExtent n.grid q → content n'.grid q = (content n.grid (q.1 + mx, q.2 + my)).map
          (shiftCell I ![-(mx * n.grid.cellSize), -(my * n.grid.cellSize), 0])) := by
  unfold move
  rw [if_neg (by exact not_lt.2 hth), if_neg (by rintro ⟨h, -⟩; exact absurd h (ne_of_gt hcs))]
  obtain ⟨hx, hx0⟩ := axisSteps_spec hcs tx
  obtain ⟨hy, hy0⟩ := axisSteps_spec hcs ty
  simp only
  split_ifs with hc
  · obtain ⟨g, hg, hwf', hL, hR, hU, hD, hcs', -, hcont⟩ := translate_spec hwf
      (-axisSteps n.grid.cellSize tx) (-axisSteps n.grid.cellSize ty) true
    rw [hg, Res.bind_ok]
    simp only [if_true, Nat.add_zero] at hL hR hU hD
    have hbox : SameBox n.grid g := ⟨hL, hR, hU, hD, hcs'⟩
    refine ⟨_, _, axisSteps n.grid.cellSize tx, axisSteps n.grid.cellSize ty, True, rfl, rfl, hx, hy,
      rfl, rfl, rfl, rfl, rfl, wf_map _ hwf', ⟨hL, hR, hU, hD, hcs'⟩, fun h => absurd trivial h, ?_⟩
    intro _
    refine ⟨rfl, ?_⟩
    intro q hq
    change content { g with cells := g.cells.map (Option.map _) } q = _
    rw [content_map, hcont q ((hbox.inExtent q).2 hq), sub_neg_eq_add, sub_neg_eq_add]
  · push Not at hc
    have e1 := hx0 (not_lt.2 hc.1)
    have e2 := hy0 (not_lt.2 hc.2)
    rw [e1] at hx
    rw [e2] at hy
    refine ⟨(tx, ty), n, 0, 0, False, rfl, by simp, by simpa using hx, by simpa using hy, by simp,
      by simp, rfl, rfl, rfl, hwf, SameBox.refl _, fun _ => ⟨rfl, rfl, rfl⟩, fun h => h.elim⟩

theorem squareOf_shift {cs : K} (hcs : 0 < cs) (p : K × K) (mx my : ℤ) :
    squareOf cs (p.1 + -(mx * cs), p.2 + -(my * cs))
      = ((squareOf cs p).1 - mx, (squareOf cs p).2 - my) := by
  have hne : cs ≠ 0 := ne_of_gt hcs
  unfold squareOf
  simp only
  have e1 : (p.1 + -(mx * cs)) / cs + 1 / 2 = p.1 / cs + 1 / 2 - mx := by field_simp; ring
  have e2 : (p.2 + -(my * cs)) / cs - 1 / 2 = p.2 / cs - 1 / 2 - my := by field_simp; ring
  rw [e1, e2, Int.floor_sub_intCast, Int.ceil_sub_intCast]

theorem shiftCell_gaussian {I : CellI K γ} (hI : Lawful I) (d : Fin 3 → K) (c : γ) :
    I.gaussian (shiftCell I d c) = I.gaussian c := by
  unfold shiftCell
  split_ifs
  · exact hI.gaussian_setMean _ _
  · rfl

theorem shiftCell_mean {I : CellI K γ} (hI : Lawful I) (d : Fin 3 → K) {c : γ}
    (h : I.gaussian c = true) : I.mean (shiftCell I d c) = I.mean c + d := by
  unfold shiftCell
  rw [if_pos h]
  exact hI.mean_setMean _ _

theorem move_placed {I : CellI K γ} (hI : Lawful I) {n n' : NGrid K γ} (hwf : WF n.grid)
    (hcs : 0 < n.grid.cellSize) {tx ty : K} {r : K × K} (hp : Placed I n.grid)
    (h : move I n tx ty = .ok (r, n')) :
    WF n'.grid ∧ n'.grid.cellSize = n.grid.cellSize ∧ Placed I n'.grid ∧
      (Synced I n → Synced I n') := by
  by_cases hth : |n.th| ≤ 1 / 10000000
  · obtain ⟨r', n1, mx, my, moved, h1, -, -, -, -, -, -, -, -, hwf1, hbox, hno, hyes⟩ :=
      move_spec I hwf hcs hth tx ty
    rw [h] at h1
    cases h1
    refine ⟨hwf1, hbox.cs, ?_⟩
    by_cases hm : moved
    · obtain ⟨hmeans, hcont⟩ := hyes hm
      constructor
      · intro q c hc hg
        have hq : InExtent n.grid q := by
          rw [← hbox.inExtent]
          by_contra hh
          rw [content_of_not_in hh] at hc
          cases hc
        rw [hcont q hq] at hc
        obtain ⟨c0, h0, rfl⟩ := Option.map_eq_some_iff.1 hc
        rw [shiftCell_gaussian hI] at hg
        have := hp _ _ h0 hg
        unfold squareOfMean head at this ⊢
        rw [shiftCell_mean hI _ hg, hbox.cs]
        have e := squareOf_shift hcs (I.mean c0 0, I.mean c0 1) mx my
        rw [this] at e
        simpa using e
      · intro _
        rw [hmeans]
        exact updateMeans_synced I hwf1
    · obtain ⟨-, -, e⟩ := hno hm
      subst e
      exact ⟨hp, id⟩
  · unfold move at h
    rw [if_pos (by exact not_le.1 hth)] at h
    cases h
    exact ⟨hwf, rfl, hp, id⟩

/-! ### Filling with points -/

theorem modifyCell_spec {g : Grid K γ} (hwf : WF g) (hcs : 0 < g.cellSize) {p : K × K} {c : γ}
    (hin : InExtent g (squareOf g.cellSize p)) (hc : content g (squareOf g.cellSize p) = some c)
    (f : γ → γ) :
    ∃ g', modifyCell g p f = .ok g' ∧ WF g' ∧ SameBox g g' ∧
      content g' = Function.update (content g) (squareOf g.cellSize p) (some (f c)) := by
  unfold modifyCell
  rw [calcIndex_inExtent hcs hin, Res.bind_ok]
  have hlt : slotNo g (squareOf g.cellSize p) < g.cells.length := by
    have := slotNo_lt hin
    unfold WF at hwf
    omega
  rw [readSlot_lt hlt, Res.bind_ok]
  rw [content_of_in hin] at hc
  rw [hc]
  simp only
  rw [writeSlot_lt hlt, Res.bind_ok]
  refine ⟨_, rfl, ?_, ⟨rfl, rfl, rfl, rfl, rfl⟩, content_set hwf hin _⟩
  unfold WF at *
  simp only [List.length_set]
  exact hwf

theorem addPoint_spec (I : CellI K γ) {g : Grid K γ} (hwf : WF g) (hcs : 0 < g.cellSize)
    {p : Fin 3 → K} (hp : ¬ OnOpenBorder g (head p)) :
    ∃ g', addPoint I g p = .ok g' ∧ WF g' ∧ g'.cellSize = g.cellSize ∧ g.right ≤ g'.right ∧
      g.down ≤ g'.down ∧
      content g' = Function.update (content g) (squareOf g.cellSize (head p))
        (some (I.addPoint ((content g (squareOf g.cellSize (head p))).getD I.default) p)) := by
  unfold addPoint
  have hex : cellExists g (head p) = .ok (content g (squareOf g.cellSize (head p))).isSome := by
    unfold cellExists
    split_ifs with hin
    · have hext := (notOpen_iff_inExtent hwf hcs hin).2 hp
      have := getCellPtr_inExtent hwf hcs hext
      unfold getCellPtr at this
      obtain ⟨i, hi, h⟩ := Res.bind_eq_ok.1 this
      rw [hi, Res.bind_ok, h, content_of_in hext]
      rfl
    · rw [content_of_not_in]
      · rfl
      · intro h
        exact hin (inExtent_isInside hcs h)
  rw [hex, Res.bind_ok]
  cases hc : content g (squareOf g.cellSize (head p)) with
  | some c =>
    have hext : InExtent g (squareOf g.cellSize (head p)) := by
      by_contra hh
      rw [content_of_not_in hh] at hc
      cases hc
    obtain ⟨g', h', hwf', hbox, hcont⟩ := modifyCell_spec hwf hcs hext hc fun c => I.addPoint c p
    simp only [Option.isSome_some, Bool.not_true, Bool.false_eq_true, if_false]
    exact ⟨g', h', hwf', hbox.cs, hbox.right.ge, hbox.down.ge, hcont⟩
  | none =>
    simp only [Option.isSome_none, Bool.not_false, if_true]
    obtain ⟨g1, h1, hwf1, hc1, hl, hr, hu, hd, hin, -, hcont⟩ := addCell_spec I.toCellOps hwf hcs hp
      I.default false
    rw [h1, Res.bind_ok]
    rw [hc] at hcont
    have hc' : content g1 (squareOf g1.cellSize (head p)) = some I.default := by
      rw [hc1, hcont, Function.update_self]; rfl
    obtain ⟨g', h', hwf', hbox, hcont'⟩ := modifyCell_spec hwf1 (hc1 ▸ hcs) (by rw [hc1]; exact hin) hc'
      fun c => I.addPoint c p
    refine ⟨g', h', hwf', hbox.cs.trans hc1, hr.trans hbox.right.ge, hd.trans hbox.down.ge, ?_⟩
    rw [hcont', hc1, hcont, Function.update_idem]
    rfl

/-- What a square holds after some points have been added. -/
def fillCell (I : CellI K γ) (old : Option γ) (ps : List (Fin 3 → K)) : Option γ :=
  if ps = [] then old else some (ps.foldl I.addPoint (old.getD I.default))

theorem addPoints_spec (I : CellI K γ) : ∀ (ps : List (Fin 3 → K)) {g : Grid K γ}, WF g →
    0 < g.cellSize → (∀ p ∈ ps, ¬ OnOpenBorder g (head p)) →
    ∃ g', addPoints I g ps = .ok g' ∧ WF g' ∧ g'.cellSize = g.cellSize ∧
      ∀ q, content g' q = fillCell I (content g q) (pointsIn g.cellSize ps q) := by
  intro ps
  induction ps with
  | nil => intro g hwf hcs _; exact ⟨g, rfl, hwf, rfl, fun q => rfl⟩
  | cons p ps ih =>
    intro g hwf hcs hb
    unfold addPoints
    obtain ⟨g1, h1, hwf1, hc1, hr, hd, hcont⟩ := addPoint_spec I hwf hcs (hb p List.mem_cons_self)
    rw [h1, Res.bind_ok]
    obtain ⟨g2, h2, hwf2, hc2, hcont2⟩ := ih hwf1 (hc1 ▸ hcs)
      (fun p' hp' ho => hb p' (List.mem_cons_of_mem _ hp') (OnOpenBorder.mono hc1 hr hd ho))
    refine ⟨g2, h2, hwf2, hc2.trans hc1, ?_⟩
    intro q
    rw [hcont2, hc1, hcont]
    by_cases hq : squareOf g.cellSize (head p) = q
    · subst hq
      rw [Function.update_self]
      have e : pointsIn g.cellSize (p :: ps) (squareOf g.cellSize (head p))
          = p :: pointsIn g.cellSize ps (squareOf g.cellSize (head p)) := by
        unfold pointsIn
        rw [List.filter_cons_of_pos (by simp)]
      rw [e]
      unfold fillCell
      rw [if_neg (List.cons_ne_nil _ _), List.foldl_cons]
      split_ifs with hnil
      · rw [hnil]; rfl
      · rfl
    · rw [Function.update_of_ne (fun h => hq h.symm)]
      have e : pointsIn g.cellSize (p :: ps) q = pointsIn g.cellSize ps q := by
        unfold pointsIn
        rw [List.filter_cons_of_neg (by simpa using hq)]
      rw [e]

end Verif.NDTGrid
