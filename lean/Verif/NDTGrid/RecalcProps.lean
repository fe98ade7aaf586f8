import Verif.NDTGrid.Recalc

/-
Property theorems for C167: size of the map and what a recalculation depends on.
-/
namespace Verif.NDTGrid

open Verif Verif.Voxel

set_option linter.unusedSectionVars false

variable {K : Type v} [Field K] [LinearOrder K] [IsStrictOrderedRing K] [FloorRing K] {γ : Type u}

/-- C167, size: after any series of added frames and recalculations the map is the smallest rectangle of squares
that covers the origin and the mean of every cell at every place where it was ever put into the map.
Missing: only the current places should count (`C167_false_size`). -/
theorem C167_size_partial {I : CellI K γ} (hI : Lawful I) (calls : List (MapCall K γ)) {m : Mapper K γ}
    (h : MapCall.run I (Mapper.init I) calls = .ok m) :
    m.map.grid.cellSize = 1 / 4 ∧
    ∀ e : Ext, extOf m.map.grid ≤ e ↔
      ∀ f ∈ placements [] calls, ∀ c ∈ f.cells, CoveredBy (1 / 4) e (head (I.mean c)) := by
  have hq : (0 : K) < 1 / 4 := by norm_num
  obtain ⟨-, c, e, -⟩ := run_ext hI (m := Mapper.init I) (init_wf I 0 0 0 (1 / 4)) hq h
  refine ⟨c, fun x => ?_⟩
  rw [e x]
  constructor
  · rintro ⟨-, hf⟩ f hm
    exact (frameExt_le I hq f x).1 (hf f hm)
  · intro hf
    refine ⟨?_, fun f hm => (frameExt_le I hq f x).2 (hf f hm)⟩
    show ((0, 0, 0, 0) : Ext) ≤ x
    exact ⟨Nat.zero_le _, Nat.zero_le _, Nat.zero_le _, Nat.zero_le _⟩

/-- C167, the map never gets smaller. -/
theorem C167_never_shrinks {I : CellI K γ} (hI : Lawful I) (calls more : List (MapCall K γ)) {m m' : Mapper K γ}
    (h : MapCall.run I (Mapper.init I) calls = .ok m) (h' : MapCall.run I m more = .ok m') {q : ℤ × ℤ}
    (hq : InExtent m.map.grid q) : InExtent m'.map.grid q := by
  have hp : (0 : K) < 1 / 4 := by norm_num
  obtain ⟨w, c, -, -⟩ := run_ext hI (m := Mapper.init I) (init_wf I 0 0 0 (1 / 4)) hp h
  obtain ⟨-, -, e, -⟩ := run_ext hI w (by rw [c]; exact hp) h'
  obtain ⟨l1, l2, l3, l4⟩ := ((e _).1 le_rfl).1
  unfold extOf at l1 l2 l3 l4
  simp only at l1 l2 l3 l4
  unfold InExtent at *
  omega

/-- C167, content: a recalculation depends on nothing but the frames at their current places and the extent of the
map.  Missing: the extent should not matter (`C167_false_again`). -/
theorem C167_determined_partial {I : CellI K γ} (hI : Lawful I) (calls₁ calls₂ : List (MapCall K γ))
    {m₁ m₂ : Mapper K γ} (h₁ : MapCall.run I (Mapper.init I) calls₁ = .ok m₁)
    (h₂ : MapCall.run I (Mapper.init I) calls₂ = .ok m₂) (hperm : m₁.frames.Perm m₂.frames) (hne : m₁.frames ≠ [])
    (hext : ∀ q, InExtent m₁.map.grid q ↔ InExtent m₂.map.grid q) (view : K → Frame K γ) :
    (recalc I view m₁).map (fun m => (visible m.map, m.frames)) =
      (recalc I view m₂).map (fun m => (visible m.map, m.frames)) := by
  have hq : (0 : K) < 1 / 4 := by norm_num
  obtain ⟨w1, c1, -, a1, b1, d1, t1⟩ := run_ext hI (m := Mapper.init I) (init_wf I 0 0 0 (1 / 4)) hq h₁
  obtain ⟨w2, c2, -, a2, b2, d2, t2⟩ := run_ext hI (m := Mapper.init I) (init_wf I 0 0 0 (1 / 4)) hq h₂
  refine recalc_congr view w1 w2 (c2.trans c1.symm) ?_ ⟨a2.trans a1.symm, b2.trans b1.symm, d2.trans d1.symm,
    t2.trans t1.symm⟩ hperm hne
  have i1 := hext (-(m₁.map.grid.left : ℤ), 0)
  have i2 := hext ((m₁.map.grid.right : ℤ), 0)
  have i3 := hext (0, (m₁.map.grid.up : ℤ))
  have i4 := hext (0, -(m₁.map.grid.down : ℤ))
  have j1 := hext (-(m₂.map.grid.left : ℤ), 0)
  have j2 := hext ((m₂.map.grid.right : ℤ), 0)
  have j3 := hext (0, (m₂.map.grid.up : ℤ))
  have j4 := hext (0, -(m₂.map.grid.down : ℤ))
  unfold InExtent at *
  simp only at *
  unfold extOf
  simp only [Prod.mk.injEq]
  omega

/-- C167, again: when the map covers the frames at their current places already, recalculating changes nothing the
second time; otherwise it changes nothing from the third time on. -/
theorem C167_settles {I : CellI K γ} (hI : Lawful I) (calls : List (MapCall K γ)) (view : K → Frame K γ)
    {m m1 m2 m3 : Mapper K γ} (h : MapCall.run I (Mapper.init I) calls = .ok m) (hne : m.frames ≠ [])
    (h1 : recalc I view m = .ok m1) (h2 : recalc I view m1 = .ok m2) (h3 : recalc I view m2 = .ok m3) :
    ((∀ k ∈ m.frames, ∀ c ∈ (view k).cells, CoveredBy (1 / 4) (extOf m.map.grid) (head (I.mean c))) →
      visible m2.map = visible m1.map ∧ m2.frames = m1.frames) ∧
    visible m3.map = visible m2.map ∧ m3.frames = m2.frames := by
  have hq : (0 : K) < 1 / 4 := by norm_num
  obtain ⟨w, c, -, a, b, d, t⟩ := run_ext hI (m := Mapper.init I) (init_wf I 0 0 0 (1 / 4)) hq h
  have step : ∀ {x y : Mapper K γ}, WF x.map.grid → x.map.grid.cellSize = 1 / 4 → recalc I view x = .ok y →
      WF y.map.grid ∧ y.map.grid.cellSize = 1 / 4 ∧
      (∀ e, extOf y.map.grid ≤ e ↔ extOf x.map.grid ≤ e ∧ ∀ k ∈ x.frames, frameExt I (1 / 4) (view k) ≤ e) ∧
      (y.map.ox = x.map.ox ∧ y.map.oy = x.map.oy ∧ y.map.th = x.map.th ∧ y.map.timestamp = x.map.timestamp) ∧
      y.frames.Perm x.frames := by
    intro x y hw hc hr
    obtain ⟨w', c', e', a', b', d', t', -, hp⟩ := exec_ext hI (c := .recalc view) hw (by rw [hc]; exact hq) hr
    refine ⟨w', c'.trans hc, fun z => ?_, ⟨a', b', d', t'⟩, hp⟩
    rw [e' z, hc]
    simp [placements]
  have c : m.map.grid.cellSize = 1 / 4 := c
  obtain ⟨w1, c1, e1, o1, p1⟩ := step w c h1
  obtain ⟨w2, c2, e2, o2, p2⟩ := step w1 c1 h2
  have hne1 : m1.frames ≠ [] := fun h0 => hne (by rw [h0] at p1; exact p1.symm.eq_nil)
  -- two recalculations from maps of the same extent agree
  have agree : ∀ {x y x' y' : Mapper K γ}, WF x.map.grid → WF y.map.grid → x.map.grid.cellSize = 1 / 4 →
      y.map.grid.cellSize = 1 / 4 → extOf y.map.grid = extOf x.map.grid →
      (y.map.ox = x.map.ox ∧ y.map.oy = x.map.oy ∧ y.map.th = x.map.th ∧ y.map.timestamp = x.map.timestamp) →
      y.frames.Perm x.frames → x.frames ≠ [] → recalc I view x = .ok x' → recalc I view y = .ok y' →
      visible y'.map = visible x'.map ∧ y'.frames = x'.frames := by
    intro x y x' y' wx wy cx cy he ho hp hn hx hy
    have := recalc_congr (I := I) view wx wy (cy.trans cx.symm) he ho hp.symm hn
    rw [hx, hy] at this
    simp only [Res.map_ok, Res.ok.injEq, Prod.mk.injEq] at this
    exact ⟨this.1.symm, this.2.symm⟩
  refine ⟨fun hcov => ?_, ?_⟩
  · refine agree w w1 c c1 ?_ o1 p1 hne h1 h2
    refine le_antisymm ((e1 _).2 ⟨le_rfl, fun k hk => (frameExt_le I hq _ _).2 (hcov k hk)⟩) ?_
    exact ((e1 _).1 le_rfl).1
  · refine agree w1 w2 c1 c2 ?_ o2 p2 hne1 h2 h3
    refine le_antisymm ((e2 _).2 ⟨le_rfl, fun k hk => ?_⟩) ((e2 _).1 le_rfl).1
    exact ((e1 _).1 le_rfl).2 k (p1.mem_iff.1 hk)

/-- A frame with one Gaussian half a metre before the robot. -/
def firstView (_ : ℚ) : Frame ℚ Toy := ⟨0, 0, [toy (1 / 2) 0 2]⟩

/-- The same frame with the Gaussian one metre before the robot. -/
def movedView (_ : ℚ) : Frame ℚ Toy := ⟨0, 0, [toy 1 0 2]⟩

/-- C167 fails: the result of a recalculation depends on the extent the map happened to have.  A frame is added,
then moved outwards and the map recalculated; recalculating once more, with nothing changed, gives another map:
the square before the Gaussian is unknown the first time and free the second time. -/
theorem C167_false_again :
    (MapCall.run rayI (Mapper.init rayI) [.add firstView 1, .recalc movedView]).map (fun m => m.map.grid.cells) =
      .ok [some ⟨0, 0, 0, false, 2, some (1 / 2)⟩, some ⟨0, 0, 0, false, 2, some (1 / 2)⟩,
        some ⟨0, 0, 0, false, 2, some (1 / 2)⟩, none, some (toy 1 0 2)] ∧
    (MapCall.run rayI (Mapper.init rayI) [.add firstView 1, .recalc movedView, .recalc movedView]).map
        (fun m => m.map.grid.cells) =
      .ok [some ⟨0, 0, 0, false, 2, some (1 / 2)⟩, some ⟨0, 0, 0, false, 2, some (1 / 2)⟩,
        some ⟨0, 0, 0, false, 2, some (1 / 2)⟩, some ⟨0, 0, 0, false, 2, some (1 / 2)⟩, some (toy 1 0 2)] := by
  constructor <;> decide +kernel

/-- C167 fails: the map keeps the size it had before the frame was moved closer. -/
theorem C167_false_size :
    (MapCall.run rayI (Mapper.init rayI) [.add movedView 1, .recalc firstView]).map (fun m => m.map.grid.right) = .ok 4 ∧
    (MapCall.run rayI (Mapper.init rayI) [.add firstView 1]).map (fun m => m.map.grid.right) = .ok 2 := by
  constructor <;> decide +kernel

/-- Calls that meet the hypotheses: two frames, and a frame moved and recalculated four times. -/
example : (MapCall.run rayI (Mapper.init rayI) [.add firstView 2, .add movedView 1]).map
      (fun m => (m.frames, m.map.grid.right)) = .ok ([2, 1], 4) ∧
    (MapCall.run rayI (Mapper.init rayI)
      [.add firstView 1, .recalc movedView, .recalc firstView, .recalc firstView, .recalc firstView]).map
        (fun m => (m.frames, m.map.grid.right)) = .ok ([1], 4) ∧ Lawful rayI :=
  ⟨by decide +kernel, by decide +kernel, ray_lawful⟩

end Verif.NDTGrid
