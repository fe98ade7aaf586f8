import Verif.NDTGrid.Place
import Mathlib.Order.Lattice

/-
Helper lemmas for the mapper: the extent after merging is determined by the set of merged cells, and the
counter of the voxel grid influences nothing.
-/
namespace Verif.NDTGrid

open Verif Verif.Voxel

set_option linter.unusedSectionVars false

variable {K : Type v} [Field K] [LinearOrder K] [IsStrictOrderedRing K] [FloorRing K] {γ : Type u}

/-! ### Extents -/

/-- Extent (left, right, up, down). -/
abbrev Ext := ℕ × ℕ × ℕ × ℕ

def extOf (g : Grid K γ) : Ext := (g.left, g.right, g.up, g.down)

/-- Extent needed for bounds. -/
def needed (cs : K) (b : Bounds K) : Ext :=
  (⌈-b.minx / cs - 1 / 2⌉.toNat, ⌈b.maxx / cs - 1 / 2⌉.toNat, ⌈b.maxy / cs - 1 / 2⌉.toNat,
    ⌈-b.miny / cs - 1 / 2⌉.toNat)

theorem inc_exact {a n : ℕ} {y : K} (h1 : y ≤ a + n + 1 / 2) (h2 : a + 1 / 2 < y → a + n - 1 / 2 < y)
    (h3 : y ≤ a + 1 / 2 → n = 0) : a + n = max a ⌈y - 1 / 2⌉.toNat := by
  rcases le_or_gt y (a + 1 / 2) with h | h
  · have hn := h3 h
    subst hn
    have : ⌈y - 1 / 2⌉ ≤ (a : ℤ) := by rw [Int.ceil_le]; push_cast; linarith
    omega
  · have h4 := h2 h
    have hc : ⌈y - 1 / 2⌉ = ((a + n : ℕ) : ℤ) := by
      rw [Int.ceil_eq_iff]
      push_cast
      constructor <;> linarith
    rw [hc]
    have : 0 < n := by
      rcases Nat.eq_zero_or_pos n with h0 | h0
      · subst h0
        simp only [Nat.cast_zero, add_zero] at h1
        linarith
      · exact h0
    omega

theorem enlarge_ext {g g' : Grid K γ} (hwf : WF g) (hcs : 0 < g.cellSize) {b : Bounds K}
    (h : enlarge g b.minx b.miny b.maxx b.maxy = .ok g') :
    extOf g' = extOf g ⊔ needed g.cellSize b := by
  obtain ⟨l, hl1, hl2, hl3, hl4⟩ := calcIncLeft_spec hcs b.minx
  obtain ⟨r, hr1, hr2, hr3, hr4⟩ := calcIncRight_spec hcs b.maxx
  obtain ⟨u, hu1, hu2, hu3, hu4⟩ := calcIncUp_spec hcs b.maxy
  obtain ⟨d, hd1, hd2, hd3, hd4⟩ := calcIncDown_spec hcs b.miny
  obtain ⟨g1, hg', hwf', hL, hR, hU, hD, hc, hv, hcont⟩ := enlargeGrid_spec hwf l r u d
  unfold enlarge at h
  rw [hl1, hr1, hu1, hd1] at h
  simp only [Res.bind_ok] at h
  rw [hg'] at h
  cases h
  unfold extOf needed
  rw [hL, hR, hU, hD]
  simp only [Prod.mk_sup_mk]
  rw [inc_exact hr2 hr3 hr4, inc_exact hu2 hu3 hu4,
    inc_exact (y := -b.minx / g.cellSize) (n := l) (a := g.left) (by rw [neg_div]; linarith)
      (by rw [neg_div]; intro hh; have := hl3 (by linarith); linarith)
      (by rw [neg_div]; intro hh; exact hl4 (by linarith)),
    inc_exact (y := -b.miny / g.cellSize) (n := d) (a := g.down) (by rw [neg_div]; linarith)
      (by rw [neg_div]; intro hh; have := hd3 (by linarith); linarith)
      (by rw [neg_div]; intro hh; exact hd4 (by linarith))]

theorem overwriteAll_box {I : CellI K γ} : ∀ {cells : List γ} {g g' : Grid K γ},
    (∀ c ∈ cells, isInside g (head (I.mean c)) = true) → WF g → overwriteAll I g cells = .ok g' →
    SameBox g g' ∧ WF g' := by
  intro cells
  induction cells with
  | nil => intro g g' _ hwf h; cases h; exact ⟨SameBox.refl g, hwf⟩
  | cons c cells ih =>
    intro g g' hin hwf h
    unfold overwriteAll at h
    split_ifs at h
    · obtain ⟨g1, h1, h⟩ := Res.bind_eq_ok.1 h
      have hb := addCell_box (hin c List.mem_cons_self) h1
      obtain ⟨hb', hwf'⟩ := ih (fun d hd => by rw [hb.isInside]; exact hin d (List.mem_cons_of_mem _ hd))
        (addCell_wf hwf h1) h
      exact ⟨hb.trans hb', hwf'⟩
    · exact ih (fun d hd => hin d (List.mem_cons_of_mem _ hd)) hwf h

/-- Extent needed by a frame. -/
def frameExt (I : CellI K γ) (cs : K) (f : Frame K γ) : Ext :=
  needed cs (minMax (f.cells.map fun c => head (I.mean c)))

theorem addToMap_ext {I : CellI K γ} (hI : Lawful I) {m m' : NGrid K γ} {f : Frame K γ}
    (hwf : WF m.grid) (hcs : 0 < m.grid.cellSize) (h : addToMap I m f = .ok m') :
    WF m'.grid ∧ m'.grid.cellSize = m.grid.cellSize ∧
      extOf m'.grid = extOf m.grid ⊔ frameExt I m.grid.cellSize f ∧
      m'.ox = m.ox ∧ m'.oy = m.oy ∧ m'.th = m.th ∧ m'.timestamp = m.timestamp ∧
      m'.initialized = true := by
  unfold addToMap mergeTraced at h
  obtain ⟨g, hg, h⟩ := Res.bind_eq_ok.1 h
  obtain ⟨hbox, -, ht⟩ := traceAll_traced hI hg
  have hwfg := hbox.wf ht hwf
  have hcsg : 0 < g.cellSize := by rw [hbox.cs]; exact hcs
  unfold mergeCells at h
  rw [if_pos (by rfl)] at h
  simp only at h
  obtain ⟨g1, h1, h⟩ := Res.bind_eq_ok.1 h
  obtain ⟨g2, h2, h⟩ := Res.bind_eq_ok.1 h
  cases h
  have e1 := enlarge_ext hwfg hcsg h1
  obtain ⟨g1', h1', gr, hin⟩ := enlarge_minMax hwfg hcsg (f.cells.map fun c => head (I.mean c))
  rw [h1] at h1'
  cases h1'
  obtain ⟨hb2, hwf2⟩ := overwriteAll_box (fun c hc => hin _ (List.mem_map.2 ⟨c, hc, rfl⟩)) gr.wf h2
  refine ⟨hwf2, hb2.cs.trans (gr.cs.trans hbox.cs), ?_, rfl, rfl, rfl, rfl, rfl⟩
  change extOf g2 = _
  have e2 : extOf g2 = extOf g1 := by unfold extOf; rw [hb2.left, hb2.right, hb2.up, hb2.down]
  have e3 : extOf g = extOf m.grid := by unfold extOf; rw [hbox.left, hbox.right, hbox.up, hbox.down]
  rw [e2, e1, e3, hbox.cs]
  rfl

/-! ### The counter -/

/-- The grid with another value of the counter. -/
def setV (g : Grid K γ) (k : ℕ) : Grid K γ := { g with validCells := k }

/-- A grid operation whose visible result does not depend on the counter. -/
def Blind (F : Grid K γ → Res (Grid K γ)) : Prop :=
  ∀ g k, (F (setV g k)).map (setV · 0) = (F g).map (setV · 0)

theorem setV_eq {a b : Grid K γ} (h : setV a 0 = setV b 0) : a = setV b a.validCells := by
  cases a; cases b
  simp only [setV, Grid.mk.injEq] at h ⊢
  tauto

theorem Blind.bind {F G : Grid K γ → Res (Grid K γ)} (hF : Blind F) (hG : Blind G) :
    Blind fun g => (F g).bind G := by
  intro g k
  have h := hF g k
  simp only
  cases hx : F g with
  | ok a =>
    cases hy : F (setV g k) with
    | ok b =>
      rw [hx, hy] at h
      simp only [Res.map_ok, Res.ok.injEq] at h
      rw [Res.bind_ok, Res.bind_ok, setV_eq h]
      exact hG a _
    | throw e => rw [hx, hy] at h; cases h
    | ub u => rw [hx, hy] at h; cases h
  | throw e =>
    cases hy : F (setV g k) with
    | ok b => rw [hx, hy] at h; cases h
    | throw e' => rw [hx, hy] at h; exact h
    | ub u => rw [hx, hy] at h; cases h
  | ub u =>
    cases hy : F (setV g k) with
    | ok b => rw [hx, hy] at h; cases h
    | throw e' => rw [hx, hy] at h; cases h
    | ub u' => rw [hx, hy] at h; exact h

theorem enlargeGrid_setV (g : Grid K γ) (k l r u d : ℕ) :
    enlargeGrid (setV g k) l r u d = (enlargeGrid g l r u d).map (setV · k) := by
  unfold enlargeGrid
  by_cases h : l + r + u + d = 0
  · rw [if_pos h, if_pos h]; rfl
  · rw [if_neg h, if_neg h]
    simp only
    change (if _ then _ else _) = Res.map _ (if _ then _ else _)
    split_ifs with h1 h2 h2
    · rfl
    · exact absurd h1 h2
    · exact absurd h2 h1
    · rfl

theorem enlarge_setV (g : Grid K γ) (k : ℕ) (a b c d : K) :
    enlarge (setV g k) a b c d = (enlarge g a b c d).map (setV · k) := by
  unfold enlarge
  change (calcIncLeft g a).bind _ = Res.map _ ((calcIncLeft g a).bind _)
  cases calcIncLeft g a with
  | ok l =>
    change (calcIncRight g c).bind _ = Res.map _ ((calcIncRight g c).bind _)
    cases calcIncRight g c with
    | ok r =>
      change (calcIncUp g d).bind _ = Res.map _ ((calcIncUp g d).bind _)
      cases calcIncUp g d with
      | ok u =>
        change (calcIncDown g b).bind _ = Res.map _ ((calcIncDown g b).bind _)
        cases calcIncDown g b with
        | ok d => exact enlargeGrid_setV g k l r u d
        | throw e => rfl
        | ub u => rfl
      | throw e => rfl
      | ub u => rfl
    | throw e => rfl
    | ub u => rfl
  | throw e => rfl
  | ub u => rfl

theorem enlargeToFit_setV (g : Grid K γ) (k : ℕ) (p : K × K) :
    enlargeToFit (setV g k) p = (enlargeToFit g p).map (setV · k) := by
  have h := enlarge_setV g k p.1 p.2 p.1 p.2
  unfold enlarge at h
  unfold enlargeToFit
  by_cases hin : isInside g p = true
  · rw [if_pos hin, if_pos (show isInside (setV g k) p = true from hin)]; rfl
  · rw [if_neg hin, if_neg (show ¬ isInside (setV g k) p = true from hin)]
    exact h

theorem addCell_blind (ops : CellOps γ) (p : K × K) (c : γ) (m : Bool) :
    Blind fun g : Grid K γ => addCell ops g p c m := by
  intro g k
  simp only
  unfold addCell
  rw [enlargeToFit_setV]
  cases enlargeToFit g p with
  | throw e => rfl
  | ub u => rfl
  | ok g1 =>
    simp only [Res.map_ok, Res.bind_ok]
    change Res.map _ ((calcIndex g1 p).bind _) = Res.map _ ((calcIndex g1 p).bind _)
    cases calcIndex g1 p with
    | throw e => rfl
    | ub u => rfl
    | ok i =>
      simp only [Res.bind_ok]
      change Res.map _ ((readSlot g1.cells i).bind _) = Res.map _ ((readSlot g1.cells i).bind _)
      cases readSlot g1.cells i with
      | throw e => rfl
      | ub u => rfl
      | ok old =>
        cases old with
        | none =>
          simp only [Res.bind_ok]
          change Res.map _ ((writeSlot g1.cells i _).bind _) = Res.map _ ((writeSlot g1.cells i _).bind _)
          cases writeSlot g1.cells i (some c) <;> rfl
        | some o =>
          simp only [Res.bind_ok]
          change Res.map _ ((writeSlot g1.cells i _).bind _) = Res.map _ ((writeSlot g1.cells i _).bind _)
          cases writeSlot g1.cells i (some (if m = true then ops.merge o c else c)) <;> rfl

theorem overwriteAll_blind (I : CellI K γ) : ∀ cells : List γ,
    Blind fun g => overwriteAll I g cells := by
  intro cells
  induction cells with
  | nil => intro g k; rfl
  | cons c cells ih =>
    have h : Blind fun g => (addCell I.toCellOps g (head (I.mean c)) c false).bind fun g =>
        overwriteAll I g cells := Blind.bind (addCell_blind _ _ _ _) ih
    intro g k
    simp only [overwriteAll]
    split_ifs
    · exact h g k
    · exact ih g k

theorem rayLoop_setV (ops : CellOps γ) (g : Grid K γ) (k : ℕ) (delta : K × K) :
    ∀ (n : ℕ) (p : K × K) (o c : ℕ) (s : RayState γ),
    rayLoop ops (setV g k) delta n p o c s = rayLoop ops g delta n p o c s := by
  intro n
  induction n with
  | zero => intro p o c s; rfl
  | succ n ih =>
    intro p o c s
    unfold rayLoop
    congr 1
    funext s1
    simp only
    split_ifs with h1 h2 h2
    · rfl
    · exact absurd h1 h2
    · exact absurd h2 h1
    · change (calcIndex g _).bind _ = _
      congr 1
      funext i
      exact ih _ _ _ _

theorem rayTrace_setV (ops : CellOps γ) (g : Grid K γ) (k : ℕ) (a b : K × K) :
    rayTrace ops (setV g k) a b = (rayTrace ops g a b).map fun r => (r.1, setV r.2 k) := by
  unfold rayTrace
  by_cases h1 : (!isInside g a) = true
  · rw [if_pos h1, if_pos (show (!isInside (setV g k) a) = true from h1)]; rfl
  rw [if_neg h1, if_neg (show ¬ (!isInside (setV g k) a) = true from h1)]
  by_cases h2 : g.cellSize = 0
  · rw [if_pos h2, if_pos (show (setV g k).cellSize = 0 from h2)]; rfl
  rw [if_neg h2, if_neg (show ¬ (setV g k).cellSize = 0 from h2)]
  simp only [rayLoop_setV]
  change (calcIndex g a).bind _ = Res.map _ ((calcIndex g a).bind _)
  cases calcIndex g a with
  | throw e => rfl
  | ub u => rfl
  | ok i =>
    simp only [Res.bind_ok]
    change (rayVisit ops ⟨g.cells, []⟩ i).bind _ = Res.map _ ((rayVisit ops ⟨g.cells, []⟩ i).bind _)
    cases rayVisit ops ⟨g.cells, []⟩ i with
    | throw e => rfl
    | ub u => rfl
    | ok s =>
      simp only [Res.bind_ok]
      by_cases h3 : max (|b.1 - a.1| / g.cellSize) (|b.2 - a.2| / g.cellSize) = 0
      · rw [if_pos h3, if_pos (show max (|b.1 - a.1| / (setV g k).cellSize)
          (|b.2 - a.2| / (setV g k).cellSize) = 0 from h3)]
        rfl
      rw [if_neg h3, if_neg (show ¬ max (|b.1 - a.1| / (setV g k).cellSize)
          (|b.2 - a.2| / (setV g k).cellSize) = 0 from h3)]
      change (rayBound (max (|b.1 - a.1| / g.cellSize) (|b.2 - a.2| / g.cellSize))).bind _
        = Res.map _ ((rayBound (max (|b.1 - a.1| / g.cellSize) (|b.2 - a.2| / g.cellSize))).bind _)
      cases rayBound (max (|b.1 - a.1| / g.cellSize) (|b.2 - a.2| / g.cellSize)) with
      | throw e => rfl
      | ub u => rfl
      | ok n =>
        simp only [Res.bind_ok]
        have last : ∀ x : Res (RayState γ),
            (x.bind fun s => .ok (s.visited, { setV g k with cells := s.cells }))
              = (x.bind fun s => Res.ok (s.visited, { g with cells := s.cells })).map
                  fun r => (r.1, setV r.2 k) := by
          intro x
          cases x <;> rfl
        exact last _

theorem traceAll_blind (I : CellI K γ) (s : Fin 3 → K) : ∀ cells : List γ,
    Blind fun g => traceAll I s g cells := by
  intro cells
  induction cells with
  | nil => intro g k; rfl
  | cons c cells ih =>
    intro g k
    simp only [traceAll]
    split_ifs
    · rw [rayTrace_setV]
      cases rayTrace I.toCellOps g (head s) (head (I.mean c)) with
      | throw e => rfl
      | ub u => rfl
      | ok r =>
        simp only [Res.map_ok, Res.bind_ok]
        change Res.map _ ((updateRay I s (I.mean c) (I.points c) r.1 r.2.cells).bind _)
          = Res.map _ ((updateRay I s (I.mean c) (I.points c) r.1 r.2.cells).bind _)
        cases updateRay I s (I.mean c) (I.points c) r.1 r.2.cells with
        | throw e => rfl
        | ub u => rfl
        | ok l => exact ih { r.2 with cells := l } k
    · exact ih g k

/-- The map with another value of the counter. -/
def setVN (n : NGrid K γ) (k : ℕ) : NGrid K γ := { n with grid := setV n.grid k }

theorem addToMap_blind (I : CellI K γ) (f : Frame K γ) (n : NGrid K γ) (k : ℕ) :
    (addToMap I (setVN n k) f).map visible = (addToMap I n f).map visible := by
  -- the whole call as a grid operation
  have key : ∀ m : NGrid K γ, addToMap I m f =
      ((traceAll I ![f.sx, f.sy, 0] m.grid f.cells).bind fun g =>
        (enlarge g (minMax (f.cells.map fun c => head (I.mean c))).minx
          (minMax (f.cells.map fun c => head (I.mean c))).miny
          (minMax (f.cells.map fun c => head (I.mean c))).maxx
          (minMax (f.cells.map fun c => head (I.mean c))).maxy).bind fun g =>
        overwriteAll I g f.cells).map
      fun g => updateMeans I { m with initialized := true, grid := g } := by
    intro m
    unfold addToMap mergeTraced mergeCells
    simp only [Bool.true_or, if_true]
    cases traceAll I ![f.sx, f.sy, 0] m.grid f.cells with
    | throw e => rfl
    | ub u => rfl
    | ok g =>
      simp only [Res.bind_ok]
      cases enlarge g (minMax (f.cells.map fun c => head (I.mean c))).minx
          (minMax (f.cells.map fun c => head (I.mean c))).miny
          (minMax (f.cells.map fun c => head (I.mean c))).maxx
          (minMax (f.cells.map fun c => head (I.mean c))).maxy with
      | throw e => rfl
      | ub u => rfl
      | ok g =>
        simp only [Res.bind_ok]
        cases overwriteAll I g f.cells <;> rfl
  have hb : Blind fun g : Grid K γ => (traceAll I ![f.sx, f.sy, 0] g f.cells).bind fun g =>
        (enlarge g (minMax (f.cells.map fun c => head (I.mean c))).minx
          (minMax (f.cells.map fun c => head (I.mean c))).miny
          (minMax (f.cells.map fun c => head (I.mean c))).maxx
          (minMax (f.cells.map fun c => head (I.mean c))).maxy).bind fun g =>
        overwriteAll I g f.cells := by
    refine Blind.bind (traceAll_blind I _ _) (Blind.bind ?_ (overwriteAll_blind I _))
    intro g k
    simp only
    rw [enlarge_setV]
    generalize enlarge g _ _ _ _ = x
    cases x <;> rfl
  rw [key, key]
  have h := hb n.grid k
  simp only at h
  have hvis : ∀ (m : NGrid K γ) (x : Res (Grid K γ)),
      (x.map fun g => updateMeans I { m with initialized := true, grid := g }).map visible
        = (x.map (setV · 0)).map
          fun g => updateMeans I { m with initialized := true, grid := g } := by
    intro m x
    cases x <;> rfl
  rw [hvis, hvis]
  change ((Res.bind (traceAll I ![f.sx, f.sy, 0] (setV n.grid k) f.cells) _).map (setV · 0)).map _ = _
  rw [h]
  rfl

theorem addAll_blind (I : CellI K γ) : ∀ (fs : List (Frame K γ)) (n : NGrid K γ) (k : ℕ),
    (addAll I (setVN n k) fs).map visible = (addAll I n fs).map visible := by
  intro fs
  induction fs with
  | nil => intro n k; rfl
  | cons f fs ih =>
    intro n k
    unfold addAll
    have h := addToMap_blind I f n k
    cases hx : addToMap I n f with
    | ok a =>
      cases hy : addToMap I (setVN n k) f with
      | ok b =>
        rw [hx, hy] at h
        simp only [Res.map_ok, Res.ok.injEq] at h
        have hb : b = setVN a b.grid.validCells := by
          cases a; cases b
          simp only [visible, setVN, NGrid.mk.injEq] at h ⊢
          obtain ⟨h1, h2, h3, h4, h5, h6, h7⟩ := h
          exact ⟨h1, h2, h3, h4, h5, setV_eq h6, h7⟩
        rw [Res.bind_ok, Res.bind_ok, hb]
        exact ih a _
      | throw e => rw [hx, hy] at h; cases h
      | ub u => rw [hx, hy] at h; cases h
    | throw e =>
      cases hy : addToMap I (setVN n k) f with
      | ok b => rw [hx, hy] at h; cases h
      | throw e' => rw [hx, hy] at h; exact h
      | ub u => rw [hx, hy] at h; cases h
    | ub u =>
      cases hy : addToMap I (setVN n k) f with
      | ok b => rw [hx, hy] at h; cases h
      | throw e' => rw [hx, hy] at h; cases h
      | ub u' => rw [hx, hy] at h; exact h

/-! ### Sequences of frames -/

theorem addFrames_ext {I : CellI K γ} (hI : Lawful I) (view : K → Frame K γ) : ∀ {ks : List K}
    {m m' : Mapper K γ}, WF m.map.grid → 0 < m.map.grid.cellSize → addFrames I view m ks = .ok m' →
    WF m'.map.grid ∧ m'.map.grid.cellSize = m.map.grid.cellSize ∧
      extOf m'.map.grid = ks.foldl (fun e k => e ⊔ frameExt I m.map.grid.cellSize (view k))
        (extOf m.map.grid) ∧
      m'.map.ox = m.map.ox ∧ m'.map.oy = m.map.oy ∧ m'.map.th = m.map.th ∧
      m'.map.timestamp = m.map.timestamp ∧ m'.frames = m.frames ++ ks := by
  intro ks
  induction ks with
  | nil =>
    intro m m' hwf hcs h
    cases h
    exact ⟨hwf, rfl, rfl, rfl, rfl, rfl, rfl, by simp⟩
  | cons k ks ih =>
    intro m m' hwf hcs h
    unfold addFrames at h
    obtain ⟨m1, h1, h⟩ := Res.bind_eq_ok.1 h
    unfold addFrame at h1
    obtain ⟨map, hm, h1⟩ := Res.bind_eq_ok.1 h1
    cases h1
    obtain ⟨hwf1, hc1, he1, hox, hoy, hth, hts, -⟩ := addToMap_ext hI hwf hcs hm
    obtain ⟨hwf2, hc2, he2, hox2, hoy2, hth2, hts2, hf2⟩ := ih hwf1 (by rw [hc1]; exact hcs) h
    simp only at hc2 he2 hox2 hoy2 hth2 hts2 hf2
    refine ⟨hwf2, hc2.trans hc1, ?_, hox2.trans hox, hoy2.trans hoy, hth2.trans hth, hts2.trans hts,
      by rw [hf2]; simp⟩
    rw [he2, he1, hc1]
    rfl

end Verif.NDTGrid
