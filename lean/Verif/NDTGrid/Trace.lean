import Verif.NDTGrid.Lemmas
import Mathlib.Data.List.Sort
import Mathlib.Data.List.Perm.Basic

/-
Helper lemmas: ray tracing, placement of Gaussians, extents, independence of the counter.
-/
namespace Verif.NDTGrid

open Verif Verif.Voxel

set_option linter.unusedSectionVars false

variable {K : Type v} [Field K] [LinearOrder K] [IsStrictOrderedRing K] [FloorRing K] {γ : Type u}

/-! ### Rays -/

theorem rayTrace_rel {ops : CellOps γ} {g : Grid K γ} {a b : K × K} {r : List ℕ × Grid K γ}
    (h : rayTrace ops g a b = .ok r) :
    ∃ cells, r.2 = { g with cells := cells } ∧ cells.length = g.cells.length ∧
      (∀ i c, slot g.cells i = some c → slot cells i = some c) ∧
      (∀ i c, slot g.cells i = none → slot cells i = some c → c = ops.default) := by
  unfold rayTrace at h
  split_ifs at h
  · cases h
    exact ⟨g.cells, rfl, rfl, fun _ _ h => h, fun i c h h' => by rw [h] at h'; cases h'⟩
  · simp only at h
    obtain ⟨idx, -, h⟩ := Res.bind_eq_ok.1 h
    obtain ⟨s1, h1, h⟩ := Res.bind_eq_ok.1 h
    split_ifs at h
    obtain ⟨n, -, h⟩ := Res.bind_eq_ok.1 h
    obtain ⟨s2, h2, h⟩ := Res.bind_eq_ok.1 h
    cases h
    have r := (rayVisit_rel h1).1.trans (rayLoop_rel h2)
    exact ⟨s2.cells, rfl, r.len, r.keep, fun i c hn hc => (r.fresh i c hn hc).1⟩

/-- What the treatment of rays may do to the cells: none disappears; a Gaussian afterwards was a
Gaussian with the same mean before. -/
structure Traced (I : CellI K γ) (l l' : List (Option γ)) : Prop where
  len : l'.length = l.length
  keep : ∀ i, (slot l i).isSome → (slot l' i).isSome
  gauss : ∀ i c', slot l' i = some c' → I.gaussian c' = true →
    ∃ c, slot l i = some c ∧ I.gaussian c = true ∧ I.mean c' = I.mean c

theorem Traced.refl (I : CellI K γ) (l : List (Option γ)) : Traced I l l :=
  ⟨rfl, fun _ h => h, fun _ c h hg => ⟨c, h, hg, rfl⟩⟩

theorem Traced.trans {I : CellI K γ} {a b c : List (Option γ)} (h : Traced I a b)
    (h' : Traced I b c) : Traced I a c := by
  refine ⟨h'.len.trans h.len, fun i hi => h'.keep i (h.keep i hi), ?_⟩
  intro i x hx hg
  obtain ⟨y, hy, hgy, hm⟩ := h'.gauss i x hx hg
  obtain ⟨z, hz, hgz, hm'⟩ := h.gauss i y hy hgy
  exact ⟨z, hz, hgz, hm.trans hm'⟩

theorem updateRay_traced {I : CellI K γ} (hI : Lawful I) {s e : Fin 3 → K} {k : ℕ} :
    ∀ {is : List ℕ} {l l' : List (Option γ)}, updateRay I s e k is l = .ok l' → Traced I l l' := by
  intro is
  induction is with
  | nil => intro l l' h; cases h; exact Traced.refl I l
  | cons i is ih =>
    intro l l' h
    unfold updateRay at h
    obtain ⟨c, hc, h⟩ := Res.bind_eq_ok.1 h
    unfold readSlot at hc
    split_ifs at hc with hi
    cases hc
    cases hs : slot l i with
    | none => rw [hs] at h; cases h
    | some c =>
      rw [hs] at h
      simp only at h
      obtain ⟨c', hc', h⟩ := Res.bind_eq_ok.1 h
      obtain ⟨l1, hl1, h⟩ := Res.bind_eq_ok.1 h
      rw [writeSlot_lt hi] at hl1
      cases hl1
      refine Traced.trans ?_ (ih h)
      refine ⟨by simp, ?_, ?_⟩
      · intro j hj
        simp only [slot_set]
        split_ifs
        · rfl
        · exact hj
      · intro j x hx hg
        simp only [slot_set] at hx
        split_ifs at hx with hh
        · cases hx
          obtain ⟨h1, h2⟩ := hI.ray _ _ _ _ _ hc' hg
          exact ⟨c, by rw [← hh.1]; exact hs, h1, h2⟩
        · exact ⟨x, hx, hg, rfl⟩

theorem traceAll_traced {I : CellI K γ} (hI : Lawful I) {s : Fin 3 → K} :
    ∀ {cells : List γ} {g g' : Grid K γ}, traceAll I s g cells = .ok g' →
      SameBox g g' ∧ g'.validCells = g.validCells ∧ Traced I g.cells g'.cells := by
  intro cells
  induction cells with
  | nil => intro g g' h; cases h; exact ⟨SameBox.refl g, rfl, Traced.refl I _⟩
  | cons c cells ih =>
    intro g g' h
    unfold traceAll at h
    split_ifs at h with hg
    · obtain ⟨r, hr, h⟩ := Res.bind_eq_ok.1 h
      obtain ⟨l, hl, h⟩ := Res.bind_eq_ok.1 h
      obtain ⟨cells1, e1, e2, e3, e4⟩ := rayTrace_rel hr
      rw [e1] at hl h
      have t2 := updateRay_traced hI hl
      obtain ⟨b3, v3, t3⟩ := ih h
      have t1 : Traced I g.cells cells1 := by
        refine ⟨e2, ?_, ?_⟩
        · intro i hi
          obtain ⟨x, hx⟩ := Option.isSome_iff_exists.1 hi
          rw [e3 i x hx]; rfl
        · intro i x hx hgx
          cases hs : slot g.cells i with
          | none =>
            have := e4 i x hs hx
            rw [this, hI.default_gaussian] at hgx
            cases hgx
          | some y =>
            have := e3 i y hs
            rw [hx] at this
            cases this
            exact ⟨x, rfl, hgx, rfl⟩
      exact ⟨⟨b3.left, b3.right, b3.up, b3.down, b3.cs⟩, v3, (t1.trans t2).trans t3⟩
    · exact ih h

theorem Traced.content {I : CellI K γ} {g g' : Grid K γ} (hb : SameBox g g')
    (ht : Traced I g.cells g'.cells) (q : ℤ × ℤ) :
    ((Voxel.content g q).isSome → (Voxel.content g' q).isSome) ∧
    ∀ c', Voxel.content g' q = some c' → I.gaussian c' = true →
      ∃ c, Voxel.content g q = some c ∧ I.gaussian c = true ∧ I.mean c' = I.mean c := by
  have hs : slotNo g' q = slotNo g q := by
    unfold slotNo Grid.width; rw [hb.left, hb.up, hb.right]
  by_cases hin : InExtent g q
  · rw [content_of_in hin, content_of_in ((hb.inExtent q).2 hin), hs]
    exact ⟨ht.keep _, fun c' => ht.gauss _ c'⟩
  · rw [content_of_not_in hin, content_of_not_in (fun h => hin ((hb.inExtent q).1 h))]
    exact ⟨fun h => by simp at h, fun c' h => by cases h⟩

/-- The same with any relation between the cell before and after that rays respect. -/
structure TracedBy (I : CellI K γ) (R : γ → γ → Prop) (l l' : List (Option γ)) : Prop where
  keep : ∀ i, (slot l i).isSome → (slot l' i).isSome
  gauss : ∀ i c', slot l' i = some c' → I.gaussian c' = true →
    ∃ c, slot l i = some c ∧ I.gaussian c = true ∧ R c c'

theorem TracedBy.refl (I : CellI K γ) {R : γ → γ → Prop} (hr : ∀ c, R c c) (l : List (Option γ)) : TracedBy I R l l :=
  ⟨fun _ h => h, fun _ c h hg => ⟨c, h, hg, hr c⟩⟩

theorem TracedBy.trans {I : CellI K γ} {R : γ → γ → Prop} (ht : ∀ a b c, R a b → R b c → R a c)
    {a b c : List (Option γ)} (h : TracedBy I R a b) (h' : TracedBy I R b c) : TracedBy I R a c := by
  refine ⟨fun i hi => h'.keep i (h.keep i hi), ?_⟩
  intro i x hx hg
  obtain ⟨y, hy, hgy, hm⟩ := h'.gauss i x hx hg
  obtain ⟨z, hz, hgz, hm'⟩ := h.gauss i y hy hgy
  exact ⟨z, hz, hgz, ht _ _ _ hm' hm⟩

theorem updateRay_tracedBy {I : CellI K γ} {R : γ → γ → Prop} (hr : ∀ c, R c c)
    (ht : ∀ a b c, R a b → R b c → R a c)
    (hray : ∀ c s e k c', I.ray c s e k = .ok c' → I.gaussian c' = true → I.gaussian c = true ∧ R c c')
    {s e : Fin 3 → K} {k : ℕ} :
    ∀ {is : List ℕ} {l l' : List (Option γ)}, updateRay I s e k is l = .ok l' → TracedBy I R l l' := by
  intro is
  induction is with
  | nil => intro l l' h; cases h; exact TracedBy.refl I hr l
  | cons i is ih =>
    intro l l' h
    unfold updateRay at h
    obtain ⟨c, hc, h⟩ := Res.bind_eq_ok.1 h
    unfold readSlot at hc
    split_ifs at hc with hi
    cases hc
    cases hs : slot l i with
    | none => rw [hs] at h; cases h
    | some c =>
      rw [hs] at h
      simp only at h
      obtain ⟨c', hc', h⟩ := Res.bind_eq_ok.1 h
      obtain ⟨l1, hl1, h⟩ := Res.bind_eq_ok.1 h
      rw [writeSlot_lt hi] at hl1
      cases hl1
      refine TracedBy.trans ht ?_ (ih h)
      refine ⟨?_, ?_⟩
      · intro j hj
        simp only [slot_set]
        split_ifs
        · rfl
        · exact hj
      · intro j x hx hg
        simp only [slot_set] at hx
        split_ifs at hx with hh
        · cases hx
          obtain ⟨h1, h2⟩ := hray _ _ _ _ _ hc' hg
          exact ⟨c, by rw [← hh.1]; exact hs, h1, h2⟩
        · exact ⟨x, hx, hg, hr x⟩

theorem traceAll_tracedBy {I : CellI K γ} {R : γ → γ → Prop} (hd : I.gaussian I.default = false) (hr : ∀ c, R c c)
    (ht : ∀ a b c, R a b → R b c → R a c)
    (hray : ∀ c s e k c', I.ray c s e k = .ok c' → I.gaussian c' = true → I.gaussian c = true ∧ R c c')
    {s : Fin 3 → K} :
    ∀ {cells : List γ} {g g' : Grid K γ}, traceAll I s g cells = .ok g' → TracedBy I R g.cells g'.cells := by
  intro cells
  induction cells with
  | nil => intro g g' h; cases h; exact TracedBy.refl I hr _
  | cons c cells ih =>
    intro g g' h
    unfold traceAll at h
    split_ifs at h with hg
    · obtain ⟨r, hr', h⟩ := Res.bind_eq_ok.1 h
      obtain ⟨l, hl, h⟩ := Res.bind_eq_ok.1 h
      obtain ⟨cells1, e1, e2, e3, e4⟩ := rayTrace_rel hr'
      rw [e1] at hl h
      have t2 := updateRay_tracedBy hr ht hray hl
      have t3 := ih h
      have t1 : TracedBy I R g.cells cells1 := by
        refine ⟨?_, ?_⟩
        · intro i hi
          obtain ⟨x, hx⟩ := Option.isSome_iff_exists.1 hi
          rw [e3 i x hx]; rfl
        · intro i x hx hgx
          cases hs : slot g.cells i with
          | none =>
            have := e4 i x hs hx
            rw [this, hd] at hgx
            cases hgx
          | some y =>
            have := e3 i y hs
            rw [hx] at this
            cases this
            exact ⟨x, rfl, hgx, hr x⟩
      exact (t1.trans ht t2).trans ht t3
    · exact ih h

theorem TracedBy.content {I : CellI K γ} {R : γ → γ → Prop} {g g' : Grid K γ} (hb : SameBox g g')
    (ht : TracedBy I R g.cells g'.cells) (q : ℤ × ℤ) :
    ((Voxel.content g q).isSome → (Voxel.content g' q).isSome) ∧
    ∀ c', Voxel.content g' q = some c' → I.gaussian c' = true →
      ∃ c, Voxel.content g q = some c ∧ I.gaussian c = true ∧ R c c' := by
  have hs : slotNo g' q = slotNo g q := by
    unfold slotNo Grid.width; rw [hb.left, hb.up, hb.right]
  by_cases hin : InExtent g q
  · rw [content_of_in hin, content_of_in ((hb.inExtent q).2 hin), hs]
    exact ⟨ht.keep _, fun c' => ht.gauss _ c'⟩
  · rw [content_of_not_in hin, content_of_not_in (fun h => hin ((hb.inExtent q).1 h))]
    exact ⟨fun h => by simp at h, fun c' h => by cases h⟩

theorem SameBox.wf {I : CellI K γ} {g g' : Grid K γ} (hb : SameBox g g')
    (ht : Traced I g.cells g'.cells) (hwf : WF g) : WF g' := by
  unfold WF Grid.width Grid.height at *
  rw [ht.len, hb.left, hb.right, hb.up, hb.down]
  exact hwf

/-! ### Placement -/

theorem square_convex {cs : K} (hcs : 0 < cs) {a b : K × K} {q : ℤ × ℤ} (ha : squareOf cs a = q)
    (hb : squareOf cs b = q) {t : K} (h0 : 0 ≤ t) (h1 : t ≤ 1) :
    squareOf cs ((1 - t) * a.1 + t * b.1, (1 - t) * a.2 + t * b.2) = q := by
  rw [squareOf_iff hcs] at ha hb ⊢
  obtain ⟨a1, a2, a3, a4⟩ := ha
  obtain ⟨b1, b2, b3, b4⟩ := hb
  have hu : 0 ≤ 1 - t := by linarith
  have key : ∀ x y l u : K, l ≤ x → x < u → l ≤ y → y < u →
      l ≤ (1 - t) * x + t * y ∧ (1 - t) * x + t * y < u := by
    intro x y l u hx hx' hy hy'
    constructor
    · nlinarith [mul_le_mul_of_nonneg_left hx hu, mul_le_mul_of_nonneg_left hy h0]
    · rcases lt_or_eq_of_le h0 with h | h
      · nlinarith [mul_le_mul_of_nonneg_left hx'.le hu, mul_lt_mul_of_pos_left hy' h]
      · rw [← h]; linarith
  have key2 : ∀ x y l u : K, l < x → x ≤ u → l < y → y ≤ u →
      l < (1 - t) * x + t * y ∧ (1 - t) * x + t * y ≤ u := by
    intro x y l u hx hx' hy hy'
    have := key (-x) (-y) (-u) (-l) (by linarith) (by linarith) (by linarith) (by linarith)
    constructor <;> nlinarith [this.1, this.2]
  exact ⟨(key _ _ _ _ a1 a2 b1 b2).1, (key _ _ _ _ a1 a2 b1 b2).2, (key2 _ _ _ _ a3 a4 b3 b4).1,
    (key2 _ _ _ _ a3 a4 b3 b4).2⟩

end Verif.NDTGrid
