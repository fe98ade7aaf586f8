import Verif.NDTGrid.Real

/-
Helper lemmas: which cells a grid stores after each call, without assumptions on the position of the means.
-/
namespace Verif.World

open Verif Verif.Voxel Verif.NDTGrid

set_option linter.unusedSectionVars false

variable {K : Type v} [Field K] [LinearOrder K] [IsStrictOrderedRing K] [FloorRing K] {γ : Type u}

/-! ### Lists of optional cells -/

theorem split_at {l : List (Option γ)} {i : ℕ} (h : i < l.length) :
    ∃ a b, l = a ++ slot l i :: b ∧ ∀ c, l.set i c = a ++ c :: b := by
  refine ⟨l.take i, l.drop (i + 1), ?_, ?_⟩
  · rw [slot_eq_getElem h, List.cons_getElem_drop_succ, List.take_append_drop]
  · intro c
    rw [List.set_eq_take_append_cons_drop, if_pos h]

theorem set_none {l : List (Option γ)} {i : ℕ} (h : i < l.length) (hn : slot l i = none) (c : γ) :
    ((l.set i (some c)).filterMap id).length = (l.filterMap id).length + 1 ∧
    ∀ d, d ∈ (l.set i (some c)).filterMap id ↔ d ∈ l.filterMap id ∨ d = c := by
  obtain ⟨a, b, e, hs⟩ := split_at h
  rw [hn] at e
  rw [hs, e]
  constructor
  · simp [List.filterMap_append]; omega
  · intro d
    simp only [List.filterMap_append, List.filterMap_cons, id, List.mem_append, List.mem_cons]
    tauto

theorem set_some {l : List (Option γ)} {i : ℕ} {o : γ} (h : i < l.length) (ho : slot l i = some o) (c : γ) :
    o ∈ l.filterMap id ∧
    ((l.set i (some c)).filterMap id).length = (l.filterMap id).length ∧
    c ∈ (l.set i (some c)).filterMap id ∧
    ∀ d, d ∈ (l.set i (some c)).filterMap id → d ∈ l.filterMap id ∨ d = c := by
  obtain ⟨a, b, e, hs⟩ := split_at h
  rw [ho] at e
  rw [hs, e]
  refine ⟨by simp, by simp, by simp, ?_⟩
  intro d
  simp only [List.filterMap_append, List.filterMap_cons, id, List.mem_append, List.mem_cons]
  tauto

/-! ### One cell -/

theorem validCells_length {g : Grid K γ} (hwf : WF g) :
    (getValidCells g).length = Set.ncard {q : ℤ × ℤ | (content g q).isSome} := by
  rw [← stored_eq_ncard hwf]
  unfold getValidCells
  induction g.cells with
  | nil => rfl
  | cons a l ih => cases a <;> simp <;> exact ih

theorem validCells_content {g g' : Grid K γ} (hwf : WF g) (hwf' : WF g') (h : ∀ q, content g' q = content g q) :
    (getValidCells g').length = (getValidCells g).length ∧
    ∀ c, c ∈ getValidCells g' ↔ c ∈ getValidCells g := by
  have e : content g' = content g := funext h
  refine ⟨by rw [validCells_length hwf', validCells_length hwf, e], fun c => ?_⟩
  rw [mem_validCells hwf', mem_validCells hwf, e]

theorem addCell_stored {ops : CellOps γ} {g g' : Grid K γ} (hwf : WF g) (hcs : 0 < g.cellSize) {p : K × K}
    {c : γ} {m : Bool} (h : addCell ops g p c m = .ok g') :
    WF g' ∧ g'.cellSize = g.cellSize ∧
    (((getValidCells g').length = (getValidCells g).length + 1 ∧
        ∀ d, d ∈ getValidCells g' ↔ d ∈ getValidCells g ∨ d = c) ∨
     ∃ o ∈ getValidCells g, (getValidCells g').length = (getValidCells g).length ∧
        (if m then ops.merge o c else c) ∈ getValidCells g' ∧
        ∀ d ∈ getValidCells g', d ∈ getValidCells g ∨ d = if m then ops.merge o c else c) := by
  have hwf' := addCell_wf hwf h
  refine ⟨hwf', ?_⟩
  obtain ⟨g1, h1, gr, -⟩ := enlargeToFit_spec hwf hcs p
  unfold addCell at h
  rw [h1, Res.bind_ok] at h
  obtain ⟨idx, -, h⟩ := Res.bind_eq_ok.1 h
  obtain ⟨old, hold, h⟩ := Res.bind_eq_ok.1 h
  unfold readSlot at hold
  split_ifs at hold with hi
  have hs := Res.ok.inj hold
  obtain ⟨hlen, hmem⟩ := validCells_content hwf gr.wf gr.content
  cases old with
  | none =>
    simp only at h
    rw [writeSlot_lt hi, Res.bind_ok] at h
    cases h
    refine ⟨gr.cs, Or.inl ?_⟩
    obtain ⟨a, b⟩ := set_none hi hs c
    refine ⟨?_, fun d => ?_⟩
    · show ((g1.cells.set idx (some c)).filterMap id).length = _
      rw [a, ← hlen]; rfl
    · rw [← hmem]
      exact b d
  | some o =>
    simp only at h
    rw [writeSlot_lt hi, Res.bind_ok] at h
    cases h
    refine ⟨gr.cs, Or.inr ?_⟩
    obtain ⟨a, b, c', d⟩ := set_some hi hs (if m then ops.merge o c else c)
    refine ⟨o, (hmem o).1 a, ?_, c', ?_⟩
    · rw [← hlen]; exact b
    · intro x hx
      rw [← hmem]
      exact d x hx

theorem enlarge_stored {g g' : Grid K γ} (hwf : WF g) (hcs : 0 < g.cellSize) {a b c d : K}
    (h : enlarge g a b c d = .ok g') : WF g' ∧ g'.cellSize = g.cellSize ∧
      (getValidCells g').length = (getValidCells g).length ∧
      ∀ c, c ∈ getValidCells g' ↔ c ∈ getValidCells g := by
  obtain ⟨g1, h1, gr, -⟩ := enlarge_spec hwf hcs a b c d
  rw [h1] at h
  cases h
  obtain ⟨h2, h3⟩ := validCells_content hwf gr.wf gr.content
  exact ⟨gr.wf, gr.cs, h2, h3⟩

theorem clear_stored {g : Grid K γ} (hwf : WF g) : WF (Voxel.clear g) ∧
    (Voxel.clear g).cellSize = g.cellSize ∧ getValidCells (Voxel.clear g) = [] := by
  refine ⟨clear_wf hwf, rfl, ?_⟩
  rw [List.eq_nil_iff_forall_not_mem]
  intro c hc
  obtain ⟨q, hq⟩ := (mem_validCells (clear_wf hwf) c).1 hc
  rw [clear_content] at hq
  cases hq

/-! ### Lists of cells -/

theorem overwriteAll_stored {I : CellI K γ} : ∀ {cells : List γ} {g g' : Grid K γ}, WF g → 0 < g.cellSize →
    overwriteAll I g cells = .ok g' → WF g' ∧ g'.cellSize = g.cellSize ∧
      (∀ d ∈ getValidCells g', d ∈ getValidCells g ∨ (d ∈ cells ∧ I.gaussian d = true)) := by
  intro cells
  induction cells with
  | nil => intro g g' hwf _ h; cases h; exact ⟨hwf, rfl, fun d hd => Or.inl hd⟩
  | cons c cells ih =>
    intro g g' hwf hcs h
    unfold overwriteAll at h
    split_ifs at h with hg
    · obtain ⟨g1, h1, h⟩ := Res.bind_eq_ok.1 h
      obtain ⟨w1, c1, hm⟩ := addCell_stored hwf hcs h1
      obtain ⟨w2, c2, h2⟩ := ih w1 (c1 ▸ hcs) h
      refine ⟨w2, c2.trans c1, fun d hd => ?_⟩
      rcases h2 d hd with h2 | ⟨h2, h3⟩
      · rcases hm with ⟨-, hm⟩ | ⟨o, -, -, -, hm⟩
        · rcases (hm d).1 h2 with h | rfl
          · exact Or.inl h
          · exact Or.inr ⟨List.mem_cons_self, hg⟩
        · rcases hm d h2 with h | h
          · exact Or.inl h
          · simp only [Bool.false_eq_true, if_false] at h
            subst h
            exact Or.inr ⟨List.mem_cons_self, hg⟩
      · exact Or.inr ⟨List.mem_cons_of_mem _ h2, h3⟩
    · obtain ⟨w2, c2, h2⟩ := ih hwf hcs h
      refine ⟨w2, c2, fun d hd => (h2 d hd).imp id fun h => ⟨List.mem_cons_of_mem _ h.1, h.2⟩⟩

theorem mergeInside_all {I : CellI K γ} {Q : γ → Prop}
    (hm : ∀ o c, Q o → Q c → Q (I.merge o c)) : ∀ {cells : List γ} {g g' : Grid K γ}, WF g →
    0 < g.cellSize → mergeInside I g cells = .ok g' → (∀ c ∈ cells, I.gaussian c = true → Q c) →
    (∀ d ∈ getValidCells g, Q d) → WF g' ∧ g'.cellSize = g.cellSize ∧ ∀ d ∈ getValidCells g', Q d := by
  intro cells
  induction cells with
  | nil => intro g g' hwf _ h _ hq; cases h; exact ⟨hwf, rfl, hq⟩
  | cons c cells ih =>
    intro g g' hwf hcs h hc hq
    have hc' : ∀ d ∈ cells, I.gaussian d = true → Q d := fun d hd => hc d (List.mem_cons_of_mem _ hd)
    unfold mergeInside at h
    split_ifs at h with hg hin
    · obtain ⟨g1, h1, h⟩ := Res.bind_eq_ok.1 h
      obtain ⟨w1, c1, hs⟩ := addCell_stored hwf hcs h1
      have hQc := hc c List.mem_cons_self hg
      have hq1 : ∀ d ∈ getValidCells g1, Q d := by
        intro d hd
        rcases hs with ⟨-, hs⟩ | ⟨o, ho, -, -, hs⟩
        · rcases (hs d).1 hd with h | rfl
          · exact hq d h
          · exact hQc
        · rcases hs d hd with h | rfl
          · exact hq d h
          · exact hm _ _ (hq o ho) hQc
      obtain ⟨w2, c2, h2⟩ := ih w1 (c1 ▸ hcs) h hc' hq1
      exact ⟨w2, c2.trans c1, h2⟩
    · exact ih hwf hcs h hc' hq
    · exact ih hwf hcs h hc' hq

/-! ### Rays -/

theorem mem_valid_slot {l : List (Option γ)} {c : γ} : c ∈ l.filterMap id ↔ ∃ i, slot l i = some c := by
  simp only [List.mem_filterMap, id]
  constructor
  · rintro ⟨a, ha, rfl⟩
    obtain ⟨i, hi, e⟩ := List.mem_iff_getElem.1 ha
    exact ⟨i, by rw [slot_eq_getElem hi, e]⟩
  · rintro ⟨i, hi⟩
    by_cases h : i < l.length
    · rw [slot_eq_getElem h] at hi
      exact ⟨_, List.getElem_mem h, hi⟩
    · unfold slot at hi
      rw [List.getElem?_eq_none (by omega)] at hi
      cases hi

theorem updateRay_all {I : CellI K γ} {Q : γ → Prop} (hr : ∀ c s e k c', Q c → I.ray c s e k = .ok c' → Q c')
    {s e : Fin 3 → K} {k : ℕ} : ∀ {is : List ℕ} {l l' : List (Option γ)}, updateRay I s e k is l = .ok l' →
    (∀ c ∈ l.filterMap id, Q c) → ∀ c ∈ l'.filterMap id, Q c := by
  intro is
  induction is with
  | nil => intro l l' h hq; cases h; exact hq
  | cons i is ih =>
    intro l l' h hq
    unfold updateRay at h
    obtain ⟨c, hc, h⟩ := Res.bind_eq_ok.1 h
    unfold readSlot at hc
    split_ifs at hc with hi
    cases hc
    cases hs : slot l i with
    | none => rw [hs] at h; cases h
    | some c =>
      rw [hs] at h
      simp only at h
      obtain ⟨c', hc', h⟩ := Res.bind_eq_ok.1 h
      obtain ⟨l1, hl1, h⟩ := Res.bind_eq_ok.1 h
      rw [writeSlot_lt hi] at hl1
      cases hl1
      refine ih h ?_
      obtain ⟨a, -, -, hm⟩ := set_some hi hs c'
      intro d hd
      rcases hm d hd with h | rfl
      · exact hq d h
      · exact hr _ _ _ _ _ (hq c a) hc'

theorem traceAll_all {I : CellI K γ} {Q : γ → Prop} (hd : Q I.default)
    (hr : ∀ c s e k c', Q c → I.ray c s e k = .ok c' → Q c')
    {s : Fin 3 → K} : ∀ {cells : List γ} {g g' : Grid K γ}, traceAll I s g cells = .ok g' →
    (∀ c ∈ getValidCells g, Q c) → ∀ c ∈ getValidCells g', Q c := by
  intro cells
  induction cells with
  | nil => intro g g' h hq; cases h; exact hq
  | cons c cells ih =>
    intro g g' h hq
    unfold traceAll at h
    split_ifs at h with hg
    · obtain ⟨r, h1, h⟩ := Res.bind_eq_ok.1 h
      obtain ⟨l, hl, h⟩ := Res.bind_eq_ok.1 h
      obtain ⟨cells1, e1, e2, e3, e4⟩ := rayTrace_rel h1
      rw [e1] at hl h
      refine ih h (updateRay_all hr hl ?_)
      intro d hd'
      obtain ⟨i, hi⟩ := mem_valid_slot.1 hd'
      cases hs : slot g.cells i with
      | none => rw [e4 i d hs hi]; exact hd
      | some y =>
        have := e3 i y hs
        rw [show slot cells1 i = some d from hi] at this
        cases this
        exact hq d (mem_valid_slot.2 ⟨i, hs⟩)
    · exact ih h hq

/-! ### Points -/

theorem addPoint_one {I : CellI K γ} {Q : γ → Prop} (hd : Q I.default) {p : Fin 3 → K}
    (ha : ∀ c, Q c → Q (I.addPoint c p))
    {g g' : Grid K γ} (hwf : WF g) (hcs : 0 < g.cellSize) (h : addPoint I g p = .ok g')
    (hq : ∀ c ∈ getValidCells g, Q c) :
    WF g' ∧ g'.cellSize = g.cellSize ∧ ∀ c ∈ getValidCells g', Q c := by
  have hmod : ∀ {g g' : Grid K γ}, WF g → modifyCell g (head p) (fun c => I.addPoint c p) = .ok g' →
      (∀ c ∈ getValidCells g, Q c) → WF g' ∧ g'.cellSize = g.cellSize ∧ ∀ c ∈ getValidCells g', Q c := by
    intro g g' hwf h hq
    unfold modifyCell at h
    obtain ⟨idx, -, h⟩ := Res.bind_eq_ok.1 h
    obtain ⟨c, hc, h⟩ := Res.bind_eq_ok.1 h
    unfold readSlot at hc
    split_ifs at hc with hi
    cases hc
    cases hs : slot g.cells idx with
    | none => rw [hs] at h; cases h
    | some c =>
      rw [hs] at h
      simp only at h
      rw [writeSlot_lt hi, Res.bind_ok] at h
      cases h
      refine ⟨?_, rfl, ?_⟩
      · unfold WF at *
        simp only [List.length_set]
        exact hwf
      · obtain ⟨a, -, -, hm⟩ := set_some hi hs (I.addPoint c p)
        intro d hd
        rcases hm d hd with h | rfl
        · exact hq d h
        · exact ha _ (hq c a)
  unfold addPoint at h
  obtain ⟨e, -, h⟩ := Res.bind_eq_ok.1 h
  split_ifs at h
  · obtain ⟨g1, h1, h⟩ := Res.bind_eq_ok.1 h
    obtain ⟨w1, c1, hs⟩ := addCell_stored hwf hcs h1
    have hq1 : ∀ d ∈ getValidCells g1, Q d := by
      intro d hd'
      rcases hs with ⟨-, hs⟩ | ⟨o, ho, -, -, hs⟩
      · rcases (hs d).1 hd' with h | rfl
        · exact hq d h
        · exact hd
      · rcases hs d hd' with h | h
        · exact hq d h
        · simp only [Bool.false_eq_true, if_false] at h
          rw [h]; exact hd
    obtain ⟨w2, c2, h2⟩ := hmod w1 h hq1
    exact ⟨w2, c2.trans c1, h2⟩
  · exact hmod hwf h hq

theorem addPoints_all {I : CellI K γ} {Q : γ → Prop} (hd : Q I.default) (ps : List (Fin 3 → K))
    (ha : ∀ c, ∀ p ∈ ps, Q c → Q (I.addPoint c p)) : ∀ {g g' : Grid K γ}, WF g → 0 < g.cellSize →
    addPoints I g ps = .ok g' → (∀ c ∈ getValidCells g, Q c) →
    WF g' ∧ g'.cellSize = g.cellSize ∧ ∀ c ∈ getValidCells g', Q c := by
  induction ps with
  | nil => intro g g' hwf _ h hq; cases h; exact ⟨hwf, rfl, hq⟩
  | cons p ps ih =>
    intro g g' hwf hcs h hq
    unfold addPoints at h
    obtain ⟨g1, h1, h⟩ := Res.bind_eq_ok.1 h
    obtain ⟨w1, c1, q1⟩ := addPoint_one hd (fun c => ha c p List.mem_cons_self) hwf hcs h1 hq
    obtain ⟨w2, c2, q2⟩ := ih (fun c p hp => ha c p (List.mem_cons_of_mem _ hp)) w1 (c1 ▸ hcs) h q1
    exact ⟨w2, c2.trans c1, q2⟩

theorem map_all {Q Q' : γ → Prop} {f : γ → γ} (hf : ∀ c, Q c → Q' (f c)) {g : Grid K γ}
    (hq : ∀ c ∈ getValidCells g, Q c) :
    ∀ c ∈ getValidCells { g with cells := g.cells.map (Option.map f) }, Q' c := by
  intro c hc
  obtain ⟨i, hi⟩ := mem_valid_slot.1 hc
  simp only [slot_map] at hi
  obtain ⟨d, hd, rfl⟩ := Option.map_eq_some_iff.1 hi
  exact hf d (hq d (mem_valid_slot.2 ⟨i, hd⟩))

theorem createGrid_all {I : CellI K γ} {Q Q' : γ → Prop} (hd : Q I.default) (ps : List (Fin 3 → K))
    (ha : ∀ c, ∀ p ∈ ps, Q c → Q (I.addPoint c p)) (hc : ∀ c, Q c → Q' (I.compute c)) {ox oy th cs : K}
    (hcs : 0 < cs) {n : NGrid K γ} (h : createGrid I ox oy th cs ps = .ok n) :
    WF n.grid ∧ n.grid.cellSize = cs ∧ n.ox = ox ∧ n.oy = oy ∧ n.th = th ∧ n.means = [] ∧
      ∀ c ∈ getValidCells n.grid, Q' c := by
  unfold createGrid at h
  simp only at h
  obtain ⟨g1, h1, h⟩ := Res.bind_eq_ok.1 h
  obtain ⟨g2, h2, h⟩ := Res.bind_eq_ok.1 h
  cases h
  obtain ⟨w1, c1, -, m1⟩ := enlarge_stored (init_wf I ox oy th cs) hcs h1
  have hq1 : ∀ c ∈ getValidCells g1, Q c := by
    intro c hc'
    have := (m1 c).1 hc'
    unfold getValidCells NDTGrid.init Voxel.setCellSize Voxel.init at this
    simp only [List.filterMap_cons, id, List.filterMap_nil, List.mem_singleton] at this
    rw [this]; exact hd
  obtain ⟨w2, c2, q2⟩ := addPoints_all hd ps ha w1 (by rw [c1]; exact hcs) h2 hq1
  exact ⟨wf_map _ w2, c2.trans c1, rfl, rfl, rfl, rfl, map_all hc q2⟩

/-! ### Maps -/

theorem mergeCells_frame {I : CellI K γ} {n n' : NGrid K γ} (hwf : WF n.grid) (hcs : 0 < n.grid.cellSize)
    {cells : List γ} {resize : Bool} (h : mergeCells I n cells resize = .ok n') :
    n'.ox = n.ox ∧ n'.oy = n.oy ∧ n'.th = n.th ∧ n' = updateMeans I n' ∧
    ((resize = true ∨ n.initialized = false) → ∀ d ∈ getValidCells n'.grid,
      d ∈ getValidCells n.grid ∨ (d ∈ cells ∧ I.gaussian d = true)) := by
  unfold mergeCells at h
  split_ifs at h with hc
  · simp only at h
    obtain ⟨g1, h1, h⟩ := Res.bind_eq_ok.1 h
    obtain ⟨g2, h2, h⟩ := Res.bind_eq_ok.1 h
    cases h
    obtain ⟨w1, c1, -, m1⟩ := enlarge_stored hwf hcs h1
    obtain ⟨w2, c2, m2⟩ := overwriteAll_stored w1 (by rw [c1]; exact hcs) h2
    refine ⟨rfl, rfl, rfl, rfl, fun _ d hd => ?_⟩
    rcases m2 d hd with h | h
    · exact Or.inl ((m1 d).1 h)
    · exact Or.inr h
  · obtain ⟨g1, h1, h⟩ := Res.bind_eq_ok.1 h
    cases h
    refine ⟨rfl, rfl, rfl, rfl, fun hr => ?_⟩
    rcases hr with h | h <;> simp [h] at hc

theorem mergeCells_all {I : CellI K γ} {Q : γ → Prop} (hm : ∀ o c, Q o → Q c → Q (I.merge o c))
    {n n' : NGrid K γ} (hwf : WF n.grid) (hcs : 0 < n.grid.cellSize)
    {cells : List γ} {resize : Bool} (h : mergeCells I n cells resize = .ok n')
    (hc : ∀ c ∈ cells, I.gaussian c = true → Q c) (hq : ∀ d ∈ getValidCells n.grid, Q d) :
    WF n'.grid ∧ n'.grid.cellSize = n.grid.cellSize ∧ ∀ d ∈ getValidCells n'.grid, Q d := by
  unfold mergeCells at h
  split_ifs at h with hb
  · simp only at h
    obtain ⟨g1, h1, h⟩ := Res.bind_eq_ok.1 h
    obtain ⟨g2, h2, h⟩ := Res.bind_eq_ok.1 h
    cases h
    obtain ⟨w1, c1, -, m1⟩ := enlarge_stored hwf hcs h1
    obtain ⟨w2, c2, m2⟩ := overwriteAll_stored w1 (by rw [c1]; exact hcs) h2
    refine ⟨w2, c2.trans c1, fun d hd => ?_⟩
    rcases m2 d hd with h | h
    · exact hq d ((m1 d).1 h)
    · exact hc d h.1 h.2
  · obtain ⟨g1, h1, h⟩ := Res.bind_eq_ok.1 h
    cases h
    obtain ⟨w, c, q⟩ := mergeInside_all hm hwf hcs h1 hc hq
    exact ⟨w, c, q⟩

theorem mergeTraced_split {I : CellI K γ} (hI : Lawful I) {n n' : NGrid K γ} (hwf : WF n.grid) {sx sy : K}
    {cells : List γ} {resize : Bool} (h : mergeTraced I n sx sy cells resize = .ok n') :
    ∃ g, traceAll I ![sx, sy, 0] n.grid cells = .ok g ∧ WF g ∧ g.cellSize = n.grid.cellSize ∧
      mergeCells I { n with grid := g } cells resize = .ok n' := by
  unfold mergeTraced at h
  obtain ⟨g, h1, h⟩ := Res.bind_eq_ok.1 h
  obtain ⟨hb, -, ht⟩ := traceAll_traced hI h1
  exact ⟨g, h1, hb.wf ht hwf, hb.cs, h⟩

theorem move_all {I : CellI K γ} {Q Q' : γ → Prop} {n n' : NGrid K γ} (hwf : WF n.grid)
    (hcs : 0 < n.grid.cellSize) {tx ty : K} {r : K × K} (h : move I n tx ty = .ok (r, n'))
    (hs : ∀ c, Q c → Q' (shiftCell I ![n.ox - n'.ox, n.oy - n'.oy, 0] c))
    (hkeep : n' = n → ∀ c, Q c → Q' c) (hq : ∀ c ∈ getValidCells n.grid, Q c) :
    WF n'.grid ∧ n'.grid.cellSize = n.grid.cellSize ∧ n'.th = n.th ∧
      n'.ox + r.1 = n.ox + tx ∧ n'.oy + r.2 = n.oy + ty ∧ (n' = updateMeans I n' ∨ n' = n) ∧
      ∀ c ∈ getValidCells n'.grid, Q' c := by
  by_cases hth : |n.th| ≤ 1 / 10000000
  · obtain ⟨r', n1, mx, my, moved, h1, hr, -, -, e1, e2, e3, -, -, w1, hbox, hno, hyes⟩ :=
      move_spec I hwf hcs hth tx ty
    rw [h] at h1
    have := Res.ok.inj h1
    cases this
    refine ⟨w1, hbox.cs, e3, by rw [e1, hr]; ring, by rw [e2, hr]; ring, ?_⟩
    by_cases hm : moved
    · obtain ⟨hmeans, hcont⟩ := hyes hm
      refine ⟨Or.inl hmeans, ?_⟩
      intro c hc
      obtain ⟨q, hq'⟩ := (mem_validCells w1 c).1 hc
      have hin : InExtent n.grid q := by
        rw [← hbox.inExtent]
        by_contra hh
        rw [content_of_not_in hh] at hq'
        cases hq'
      rw [hcont q hin] at hq'
      obtain ⟨c0, h0, rfl⟩ := Option.map_eq_some_iff.1 hq'
      have := hs c0 (hq c0 ((mem_validCells hwf c0).2 ⟨_, h0⟩))
      have ex : n.ox - n'.ox = -(mx * n.grid.cellSize) := by rw [e1]; ring
      have ey : n.oy - n'.oy = -(my * n.grid.cellSize) := by rw [e2]; ring
      rw [ex, ey] at this
      exact this
    · obtain ⟨-, -, e⟩ := hno hm
      subst e
      exact ⟨Or.inr rfl, fun c hc => hkeep rfl c (hq c hc)⟩
  · unfold move at h
    rw [if_pos (by exact not_le.1 hth)] at h
    cases h
    exact ⟨hwf, rfl, rfl, rfl, rfl, Or.inr rfl, fun c hc => hkeep rfl c (hq c hc)⟩

end Verif.World
