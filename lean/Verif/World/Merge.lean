import Verif.World.Lemmas

/-
Properties of merging maps, of the mapper and of the published clouds.
-/
namespace Verif.World

open Verif Verif.Voxel Verif.NDTGrid Verif.Geo Matrix

/-! ### Stored cells as a multiset -/

theorem filterMap_perm {α β : Type*} {f : α → Option β} {l l' : List α} (h1 : l.Nodup) (h2 : l'.Nodup)
    (h : ∀ a, (f a).isSome → (a ∈ l ↔ a ∈ l')) : (l.filterMap f).Perm (l'.filterMap f) := by
  have e : ∀ l : List α, l.filterMap f = (l.filter fun a => (f a).isSome).filterMap f := by
    intro l
    induction l with
    | nil => rfl
    | cons a l ih =>
      cases ha : f a with
      | none => rw [List.filterMap_cons_none ha, List.filter_cons_of_neg (by simp [ha]), ih]
      | some b => rw [List.filterMap_cons_some ha, List.filter_cons_of_pos (by simp [ha]),
          List.filterMap_cons_some ha, ih]
  rw [e l, e l']
  refine List.Perm.filterMap f ?_
  rw [List.perm_ext_iff_of_nodup (h1.filter _) (h2.filter _)]
  intro a
  simp only [List.mem_filter]
  constructor
  · rintro ⟨h3, h4⟩; exact ⟨(h a h4).1 h3, h4⟩
  · rintro ⟨h3, h4⟩; exact ⟨(h a h4).2 h3, h4⟩

theorem validCells_squares {γ : Type*} {g : Grid ℝ γ} (hwf : WF g) :
    getValidCells g = ((List.range g.cells.length).map (squareNo g)).filterMap (content g) := by
  unfold getValidCells
  rw [List.filterMap_map]
  have e : g.cells = (List.range g.cells.length).map (slot g.cells) := by
    apply List.ext_getElem (by simp)
    intro i h1 h2
    rw [List.getElem_map, List.getElem_range, slot_eq_getElem h1]
  conv_lhs => rw [e]
  rw [List.filterMap_map]
  apply List.filterMap_congr
  intro i hi
  unfold WF at hwf
  rw [List.mem_range] at hi
  simp only [Function.comp, id]
  rw [content_squareNo (by omega)]

/-- Grids with the same content store the same cells, each as often. -/
theorem validCells_perm {γ : Type*} {g g' : Grid ℝ γ} (hwf : WF g) (hwf' : WF g')
    (h : ∀ q, content g' q = content g q) : (getValidCells g').Perm (getValidCells g) := by
  rw [validCells_squares hwf, validCells_squares hwf', show content g' = content g from funext h]
  have nd : ∀ g : Grid ℝ γ, ((List.range g.cells.length).map (squareNo g)).Nodup := fun g =>
    List.nodup_range.map fun i j hij => by rw [← slotNo_squareNo g i, hij, slotNo_squareNo]
  have mem : ∀ g : Grid ℝ γ, WF g → ∀ q, (content g q).isSome →
      q ∈ (List.range g.cells.length).map (squareNo g) := by
    intro g hwf q hq
    have hin : InExtent g q := by
      by_contra hn
      rw [content_of_not_in hn] at hq
      simp at hq
    refine List.mem_map.2 ⟨slotNo g q, List.mem_range.2 ?_, squareNo_slotNo hin⟩
    rw [show g.cells.length = _ from hwf]
    exact slotNo_lt hin
  refine filterMap_perm (nd _) (nd _) fun q hq => ⟨fun _ => mem g hwf q hq, fun _ => mem g' hwf' q ?_⟩
  rw [h q]; exact hq

/-! ### C111: every Gaussian is usable -/

/-- C111. -/
theorem C111_usable {eig : NDT.Eig} (he : NDT.EigOk eig) {b : Bool} {n : Map} (h : Built eig b n) :
    ∀ c ∈ getValidCells n.grid, Usable c := fun c hc => (usable_iff c).2 ((h.inv he).ginv c hc)

/-! ### C110: the published means -/

/-- The means cloud lists the means of the Gaussians, each once. -/
def Listed (n : Map) : Prop := n.means.Perm ((gaussians n).map fun c => c.mean)

theorem listed_of_eq {eig : NDT.Eig} {n : Map} (h : n = updateMeans (cellI eig) n) : Listed n := by
  unfold Listed
  rw [show n.means = (gaussianCells (cellI eig) n.grid).map (cellI eig).mean from congrArg NGrid.means h]
  exact List.Perm.refl _

theorem Built.listed {eig : NDT.Eig} (he : NDT.EigOk eig) {b : Bool} {n : Map} (h : Built eig b n)
    (hb : b = true) : Listed n := by
  have frame : ∀ {n n' : Map} {l : List NDT.Cell} {rs : Bool}, MapInv n →
      mergeCells (cellI eig) n l rs = .ok n' → Listed n' := fun hn h =>
    listed_of_eq (mergeCells_frame hn.wf hn.cs h).2.2.2.1
  have frameT : ∀ {n n' : Map} {l : List NDT.Cell} {rs : Bool} {sx sy : ℝ}, MapInv n →
      mergeTraced (cellI eig) n sx sy l rs = .ok n' → Listed n' := by
    intro n n' l rs sx sy hn h
    obtain ⟨g, h1, -, -, h⟩ := mergeTraced_split (cell_lawful eig) hn.wf h
    exact frame (traceAll_inv hn h1) h
  induction h with
  | init ox oy th hcs => exact List.Perm.refl _
  | setOrigin p _ ih => exact ih hb
  | setTimestamp t _ ih => exact ih hb
  | clear _ _ => cases hb
  | @enlarge b n g x0 y0 x1 y1 hn h ih =>
    have hi := hn.inv he
    obtain ⟨g1, h1, gr, -⟩ := enlarge_spec hi.wf hi.cs x0 y0 x1 y1
    rw [h1] at h
    cases h
    refine (ih hb).trans (List.Perm.map _ (List.Perm.filter _ ?_))
    exact (validCells_perm hi.wf gr.wf gr.content).symm
  | mergeGrid tr rs hn _ h _ _ => exact frame (hn.inv he) h
  | mergeGridTraced tr rs hn _ h _ _ => exact frameT (hn.inv he) h
  | mergeCloud ps p rs hn h _ =>
    unfold World.mergeCloud at h
    simp only at h
    obtain ⟨g, h1, h⟩ := Res.bind_eq_ok.1 h
    exact frame (hn.inv he) h
  | mergeCloudTraced ps p rs hn h _ =>
    unfold World.mergeCloudTraced at h
    simp only at h
    obtain ⟨g, h1, h⟩ := Res.bind_eq_ok.1 h
    exact frameT (hn.inv he) h
  | «initialize» ps hn h _ =>
    unfold initializeMap World.mergeCloudTraced at h
    simp only at h
    obtain ⟨g, h1, h⟩ := Res.bind_eq_ok.1 h
    exact frameT (clearGrid_inv (hn.inv he)) h
  | initializeSimple ps hn h _ =>
    unfold World.initializeSimple World.mergeCloud at h
    simp only at h
    obtain ⟨g, h1, h⟩ := Res.bind_eq_ok.1 h
    exact frame (clearGrid_inv (hn.inv he)) h
  | transform t _ h _ =>
    obtain ⟨g, -, rfl⟩ := transform_split h
    exact List.Perm.refl _
  | move tx ty hn h ih =>
    have hi := hn.inv he
    obtain ⟨-, -, -, -, -, hu, -⟩ := move_all (I := cellI eig) (Q := fun _ => True) (Q' := fun _ => True)
      hi.wf hi.cs h (fun _ _ => trivial) (fun _ _ _ => trivial) (fun _ _ => trivial)
    rcases hu with hu | rfl
    · exact listed_of_eq hu
    · exact ih hb
  | coarser cs hn h _ =>
    unfold NDTGrid.coarser at h
    simp only at h
    refine frame (init_inv eig 0 0 0 ?_) h
    have := (hn.inv he).cs
    split_ifs with hc
    · exact this
    · linarith

theorem toWorld_zero (v : ℝ × ℝ) : toWorld ⟨0, 0, 0⟩ v = v := by
  unfold toWorld; ext <;> simp

/-- The point of the world at which a Gaussian is published. -/
noncomputable def worldPoint (n : Map) (c : NDT.Cell) : NDT.Vec := ![(worldPos n c).1, (worldPos n c).2, c.mean 2]

theorem published {n : Map} (h : Listed n) :
    (meansTransformed n).Perm ((gaussians n).map (worldPoint n)) := by
  unfold meansTransformed transformCloud
  simp only
  refine (h.map _).trans ?_
  rw [List.map_map]
  refine List.Perm.of_eq (List.map_congr_left fun c _ => ?_)
  simp only [Function.comp]
  rw [linear4_convert, translation4_convert]
  obtain ⟨a1, a2⟩ := convert_act (C78_frames (origin n) ⟨0, 0, 0⟩ ⟨0, 0, 0⟩).2.1 c.mean
  have a3 := (C78_frames (origin n) ⟨0, 0, 0⟩ ⟨0, 0, 0⟩).1 (head c.mean)
  rw [toWorld_zero, ← a1] at a3
  funext i
  unfold worldPoint worldPos
  rw [show (c.mean 0, c.mean 1) = head c.mean from rfl, ← a3]
  fin_cases i
  · rfl
  · rfl
  · exact a2

/-- C110 for a map: the published means are the positions of its Gaussians in the world, each once. -/
theorem C110_published_means {eig : NDT.Eig} (he : NDT.EigOk eig) {n : Map} (h : Built eig true n) :
    (meansTransformed n).Perm
      ((gaussians n).map fun c => ![(worldPos n c).1, (worldPos n c).2, c.mean 2]) :=
  published (h.listed he rfl)

/-! ### C104: merging maps -/

/-- C104, plain merge: the Gaussians of the result are the old ones and Gaussians of the merged map at their
place in the world. -/
theorem C104_merge {eig : NDT.Eig} (he : NDT.EigOk eig) {b b' : Bool} {n g n' : Map} (hn : Built eig b n)
    (hg : Built eig b' g) {resize : Bool} (hres : resize = true ∨ n.initialized = false)
    (h : mergeGrid eig n g true resize = .ok n') :
    origin n' = origin n ∧ ∀ c' ∈ gaussians n', c' ∈ gaussians n ∨ ∃ c ∈ gaussians g, SameInWorld g c n' c' := by
  have hi := hn.inv he
  have gi := hg.inv he
  unfold mergeGrid at h
  simp only [if_true] at h
  obtain ⟨h1, h2, h3, -, h5⟩ := mergeCells_frame hi.wf hi.cs h
  have ho := origin_eq h1 h2 h3
  refine ⟨ho, fun c' hc' => ?_⟩
  obtain ⟨hv, hgc⟩ := mem_gaussians.1 hc'
  rcases h5 hres c' hv with h | ⟨h, -⟩
  · exact Or.inl (mem_gaussians.2 ⟨h, hgc⟩)
  · right
    obtain ⟨c, hc, rfl⟩ := List.mem_map.1 h
    have e := (transformCell_spec he (transBtwFrames (origin g) (origin n)) (gi.ginv c hc)).2.1
    rw [e] at hgc
    refine ⟨c, mem_gaussians.2 ⟨hc, hgc⟩, ?_⟩
    exact (transformCell_world he (gi.ginv c hc) hgc).trans (SameInWorld.of_eq ho rfl rfl rfl)

theorem mergeTraced_sound {eig : NDT.Eig} (he : NDT.EigOk eig) {n g n' : Map} (hi : MapInv n)
    (gi : MapInv g) {resize : Bool} (hres : resize = true ∨ n.initialized = false)
    (h : mergeGridTraced eig n g true resize = .ok n') :
    origin n' = origin n ∧ ∀ c' ∈ gaussians n', (∃ c ∈ gaussians n, SameInWorld n c n' c') ∨
      ∃ c ∈ gaussians g, SameInWorld g c n' c' := by
  unfold mergeGridTraced at h
  simp only [if_true] at h
  obtain ⟨g1, ht, w1, c1, h⟩ := mergeTraced_split (cell_lawful eig) hi.wf h
  obtain ⟨h1, h2, h3, -, h5⟩ := mergeCells_frame (n := { n with grid := g1 }) w1
    (by show 0 < g1.cellSize; rw [c1]; exact hi.cs) h
  have ho : origin n' = origin n := origin_eq h1 h2 h3
  refine ⟨ho, fun c' hc' => ?_⟩
  obtain ⟨hv, hgc⟩ := mem_gaussians.1 hc'
  rcases h5 hres c' hv with h | ⟨h, -⟩
  · left
    obtain ⟨c, hc, a1, a2, a3, a4⟩ := traceAll_same ht c' h hgc
    exact ⟨c, mem_gaussians.2 ⟨hc, a1⟩, SameInWorld.of_eq ho a2 a3 a4⟩
  · right
    obtain ⟨c, hc, rfl⟩ := List.mem_map.1 h
    have e := (transformCell_spec he (transBtwFrames (origin g) (origin n)) (gi.ginv c hc)).2.1
    rw [e] at hgc
    refine ⟨c, mem_gaussians.2 ⟨hc, hgc⟩, ?_⟩
    exact (transformCell_world he (gi.ginv c hc) hgc).trans (SameInWorld.of_eq ho rfl rfl rfl)

/-- C104, merge with ray tracing: tracing only removes Gaussians, it never moves or changes them. -/
theorem C104_merge_traced {eig : NDT.Eig} (he : NDT.EigOk eig) {b b' : Bool} {n g n' : Map}
    (hn : Built eig b n) (hg : Built eig b' g) {resize : Bool}
    (hres : resize = true ∨ n.initialized = false) (h : mergeGridTraced eig n g true resize = .ok n') :
    origin n' = origin n ∧ ∀ c' ∈ gaussians n', (∃ c ∈ gaussians n, SameInWorld n c n' c') ∨
      ∃ c ∈ gaussians g, SameInWorld g c n' c' :=
  mergeTraced_sound he (hn.inv he) (hg.inv he) hres h

/-- Where a Gaussian of `g` lies in the frame of `n`. -/
theorem transformCell_place {eig : NDT.Eig} (he : NDT.EigOk eig) {g n : Map} {c : NDT.Cell}
    (hu : NDT.GInv c) (hg : c.gaussian = true) :
    toWorld (origin n) (head (transformCell eig (transBtwFrames (origin g) (origin n)) c).mean) = worldPos g c :=
  (transformCell_world (n := n) he hu hg).pos

theorem toWorld_inj {o : Pose} {p q : ℝ × ℝ} (h : toWorld o p = toWorld o q) : p = q := by
  unfold toWorld at h
  have h1 := congrArg Prod.fst h
  have h2 := congrArg Prod.snd h
  simp only at h1 h2
  have hs := Real.sin_sq_add_cos_sq o.th
  ext
  · linear_combination Real.cos o.th * h1 + Real.sin o.th * h2 - (p.1 - q.1) * hs
  · linear_combination -Real.sin o.th * h1 + Real.cos o.th * h2 - (p.2 - q.2) * hs

theorem merge_complete {eig : NDT.Eig} (he : NDT.EigOk eig) {n g n' : Map} (hi : MapInv n)
    (gi : MapInv g) {resize : Bool} (hres : resize = true ∨ n.initialized = false)
    (hoff : ∀ c ∈ gaussians g, ∀ p, toWorld (origin n) p = worldPos g c → OffLines n.grid.cellSize p)
    (h : mergeCells (cellI eig) n
      (transformCells eig (transBtwFrames (origin g) (origin n)) (getValidCells g.grid)) resize = .ok n') :
    ∀ q, ((∃ c ∈ gaussians g, ∃ p, toWorld (origin n) p = worldPos g c ∧
            squareOf n.grid.cellSize p = q) →
          ∃ d' d, content n'.grid q = some d' ∧ d'.gaussian = true ∧ d ∈ gaussians g ∧ SameInWorld g d n' d' ∧
            ∃ p, toWorld (origin n) p = worldPos g d ∧ squareOf n.grid.cellSize p = q) ∧
        ((∀ c ∈ gaussians g, ∀ p, toWorld (origin n) p = worldPos g c → squareOf n.grid.cellSize p ≠ q) →
          content n'.grid q = content n.grid q) := by
  have place : ∀ x ∈ transformCells eig (transBtwFrames (origin g) (origin n)) (getValidCells g.grid),
      x.gaussian = true → ∃ c ∈ gaussians g, x = transformCell eig (transBtwFrames (origin g) (origin n)) c ∧
        toWorld (origin n) (head x.mean) = worldPos g c := by
    intro x hx hgx
    obtain ⟨c, hc, rfl⟩ := List.mem_map.1 hx
    rw [(transformCell_spec he (transBtwFrames (origin g) (origin n)) (gi.ginv c hc)).2.1] at hgx
    exact ⟨c, mem_gaussians.2 ⟨hc, hgx⟩, rfl, transformCell_place he (gi.ginv c hc) hgx⟩
  obtain ⟨g', h', -, -, -, -, -, -, hcont, -⟩ := mergeCells_resize (cellI eig) hi.wf hi.cs
    (transformCells eig (transBtwFrames (origin g) (origin n)) (getValidCells g.grid)) resize hres
    (fun x hx hgx => by
      obtain ⟨c, hc, -, hp⟩ := place x hx hgx
      exact (hoff c hc _ hp).notOpen)
  rw [h] at h'
  have := Res.ok.inj h'
  subst this
  intro q
  constructor
  · rintro ⟨c, hc, p, hp, hq⟩
    obtain ⟨hc1, hc2⟩ := mem_gaussians.1 hc
    have hne : inSquare (cellI eig) n.grid.cellSize
        (transformCells eig (transBtwFrames (origin g) (origin n)) (getValidCells g.grid)) q ≠ [] := by
      apply List.ne_nil_of_mem (a := transformCell eig (transBtwFrames (origin g) (origin n)) c)
      rw [mem_inSquare]
      refine ⟨List.mem_map_of_mem hc1, ?_, ?_⟩
      · exact ((transformCell_spec he _ (gi.ginv c hc1)).2.1).trans hc2
      · show squareOf _ (head _) = q
        rw [← hq]
        congr 1
        exact toWorld_inj ((transformCell_place he (gi.ginv c hc1) hc2).trans hp.symm)
    have hl := List.getLast?_eq_some_getLast hne
    have hm := List.getLast_mem hne
    generalize (inSquare (cellI eig) n.grid.cellSize
      (transformCells eig (transBtwFrames (origin g) (origin n)) (getValidCells g.grid)) q).getLast hne = x at hl hm
    rw [mem_inSquare] at hm
    obtain ⟨hx1, hx2, hx3⟩ := hm
    obtain ⟨d, hd, rfl, hpl⟩ := place x hx1 hx2
    refine ⟨_, d, ?_, hx2, hd, ?_, _, hpl, hx3⟩
    · show content g' q = _
      rw [hcont q, hl]; rfl
    · obtain ⟨hd1, hd2⟩ := mem_gaussians.1 hd
      exact (transformCell_world he (gi.ginv d hd1) hd2).trans (SameInWorld.of_eq rfl rfl rfl rfl)
  · intro hno
    show content g' q = _
    rw [hcont q]
    have : inSquare (cellI eig) n.grid.cellSize
        (transformCells eig (transBtwFrames (origin g) (origin n)) (getValidCells g.grid)) q = [] := by
      rw [List.eq_nil_iff_forall_not_mem]
      intro x hx
      rw [mem_inSquare] at hx
      obtain ⟨c, hc, -, hp⟩ := place x hx.1 hx.2.1
      exact hno c hc _ hp hx.2.2
    rw [this]; rfl

/-- C104, completeness of the plain merge: if no merged Gaussian lies exactly on a border of a square, every
square that receives one holds a Gaussian of the merged map afterwards, at its place in the world, and all
other squares are unchanged. -/
theorem C104_complete {eig : NDT.Eig} (he : NDT.EigOk eig) {b b' : Bool} {n g n' : Map} (hn : Built eig b n)
    (hg : Built eig b' g) {resize : Bool} (hres : resize = true ∨ n.initialized = false)
    (hoff : ∀ c ∈ gaussians g, ∀ p, toWorld (origin n) p = worldPos g c → OffLines n.grid.cellSize p)
    (h : mergeGrid eig n g true resize = .ok n') :
    ∀ q, ((∃ c ∈ gaussians g, ∃ p, toWorld (origin n) p = worldPos g c ∧
            squareOf n.grid.cellSize p = q) →
          ∃ d' d, content n'.grid q = some d' ∧ d'.gaussian = true ∧ d ∈ gaussians g ∧ SameInWorld g d n' d' ∧
            ∃ p, toWorld (origin n) p = worldPos g d ∧ squareOf n.grid.cellSize p = q) ∧
        ((∀ c ∈ gaussians g, ∀ p, toWorld (origin n) p = worldPos g c → squareOf n.grid.cellSize p ≠ q) →
          content n'.grid q = content n.grid q) := by
  unfold mergeGrid at h
  simp only [if_true] at h
  exact merge_complete he (hn.inv he) (hg.inv he) hres hoff h

theorem merge_traced_complete {eig : NDT.Eig} (he : NDT.EigOk eig) {n g n' : Map}
    (hi : MapInv n) (gi : MapInv g) {resize : Bool}
    (hres : resize = true ∨ n.initialized = false)
    (hoff : ∀ c ∈ gaussians g, ∀ p, toWorld (origin n) p = worldPos g c → OffLines n.grid.cellSize p)
    (h : mergeGridTraced eig n g true resize = .ok n') :
    ∀ q, ((∃ c ∈ gaussians g, ∃ p, toWorld (origin n) p = worldPos g c ∧
            squareOf n.grid.cellSize p = q) →
          ∃ d' d, content n'.grid q = some d' ∧ d'.gaussian = true ∧ d ∈ gaussians g ∧ SameInWorld g d n' d' ∧
            ∃ p, toWorld (origin n) p = worldPos g d ∧ squareOf n.grid.cellSize p = q) ∧
        ((∀ c ∈ gaussians g, ∀ p, toWorld (origin n) p = worldPos g c → squareOf n.grid.cellSize p ≠ q) →
          ((content n.grid q).isSome → (content n'.grid q).isSome) ∧
          ∀ d', content n'.grid q = some d' → d'.gaussian = true →
            ∃ d, content n.grid q = some d ∧ d.gaussian = true ∧ SameInWorld n d n' d') := by
  unfold mergeGridTraced at h
  simp only [if_true] at h
  obtain ⟨g1, ht, w1, c1, h⟩ := mergeTraced_split (cell_lawful eig) hi.wf h
  have hm := merge_complete (n := { n with grid := g1 }) he (traceAll_inv hi ht) gi hres
    (fun c hc p hp => by rw [show _ = n.grid.cellSize from c1]; exact hoff c hc p hp) h
  intro q
  obtain ⟨m1, m2⟩ := hm q
  rw [show NGrid.grid { n with grid := g1 } = g1 from rfl, c1] at m1 m2
  obtain ⟨hb, -, -⟩ := traceAll_traced (cell_lawful eig) ht
  have htr := traceAll_tracedBy (I := cellI eig)
    (R := fun c c' : NDT.Cell => c'.mean = c.mean ∧ c'.cov = c.cov ∧ c'.points = c.points) rfl
    (fun _ => ⟨rfl, rfl, rfl⟩) (fun a b c h h' => ⟨h'.1.trans h.1, h'.2.1.trans h.2.1, h'.2.2.trans h.2.2⟩)
    (fun c s e k c' hr hg => ray_same hr hg) ht
  obtain ⟨k1, k2⟩ := htr.content hb q
  have hor : origin n' = origin n := by
    obtain ⟨a1, a2, a3, -⟩ := mergeCells_frame (n := { n with grid := g1 }) w1 (by rw [c1]; exact hi.cs) h
    exact origin_eq a1 a2 a3
  refine ⟨m1, fun hno => ⟨fun hs => by rw [m2 hno]; exact k1 hs, fun d' hd' hgd => ?_⟩⟩
  rw [m2 hno] at hd'
  obtain ⟨d, hd, h1, h2, h3, h4⟩ := k2 d' hd' hgd
  exact ⟨d, hd, h1, SameInWorld.of_eq hor h2 h3 h4⟩

/-- C104, completeness of the merge with ray tracing: likewise, except that in the other squares the rays may
have lowered the occupancy. -/
theorem C104_complete_traced {eig : NDT.Eig} (he : NDT.EigOk eig) {b b' : Bool} {n g n' : Map}
    (hn : Built eig b n) (hg : Built eig b' g) {resize : Bool}
    (hres : resize = true ∨ n.initialized = false)
    (hoff : ∀ c ∈ gaussians g, ∀ p, toWorld (origin n) p = worldPos g c → OffLines n.grid.cellSize p)
    (h : mergeGridTraced eig n g true resize = .ok n') :
    ∀ q, ((∃ c ∈ gaussians g, ∃ p, toWorld (origin n) p = worldPos g c ∧
            squareOf n.grid.cellSize p = q) →
          ∃ d' d, content n'.grid q = some d' ∧ d'.gaussian = true ∧ d ∈ gaussians g ∧ SameInWorld g d n' d' ∧
            ∃ p, toWorld (origin n) p = worldPos g d ∧ squareOf n.grid.cellSize p = q) ∧
        ((∀ c ∈ gaussians g, ∀ p, toWorld (origin n) p = worldPos g c → squareOf n.grid.cellSize p ≠ q) →
          ((content n.grid q).isSome → (content n'.grid q).isSome) ∧
          ∀ d', content n'.grid q = some d' → d'.gaussian = true →
            ∃ d, content n.grid q = some d ∧ d.gaussian = true ∧ SameInWorld n d n' d') :=
  merge_traced_complete he (hn.inv he) (hg.inv he) hres hoff h

/-! ### C109, C110: the mapper -/

/-- Invariant of the mapper. -/
structure MapperInv (m : Mapper) : Prop where
  map : MapInv m.map
  frames : ∀ f ∈ m.frames, MapInv f
  cloud : m.cloud.Perm ((gaussians m.map).map (worldPoint m.map))

theorem addToMap_inv {eig : NDT.Eig} (he : NDT.EigOk eig) {n f n' : Map} (hn : MapInv n) (hf : MapInv f)
    (h : addToMap eig n f = .ok n') : MapInv n' ∧ Listed n' := by
  refine ⟨mergeGridTraced_inv he hn hf h, ?_⟩
  unfold addToMap mergeGridTraced at h
  obtain ⟨g, h1, -, -, h⟩ := mergeTraced_split (cell_lawful eig) hn.wf h
  have := traceAll_inv hn h1
  exact listed_of_eq (mergeCells_frame this.wf this.cs h).2.2.2.1

theorem addToMap_frame {eig : NDT.Eig} (he : NDT.EigOk eig) {m f m' : Map} (hm : MapInv m) (hf : MapInv f)
    (h : addToMap eig m f = .ok m') :
    MapInv m' ∧ origin m' = origin m ∧ m'.grid.cellSize = m.grid.cellSize := by
  have hi := (addToMap_inv he hm hf h).1
  unfold addToMap mergeGridTraced at h
  obtain ⟨g, h1, -, -, h⟩ := mergeTraced_split (cell_lawful eig) hm.wf h
  have hi1 := traceAll_inv hm h1
  obtain ⟨hb, -, -⟩ := traceAll_traced (cell_lawful eig) h1
  obtain ⟨a1, a2, a3, -⟩ := mergeCells_frame hi1.wf hi1.cs h
  have a4 := (mergeCells_all (I := cellI eig) (Q := fun _ => True) (n := { m with grid := g })
    (fun _ _ _ _ => trivial) hi1.wf hi1.cs h (fun _ _ _ => trivial) (fun _ _ => trivial)).2.1
  exact ⟨hi, origin_eq a1 a2 a3, a4.trans hb.cs⟩

theorem addAll_inv {eig : NDT.Eig} (he : NDT.EigOk eig) : ∀ {fs : List Map} {n n' : Map}, MapInv n →
    (∀ f ∈ fs, MapInv f) → addAll eig n fs = .ok n' →
    MapInv n' ∧ (fs ≠ [] → Listed n') ∧ origin n' = origin n ∧
    ∀ c' ∈ gaussians n', (∃ c ∈ gaussians n, SameInWorld n c n' c') ∨
      ∃ f ∈ fs, ∃ c ∈ gaussians f, SameInWorld f c n' c' := by
  intro fs
  induction fs with
  | nil =>
    intro n n' hn _ h
    cases h
    exact ⟨hn, fun h => absurd rfl h, rfl, fun c hc => Or.inl ⟨c, hc, SameInWorld.refl _ _⟩⟩
  | cons f fs ih =>
    intro n n' hn hf h
    unfold addAll at h
    obtain ⟨n1, h1, h⟩ := Res.bind_eq_ok.1 h
    obtain ⟨i1, l1⟩ := addToMap_inv he hn (hf f List.mem_cons_self) h1
    obtain ⟨o1, s1⟩ := mergeTraced_sound he hn (hf f List.mem_cons_self) (Or.inl rfl) h1
    obtain ⟨i2, l2, o2, s2⟩ := ih i1 (fun x hx => hf x (List.mem_cons_of_mem _ hx)) h
    refine ⟨i2, fun _ => ?_, o2.trans o1, fun c' hc' => ?_⟩
    · by_cases hfs : fs = []
      · subst hfs; cases h; exact l1
      · exact l2 hfs
    · rcases s2 c' hc' with ⟨c, hc, sc⟩ | ⟨f', hf', c, hc, sc⟩
      · rcases s1 c hc with ⟨d, hd, sd⟩ | ⟨d, hd, sd⟩
        · exact Or.inl ⟨d, hd, sd.trans sc⟩
        · exact Or.inr ⟨f, List.mem_cons_self, d, hd, sd.trans sc⟩
      · exact Or.inr ⟨f', List.mem_cons_of_mem _ hf', c, hc, sc⟩

theorem recalc_spec {eig : NDT.Eig} (he : NDT.EigOk eig) {sort : List Map → List Map}
    (hsort : ∀ l, (sort l).Perm l) {m m' : Mapper} (hm : MapperInv m) (h : m.recalc eig sort = .ok m') :
    MapperInv m' ∧ m'.frames.Perm m.frames ∧ origin m'.map = origin m.map ∧
    ∀ c' ∈ gaussians m'.map, ∃ f ∈ m'.frames, ∃ c ∈ gaussians f, SameInWorld f c m'.map c' := by
  unfold Mapper.recalc at h
  simp only at h
  obtain ⟨n, h1, h⟩ := Res.bind_eq_ok.1 h
  split_ifs at h with hne
  cases h
  have hc : MapInv (NDTGrid.clear m.map) := by
    have := clearGrid_inv hm.map
    exact ⟨this.wf, this.cs, this.ginv⟩
  have hf : ∀ f ∈ sort m.frames, MapInv f := fun f hf => hm.frames f ((hsort _).mem_iff.1 hf)
  have hnone : gaussians (NDTGrid.clear m.map) = [] := by
    unfold gaussians
    rw [show getValidCells (NDTGrid.clear m.map).grid = [] from (clear_stored hm.map.wf).2.2]
    rfl
  obtain ⟨i, l, o, s⟩ := addAll_inv he hc hf h1
  refine ⟨⟨i, hf, published (l hne)⟩, hsort _, o, ?_⟩
  intro c' hc'
  rcases s c' hc' with ⟨c, hc, -⟩ | h
  · rw [hnone] at hc; cases hc
  · exact h

theorem exec_inv {eig : NDT.Eig} (he : NDT.EigOk eig) {sort : List Map → List Map}
    (hsort : ∀ l, (sort l).Perm l) {m m' : Mapper} (hm : MapperInv m) {o : MapOp} (ho : o.Admissible eig)
    (h : o.exec eig sort m = .ok m') : MapperInv m' := by
  cases o with
  | add f t =>
    obtain ⟨b, hb⟩ := ho
    unfold MapOp.exec Mapper.addFrame at h
    simp only at h
    obtain ⟨n, h1, h⟩ := Res.bind_eq_ok.1 h
    cases h
    have hf := hb.inv he
    obtain ⟨i, l⟩ := addToMap_inv he hm.map hf h1
    refine ⟨i, ?_, published l⟩
    intro x hx
    rcases List.mem_append.1 hx with hx | hx
    · exact hm.frames x hx
    · rw [List.mem_singleton] at hx
      subst hx
      exact ⟨hf.wf, hf.cs, hf.ginv⟩
  | setOrigin i p =>
    cases h
    refine ⟨hm.map, ?_, hm.cloud⟩
    intro x hx
    unfold Mapper.setFrameOrigin at hx
    obtain ⟨j, hj, rfl⟩ := List.mem_iff_getElem.1 hx
    rw [List.getElem_modify]
    have hj' : j < m.frames.length := by simpa using hj
    have := hm.frames _ (List.getElem_mem hj')
    split_ifs
    · exact setOrigin_inv this p
    · exact this
  | recalc => exact (recalc_spec he hsort hm h).1

theorem execAll_inv {eig : NDT.Eig} (he : NDT.EigOk eig) {sort : List Map → List Map}
    (hsort : ∀ l, (sort l).Perm l) : ∀ {ops : List MapOp} {m m' : Mapper}, MapperInv m →
    (∀ o ∈ ops, o.Admissible eig) → MapOp.execAll eig sort m ops = .ok m' → MapperInv m' := by
  intro ops
  induction ops with
  | nil => intro m m' hm _ h; cases h; exact hm
  | cons o os ih =>
    intro m m' hm ho h
    unfold MapOp.execAll at h
    obtain ⟨m1, h1, h⟩ := Res.bind_eq_ok.1 h
    exact ih (exec_inv he hsort hm (ho o List.mem_cons_self) h1)
      (fun x hx => ho x (List.mem_cons_of_mem _ hx)) h

theorem mapperInit_inv (eig : NDT.Eig) : MapperInv (Mapper.init eig) :=
  ⟨init_inv eig 0 0 0 (by norm_num), fun _ h => absurd h List.not_mem_nil, List.Perm.refl _⟩

theorem execAll_append {eig : NDT.Eig} {sort : List Map → List Map} : ∀ {ops : List MapOp} {m m' : Mapper}
    {o : MapOp}, MapOp.execAll eig sort m (ops ++ [o]) = .ok m' →
    ∃ m1, MapOp.execAll eig sort m ops = .ok m1 ∧ o.exec eig sort m1 = .ok m' := by
  intro ops
  induction ops with
  | nil =>
    intro m m' o h
    simp only [List.nil_append, MapOp.execAll] at h
    obtain ⟨m1, h1, h⟩ := Res.bind_eq_ok.1 h
    cases h
    exact ⟨m, rfl, h1⟩
  | cons x os ih =>
    intro m m' o h
    simp only [List.cons_append, MapOp.execAll] at h
    obtain ⟨m1, h1, h⟩ := Res.bind_eq_ok.1 h
    obtain ⟨m2, h2, h3⟩ := ih h
    exact ⟨m2, by simp only [MapOp.execAll]; rw [h1, Res.bind_ok, h2], h3⟩

/-- What a map made of these frames, in this order, holds: where a frame has a Gaussian and no later frame has one,
the square is known, and the Gaussian in it, if rays have left one, is one of that frame; the last frame is there in
full. -/
theorem addAll_complete {eig : NDT.Eig} (he : NDT.EigOk eig) : ∀ {fs : List Map} {n n' : Map}, MapInv n →
    origin n = ⟨0, 0, 0⟩ → n.grid.cellSize = 1 / 4 → (∀ f ∈ fs, MapInv f) →
    (∀ f ∈ fs, ∀ c ∈ gaussians f, OffLines (1 / 4) (worldPos f c)) → addAll eig n fs = .ok n' →
    (∀ q, (∀ g ∈ fs, ∀ c ∈ gaussians g, squareOf (1 / 4) (worldPos g c) ≠ q) →
      ((content n.grid q).isSome → (content n'.grid q).isSome) ∧
      ∀ d', content n'.grid q = some d' → d'.gaussian = true →
        ∃ d, content n.grid q = some d ∧ d.gaussian = true ∧ SameInWorld n d n' d') ∧
    ∀ as f bs, fs = as ++ f :: bs → ∀ c ∈ gaussians f,
      (∀ g ∈ bs, ∀ c' ∈ gaussians g, squareOf (1 / 4) (worldPos g c') ≠ squareOf (1 / 4) (worldPos f c)) →
      ∃ d', content n'.grid (squareOf (1 / 4) (worldPos f c)) = some d' ∧ (bs = [] → d'.gaussian = true) ∧
        (d'.gaussian = true → ∃ c2 ∈ gaussians f,
          squareOf (1 / 4) (worldPos f c2) = squareOf (1 / 4) (worldPos f c) ∧ SameInWorld f c2 n' d') := by
  intro fs
  induction fs with
  | nil =>
    intro n n' _ _ _ _ _ h
    cases h
    refine ⟨fun q _ => ⟨id, fun d hd hg => ⟨d, hd, hg, SameInWorld.refl _ _⟩⟩, fun as f bs h => ?_⟩
    simp at h
  | cons f0 fs ih =>
    intro n n' hi ho hcs hf hoff h
    unfold addAll at h
    obtain ⟨n1, h1, h⟩ := Res.bind_eq_ok.1 h
    have f0i := hf f0 List.mem_cons_self
    obtain ⟨i1, o1, c1⟩ := addToMap_frame he hi f0i h1
    have m1 := merge_traced_complete he hi f0i (.inl rfl) (fun c hc p hp => by
      rw [ho, toWorld_zero] at hp
      rw [hp, hcs]
      exact hoff f0 List.mem_cons_self c hc) h1
    simp only [ho, toWorld_zero, hcs] at m1
    obtain ⟨k1, k2⟩ := ih i1 (o1.trans ho) (c1.trans hcs) (fun f hf' => hf f (List.mem_cons_of_mem _ hf'))
      (fun f hf' => hoff f (List.mem_cons_of_mem _ hf')) h
    refine ⟨fun q hq => ?_, fun as f bs hfs c hc hno => ?_⟩
    · obtain ⟨a1, a2⟩ := k1 q fun g hg => hq g (List.mem_cons_of_mem _ hg)
      obtain ⟨b1, b2⟩ := (m1 q).2 fun c hc p hp => by rw [hp]; exact hq f0 List.mem_cons_self c hc
      refine ⟨fun hs => a1 (b1 hs), fun d' hd' hg => ?_⟩
      obtain ⟨d1, hd1, hg1, s1⟩ := a2 d' hd' hg
      obtain ⟨d, hd, hgd, s0⟩ := b2 d1 hd1 hg1
      exact ⟨d, hd, hgd, s0.trans s1⟩
    · cases as with
      | cons x as =>
        simp only [List.cons_append, List.cons.injEq] at hfs
        exact k2 as f bs hfs.2 c hc hno
      | nil =>
        simp only [List.nil_append, List.cons.injEq] at hfs
        obtain ⟨rfl, rfl⟩ := hfs
        obtain ⟨d', d, hd', hg', hd, sd, p, hp, hq⟩ := (m1 (squareOf (1 / 4) (worldPos f0 c))).1 ⟨c, hc, _, rfl, rfl⟩
        subst hp
        obtain ⟨a1, a2⟩ := k1 _ hno
        obtain ⟨x, hx⟩ := Option.isSome_iff_exists.1 (a1 (by rw [hd']; rfl))
        refine ⟨x, hx, fun hnil => ?_, fun hgx => ?_⟩
        · subst hnil
          cases h
          rw [hd'] at hx
          cases hx
          exact hg'
        · obtain ⟨y, hy, -, sy⟩ := a2 x hx hgx
          rw [hd'] at hy
          cases hy
          exact ⟨d, hd, hq, sd.trans sy⟩

/-- C109: after a recalculation, whatever happened before, every Gaussian of the map is a Gaussian of one of
the frames, at the place in the world where the current pose of the frame puts it. -/
theorem C109_recalculated {eig : NDT.Eig} (he : NDT.EigOk eig) {sort : List Map → List Map}
    (hsort : ∀ l, (sort l).Perm l) {ops : List MapOp} (ho : ∀ o ∈ ops, o.Admissible eig) {m : Mapper}
    (h : MapOp.execAll eig sort (Mapper.init eig) (ops ++ [.recalc]) = .ok m) :
    ∃ m0, MapOp.execAll eig sort (Mapper.init eig) ops = .ok m0 ∧ m.frames.Perm m0.frames ∧
    ∀ c' ∈ gaussians m.map, ∃ f ∈ m0.frames, ∃ c ∈ gaussians f, SameInWorld f c m.map c' := by
  obtain ⟨m0, h0, h1⟩ := execAll_append h
  have hi := execAll_inv he hsort (mapperInit_inv eig) ho h0
  obtain ⟨-, hp, -, hs⟩ := recalc_spec he hsort hi h1
  refine ⟨m0, h0, hp, fun c' hc' => ?_⟩
  obtain ⟨f, hf, r⟩ := hs c' hc'
  exact ⟨f, hp.mem_iff.1 hf, r⟩

/-- C109, the pose of a frame: after `setOrigin(p)` on the frame `i`, whatever happened before, that frame has
exactly the pose `p`, so the place in the world of each of its Gaussians is the one given by `p`; its cells are
the same as before, and all other frames and the map are untouched. -/
theorem C109_pose {eig : NDT.Eig} {sort : List Map → List Map} {ops : List MapOp} {i : ℕ} {p : Pose} {m : Mapper}
    (h : MapOp.execAll eig sort (Mapper.init eig) (ops ++ [.setOrigin i p]) = .ok m) :
    ∃ m0, MapOp.execAll eig sort (Mapper.init eig) ops = .ok m0 ∧ m.map = m0.map ∧ m.cloud = m0.cloud ∧
    m.frames.length = m0.frames.length ∧
    (∀ j, j ≠ i → m.frames[j]? = m0.frames[j]?) ∧
    ∀ f, m.frames[i]? = some f → origin f = p ∧
      (∀ c, worldPos f c = toWorld p (c.mean 0, c.mean 1)) ∧
      ∃ f0, m0.frames[i]? = some f0 ∧ f.grid = f0.grid ∧ gaussians f = gaussians f0 := by
  obtain ⟨m0, h0, h1⟩ := execAll_append h
  simp only [MapOp.exec] at h1
  obtain rfl := Res.ok.inj h1
  refine ⟨m0, h0, rfl, rfl, by simp [Mapper.setFrameOrigin], fun j hj => ?_, fun f hf => ?_⟩
  · simp only [Mapper.setFrameOrigin]
    rw [List.getElem?_modify]
    simp [Ne.symm hj]
  · simp only [Mapper.setFrameOrigin] at hf
    rw [List.getElem?_modify] at hf
    simp only [if_true] at hf
    obtain ⟨f0, h2, rfl⟩ := Option.map_eq_some_iff.1 hf
    exact ⟨rfl, fun c => rfl, f0, h2, rfl, rfl⟩

/-- C110 for the mapper: the published cloud of the map lists the positions of the Gaussians of the map in the
world, each once. -/
theorem C110_published_map {eig : NDT.Eig} (he : NDT.EigOk eig) {sort : List Map → List Map}
    (hsort : ∀ l, (sort l).Perm l) {ops : List MapOp} (ho : ∀ o ∈ ops, o.Admissible eig) {m : Mapper}
    (h : MapOp.execAll eig sort (Mapper.init eig) ops = .ok m) :
    m.cloud.Perm ((gaussians m.map).map fun c => ![(worldPos m.map c).1, (worldPos m.map c).2, c.mean 2]) :=
  (execAll_inv he hsort (mapperInit_inv eig) ho h).cloud

end Verif.World
