import Verif.Whole.DetectSpec

/-
The overlap test of the loop detector: `calcScanParams` and `isCloseMatch` (loop_detector.h:350-393), with the cache
`laser_range_` that `Verif.Loop` leaves out.

Simplifications: a `ScanInfo` (loop_detector.h:90-111) that is not ready is `none`; `size_t` does not wrap.
-/
namespace Verif.Whole

open Verif Verif.Geo Verif.World

/-- A ready `ScanInfo`, loop_detector.h:90-111. -/
structure ScanInfo where
  radius : ℝ
  centroid : ℝ × ℝ

/-- `laser_range_`. -/
abbrev Cache := List (Option ScanInfo)

/-- `calcScanParams`, loop_detector.h:350-370.  `frame` gives radius and centroid of the frame of a node, `none` for a
node that does not exist.  The cache is changed even if the function throws. -/
def calcScanParams (frame : ℕ → Option ScanInfo) (id : ℕ) (c : Cache) : Res ScanInfo × Cache :=
  let c := if c.length ≤ id then c ++ List.replicate (id - c.length + 2) none else c
  match c[id]? with
  | none => (.ub .outOfBounds, c)
  | some (some i) => (.ok i, c)
  | some none =>
    match frame id with
    | none => (.throw .outOfRange, c)
    | some i =>
      let c := c.set id (some i)
      match c[id]? with
      | some (some i) => (.ok i, c)
      | _ => (.ub .outOfBounds, c)

open Classical in
/-- `isCloseMatch`, loop_detector.h:372-393: `delta_c`, `separation`, `icov` and `dist` are computed there and not used. -/
noncomputable def isCloseMatch (frame : ℕ → Option ScanInfo) (minDist : ℝ) (edge : EdgeCov) (c : Cache) :
    Res Bool × Cache :=
  match calcScanParams frame edge.start c with
  | (.ok _, c) =>
    match calcScanParams frame edge.node c with
    | (.ok _, c) => (.ok (if edge.dist < minDist then false else true), c)
    | (.throw e, c) => (.throw e, c)
    | (.ub u, c) => (.ub u, c)
  | (.throw e, c) => (.throw e, c)
  | (.ub u, c) => (.ub u, c)

/-! ### Specification -/

/-- What a cache knows about a node. -/
def Cache.known (c : Cache) (id : ℕ) : Option ScanInfo := (c[id]?).join

/-- Radius and centroid of the frame of a node. -/
noncomputable def frameInfo (s : State) (id : ℕ) : Option ScanInfo :=
  (s.store[id]?).map fun m => ⟨getRadius m, getCentroid m⟩

/-- `Asked o eig c s`: the algorithm is in state `s` and its detector has the cache `c` after a series of updates,
changes of parameters and questions about nodes.  (The detector asks in the course of an update, after the new frame is stored; what it asks about
does not change until the end of the update.) -/
inductive Asked (o : Loop.Overread) (eig : NDT.Eig) : Cache → State → Prop
  | init : Asked o eig [] (init eig)
  | setDistance {c s} (d : ℝ) : Asked o eig c s → Asked o eig c (setDistance s d)
  | setRadius {c s} (r : ℝ) : Asked o eig c s → Asked o eig c (setRadius s r)
  | update {c s d out s'} : Asked o eig c s → updateOwn o eig d s = .ok (out, s') → Asked o eig c s'
  | ask {c s} (id : ℕ) : Asked o eig c s → Asked o eig (calcScanParams (frameInfo s) id c).2 s

/-- The areas of two scans, circles about their centroids, lie more than `gap` apart according to the chained motion. -/
noncomputable def Apart (gap : ℝ) (t : Trans) (a b : ScanInfo) : Prop :=
  a.radius + b.radius + gap < Real.sqrt ((t 0 0 * b.centroid.1 + t 0 1 * b.centroid.2 + t 0 2 - a.centroid.1) ^ 2 +
    (t 1 0 * b.centroid.1 + t 1 1 * b.centroid.2 + t 1 2 - a.centroid.2) ^ 2)

/-! ### Lemmas: cache -/

theorem known_grow (c : Cache) (k id : ℕ) : Cache.known (c ++ List.replicate k none) id = c.known id := by
  unfold Cache.known
  by_cases h : id < c.length
  · rw [List.getElem?_append_left h]
  · rw [List.getElem?_append_right (by omega), List.getElem?_eq_none (l := c) (by omega), List.getElem?_replicate]
    split <;> rfl

/-- `calcScanParams` is the look-up in a finite map that is completed on demand. -/
theorem calc_spec (frame : ℕ → Option ScanInfo) (id : ℕ) (c : Cache) :
    (calcScanParams frame id c).1 =
      (match c.known id with
      | some i => .ok i
      | none => match frame id with
        | some i => .ok i
        | none => .throw .outOfRange) ∧
    (calcScanParams frame id c).2.known id = (match c.known id with
      | some i => some i
      | none => frame id) ∧
    ∀ j, j ≠ id → (calcScanParams frame id c).2.known j = c.known j := by
  obtain ⟨c1, h1⟩ : ∃ c1, c1 = if c.length ≤ id then c ++ List.replicate (id - c.length + 2) none else c := ⟨_, rfl⟩
  have hk : ∀ j, c1.known j = c.known j := by
    intro j
    rw [h1]
    split
    · exact known_grow _ _ _
    · rfl
  have hl : id < c1.length := by
    rw [h1]
    split
    · simp; omega
    · omega
  have hg : c1[id]? = some (c1.known id) := by
    unfold Cache.known
    rw [List.getElem?_eq_getElem hl]
    rfl
  simp only [calcScanParams]
  rw [← h1, hg, hk]
  cases h : c.known id with
  | some i => exact ⟨rfl, by show c1.known id = _; rw [hk, h], fun j _ => hk j⟩
  | none =>
    cases hf : frame id with
    | none => exact ⟨rfl, by show c1.known id = _; rw [hk, h], fun j _ => hk j⟩
    | some i =>
      have hs : (c1.set id (some i))[id]? = some (some i) := by rw [List.getElem?_set_self hl]
      simp only []
      rw [hs]
      refine ⟨rfl, ?_, fun j hj => ?_⟩
      · show Cache.known (c1.set id (some i)) id = _
        unfold Cache.known
        rw [hs]
        rfl
      · show Cache.known (c1.set id (some i)) j = _
        rw [← hk]
        unfold Cache.known
        rw [List.getElem?_set_ne (Ne.symm hj)]

/-! ### Lemmas: frames -/

/-- The grids of the stored frames. -/
def gridsOf (s : State) : List (Voxel.Grid ℝ NDT.Cell) := s.store.map fun m => m.grid

theorem gridsOf_sync (e : Slam.State Algo.Frame) (l : List Map) :
    (sync e l).map (fun m => m.grid) = l.map fun m => m.grid := by
  refine List.ext_getElem (by simp [sync]) fun i h1 h2 => ?_
  simp only [sync, List.getElem_map, List.getElem_mapIdx]
  split <;> rfl

theorem gridsOf_recalc {eig : NDT.Eig} {time : ℝ} {sorted : List ℕ} {s s' : State}
    (h : recalc eig time sorted s = .ok s') : gridsOf s' = gridsOf s := by
  unfold recalc at h
  obtain ⟨g, -, h⟩ := Res.bind_eq_ok.1 h
  split at h
  · cases h
  · cases h; rfl

theorem gridsOf_afterSearch {eig : NDT.Eig} {inp : Input} {s s' : State} {r : Bool × Slam.State Algo.Frame}
    (h : afterSearch eig inp s r = .ok s') : gridsOf s' = gridsOf s := by
  unfold afterSearch at h
  simp only [] at h
  split at h
  · obtain ⟨q, -, h⟩ := Res.bind_eq_ok.1 h
    split at h
    · rw [gridsOf_recalc h]
      exact gridsOf_sync _ _
    · cases h
      exact gridsOf_sync _ _
  · cases h; rfl

theorem gridsOf_searchLoops {o : Loop.Overread} {eig : NDT.Eig} {d : Outer} {s s' : State}
    (h : searchLoops o eig d s = .ok s') : gridsOf s' = gridsOf s := by
  unfold searchLoops at h
  obtain ⟨p, -, h⟩ := Res.bind_eq_ok.1 h
  split at h
  · cases h
  · obtain ⟨r, -, h⟩ := Res.bind_eq_ok.1 h
    exact gridsOf_afterSearch h

theorem gridsOf_restart {eig : NDT.Eig} {inp : Input} {s s' : State} (h : restart eig inp s = .ok s') :
    gridsOf s' = gridsOf s := by
  unfold restart at h
  obtain ⟨a, -, h⟩ := Res.bind_eq_ok.1 h
  obtain ⟨t, -, h⟩ := Res.bind_eq_ok.1 h
  cases h; rfl

theorem gridsOf_addFrame {eig : NDT.Eig} {time : ℝ} {s s' : State} (h : addFrame eig time s = .ok s') :
    gridsOf s <+: gridsOf s' := by
  unfold addFrame at h
  obtain ⟨a, -, h⟩ := Res.bind_eq_ok.1 h
  cases h
  unfold gridsOf
  rw [List.map_append]
  exact List.prefix_append _ _

theorem gridsOf_updateGraph {close : State → Res State} (hc : ∀ s s', close s = .ok s' → gridsOf s' = gridsOf s)
    {eig : NDT.Eig} {increase covariance : Trans} {inp : Input} {s s' : State}
    (h : updateGraphWith close eig increase covariance inp s = .ok s') : gridsOf s <+: gridsOf s' := by
  unfold updateGraphWith at h
  simp only [] at h
  split at h
  · obtain ⟨s1, h1, h⟩ := Res.bind_eq_ok.1 h
    obtain ⟨a, -, h⟩ := Res.bind_eq_ok.1 h
    obtain ⟨s2, h2, h⟩ := Res.bind_eq_ok.1 h
    rw [gridsOf_restart h, hc _ _ h2]
    have := gridsOf_addFrame h1
    exact this
  · obtain ⟨t, -, h⟩ := Res.bind_eq_ok.1 h
    cases h
    exact List.prefix_refl _

/-- The frames stored before an update have the same cells after it. -/
theorem gridsOf_update {o : Loop.Overread} {eig : NDT.Eig} {d : Outer} {s s' : State} {out : Algo.Event × Pose}
    (h : updateOwn o eig d s = .ok (out, s')) : gridsOf s <+: gridsOf s' := by
  have hc : ∀ s s', searchLoops o eig d s = .ok s' → gridsOf s' = gridsOf s := fun _ _ h => gridsOf_searchLoops h
  unfold updateOwn at h
  generalize searchLoops o eig d = close at h hc
  unfold updateWith at h
  split at h
  · obtain ⟨s1, h1, h⟩ := Res.bind_eq_ok.1 h
    cases h
    unfold firstUpdate at h1
    obtain ⟨a, -, h1⟩ := Res.bind_eq_ok.1 h1
    obtain ⟨b, -, h1⟩ := Res.bind_eq_ok.1 h1
    obtain ⟨c, -, h1⟩ := Res.bind_eq_ok.1 h1
    cases h1
    exact List.prefix_refl _
  · simp only [] at h
    split at h
    · cases h; exact List.prefix_refl _
    · obtain ⟨scan, -, h⟩ := Res.bind_eq_ok.1 h
      split at h
      · obtain ⟨s1, h1, h⟩ := Res.bind_eq_ok.1 h
        obtain ⟨scan', -, h⟩ := Res.bind_eq_ok.1 h
        obtain ⟨w, -, h⟩ := Res.bind_eq_ok.1 h
        obtain ⟨r, -, h⟩ := Res.bind_eq_ok.1 h
        cases h
        have := gridsOf_updateGraph hc h1
        exact this
      · obtain ⟨s1, h1, h⟩ := Res.bind_eq_ok.1 h
        cases h
        have := gridsOf_updateGraph hc h1
        exact this

theorem frameInfo_mono {s s' : State} (h : gridsOf s <+: gridsOf s') {id : ℕ} {i : ScanInfo}
    (hi : frameInfo s id = some i) : frameInfo s' id = some i := by
  unfold frameInfo at hi ⊢
  obtain ⟨m, hm, rfl⟩ := Option.map_eq_some_iff.1 hi
  have h1 : (gridsOf s)[id]? = some m.grid := by unfold gridsOf; rw [List.getElem?_map, hm]; rfl
  have h2 : (gridsOf s')[id]? = some m.grid := by
    obtain ⟨l, hl⟩ := h
    have hlt : id < (gridsOf s).length := by
      by_contra hn
      rw [List.getElem?_eq_none (by omega)] at h1
      cases h1
    rw [← hl, List.getElem?_append_left hlt, h1]
  unfold gridsOf at h2
  rw [List.getElem?_map] at h2
  obtain ⟨m', hm', e⟩ := Option.map_eq_some_iff.1 h2
  rw [hm']
  show some (ScanInfo.mk (getRadius m') (getCentroid m')) = _
  unfold getRadius getCentroid
  rw [e]

end Verif.Whole
