import Verif.Whole.Lemmas
import Verif.World.Total

/-
The invariant of the algorithm with its maps.
-/
namespace Verif.Whole

open Verif Verif.Geo Verif.NDTGrid Verif.World

/-- The frames: their poses are those of the nodes, and they are made of the scans used. -/
structure Frames (eig : NDT.Eig) (log : List Entry) (s : State) (b : Slam.Book Algo.Frame) : Prop where
  len : s.store.length = b.poses.length
  orig : ∀ (i : ℕ) m x, s.store[i]? = some m → b.poses[i]? = some x → origin m = x.1
  storeB : ∀ f ∈ s.store, Built eig true f
  tempB : Built eig true s.temp
  tempO : origin s.temp = s.alg.temp.origin
  tempC : s.temp.grid.cellSize = s.alg.cellSize
  made : ∃ (parts : List (List (Trans × List NDT.Vec))) (last : List (Trans × List NDT.Vec)),
    parts.map (List.map Prod.fst) = b.poses.map (fun x => x.2.inserts.map Algo.Insert.place) ∧
    last.map Prod.fst = s.alg.temp.inserts.map Algo.Insert.place ∧
    (parts.flatten ++ last).map Prod.snd = (used log).map Entry.scan ∧
    (∀ x ∈ parts.flatten ++ last, IsRigid x.1) ∧ List.Forall₂ MadeOf s.store parts ∧ MadeOf s.temp last

/-- The map: it is made of the frames. -/
structure Mapped (eig : NDT.Eig) (s : State) : Prop where
  order : s.order.Perm (List.range s.store.length)
  globalB : Built eig true s.global
  globalO : origin s.global = ⟨0, 0, 0⟩
  globalC : s.global.grid.cellSize = 1 / 4
  cloud : s.cloud.Perm ((gaussians s.global).map (worldPoint s.global))
  src : ∀ c' ∈ gaussians s.global, ∃ f ∈ s.store, ∃ c ∈ gaussians f, SameInWorld f c s.global c'
  merged : ∃ n0, MapInv n0 ∧ origin n0 = ⟨0, 0, 0⟩ ∧ n0.grid.cellSize = 1 / 4 ∧
    World.addAll eig n0 (s.order.filterMap fun i => s.store[i]?) = .ok s.global

/-- The running window. -/
structure Window (eig : NDT.Eig) (log : List Entry) (s : State) : Prop where
  winO : origin s.window = s.alg.window
  winC : s.window.grid.cellSize = s.alg.cellSize
  winB : Built eig true s.window
  src : ∀ c ∈ gaussians s.window, WindowPoint log (worldPos s.window c)

/-- The complete invariant. -/
structure Inv (eig : NDT.Eig) (log : List Entry) (s : State) (b : Slam.Book Algo.Frame) : Prop where
  full : Algo.Full s.alg b
  cs : 0 < s.alg.cellSize
  frames : Frames eig log s b
  mapped : Mapped eig s
  window : Window eig log s
  start : s.alg.initialized = false →
    log = [] ∧ s.temp = emptyMap eig s.alg.cellSize ∧ s.window = emptyMap eig s.alg.cellSize ∧ s.store = []

theorem gaussians_init (eig : NDT.Eig) (cs : ℝ) (p : Pose) : gaussians (setOrigin (emptyMap eig cs) p) = [] := by
  unfold gaussians
  rw [show Voxel.getValidCells (setOrigin (emptyMap eig cs) p).grid = [NDT.init] from init_valid eig 0 0 0 cs]
  rfl

theorem objs {e : Slam.State Algo.Frame} {b : Slam.Book Algo.Frame} (inv : Slam.SInv e b)
    (ho : ∀ x ∈ b.poses, x.2.origin = x.1) (i : ℕ) :
    (e.graph.nodes[i]?).map (fun n => n.payload.obj.origin) = (b.poses[i]?).map Prod.fst := by
  have h := congrArg (fun l => (l[i]?).map fun n : Slam.NodeP Algo.Frame => n.obj.origin) inv.nodes
  simp only [List.getElem?_map, Option.map_map] at h
  rw [show (fun n : PoseGraph.Node (Slam.NodeP Algo.Frame) => n.payload.obj.origin) =
    (fun n : Slam.NodeP Algo.Frame => n.obj.origin) ∘ PoseGraph.Node.payload from rfl, h]
  cases hx : b.poses[i]? with
  | none => rfl
  | some x =>
    simp only [Option.map_some, Function.comp]
    rw [ho x (List.mem_of_getElem? hx)]

theorem addAll_built {eig : NDT.Eig} : ∀ {fs : List Map} {b : Bool} {n n' : Map}, Built eig b n →
    (∀ f ∈ fs, Built eig true f) → World.addAll eig n fs = .ok n' → Built eig (b || !fs.isEmpty) n' := by
  intro fs
  induction fs with
  | nil => intro b n n' hn _ h; cases h; simpa using hn
  | cons f fs ih =>
    intro b n n' hn hf h
    unfold World.addAll at h
    obtain ⟨n1, h1, h⟩ := Res.bind_eq_ok.1 h
    have b1 : Built eig true n1 := .mergeGridTraced true true hn (hf f List.mem_cons_self) h1
    have := ih b1 (fun x hx => hf x (List.mem_cons_of_mem _ hx)) h
    simpa using this

theorem addAll_append {eig : NDT.Eig} : ∀ {fs gs : List Map} {n n1 : Map}, World.addAll eig n fs = .ok n1 →
    World.addAll eig n (fs ++ gs) = World.addAll eig n1 gs := by
  intro fs
  induction fs with
  | nil => intro gs n n1 h; cases h; rfl
  | cons f fs ih =>
    intro gs n n1 h
    unfold World.addAll at h
    obtain ⟨n2, h2, h⟩ := Res.bind_eq_ok.1 h
    rw [List.cons_append, World.addAll, h2, Res.bind_ok]
    exact ih h

theorem sync_length (e : Slam.State Algo.Frame) (l : List Map) : (sync e l).length = l.length := by
  unfold sync; simp

theorem sync_get {e : Slam.State Algo.Frame} {b : Slam.Book Algo.Frame} (inv : Slam.SInv e b)
    (ho : ∀ x ∈ b.poses, x.2.origin = x.1) {l : List Map} (hl : l.length = b.poses.length) (i : ℕ) :
    (sync e l)[i]? = (l[i]?).bind fun f => (b.poses[i]?).map fun x => setOrigin f x.1 := by
  unfold sync
  rw [List.getElem?_mapIdx]
  have h := objs inv ho i
  cases hf : l[i]? with
  | none => rfl
  | some f =>
    have hi : i < b.poses.length := by rw [← hl]; exact (List.getElem?_eq_some_iff.1 hf).1
    rw [List.getElem?_eq_getElem hi] at h ⊢
    cases hn : e.graph.nodes[i]? with
    | none => rw [hn] at h; cases h
    | some n =>
      rw [hn] at h
      simp only [Option.map_some, Option.some.injEq] at h
      simp only [Option.map_some, Option.bind_some, h]

theorem place_eq {a : Algo.State} {b : Slam.Book Algo.Frame} (inv : Algo.AInv a b) {t : Trans}
    (h : getTransFromPose a.temp.origin * t = a.position) : t = a.transTemp := by
  rw [inv.pos] at h
  have := congrArg (fun x => (getTransFromPose a.temp.origin)⁻¹ * x) h
  simpa only [← Matrix.mul_assoc, trans_inv_mul, Matrix.one_mul] using this

theorem used_append {log : List Entry} {e : Entry} (h : e.event.scanUsed = true) :
    used (log ++ [e]) = used log ++ [e] := by
  unfold used
  rw [List.filter_append]
  simp [h]

theorem flatten_places {l : List (Pose × Algo.Frame)} {parts : List (List (Trans × List NDT.Vec))}
    (h : parts.map (List.map Prod.fst) = l.map (fun x => x.2.inserts.map Algo.Insert.place)) (inp : Algo.Input) :
    parts.map (List.map Prod.fst) = (Algo.optimised inp l).map (fun x => x.2.inserts.map Algo.Insert.place) := by
  rw [h]
  have := congrArg (List.map (List.map Algo.Insert.place)) (Algo.inserts_optimised inp l)
  simp only [List.map_map] at this
  exact this.symm

theorem sync_made (e : Slam.State Algo.Frame) {l : List Map} {parts : List (List (Trans × List NDT.Vec))}
    (h : List.Forall₂ MadeOf l parts) : List.Forall₂ MadeOf (sync e l) parts := by
  rw [List.forall₂_iff_get] at h ⊢
  refine ⟨by rw [sync_length]; exact h.1, fun i h1 h2 => ?_⟩
  have hm := h.2 i (by rwa [sync_length] at h1) h2
  simp only [List.get_eq_getElem] at hm ⊢
  unfold sync
  rw [List.getElem_mapIdx]
  cases e.graph.nodes[i]? <;> exact hm

/-- The frames after a scan was merged in. -/
theorem frames_grown {eig : NDT.Eig} (he : NDT.EigOk eig) {log : List Entry} {s s' : State}
    {b b' : Slam.Book Algo.Frame} {inp : Input} {inc : Trans} (f : Frames eig log s b)
    (cs : 0 < s.alg.cellSize) (hcell : s'.alg.cellSize = s.alg.cellSize) (inv' : Algo.AInv s'.alg b') (g : Algo.Grown inp.alg inc s.alg s'.alg b b')
    (m : Merged eig inp inc s s') {e : Entry} (hu : e.event.scanUsed = true) (hsc : e.scan = inp.scan) :
    Frames eig (log ++ [e]) s' b' := by
  obtain ⟨ins, g1, -, g3⟩ := g
  obtain ⟨parts, last, p1, p2, p3, p4, p5, p6⟩ := f.made
  have hpl := place_eq inv' g1
  cases m with
  | kept hfar ht hst _ _ _ _ =>
    rcases g3 with ⟨rfl, g4, g5, -⟩ | ⟨-, -, -, -, g6⟩
    · rw [g5] at hpl
      have hrig : IsRigid (s.alg.transTemp * inc) := by rw [← g5]; exact inv'.temp
      have tk := merged (f.tempB.inv he) hrig ht
      refine ⟨by rw [hst]; exact f.len, by rw [hst]; exact f.orig, by rw [hst]; exact f.storeB,
        .mergeCloudTraced _ _ _ f.tempB ht, by rw [tk.1, f.tempO, g4], by rw [tk.2.1, f.tempC, hcell],
        parts, last ++ [(s.alg.transTemp * inc, inp.scan)], p1, ?_, ?_, ?_, by rw [hst]; exact p5,
        merged_made (f.tempB.inv he) hrig ht p6⟩
      · rw [g4]
        simp only [List.map_append, p2, List.map_cons, List.map_nil, hpl]
      · rw [used_append hu, ← List.append_assoc, List.map_append, p3]
        simp [hsc]
      · intro x hx
        rw [← List.append_assoc] at hx
        rcases List.mem_append.1 hx with hx | hx
        · exact p4 x hx
        · rw [List.mem_singleton.1 hx]; exact hrig
    · exact absurd g6 hfar
  | @inserted gm hfar hg hcase ht =>
    rcases g3 with ⟨-, -, -, g6⟩ | ⟨rfl, g4, g5, ⟨g7, -⟩, -⟩
    · exact absurd hfar g6
    · have hb0 : Built eig true (setOrigin (emptyMap eig s.alg.cellSize) s'.alg.temp.origin) :=
        .setOrigin _ (.init 0 0 0 cs)
      have hone : mergeCloudTraced eig (setOrigin (emptyMap eig s.alg.cellSize) s'.alg.temp.origin)
          (transformCloud 1 inp.scan) (origin (setOrigin (emptyMap eig s.alg.cellSize) s'.alg.temp.origin)) true =
          .ok s'.temp := by
        rw [transformCloud_one]; exact ht
      have tk := merged (hb0.inv he) Algo.rigid_one hone
      have tm := merged_made (hb0.inv he) Algo.rigid_one hone (part := [])
        (fun c hc => by rw [gaussians_init] at hc; cases hc)
      have hnew : List.Forall₂ MadeOf (s.store ++ [{ s.temp with timestamp := inp.time }]) (parts ++ [last]) :=
        List.rel_append p5 (.cons p6 .nil)
      have hnl : (s.store ++ [{ s.temp with timestamp := inp.time }]).length =
          (Algo.inserted inp.alg s.alg b).poses.length := by
        unfold Algo.inserted
        rw [Algo.length_optimised]
        simp [f.len]
      have hbl : ∀ x ∈ s.store ++ [{ s.temp with timestamp := inp.time }], Built eig true x := by
        intro x hx
        rcases List.mem_append.1 hx with hx | hx
        · exact f.storeB x hx
        · rw [List.mem_singleton.1 hx]; exact .setTimestamp _ f.tempB
      have key : s'.store.length = (Algo.inserted inp.alg s.alg b).poses.length ∧
          (∀ (i : ℕ) m x, s'.store[i]? = some m → (Algo.inserted inp.alg s.alg b).poses[i]? = some x →
            origin m = x.1) ∧ (∀ f ∈ s'.store, Built eig true f) ∧ List.Forall₂ MadeOf s'.store (parts ++ [last]) := by
        rcases hcase with ⟨h0, hst, -⟩ | ⟨h0, hst, -⟩
        · rw [hst]
          refine ⟨hnl, ?_, hbl, hnew⟩
          intro i m x hm hx
          rw [show (Algo.inserted inp.alg s.alg b).poses = b.poses ++ [(s.alg.temp.origin, s.alg.temp)] by
            unfold Algo.inserted Algo.optimised; simp only [if_pos h0]] at hx
          rcases Nat.lt_or_ge i s.store.length with hi | hi
          · rw [List.getElem?_append_left hi] at hm
            rw [List.getElem?_append_left (by rw [← f.len]; exact hi)] at hx
            exact f.orig i m x hm hx
          · rw [List.getElem?_append_right hi] at hm
            rw [List.getElem?_append_right (by rw [← f.len]; exact hi), ← f.len] at hx
            have hz : i - s.store.length = 0 := by
              by_contra hne
              rw [List.getElem?_eq_none (by simp; omega)] at hm
              cases hm
            rw [hz] at hm hx
            simp only [List.getElem?_cons_zero, Option.some.injEq] at hm hx
            rw [← hm, ← hx]
            exact f.tempO
        · have hget : ∀ i : ℕ, s'.store[i]? = ((s.store ++ [{ s.temp with timestamp := inp.time }])[i]?).bind
              fun f => ((Algo.inserted inp.alg s.alg b).poses[i]?).map fun x => setOrigin f x.1 :=
            fun i => by rw [hst]; exact sync_get inv'.engine inv'.origins hnl i
          refine ⟨by rw [hst, sync_length]; exact hnl, ?_, ?_, ?_⟩
          · intro i m x hm hx
            rw [hget i, hx] at hm
            cases hl : (s.store ++ [{ s.temp with timestamp := inp.time }])[i]? with
            | none => rw [hl] at hm; cases hm
            | some y =>
              rw [hl] at hm
              simp only [Option.map_some, Option.bind_some, Option.some.injEq] at hm
              rw [← hm]; rfl
          · intro m hm
            obtain ⟨i, hi⟩ := List.getElem?_of_mem hm
            rw [hget i] at hi
            cases hl : (s.store ++ [{ s.temp with timestamp := inp.time }])[i]? with
            | none => rw [hl] at hi; cases hi
            | some y =>
              rw [hl] at hi
              simp only [Option.bind_some] at hi
              obtain ⟨x, -, rfl⟩ := Option.map_eq_some_iff.1 hi
              exact .setOrigin _ (hbl y (List.mem_of_getElem? hl))
          · rw [hst]
            exact sync_made _ hnew
      obtain ⟨k1, k2, k3, k4⟩ := key
      refine ⟨k1, k2, k3,   .mergeCloudTraced _ _ _ hb0 ht, tk.1, tk.2.1.trans hcell.symm, parts ++ [last], [(1, inp.scan)], ?_, ?_, ?_, ?_, k4,
        tm⟩
      · show _ = (Algo.optimised inp.alg (b.poses ++ [(s.alg.temp.origin, s.alg.temp)])).map _
        apply flatten_places
        simp only [List.map_append, p1, List.map_cons, List.map_nil, p2]
      · rw [g4]; simp [g5]
      · rw [used_append hu]
        simp only [List.flatten_append, List.flatten_cons, List.flatten_nil, List.append_nil, List.map_append] at p3 ⊢
        rw [p3]
        simp [hsc]
      · intro x hx
        simp only [List.flatten_append, List.flatten_cons, List.flatten_nil, List.append_nil] at hx
        rcases List.mem_append.1 hx with hx | hx
        · exact p4 x hx
        · rw [List.mem_singleton.1 hx]; exact Algo.rigid_one

theorem gaussians_clear {n : Map} (h : MapInv n) : gaussians (NDTGrid.clear n) = [] := by
  unfold gaussians
  rw [show Voxel.getValidCells (NDTGrid.clear n).grid = [] from (clear_stored h.wf).2.2]
  rfl

/-- The map after a scan was merged in. -/
theorem mapped_grown {eig : NDT.Eig} (he : NDT.EigOk eig) {log log' : List Entry} {s s' : State}
    {b b' : Slam.Book Algo.Frame} {inp : Input} {inc : Trans} (f : Frames eig log s b) (m : Mapped eig s)
    (f' : Frames eig log' s' b') (hsort : inp.sorted.Perm (s.order ++ [s.store.length]))
    (mg : Merged eig inp inc s s') : Mapped eig s' := by
  have hrange : (s.order ++ [s.store.length]).Perm (List.range (s.store.length + 1)) := by
    rw [List.range_succ]
    exact m.order.append_right _
  cases mg with
  | kept _ _ h1 h2 h3 h4 _ =>
    exact ⟨by rw [h3, h1]; exact m.order, by rw [h2]; exact m.globalB, by rw [h2]; exact m.globalO,
      by rw [h2]; exact m.globalC, by rw [h4, h2]; exact m.cloud,
      by rw [h1, h2]; exact m.src, by rw [h1, h2, h3]; exact m.merged⟩
  | @inserted gm hfar hg hcase ht =>
    have bg : Built eig true gm := .mergeGridTraced true true m.globalB f.tempB hg
    obtain ⟨-, og, cg⟩ := addToMap_frame he (m.globalB.inv he) (f.tempB.inv he) hg
    rw [m.globalO] at og
    rw [m.globalC] at cg
    rcases hcase with ⟨-, h1, h2, h3, h4, -⟩ | ⟨-, h1, h3, hne, h2, h4, -⟩
    · refine ⟨by rw [h3, h1]; simpa using hrange, by rw [h2]; exact bg,
        by rw [h2]; exact og, by rw [h2]; exact cg, by rw [h4, h2]; exact published (bg.listed he rfl), ?_, ?_⟩
      rotate_left
      · obtain ⟨n0, i0, o0, c0, a0⟩ := m.merged
        refine ⟨n0, i0, o0, c0, ?_⟩
        have e1 : s.order.filterMap (fun i => (s.store ++ [{ s.temp with timestamp := inp.time }])[i]?) =
            s.order.filterMap fun i => s.store[i]? := by
          apply List.filterMap_congr
          intro i hi
          have hlt : i < s.store.length := List.mem_range.1 (m.order.mem_iff.1 hi)
          rw [List.getElem?_append_left hlt]
        rw [h1, h2, h3, List.filterMap_append, e1, addAll_append a0]
        simp only [List.filterMap_cons, List.filterMap_nil, List.getElem?_append_right (le_refl _), Nat.sub_self,
          List.getElem?_cons_zero, World.addAll]
        have hg' : addToMap eig s.global { s.temp with timestamp := inp.time } = .ok gm := hg
        rw [hg']
        rfl
      rw [h1, h2]
      intro c' hc'
      rcases (mergeTraced_sound he (m.globalB.inv he) (f.tempB.inv he) (Or.inl rfl) hg).2 c' hc' with
        ⟨c, hc, sc⟩ | ⟨c, hc, sc⟩
      · obtain ⟨fr, hf, d, hd, sd⟩ := m.src c hc
        exact ⟨fr, List.mem_append_left _ hf, d, hd, sd.trans sc⟩
      · exact ⟨_, List.mem_append_right _ (List.mem_singleton.2 rfl), c, hc, ⟨sc.pos, sc.height, sc.cov, sc.points⟩⟩
    · have hlen : s'.store.length = s.store.length + 1 := by rw [h1, sync_length]; simp
      have hmem : ∀ x ∈ inp.sorted.filterMap (fun i => s'.store[i]?), x ∈ s'.store := by
        intro x hx
        obtain ⟨i, -, hi⟩ := List.mem_filterMap.1 hx
        exact List.mem_of_getElem? hi
      have hfr : inp.sorted.filterMap (fun i => s'.store[i]?) ≠ [] := by
        obtain ⟨i, hi⟩ := List.exists_mem_of_ne_nil _ hne
        have hlt : i < s'.store.length := by
          rw [hlen]; exact List.mem_range.1 ((hsort.trans hrange).mem_iff.1 hi)
        intro h0
        have : s'.store[i] ∈ inp.sorted.filterMap (fun i => s'.store[i]?) :=
          List.mem_filterMap.2 ⟨i, hi, List.getElem?_eq_getElem hlt⟩
        rw [h0] at this
        cases this
      have bc : Built eig false (NDTGrid.clear gm) := .clear bg
      have bn := addAll_built bc (fun x hx => f'.storeB x (hmem x hx)) h2
      have hbt : (false || !(inp.sorted.filterMap (fun i => s'.store[i]?)).isEmpty) = true := by
        simpa using hfr
      rw [hbt] at bn
      obtain ⟨o2, c2⟩ := addAll_frame he (bc.inv he) (fun x hx => (f'.storeB x (hmem x hx)).inv he) h2
      refine ⟨by rw [h3, hlen]; exact hsort.trans hrange, bn, o2.trans og, c2.trans cg, by rw [h4]; exact published (bn.listed he rfl), ?_,
        NDTGrid.clear gm, bc.inv he, og, cg, by rw [h3]; exact h2⟩
      intro c' hc'
      rcases (addAll_inv he (bc.inv he) (fun x hx => (f'.storeB x (hmem x hx)).inv he) h2).2.2.2 c' hc' with
        ⟨c, hc, -⟩ | ⟨fr, hf, c, hc, sc⟩
      · rw [gaussians_clear (bg.inv he)] at hc; cases hc
      · exact ⟨fr, hmem fr hf, c, hc, sc⟩

theorem windowPoint_mono {log : List Entry} {e : Entry} {v : ℝ × ℝ} (h : WindowPoint log v) :
    WindowPoint (log ++ [e]) v := by
  obtain ⟨x, hx, h⟩ := h
  exact ⟨x, List.mem_append_left _ hx, h⟩

theorem act_mul {t : Trans} (ht : IsRigid t) (s : Trans) (v : ℝ × ℝ) : act s (act t v) = act (s * t) v := by
  obtain ⟨-, -, -, k1, k2, k3⟩ := (isRigid_iff t).1 ht
  unfold act
  simp only [Matrix.mul_apply, Fin.sum_univ_three, k1, k2, k3]
  ext <;> simp <;> ring

/-- One update keeps the invariant. -/
theorem inv_update {eig : NDT.Eig} (he : NDT.EigOk eig) {log : List Entry} {s s' : State}
    {b : Slam.Book Algo.Frame} {inp : Input} {o : Algo.Event × Pose} (inv : Inv eig log s b) (adm : Admissible s inp)
    (h : update eig inp s = .ok (o, s')) :
    Algo.update inp.alg s.alg = .ok (o, s'.alg) ∧ ∃ b', Inv eig (log ++ [⟨o.1, o.2, inp.scan⟩]) s' b' := by
  obtain ⟨hu, hd, hcell, hwo, hwc⟩ := update_spec he inv.full adm.alg (inv.window.winB.inv he) inv.window.winO
    inv.window.winC h
  refine ⟨hu, ?_⟩
  obtain ⟨e, p, a', b', hu', full', hi, -, -, -, -, sc⟩ := Algo.update_step inv.full adm.alg
  rw [hu] at hu'
  have := Res.ok.inj hu'
  obtain ⟨rfl, rfl⟩ := Prod.mk.inj this
  change Done eig inp s s' e at hd
  have start : s'.alg.initialized = false → log ++ [⟨e, p, inp.scan⟩] = [] ∧ s'.temp = emptyMap eig s'.alg.cellSize ∧
      s'.window = emptyMap eig s'.alg.cellSize ∧ s'.store = [] := fun h => by rw [hi] at h; cases h
  have hwc' : s'.window.grid.cellSize = s'.alg.cellSize := hwc.trans hcell.symm
  have hcs : 0 < s'.alg.cellSize := by rw [hcell]; exact inv.cs
  have win0 : s'.window = s.window → Window eig (log ++ [⟨e, p, inp.scan⟩]) s' := fun hw =>
    ⟨hwo, hwc', by rw [hw]; exact inv.window.winB, fun c hc => by
      rw [hw] at hc ⊢
      exact windowPoint_mono (inv.window.src c hc)⟩
  have grown : ∀ inc, e.scanUsed = true → Merged eig inp inc s s' → Algo.Grown inp.alg inc s.alg s'.alg b b' →
      Frames eig (log ++ [⟨e, p, inp.scan⟩]) s' b' ∧ Mapped eig s' := by
    intro inc hus hm hg
    have hf := frames_grown he inv.frames inv.cs hcell full'.alg hg hm (e := ⟨e, p, inp.scan⟩) hus rfl
    exact ⟨hf, mapped_grown he inv.frames inv.mapped hf adm.sorted hm⟩
  cases hd with
  | @first g h0 hg hw ht h1 h2 h3 h4 =>
    cases sc with
    | first _ _ _ _ hb hb0 hto hti _ =>
      subst hb
      obtain ⟨rfl, t0, w0, s0⟩ := inv.start h0
      have bt : Built eig true (setCellSize (setOrigin s.temp ⟨0, 0, 0⟩) s.alg.cellSize) := by
        rw [t0]; exact .setOrigin ⟨0, 0, 0⟩ (.init 0 0 0 inv.cs)
      have bw0 : Built eig true (setCellSize (setOrigin s.window ⟨0, 0, 0⟩) s.alg.cellSize) := by
        rw [w0]; exact .setOrigin ⟨0, 0, 0⟩ (.init 0 0 0 inv.cs)
      have bw1 : Built eig true { setCellSize (setOrigin s.window ⟨0, 0, 0⟩) s.alg.cellSize with grid := g } :=
        .enlarge _ _ _ _ bw0 hg
      have hself : ∀ q ∈ inp.scan, q ∈ {v : NDT.Vec | SeenFrom 1 inp.scan (head v)} := by
        intro q hq
        refine subset_convexHull ℝ _ ⟨q, hq, ?_⟩
        unfold act head
        ext <;> simp
      have tk := scan_mem he (seenFrom_convex 1 inp.scan) (bt.inv he) hself ht
      have wk := scan_mem he (seenFrom_convex 1 inp.scan) (bw1.inv he) hself hw
      refine ⟨b', full', hcs, ⟨by rw [h1]; exact inv.frames.len, by rw [h1]; exact inv.frames.orig,
        by rw [h1]; exact inv.frames.storeB, .«initialize» _ bt ht, ?_, tk.2.2.1.trans hcell.symm, [], [(1, inp.scan)], ?_, ?_, ?_, ?_, ?_, ?_⟩,
        ⟨by rw [h3, h1]; exact inv.mapped.order, by rw [h2]; exact inv.mapped.globalB,
          by rw [h2]; exact inv.mapped.globalO, by rw [h2]; exact inv.mapped.globalC,
          by rw [h4, h2]; exact inv.mapped.cloud, by rw [h2, h1]; exact inv.mapped.src,
          by rw [h1, h2, h3]; exact inv.mapped.merged⟩,
        ⟨hwo, hwc', .«initialize» _ bw1 hw, ?_⟩, start⟩
      · rw [tk.2.1, hto]; rfl
      · rw [hb0]; rfl
      · rw [hti]; rfl
      · rfl
      · intro x hx
        rw [List.mem_singleton.1 hx]; exact Algo.rigid_one
      · rw [h1, s0]; exact .nil
      · intro c hc
        exact ⟨_, List.mem_singleton.2 rfl, tk.2.2.2 c hc⟩
      · intro c hc
        refine ⟨_, List.mem_singleton.2 rfl, Or.inl ⟨rfl, ?_⟩⟩
        have : worldPos s'.window c = (c.mean 0, c.mean 1) := by
          unfold worldPos
          rw [wk.2.1]
          exact toWorld_zero _
        rw [this]
        exact wk.2.2.2 c hc
  | idle hini ht hw h1 h2 h3 h4 _ =>
    cases sc with
    | idle _ _ _ _ _ hb htm _ =>
      subst hb
      have hus : used (log ++ [⟨.idle inp.alg.motion, p, inp.scan⟩]) = used log := by
        unfold used
        rw [List.filter_append]
        simp [Algo.Event.scanUsed]
      refine ⟨b', full', hcs, ⟨by rw [h1]; exact inv.frames.len, by rw [h1]; exact inv.frames.orig,
        by rw [h1]; exact inv.frames.storeB, by rw [ht]; exact inv.frames.tempB,
        by rw [ht, htm]; exact inv.frames.tempO, by rw [ht, hcell]; exact inv.frames.tempC, by rw [hus, htm, h1, ht]; exact inv.frames.made⟩,
        ⟨by rw [h3, h1]; exact inv.mapped.order, by rw [h2]; exact inv.mapped.globalB,
          by rw [h2]; exact inv.mapped.globalO, by rw [h2]; exact inv.mapped.globalC,
          by rw [h4, h2]; exact inv.mapped.cloud, by rw [h2, h1]; exact inv.mapped.src,
          by rw [h1, h2, h3]; exact inv.mapped.merged⟩, win0 hw, start⟩
  | failed hini hm hw =>
    cases sc with
    | failed _ _ _ _ _ _ hg =>
      obtain ⟨k1, k2⟩ := grown _ rfl hm hg
      exact ⟨b', full', hcs, k1, k2, win0 hw, start⟩
  | @matched g m q r cumul hini hmat hq hm hw =>
    cases sc with
    | matched _ _ _ hp _ _ _ hg =>
      obtain ⟨k1, k2⟩ := grown _ rfl hm hg
      have hreg := adm.alg.matcher r hmat
      have hth : s.window.th = 0 := by
        have := inv.full.win.th
        rw [← inv.window.winO] at this
        exact this
      obtain ⟨-, -, bw, hsrc⟩ := C106_window he inv.cs inv.window.winB hth hreg hw
      refine ⟨b', full', hcs, k1, k2, ⟨hwo, hwc', bw, fun c' hc' => ?_⟩, start⟩
      rcases hsrc c' hc' with ⟨c, hc, hs⟩ | hs
      · rw [hs.pos]
        exact windowPoint_mono (inv.window.src c hc)
      · refine ⟨_, List.mem_append_right _ (List.mem_singleton.2 rfl), Or.inr ⟨_, _, _, rfl, ?_⟩⟩
        unfold SeenFrom
        rw [hq, trans_pose (rigid_mul (getTransFromPose_rigid _) hreg)]
        refine convexHull_mono ?_ hs
        rintro x ⟨v, hv, rfl⟩
        refine ⟨v, hv, ?_⟩
        rw [← act_trans]
        exact act_mul hreg _ _

/-- The invariant holds in every state that can be reached, and the statements about poses of `Algo` apply. -/
theorem Reach.inv {eig : NDT.Eig} (he : NDT.EigOk eig) {P : Algo.Input → Prop} {log : List Entry} {s : State}
    (h : Reach eig P log s) : (∃ b, Inv eig log s b) ∧ Algo.Reach P (log.map fun e => (e.event, e.pose)) s.alg := by
  induction h with
  | init =>
    have bt : Built eig true (emptyMap eig (1 / 4)) := .init 0 0 0 (by norm_num)
    have g0 : ∀ {cs : ℝ}, gaussians (emptyMap eig cs) = [] := fun {cs} => gaussians_init eig cs ⟨0, 0, 0⟩
    refine ⟨⟨⟨[], []⟩, Algo.full_init, by show (0 : ℝ) < 1 / 4; norm_num, ⟨rfl, ?_, ?_, bt, rfl, rfl, [], [], rfl, rfl, rfl, ?_, .nil,
      ?_⟩, ⟨.refl _, ?_, rfl, rfl, ?_, ?_,
      emptyMap eig (1 / 4), bt.inv he, rfl, rfl, rfl⟩, ⟨rfl, rfl, bt, ?_⟩, fun _ => ⟨rfl, rfl, rfl, rfl⟩⟩, .init⟩
    · intro i m x hm; cases hm
    · intro f hf; cases hf
    · intro x hx; cases hx
    · intro c hc
      rw [show (Whole.init eig).temp = emptyMap eig (1 / 4) from rfl, g0] at hc
      cases hc
    · exact bt
    · show List.Perm [] ((gaussians (emptyMap eig (1 / 4))).map _)
      rw [g0]
      exact .refl _
    · intro c hc
      rw [show (Whole.init eig).global = emptyMap eig (1 / 4) from rfl, g0] at hc
      cases hc
    · intro c hc
      rw [show (Whole.init eig).window = emptyMap eig (1 / 4) from rfl, g0] at hc
      cases hc
  | setDistance d _ ih =>
    obtain ⟨⟨b, ih⟩, ir⟩ := ih
    exact ⟨⟨b, Algo.full_setDistance ih.full d, ih.cs, ⟨ih.frames.len, ih.frames.orig, ih.frames.storeB, ih.frames.tempB,
      ih.frames.tempO, ih.frames.tempC, ih.frames.made⟩, ⟨ih.mapped.order, ih.mapped.globalB, ih.mapped.globalO,
      ih.mapped.globalC, ih.mapped.cloud, ih.mapped.src, ih.mapped.merged⟩,
      ⟨ih.window.winO, ih.window.winC, ih.window.winB, ih.window.src⟩, ih.start⟩, .setDistance d ir⟩
  | setRadius r _ ih =>
    obtain ⟨⟨b, ih⟩, ir⟩ := ih
    exact ⟨⟨b, ih.full, ih.cs, ⟨ih.frames.len, ih.frames.orig, ih.frames.storeB, ih.frames.tempB,
      ih.frames.tempO, ih.frames.tempC, ih.frames.made⟩, ⟨ih.mapped.order, ih.mapped.globalB, ih.mapped.globalO,
      ih.mapped.globalC, ih.mapped.cloud, ih.mapped.src, ih.mapped.merged⟩,
      ⟨ih.window.winO, ih.window.winC, ih.window.winB, ih.window.src⟩, ih.start⟩, ir⟩
  | update _ hp adm hu ih =>
    obtain ⟨⟨b, ih⟩, ir⟩ := ih
    obtain ⟨h1, b', h2⟩ := inv_update he ih adm hu
    refine ⟨⟨b', h2⟩, ?_⟩
    rw [List.map_append]
    exact .update ir hp adm.alg h1

end Verif.Whole
