import Verif.Algo.Spec
import Verif.Pose.Lemmas
import Verif.Slam.Props

/-
Invariant of the SLAM algorithm.
-/
namespace Verif.Algo

open Verif Verif.Geo Matrix

theorem rigid_one : IsRigid 1 := by rw [← trans_zero]; exact getTransFromPose_rigid _

theorem viaPcl_rigid {t : Trans} (h : IsRigid t) : viaPcl t = t := by
  obtain ⟨h1, h2, h3, h4, h5, h6⟩ := (isRigid_iff t).1 h
  obtain ⟨hc, hs⟩ := atan2_cos_sin h1
  unfold viaPcl convertToTransform convertFromTransform planar4
  apply mat_ext <;> simp [getPoseFromTransform, getAngle, *]

theorem transBtw_self (p : Pose) : transBtwFrames p p = 1 := by
  rw [transBtwFrames_eq, trans_inv_mul]

theorem mergeTraced_self (f : Frame) (cloud : Trans) :
    f.mergeTraced cloud f.origin = { f with inserts := f.inserts ++ [⟨cloud, (0, 0)⟩] } := by
  unfold Frame.mergeTraced
  simp only [transBtw_self, viaPcl_rigid rigid_one, Matrix.one_mul]
  simp [act]

/-- Connection of the state with the client's book of the optimiser. -/
structure AInv (s : State) (b : Slam.Book Frame) : Prop where
  engine : Slam.SInv s.engine b
  origins : ∀ x ∈ b.poses, x.2.origin = x.1
  placed : s.placed = b.poses.map Prod.fst
  first : s.firstNodeAdded = decide (0 < b.poses.length)
  lastId : 0 < b.poses.length → s.lastNodeId = b.poses.length - 1
  pos : s.position = getTransFromPose s.temp.origin * s.transTemp
  temp : IsRigid s.transTemp
  last : IsRigid s.lastTrans
  chain : ∀ x, b.poses.getLast? = some x →
    getTransFromPose s.temp.origin = getTransFromPose x.1 * s.lastTrans

theorem inv_insertFrame {s : State} {b : Slam.Book Frame} (inv : Slam.SInv s.engine b)
    (hfirst : s.firstNodeAdded = decide (0 < b.poses.length)) {addr : ℕ}
    (fresh : PoseGraph.Fresh s.engine.graph addr) :
    ∃ s', insertFrame addr s = .ok s' ∧
      Slam.SInv s'.engine
        { poses := b.poses ++ [(s.temp.origin, s.temp)]
          cons := b.cons ++ (if 0 < b.poses.length then
            [(b.poses.length - 1, b.poses.length, getPoseFromTransform s.lastTrans, .odom)] else []) } ∧
      s' = { s with
        temp := ⟨⟨0, 0, 0⟩, []⟩
        placed := s.placed ++ [s.temp.origin]
        engine := s'.engine
        lastNodeId := b.poses.length
        lastCovar := s.covarTemp
        lastTrans := s.transTemp
        covarTemp := 1
        transTemp := 1
        firstNodeAdded := true } ∧
      ∀ a, a ≠ addr → PoseGraph.Fresh s.engine.graph a → PoseGraph.Fresh s'.engine.graph a := by
  obtain ⟨hid, inv1⟩ := Slam.inv_addPose inv s.temp.origin s.temp
  set e := (Slam.addPose s.engine s.temp.origin s.temp).2 with he
  have hfr : ∀ a, PoseGraph.Fresh s.engine.graph a → PoseGraph.Fresh e.graph a := by
    intro a ha id ed hl
    refine ha id ed ?_
    have : e.graph.edges = s.engine.graph.edges := by
      rw [he]; unfold Slam.addPose; simp only [PoseGraph.addNode]; split <;> rfl
    unfold PoseGraph.live at hl ⊢
    rw [this] at hl
    exact hl
  obtain ⟨e', hc, inv2, hf2⟩ : ∃ e', (if s.firstNodeAdded then
      (lift (Slam.addLastConstrain addr (getPoseFromTransform s.lastTrans) s.lastCovar⁻¹ e)).map Prod.snd
      else .ok e) = .ok e' ∧
      Slam.SInv e'
        { poses := b.poses ++ [(s.temp.origin, s.temp)]
          cons := b.cons ++ (if 0 < b.poses.length then
            [(b.poses.length - 1, b.poses.length, getPoseFromTransform s.lastTrans, .odom)] else []) } ∧
      ∀ a, a ≠ addr → PoseGraph.Fresh s.engine.graph a → PoseGraph.Fresh e'.graph a := by
    by_cases h0 : 0 < b.poses.length
    · have hlen : (b.poses ++ [(s.temp.origin, s.temp)]).length = b.poses.length + 1 := by simp
      have hprev : e.prevId = b.poses.length - 1 := by
        rw [inv1.prevId]; simp only [hlen]; omega
      have hlast : e.lastId = b.poses.length := by
        rw [inv1.lastId]; simp only [hlen]; omega
      obtain ⟨nodes, hc, -, hnn, hh⟩ := Slam.addConstrain_eq (src := b.poses.length - 1)
        (dst := b.poses.length) inv1.pool addr (getPoseFromTransform s.lastTrans) s.lastCovar⁻¹
        (by rw [inv1.nodesLen]; simp only [hlen]; omega) (by rw [inv1.nodesLen]; simp only [hlen]; omega)
      have inv2 := Slam.inv_constrained inv1 (hfr _ fresh) (by simp only [hlen]; omega)
        (by simp only [hlen]; omega) hnn hh
      refine ⟨Slam.constrained e nodes addr (b.poses.length - 1) b.poses.length
        (getPoseFromTransform s.lastTrans) .odom, ?_, ?_, ?_⟩
      · rw [hfirst, if_pos (decide_eq_true h0)]
        simp only [Slam.addLastConstrain, hprev, hlast, hc, lift, Res.map_ok]
      · simp only [if_pos h0]
        exact inv2
      · intro a ha hf
        exact Slam.fresh_constrained (hfr _ hf) ha
    · refine ⟨e, ?_, ?_, fun a _ hf => hfr a hf⟩
      · rw [hfirst, if_neg (by simpa using h0)]
      · simp only [if_neg h0, List.append_nil]
        exact inv1
  refine ⟨{ s with
        temp := ⟨⟨0, 0, 0⟩, []⟩
        placed := s.placed ++ [s.temp.origin]
        engine := e'
        lastNodeId := b.poses.length
        lastCovar := s.covarTemp
        lastTrans := s.transTemp
        covarTemp := 1
        transTemp := 1
        firstNodeAdded := true }, ?_, inv2, rfl, hf2⟩
  unfold insertFrame
  simp only [hid, ← he, hc, Res.bind_ok]

/-- The poses after the optimisation step of `closeLoops`. -/
noncomputable def optimised (inp : Input) (ps : List (Pose × Frame)) : List (Pose × Frame) :=
  if inp.loops = [] then ps
  else ps.mapIdx fun i x =>
    let p := if i = 0 then x.1 else inp.est i
    (p, x.2.updatePosition p)

theorem length_optimised (inp : Input) (ps : List (Pose × Frame)) :
    (optimised inp ps).length = ps.length := by
  unfold optimised
  split_ifs <;> simp

theorem origins_optimised (inp : Input) {ps : List (Pose × Frame)} (h : ∀ x ∈ ps, x.2.origin = x.1) :
    ∀ x ∈ optimised inp ps, x.2.origin = x.1 := by
  unfold optimised
  split_ifs with h0
  · exact h
  · intro x hx
    rw [List.mem_mapIdx] at hx
    obtain ⟨i, hi, rfl⟩ := hx
    rfl

/-- Poses are found by their ids. -/
theorem getPose {e : Slam.State Frame} {b : Slam.Book Frame} (inv : Slam.SInv e b) {i : ℕ}
    {x : Pose × Frame} (h : b.poses[i]? = some x) :
    Slam.getPoseLocation e i = .ok x.1 ∧ Slam.getPoseData e i = .ok x.2 := by
  obtain ⟨n, hn, hp⟩ := (inv.node i).1 x.1 x.2 h
  simp [Slam.getPoseLocation, Slam.getPoseData, hn, hp]

theorem inv_closeLoops {s : State} {b : Slam.Book Frame} (inv : Slam.SInv s.engine b)
    (hid : s.lastNodeId < b.poses.length) (hpl : s.placed = b.poses.map Prod.fst)
    (hor : ∀ x ∈ b.poses, x.2.origin = x.1) {inp : Input}
    (hnd : (inp.loops.map Prod.fst).Nodup)
    (hf : ∀ a ∈ inp.loops.map Prod.fst, PoseGraph.Fresh s.engine.graph a)
    (hl : ∀ c ∈ inp.loops, c.2.src < b.poses.length ∧ c.2.dst < b.poses.length)
    (hp : inp.order.Perm (List.range b.poses.length)) :
    ∃ s', closeLoops inp s = .ok s' ∧
      Slam.SInv s'.engine
        { poses := optimised inp b.poses
          cons := b.cons ++ inp.loops.map fun c => (c.2.src, c.2.dst, c.2.trans, .loop) } ∧
      s' = { s with
        placed := (optimised inp b.poses).map Prod.fst
        engine := s'.engine } := by
  obtain ⟨e, he, inv1, -, -⟩ := Slam.addLoops_ok inv hnd hf hl
  have hfin : Slam.finishLoopClose inp.loops s.engine = (.ok (decide (0 < inp.loops.length)), e) := by
    unfold Slam.finishLoopClose
    rw [Slam.Op.bind_apply_ok he]
    rfl
  have hloc := (getPose inv (List.getElem?_eq_getElem hid)).1
  unfold closeLoops
  simp only [hloc, Res.bind_ok, hfin, lift, Res.map_ok]
  by_cases h0 : inp.loops = []
  · refine ⟨{ s with engine := e }, ?_, ?_, ?_⟩
    · simp [h0]
    · have : optimised inp b.poses = b.poses := by unfold optimised; rw [if_pos h0]
      rw [this]
      exact inv1
    · have : optimised inp b.poses = b.poses := by unfold optimised; rw [if_pos h0]
      rw [this, ← hpl]
  · have hpos : 0 < inp.loops.length := List.length_pos_iff.2 h0
    simp only [hpos, decide_true, if_true]
    rcases ho : Slam.optimalize inp.est Frame.updatePosition inp.order e with ⟨r, e'⟩
    obtain ⟨rfl, -, -, -, -, inv2⟩ := Slam.inv_optimalize inv1 inp.est Frame.updatePosition hp ho
    have hop : optimised inp b.poses = b.poses.mapIdx fun i x =>
        let p := if i = 0 then x.1 else inp.est i
        (p, x.2.updatePosition p) := by unfold optimised; rw [if_neg h0]
    refine ⟨_, by simp only [Res.map_ok, Res.bind_ok, if_true]; rfl, ?_, ?_⟩
    · rw [hop]; exact inv2
    · have hpay := congrArg (List.map fun n : Slam.NodeP Frame => n.obj.origin) inv2.nodes
      simp only [List.map_map] at hpay
      simp only [State.mk.injEq, true_and, and_true]
      rw [show (fun n : PoseGraph.Node (Slam.NodeP Frame) => n.payload.obj.origin) =
        (fun n : Slam.NodeP Frame => n.obj.origin) ∘ PoseGraph.Node.payload from rfl, hpay, ← hop]
      apply List.map_congr_left
      intro x hx
      exact origins_optimised inp hor x hx

/-- The book after the insertion of a node. -/
noncomputable def inserted (inp : Input) (s : State) (b : Slam.Book Frame) : Slam.Book Frame :=
  { poses := optimised inp (b.poses ++ [(s.temp.origin, s.temp)])
    cons := b.cons ++ (if 0 < b.poses.length then
      [(b.poses.length - 1, b.poses.length, getPoseFromTransform s.lastTrans, .odom)] else []) ++
      inp.loops.map fun c => (c.2.src, c.2.dst, c.2.trans, .loop) }

/-- The members that `updateGraph` does not touch. -/
structure Same (s s' : State) : Prop where
  initialized : s'.initialized = s.initialized
  unused : s'.unused = s.unused
  window : s'.window = s.window
  cumul : s'.positionCumul = s.positionCumul
  matcher : s'.lastMatcherPose = s.lastMatcherPose
  cell : s'.cellSize = s.cellSize
  minD : s'.minDistance = s.minDistance
  minR : s'.minRotation = s.minRotation
  maxT : s'.maxTraveled = s.maxTraveled

/-- The current scan was merged where the robot is, with rays from the origin of the frame: either into the
active frame or, if a node was inserted, into a new one. -/
def Grown (inp : Input) (inc : Trans) (s s' : State) (b b' : Slam.Book Frame) : Prop :=
  ∃ ins : Insert, getTransFromPose s'.temp.origin * ins.place = s'.position ∧ ins.ray = (0, 0) ∧
    ((b' = b ∧ s'.temp = { s.temp with inserts := s.temp.inserts ++ [ins] } ∧
        s'.transTemp = s.transTemp * inc ∧ ¬ movedFar s (s.transTemp * inc)) ∨
      (b' = inserted inp s b ∧ s'.temp.inserts = [ins] ∧ ins.place = 1 ∧
        (s'.transTemp = 1 ∧ s'.lastTrans = s.transTemp * inc) ∧ movedFar s (s.transTemp * inc)))

theorem inv_updateGraph {s : State} {b : Slam.Book Frame} (inv : AInv s b) {inp : Input}
    (adm : Admissible s inp) {inc : Trans} (hinc : IsRigid inc) (cov : Trans) :
    ∃ s' b', updateGraph inc cov inp s = .ok s' ∧ AInv s' b' ∧ Same s s' ∧
      (inp.loops = [] → s'.position = s.position * inc) ∧ Grown inp inc s s' b b' := by
  set s1 : State := { s with
             transTemp := s.transTemp * inc
             covarTemp := addToCovar s.covarTemp cov inc } with hs1
  have hrig : IsRigid (s.transTemp * inc) := rigid_mul inv.temp hinc
  by_cases hfar : movedFar s1 s1.transTemp
  · obtain ⟨s2, h2, e2, hs2, hf2⟩ := inv_insertFrame (s := s1) (b := b) inv.engine inv.first
      (addr := inp.addr) (adm.fresh _ (List.mem_cons_self ..))
    have hlen : (b.poses ++ [(s.temp.origin, s.temp)]).length = b.poses.length + 1 := by simp
    have hnl := inv.engine.nodesLen
    have hnd := List.nodup_cons.1 adm.addrs
    have hor : ∀ x ∈ b.poses ++ [(s.temp.origin, s.temp)], x.2.origin = x.1 := by
      intro x hx
      rcases List.mem_append.1 hx with hx | hx
      · exact inv.origins x hx
      · rw [List.mem_singleton.1 hx]
    have hid2 : s2.lastNodeId = b.poses.length := by rw [hs2]
    have hpl2 : s2.placed = (b.poses ++ [(s.temp.origin, s.temp)]).map Prod.fst := by
      rw [hs2]; simp only [hs1, inv.placed, List.map_append, List.map_cons, List.map_nil]
    obtain ⟨s3, h3, e3, hs3⟩ := inv_closeLoops (inp := inp) e2
      (by rw [hid2]; simp only [hs1, hlen]; omega) hpl2 hor hnd.2
      (fun a ha => hf2 a (fun h => hnd.1 (h ▸ ha)) (adm.fresh a (List.mem_cons_of_mem _ ha)))
      (fun c hc => by
        have h := adm.loops c hc
        rw [hnl, ← hlen] at h
        exact h)
      (by
        have h := adm.order
        rw [hnl, ← hlen] at h
        exact h)
    have e3' : Slam.SInv s3.engine (inserted inp s b) := e3
    have hlen3 : (inserted inp s b).poses.length = b.poses.length + 1 := by
      unfold inserted; rw [length_optimised, hlen]
    have hid3 : s3.lastNodeId = b.poses.length := by rw [hs3]; exact hid2
    obtain ⟨x, hx⟩ : ∃ x, (inserted inp s b).poses[b.poses.length]? = some x :=
      ⟨_, List.getElem?_eq_getElem (by omega)⟩
    have hxl : (inserted inp s b).poses.getLast? = some x := by
      rw [List.getLast?_eq_getElem?, hlen3, Nat.add_sub_cancel, hx]
    have hloc := (getPose e3' hx).1
    have hlt3 : s3.lastTrans = s.transTemp * inc := by rw [hs3, hs2]
    have hp : IsRigid (getTransFromPose x.1 * s3.lastTrans) :=
      rigid_mul (getTransFromPose_rigid _) (hlt3 ▸ hrig)
    set pos := getTransFromPose x.1 * s3.lastTrans with hpos
    set f : Frame := { s3.temp with origin := getPoseFromTransform pos } with hf
    have htt : s3.transTemp = 1 := by rw [hs3, hs2]
    have hmt : f.mergeTraced 1 f.origin = { f with inserts := f.inserts ++ [⟨1, (0, 0)⟩] } :=
      mergeTraced_self f 1
    refine ⟨{ s3 with position := pos, temp := f.mergeTraced 1 f.origin }, inserted inp s b,
      ?_, ?_, ?_, ?_, ?_⟩
    · unfold updateGraph
      simp only [← hs1]
      rw [if_pos hfar, h2, Res.bind_ok, h3, Res.bind_ok]
      unfold restart
      rw [hid3, hloc, Res.bind_ok]
    · rw [hmt]
      refine ⟨e3', ?_, ?_, ?_, ?_, ?_, ?_, ?_, ?_⟩
      · exact origins_optimised inp hor
      · rw [hs3]; rfl
      · rw [hlen3, hs3, hs2]; simp
      · intro _; rw [hlen3, Nat.add_sub_cancel]; exact hid3
      · simp only [hf, htt, Matrix.mul_one, trans_pose hp]
      · simp only [htt]; exact rigid_one
      · simp only [hlt3]; exact hrig
      · intro y hy
        rw [hxl] at hy
        cases hy
        simp only [hf, trans_pose hp]
        rfl
    · rw [hs3, hs2]
      exact ⟨rfl, rfl, rfl, rfl, rfl, rfl, rfl, rfl, rfl⟩
    · intro h0
      have : x = (s.temp.origin, s.temp) := by
        have : (inserted inp s b).poses = b.poses ++ [(s.temp.origin, s.temp)] := by
          unfold inserted optimised; simp only [if_pos h0]
        rw [this] at hx
        simpa using hx.symm
      simp only [hpos, this, hlt3]
      rw [inv.pos, Matrix.mul_assoc]
    · rw [hmt]
      refine ⟨⟨1, (0, 0)⟩, ?_, rfl, .inr ⟨rfl, ?_, rfl, ⟨htt, hlt3⟩, hfar⟩⟩
      · simp only [hf, Matrix.mul_one, trans_pose hp]
      · have : s3.temp.inserts = [] := by rw [hs3, hs2]
        show s3.temp.inserts ++ [_] = _
        rw [this]; rfl
  · refine ⟨{ s1 with
          position := s1.position * inc
          temp := s1.temp.mergeTraced (viaPcl s1.transTemp) s1.temp.origin }, b, ?_, ?_, ?_, ?_, ?_⟩
    · unfold updateGraph
      simp only [← hs1]
      rw [if_neg hfar]
    · exact ⟨inv.engine, inv.origins, inv.placed, inv.first, inv.lastId,
        by simp only [hs1]; rw [inv.pos, Matrix.mul_assoc]; rfl, hrig, inv.last, inv.chain⟩
    · exact ⟨rfl, rfl, rfl, rfl, rfl, rfl, rfl, rfl, rfl⟩
    · intro _; rfl
    · rw [mergeTraced_self]
      refine ⟨⟨viaPcl s1.transTemp, (0, 0)⟩, ?_, rfl, .inl ⟨rfl, rfl, rfl, hfar⟩⟩
      simp only [hs1, viaPcl_rigid hrig]
      rw [inv.pos, Matrix.mul_assoc]

/-! ### The running window -/

theorem moveWindow_spec (cs : ℝ) {o : Pose} (ho : o.th = 0) {t : Trans} (ht : IsRigid t) :
    (moveWindow cs o t).1.th = 0 ∧ IsRigid (moveWindow cs o t).2 ∧
    getTransFromPose (moveWindow cs o t).1 * (moveWindow cs o t).2 = getTransFromPose o * t := by
  obtain ⟨h1, h2, h3, h4, h5, h6⟩ := (isRigid_iff t).1 ht
  have hn : ¬ |o.th| > 1 / 10000000 := by rw [ho]; norm_num
  unfold moveWindow
  rw [if_neg hn]
  refine ⟨ho, ?_, ?_⟩
  · rw [isRigid_iff]
    refine ⟨?_, ?_, ?_, ?_, ?_, ?_⟩ <;> simpa
  · apply mat_ext <;>
      simp [getTransFromPose, Matrix.mul_apply, Fin.sum_univ_three, ho, h4, h5, h6]

/-- Invariant of the running window: it is not rotated, and the position in it is the last matched pose. -/
structure WInv (s : State) : Prop where
  th : s.window.th = 0
  rigid : IsRigid s.positionCumul
  pose : getTransFromPose s.window * s.positionCumul = getTransFromPose s.lastMatcherPose

/-- Complete invariant. -/
structure Full (s : State) (b : Slam.Book Frame) : Prop where
  alg : AInv s b
  win : WInv s
  start : s.initialized = false → s.transTemp = 1 ∧ b.poses = [] ∧ s.positionCumul = 1 ∧ s.unused = 1
  unused : IsRigid s.unused

/-- What one update does. -/
inductive StepCase (inp : Input) (s s' : State) (b b' : Slam.Book Frame) : Event → Prop
  | first : s.initialized = false → s'.position = 1 → s'.lastMatcherPose = ⟨0, 0, 0⟩ →
      s'.unused = s.unused → b' = b → b.poses = [] → s'.temp.origin = ⟨0, 0, 0⟩ →
      s'.temp.inserts = [⟨1, (0, 0)⟩] → s'.transTemp = 1 → StepCase inp s s' b b' .first
  | idle : s.initialized = true → ¬ movedEnough s (s.unused * inp.motion) → s'.position = s.position →
      s'.lastMatcherPose = s.lastMatcherPose → s'.unused = s.unused * inp.motion → b' = b →
      s'.temp = s.temp → s'.transTemp = s.transTemp → StepCase inp s s' b b' (.idle inp.motion)
  | failed : s.initialized = true → movedEnough s (s.unused * inp.motion) → inp.matcher = none →
      (inp.loops = [] → s'.position = s.position * inp.motion) →
      s'.lastMatcherPose = s.lastMatcherPose → s'.unused = 1 → Grown inp inp.motion s s' b b' →
      StepCase inp s s' b b' (.failed (getTransFromPose s.lastMatcherPose * inp.motion) inp.motion)
  | matched {m p} : s.initialized = true → movedEnough s (s.unused * inp.motion) → inp.matcher = some m →
      p = getPoseFromTransform (getTransFromPose s.window * convertToTransform m) →
      (inp.loops = [] →
        s'.position = s.position * ((getTransFromPose s.lastMatcherPose)⁻¹ * getTransFromPose p)) →
      s'.lastMatcherPose = p → s'.unused = 1 → Grown inp ((getTransFromPose s.lastMatcherPose)⁻¹ * getTransFromPose p) s s' b b' →
      StepCase inp s s' b b' (.matched (getTransFromPose s.lastMatcherPose * inp.motion) inp.motion p)

theorem rigid_pos {s : State} {b : Slam.Book Frame} (inv : AInv s b) : IsRigid s.position := by
  rw [inv.pos]; exact rigid_mul (getTransFromPose_rigid _) inv.temp

theorem update_step {s : State} {b : Slam.Book Frame} (inv : Full s b) {inp : Input}
    (adm : Admissible s inp) :
    ∃ e p s' b', update inp s = .ok ((e, p), s') ∧ Full s' b' ∧ s'.initialized = true ∧
      p = getPoseFromTransform (s'.position * pending e) ∧
      s'.minDistance = s.minDistance ∧ s'.minRotation = s.minRotation ∧ s'.maxTraveled = s.maxTraveled ∧
      StepCase inp s s' b b' e := by
  by_cases hi : s.initialized = false
  · obtain ⟨ht, hb, hc, hu⟩ := inv.start hi
    refine ⟨.first, getPoseFromTransform 1,
      { s with
        window := ⟨0, 0, 0⟩
        position := 1
        lastMatcherPose := ⟨0, 0, 0⟩
        initialized := true
        temp := Frame.initialize { s.temp with origin := ⟨0, 0, 0⟩ } }, b, ?_, ?_, ?_, ?_, ?_, ?_, ?_, ?_⟩
    · unfold update
      rw [if_pos (by simp [hi])]
    · refine ⟨⟨inv.alg.engine, inv.alg.origins, inv.alg.placed, inv.alg.first, inv.alg.lastId, ?_,
        inv.alg.temp, inv.alg.last, ?_⟩, ⟨rfl, inv.win.rigid, ?_⟩, ?_, inv.unused⟩
      · show (1 : Trans) = getTransFromPose ⟨0, 0, 0⟩ * s.transTemp
        rw [ht, trans_zero, Matrix.one_mul]
      · intro x hx; rw [hb] at hx; cases hx
      · simp only [hc, Matrix.mul_one]
      · intro h; cases h
    · rfl
    · simp [pending]
    · rfl
    · rfl
    · rfl
    · have := mergeTraced_self ⟨⟨0, 0, 0⟩, []⟩ 1
      simp only at this
      refine .first hi rfl rfl rfl rfl hb rfl ?_ ht
      show (Frame.mergeTraced ⟨⟨0, 0, 0⟩, []⟩ 1 ⟨0, 0, 0⟩).inserts = _
      rw [this]; rfl
  · have hi' : s.initialized = true := by simpa using hi
    set s0 : State := { s with unused := s.unused * inp.motion } with hs0
    have hur : IsRigid (s.unused * inp.motion) := rigid_mul inv.unused adm.motion
    by_cases hm : movedEnough s (s.unused * inp.motion)
    · have hm0 : movedEnough s0 s0.unused := hm
      set s1 : State := { s0 with unused := 1 } with hs1
      have a1 : AInv s1 b := ⟨inv.alg.engine, inv.alg.origins, inv.alg.placed, inv.alg.first,
        inv.alg.lastId, inv.alg.pos, inv.alg.temp, inv.alg.last, inv.alg.chain⟩
      have hg : getTransFromPose s.window * viaPcl (s.positionCumul * inp.motion) =
          getTransFromPose s.lastMatcherPose * inp.motion := by
        rw [viaPcl_rigid (rigid_mul inv.win.rigid adm.motion), ← Matrix.mul_assoc]
        rw [inv.win.pose]
      cases hmat : inp.matcher with
      | none =>
        have adm1 : Admissible s1 inp := ⟨adm.motion, adm.matcher, adm.addrs, adm.fresh, adm.loops, adm.order⟩
        obtain ⟨s', b', h, a', same, hpos, hgr⟩ := inv_updateGraph a1 adm1 adm.motion ((100 : ℝ) • 1)
        refine ⟨.failed (getTransFromPose s.lastMatcherPose * inp.motion) inp.motion,
          getPoseFromTransform s'.position, s', b', ?_, ⟨a', ⟨?_, ?_, ?_⟩, ?_, ?_⟩, ?_, ?_, ?_, ?_, ?_, ?_⟩
        · unfold update
          rw [if_neg (by simp [hi'])]
          simp only [← hs0]
          rw [if_neg (not_not_intro hm0)]
          simp only [hmat]
          show (updateGraph inp.motion ((100 : ℝ) • 1) inp s1).bind _ = _
          rw [h, Res.bind_ok]
          show Res.ok ((Event.failed (getTransFromPose s.window *
            viaPcl (s.positionCumul * inp.motion)) inp.motion, _), s') = _
          rw [hg]
        · rw [same.window]; exact inv.win.th
        · rw [same.cumul]; exact inv.win.rigid
        · rw [same.window, same.cumul, same.matcher]; exact inv.win.pose
        · intro h; rw [same.initialized] at h; simp [hs1, hs0, hi'] at h
        · rw [same.unused]; exact rigid_one
        · rw [same.initialized]; exact hi'
        · simp [pending]
        · rw [same.minD]
        · rw [same.minR]
        · rw [same.maxT]
        · exact .failed hi' hm hmat hpos same.matcher same.unused hgr
      | some m =>
        have hreg := adm.matcher m hmat
        set p := getPoseFromTransform (getTransFromPose s.window * convertToTransform m) with hp
        have hpt : getTransFromPose p = getTransFromPose s.window * convertToTransform m :=
          trans_pose (rigid_mul (getTransFromPose_rigid _) hreg)
        set inc := (getTransFromPose s.lastMatcherPose)⁻¹ * getTransFromPose p with hinc
        have hir : IsRigid inc := by
          rw [hinc, trans_inv]
          exact rigid_mul (getTransFromPose_rigid _) (getTransFromPose_rigid _)
        set s2 : State := { s1 with lastMatcherPose := p } with hs2
        have a2 : AInv s2 b := ⟨inv.alg.engine, inv.alg.origins, inv.alg.placed, inv.alg.first,
          inv.alg.lastId, inv.alg.pos, inv.alg.temp, inv.alg.last, inv.alg.chain⟩
        have adm2 : Admissible s2 inp := ⟨adm.motion, adm.matcher, adm.addrs, adm.fresh, adm.loops, adm.order⟩
        obtain ⟨s', b', h, a', same, hpos, hgr⟩ := inv_updateGraph a2 adm2 hir ((1 / 100 : ℝ) • 1)
        have hw : s'.window = s.window := same.window
        obtain ⟨w1, w2, w3⟩ := moveWindow_spec s'.cellSize (by rw [hw]; exact inv.win.th : s'.window.th = 0) hreg
        refine ⟨.matched (getTransFromPose s.lastMatcherPose * inp.motion) inp.motion p,
          getPoseFromTransform s'.position,
          { s' with
            window := (moveWindow s'.cellSize s'.window (convertToTransform m)).1
            positionCumul := (moveWindow s'.cellSize s'.window (convertToTransform m)).2 }, b', ?_,
          ⟨⟨a'.engine, a'.origins, a'.placed, a'.first, a'.lastId, a'.pos, a'.temp, a'.last, a'.chain⟩,
            ⟨w1, w2, ?_⟩, ?_, ?_⟩, ?_, ?_, ?_, ?_, ?_, ?_⟩
        · unfold update
          rw [if_neg (by simp [hi'])]
          simp only [← hs0]
          rw [if_neg (not_not_intro hm0)]
          simp only [hmat, hg]
          have e1 : getPoseFromTransform (getTransFromPose s1.window * convertToTransform m) = p := rfl
          rw [e1]
          have e2 : (getTransFromPose s1.lastMatcherPose)⁻¹ * getTransFromPose p = inc := rfl
          rw [e2, ← hs2, h, Res.bind_ok]
        · simp only
          rw [w3, hw, ← hpt]
          show getTransFromPose p = getTransFromPose s'.lastMatcherPose
          rw [same.matcher]
        · intro h
          have h : s'.initialized = false := h
          rw [same.initialized] at h; simp [hs2, hs1, hs0, hi'] at h
        · show IsRigid s'.unused
          rw [same.unused]; exact rigid_one
        · show s'.initialized = true
          rw [same.initialized]; exact hi'
        · simp [pending]
        · exact same.minD
        · exact same.minR
        · exact same.maxT
        · exact .matched hi' hm hmat hp hpos same.matcher same.unused hgr
    · have hm0 : ¬ movedEnough s0 s0.unused := hm
      refine ⟨.idle inp.motion, getPoseFromTransform (s.position * inp.motion), s0, b, ?_,
        ⟨⟨inv.alg.engine, inv.alg.origins, inv.alg.placed, inv.alg.first, inv.alg.lastId, inv.alg.pos,
          inv.alg.temp, inv.alg.last, inv.alg.chain⟩, ⟨inv.win.th, inv.win.rigid, inv.win.pose⟩, ?_, hur⟩,
        hi', rfl, rfl, rfl, rfl, .idle hi' hm rfl rfl rfl rfl rfl rfl⟩
      · unfold update
        rw [if_neg (by simp [hi'])]
        simp only [← hs0]
        rw [if_pos hm0]
      · intro h; rw [show s0.initialized = s.initialized from rfl, hi'] at h; cases h

theorem full_init : Full init ⟨[], []⟩ := by
  refine ⟨⟨Slam.inv_init, by simp, rfl, rfl, by simp, ?_, rigid_one, rigid_one, by simp⟩,
    ⟨rfl, rigid_one, ?_⟩, fun _ => ⟨rfl, rfl, rfl, rfl⟩, rigid_one⟩
  · show (1 : Trans) = getTransFromPose ⟨0, 0, 0⟩ * 1
    rw [trans_zero, Matrix.one_mul]
  · exact Matrix.mul_one _

theorem full_setDistance {s : State} {b : Slam.Book Frame} (inv : Full s b) (d : ℝ) :
    Full { s with maxTraveled := d } b :=
  ⟨⟨inv.alg.engine, inv.alg.origins, inv.alg.placed, inv.alg.first, inv.alg.lastId, inv.alg.pos,
    inv.alg.temp, inv.alg.last, inv.alg.chain⟩, ⟨inv.win.th, inv.win.rigid, inv.win.pose⟩, inv.start,
    inv.unused⟩

/-- What holds after any series of updates. -/
structure Facts (log : List (Event × Pose)) (s : State) : Prop where
  start : s.initialized = false ↔ log = []
  matcher : s.lastMatcherPose = (estimate (log.map Prod.fst)).2
  last : ∀ l e p, log = l ++ [(e, p)] →
    p = getPoseFromTransform (s.position * pending e) ∧ IsRigid (pending e)
  minD : s.minDistance = 1 / 5
  minR : s.minRotation = 1 / 10

theorem estimate_append (l : List (Event × Pose)) (e : Event) (p : Pose) :
    estimate ((l ++ [(e, p)]).map Prod.fst) = estimate (l.map Prod.fst ++ [e]) := by simp

theorem facts_step {log : List (Event × Pose)} {s s' : State} {b b' : Slam.Book Frame} {inp : Input}
    {e : Event} {p : Pose} (f : Facts log s) (hm : IsRigid inp.motion) (hi : s'.initialized = true)
    (hp : p = getPoseFromTransform (s'.position * pending e)) (hd : s'.minDistance = s.minDistance)
    (hr : s'.minRotation = s.minRotation) (h : StepCase inp s s' b b' e) :
    Facts (log ++ [(e, p)]) s' := by
  refine ⟨by simp [hi], ?_, ?_, hd.trans f.minD, hr.trans f.minR⟩
  · rw [estimate_append]
    unfold estimate
    rw [List.foldl_append]
    have hm := f.matcher
    unfold estimate at hm
    cases h with
    | first h0 _ hl =>
      have := f.start.1 h0
      subst this
      simp [hl]
    | idle _ _ _ hl => simp only [List.foldl_cons, List.foldl_nil, hl, hm]
    | failed _ _ _ _ hl => simp only [List.foldl_cons, List.foldl_nil, hl, hm]
    | matched _ _ _ _ _ hl => simp only [List.foldl_cons, List.foldl_nil, hl]
  · intro l e' p' hl
    have := List.append_inj' hl rfl
    simp only [List.cons.injEq, Prod.mk.injEq, and_true] at this
    obtain ⟨-, rfl, rfl⟩ := this
    refine ⟨hp, ?_⟩
    cases h with
    | idle => exact hm
    | _ => exact rigid_one

/-- What holds as long as no loop closure is found. -/
structure LoopFree (log : List (Event × Pose)) (s : State) (b : Slam.Book Frame) : Prop where
  pos : s.position = (estimate (log.map Prod.fst)).1
  consLen : b.cons.length = b.poses.length - 1
  cons : ∀ (i : ℕ) c, b.cons[i]? = some c → c.1 = i ∧ c.2.1 = i + 1 ∧
    ∀ x y, b.poses[i]? = some x → b.poses[i + 1]? = some y →
      getTransFromPose y.1 = getTransFromPose x.1 * getTransFromPose c.2.2.1
  scans : (b.poses.map Prod.snd ++ [s.temp]).flatMap Frame.scans =
    (log.filter fun x => x.1.scanUsed).map fun x => getTransFromPose x.2

theorem scans_append (f : Frame) (ins : Insert) :
    Frame.scans { f with inserts := f.inserts ++ [ins] } =
      f.scans ++ [getTransFromPose f.origin * ins.place] := by
  simp [Frame.scans]

theorem loopFree_grown {log : List (Event × Pose)} {s s' : State} {b b' : Slam.Book Frame} {inp : Input}
    {e : Event} {p : Pose} {inc : Trans} (inv : Full s b) (f : LoopFree log s b)
    (hl : inp.loops = []) (hpos : s'.position = s.position * inc)
    (hest : (estimate (log.map Prod.fst ++ [e])).1 = (estimate (log.map Prod.fst)).1 * inc)
    (hu : e.scanUsed = true) (hp : getTransFromPose p = s'.position) (g : Grown inp inc s s' b b') :
    LoopFree (log ++ [(e, p)]) s' b' := by
  obtain ⟨ins, g1, g2, g3⟩ := g
  have hposes : (log ++ [(e, p)]).filter (fun x => x.1.scanUsed) =
      log.filter (fun x => x.1.scanUsed) ++ [(e, p)] := by
    rw [List.filter_append]; simp [hu]
  rcases g3 with ⟨rfl, ht, -⟩ | ⟨rfl, ht, -⟩
  · refine ⟨?_, f.consLen, f.cons, ?_⟩
    · rw [estimate_append, hest, hpos, f.pos]
    · rw [hposes, List.map_append, ← f.scans, ht]
      simp only [List.flatMap_append, List.flatMap_cons, List.flatMap_nil, List.append_nil, scans_append,
        List.append_assoc, List.map_cons, List.map_nil]
      rw [hp, ← g1, ht]
  · have hins : inserted inp s b =
        { poses := b.poses ++ [(s.temp.origin, s.temp)]
          cons := b.cons ++ (if 0 < b.poses.length then
            [(b.poses.length - 1, b.poses.length, getPoseFromTransform s.lastTrans, .odom)] else []) } := by
      unfold inserted optimised
      simp [hl]
    rw [hins]
    refine ⟨?_, ?_, ?_, ?_⟩
    · rw [estimate_append, hest, hpos, f.pos]
    · have := f.consLen
      by_cases h0 : 0 < b.poses.length
      · simp only [if_pos h0, List.length_append, List.length_singleton, this]; omega
      · simp only [if_neg h0, List.length_append, List.length_singleton, this, List.length_nil]; omega
    · intro i c hc
      by_cases h0 : 0 < b.poses.length
      · simp only [if_pos h0] at hc
        rcases Nat.lt_or_ge i b.cons.length with hi | hi
        · rw [List.getElem?_append_left hi] at hc
          obtain ⟨h1, h2, h3⟩ := f.cons i c hc
          refine ⟨h1, h2, ?_⟩
          have := f.consLen
          intro x y hx hy
          rw [List.getElem?_append_left (by omega)] at hx hy
          exact h3 x y hx hy
        · have hcl := f.consLen
          have hi' : i = b.cons.length := by
            by_contra hne
            rw [List.getElem?_eq_none (by simp; omega)] at hc
            cases hc
          subst hi'
          rw [List.getElem?_append_right (le_refl _), Nat.sub_self] at hc
          simp only [List.getElem?_cons_zero, Option.some.injEq] at hc
          subst hc
          refine ⟨by simp only [hcl], by simp only [hcl]; omega, ?_⟩
          intro x y hx hy
          rw [List.getElem?_append_left (by omega)] at hx
          rw [List.getElem?_append_right (by omega),
            show b.cons.length + 1 - b.poses.length = 0 by omega] at hy
          simp only [List.getElem?_cons_zero, Option.some.injEq] at hy
          subst hy
          simp only
          rw [trans_pose inv.alg.last]
          apply inv.alg.chain x
          rw [List.getLast?_eq_getElem?, ← hcl, hx]
      · have hcl := f.consLen
        simp only [if_neg h0, List.append_nil] at hc
        rw [List.getElem?_eq_none (by omega)] at hc
        cases hc
    · rw [hposes, List.map_append (l₁ := log.filter _), ← f.scans]
      simp only [List.map_append, List.flatMap_append, List.map_cons, List.map_nil, List.flatMap_cons,
        List.flatMap_nil, List.append_nil]
      congr 1
      unfold Frame.scans
      rw [ht, hp, ← g1]
      rfl

theorem estimate_snoc (l : List Event) (e : Event) : estimate (l ++ [e]) = match e with
    | .first => estimate l
    | .idle _ => estimate l
    | .failed _ m => ((estimate l).1 * m, (estimate l).2)
    | .matched _ _ p => ((estimate l).1 * ((getTransFromPose (estimate l).2)⁻¹ * getTransFromPose p), p) := by
  conv_lhs => unfold estimate
  rw [List.foldl_append]
  cases e <;> rfl

theorem loopFree_step {log : List (Event × Pose)} {s s' : State} {b b' : Slam.Book Frame} {inp : Input}
    {e : Event} {p : Pose} (inv : Full s b) (inv' : Full s' b') (fa : Facts log s) (f : LoopFree log s b)
    (hl : inp.loops = []) (hp : p = getPoseFromTransform (s'.position * pending e))
    (h : StepCase inp s s' b b' e) : LoopFree (log ++ [(e, p)]) s' b' := by
  have hpt : pending e = 1 → getTransFromPose p = s'.position := by
    intro h1
    rw [hp, h1, Matrix.mul_one, trans_pose (rigid_pos inv'.alg)]
  cases h with
  | first h0 hpos _ _ hb hbn ho hi =>
    have := fa.start.1 h0
    subst this
    subst hb
    refine ⟨?_, f.consLen, f.cons, ?_⟩
    · rw [hpos]; rfl
    · rw [hbn]
      simp only [List.map_nil, List.nil_append, List.flatMap_cons, List.flatMap_nil, List.append_nil]
      unfold Frame.scans
      rw [hi, ho]
      simp only [Event.scanUsed, List.filter_cons, if_true, List.filter_nil, List.map_cons, List.map_nil]
      rw [hpt rfl, hpos, trans_zero, Matrix.one_mul]
  | idle _ _ hpos _ _ hb ht =>
    subst hb
    refine ⟨?_, f.consLen, f.cons, ?_⟩
    · rw [estimate_append, estimate_snoc, hpos, f.pos]
    · rw [ht, f.scans, List.filter_append]
      simp [Event.scanUsed]
  | failed _ _ _ hpos _ _ g =>
    exact loopFree_grown inv f hl (hpos hl) (by rw [estimate_snoc]) rfl (hpt rfl) g
  | matched _ _ _ _ hpos _ _ g =>
    exact loopFree_grown inv f hl (hpos hl) (by rw [estimate_snoc, fa.matcher]) rfl (hpt rfl) g

/-- The scans in the frames. -/
def contents (s : State) (b : Slam.Book Frame) : List (List Insert) :=
  b.poses.map (fun x => x.2.inserts) ++ [s.temp.inserts]

/-- What the frames contain. -/
structure Stored (log : List (Event × Pose)) (started : Bool) (l : List (List Insert)) : Prop where
  count : l.flatten.length = (log.filter fun x => x.1.scanUsed).length
  rays : ∀ f ∈ l, ∀ i ∈ f, i.ray = (0, 0)
  heads : ∀ f ∈ l, ∀ i, f.head? = some i → i.place = 1
  nonempty : started = true → ∀ f ∈ l, f ≠ []

theorem inserts_optimised (inp : Input) (ps : List (Pose × Frame)) :
    (optimised inp ps).map (fun x => x.2.inserts) = ps.map fun x => x.2.inserts := by
  unfold optimised
  split_ifs
  · rfl
  · apply List.ext_getElem?
    intro i
    simp only [List.getElem?_map, List.getElem?_mapIdx, Option.map_map]
    rfl

theorem stored_grown {log : List (Event × Pose)} {s s' : State} {b b' : Slam.Book Frame} {inp : Input}
    {e : Event} {p : Pose} {inc : Trans} (f : Stored log true (contents s b)) (hu : e.scanUsed = true)
    (g : Grown inp inc s s' b b') : Stored (log ++ [(e, p)]) true (contents s' b') := by
  obtain ⟨ins, g1, g2, g3⟩ := g
  have hlog : ((log ++ [(e, p)]).filter fun x => x.1.scanUsed).length =
      (log.filter fun x => x.1.scanUsed).length + 1 := by
    rw [List.filter_append]; simp [hu]
  obtain ⟨hc, hr, hh, hn⟩ := f
  rcases g3 with ⟨rfl, ht, -⟩ | ⟨rfl, ht, hpl, -⟩
  · unfold contents at *
    rw [ht]
    simp only [List.mem_append, List.mem_singleton] at hr hh hn
    have hne := hn trivial s.temp.inserts (.inr rfl)
    refine ⟨?_, ?_, ?_, ?_⟩
    · rw [hlog, ← hc]; simp; omega
    · intro f hf
      simp only [List.mem_append, List.mem_singleton] at hf
      rcases hf with hf | rfl
      · exact hr f (.inl hf)
      · intro i hi
        rcases List.mem_append.1 hi with hi | hi
        · exact hr _ (.inr rfl) i hi
        · rw [List.mem_singleton.1 hi]; exact g2
    · intro f hf
      simp only [List.mem_append, List.mem_singleton] at hf
      rcases hf with hf | rfl
      · exact hh f (.inl hf)
      · intro i hi
        rw [List.head?_append_of_ne_nil _ hne] at hi
        exact hh _ (.inr rfl) i hi
    · intro _ f hf
      simp only [List.mem_append, List.mem_singleton] at hf
      rcases hf with hf | rfl
      · exact hn trivial f (.inl hf)
      · simp
  · have hcon : contents s' (inserted inp s b) = contents s b ++ [[ins]] := by
      unfold contents inserted
      simp only [inserts_optimised, ht, List.map_append, List.map_cons, List.map_nil]
    rw [hcon]
    refine ⟨?_, ?_, ?_, ?_⟩
    · rw [hlog, ← hc]; simp
    · intro f hf
      rcases List.mem_append.1 hf with hf | hf
      · exact hr f hf
      · rw [List.mem_singleton.1 hf]; simp [g2]
    · intro f hf
      rcases List.mem_append.1 hf with hf | hf
      · exact hh f hf
      · rw [List.mem_singleton.1 hf]
        intro i hi
        simp only [List.head?_cons, Option.some.injEq] at hi
        rw [← hi]; exact hpl
    · intro _ f hf
      rcases List.mem_append.1 hf with hf | hf
      · exact hn rfl f hf
      · rw [List.mem_singleton.1 hf]; simp

theorem stored_step {log : List (Event × Pose)} {s s' : State} {b b' : Slam.Book Frame} {inp : Input}
    {e : Event} {p : Pose} (fa : Facts log s) (f : Stored log s.initialized (contents s b))
    (h : StepCase inp s s' b b' e) : Stored (log ++ [(e, p)]) true (contents s' b') := by
  cases h with
  | first h0 _ _ _ hb hbn _ hi =>
    have := fa.start.1 h0
    subst this
    subst hb
    unfold contents
    rw [hbn, hi]
    refine ⟨?_, ?_, ?_, ?_⟩ <;> simp [Event.scanUsed]
  | idle h0 _ _ _ _ hb ht =>
    subst hb
    rw [h0] at f
    unfold contents at *
    rw [ht]
    refine ⟨?_, f.rays, f.heads, f.nonempty⟩
    rw [f.count, List.filter_append]
    simp [Event.scanUsed]
  | failed h0 _ _ _ _ _ g => rw [h0] at f; exact stored_grown f rfl g
  | matched h0 _ _ _ _ _ _ g => rw [h0] at f; exact stored_grown f rfl g

theorem Reach.full {P : Input → Prop} {log : List (Event × Pose)} {s : State} (h : Reach P log s) :
    ∃ b, Full s b ∧ Facts log s ∧ Stored log s.initialized (contents s b) ∧ ((∀ inp, P inp → inp.loops = []) → LoopFree log s b) := by
  induction h with
  | init =>
    refine ⟨_, full_init, ⟨by simp [Algo.init], rfl, by simp, rfl, rfl⟩, ⟨?_, ?_, ?_, ?_⟩,
      fun _ => ⟨rfl, rfl, by simp, ?_⟩⟩ <;> simp [contents, Algo.init, Frame.scans]
  | setDistance d _ ih =>
    obtain ⟨b, ih, f, st, l⟩ := ih
    exact ⟨b, full_setDistance ih d, ⟨f.start, f.matcher, f.last, f.minD, f.minR⟩, st,
      fun hl => ⟨(l hl).pos, (l hl).consLen, (l hl).cons, (l hl).scans⟩⟩
  | update _ hp adm h ih =>
    obtain ⟨b, ih, f, st, l⟩ := ih
    obtain ⟨e, p, s', b', h', f', hi, hpe, hd, hr, -, sc⟩ := update_step ih adm
    rw [h] at h'
    cases h'
    exact ⟨b', f', facts_step f adm.motion hi hpe hd hr sc, hi ▸ stored_step f st sc,
      fun hl => loopFree_step ih f' f (l hl) (hl _ hp) hpe sc⟩

end Verif.Algo
