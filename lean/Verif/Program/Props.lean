import Verif.Program.Lemmas
import Verif.World.Messages

/-
Property theorems of the program: C136.
-/
namespace Verif.Program

open Verif Verif.Geo Verif.World

variable {eig : NDT.Eig} {rnd : ℝ → ℝ} {srv : Launch.Server}

theorem stamp_eq {n : Launch.Names} {a : Launch.Alg} (h : Launch.launch eig rnd srv = .ok (n, a)) (m : Message) :
    m.stamp (Launch.subscribe n).2 = timeOf srv m := by
  obtain ⟨-, -, -, -, h1, h2, h3⟩ := Launch.C130_names h
  unfold timeOf
  by_cases e1 : srv.str "subscribe_mode" = some "ODOM"
  · rw [h1 e1, if_pos (.inl e1)]; rfl
  · by_cases e2 : srv.str "subscribe_mode" = some "POSE"
    · rw [h2 e2, if_pos (.inr e2)]; rfl
    · rw [h3 e1 e2, if_neg (by rintro (h | h); exacts [e1 h, e2 h])]; rfl

/-- **C136**, messages that cannot be used: nothing changes, and the transform published last is published again, with
the time of the message. -/
theorem C136_unusable_partial (he : NDT.EigOk eig) {n : Launch.Names} {log : List Served} {s : Node.State Launch.Alg}
    (h : Live .tolerant eig rnd srv n log s) {m : Message} (hu : ¬ Usable m) :
    message .tolerant eig n m s = .ok ([.tf s.tf (timeOf srv m) (mapFrame srv) (odomFrame srv)], s) ∧
    ∀ x ∈ log.getLast?, x.pubs.head? = some (.tf s.tf (timeOf srv x.msg) (mapFrame srv) (odomFrame srv)) := by
  obtain ⟨us, inv⟩ := h.inv he
  obtain ⟨a, hl⟩ := inv.launched
  obtain ⟨-, n2, n3, -⟩ := Launch.C130_names hl
  have e2 : n.odom = odomFrame srv := n2
  have e3 : n.fixed = mapFrame srv := n3
  rw [message_dropped _ _ _ _ hu, stamp_eq hl, e2, e3]
  refine ⟨rfl, fun x hx => ?_⟩
  rw [inv.last x hx, stamp_eq hl, e2, e3]

/-- **C136**, the first message that can be used: only the transform is published (which was never written, C54). -/
theorem C136_first_partial (he : NDT.EigOk eig) {n : Launch.Names} {log : List Served} {s s' : Node.State Launch.Alg}
    (h : Live .tolerant eig rnd srv n log s) (h0 : usable log = []) {m : Message} (hu : Usable m) {pubs : List Pub}
    (hm : message .tolerant eig n m s = .ok (pubs, s')) :
    pubs = [.tf none (timeOf srv m) (mapFrame srv) (odomFrame srv)] := by
  obtain ⟨us, inv⟩ := h.inv he
  obtain ⟨a, hl⟩ := inv.launched
  obtain ⟨-, n2, n3, -⟩ := Launch.C130_names hl
  have e2 : n.odom = odomFrame srv := n2
  have e3 : n.fixed = mapFrame srv := n3
  have hus : us = [] := by
    have := inv.made
    unfold MadeFor at this
    rw [h0] at this
    exact List.map_eq_nil_iff.1 this
  have hr : ¬ s.ready = true := fun hr => inv.ready.1 hr hus
  rw [message_used _ _ _ _ hu] at hm
  obtain ⟨r, -, hm⟩ := Res.bind_eq_ok.1 hm
  rw [if_neg hr, stamp_eq hl, e2, e3, inv.tf.1 (by rw [hus]; simp)] at hm
  exact (congrArg Prod.fst (Res.ok.inj hm)).symm

/-- The window message, if the coordinate that was never written can be read. -/
theorem getNDTMap_ok (z : ℝ) (s : Whole.State) (frame : String) :
    ∃ msg, getNDTMap (some z) s frame = .ok (.window s.windowTime frame s.windowSeq msg) ∧ Describes s.window msg := by
  have h := C108_window_message_partial s.window (act (transBtwFrames (origin s.window) ⟨0, 0, 0⟩)
    (NDTGrid.serializeCorner s.window.grid)).1 (act (transBtwFrames (origin s.window) ⟨0, 0, 0⟩)
    (NDTGrid.serializeCorner s.window.grid)).2 z
  exact ⟨_, congrArg (Res.map fun msg => Pub.window s.windowTime frame s.windowSeq msg) h, rfl, rfl, rfl⟩

/-- What is published after the transform. -/
theorem publish_ok {n : Launch.Names} {m : Message} {s : Whole.State} {z : ℝ} (hj : m.junk = some z)
    {g : List Slam.Arrow} (hg : Algo.getGraphSerialized .tolerant s.alg n.fixed = .ok g) :
    ∃ msg, Describes s.window msg ∧ publish .tolerant n m s = .ok
      ([.window s.windowTime n.fixed s.windowSeq msg, .grid m.now n.fixed s.loadTime s.occ,
        .windowCloud n.fixed (Whole.pclWindow s), .mapCloud n.fixed (Whole.pclMap s)] ++
        if n.serialize then [.graph g] else []) := by
  obtain ⟨msg, h1, h2⟩ := getNDTMap_ok z s n.fixed
  refine ⟨msg, h2, ?_⟩
  unfold publish
  rw [hj, h1, hg]
  simp only [Res.bind_ok, Res.map_ok]
  split_ifs <;> rfl

theorem publish_junk {o : Loop.Overread} {n : Launch.Names} {m : Message} {s : Whole.State} (hj : m.junk = none) :
    publish o n m s = .ub .uninitialised := by
  unfold publish
  rw [hj]
  have : getNDTMap none s n.fixed = .ub .uninitialised := by
    have := C108_false s.window
    unfold getNDTMap
    exact congrArg (Res.map fun msg => Pub.window s.windowTime n.fixed s.windowSeq msg) this
  rw [this]
  rfl

/-- **C136**, partial: every later message that can be used is answered completely: once on each topic, in the right
frames, with the right times, and with the state of the algorithm after this message.
Missing: the strict reading of the standard (`C136_false`). -/
theorem C136_published_partial (he : NDT.EigOk eig) {n : Launch.Names} {log : List Served}
    {s s' : Node.State Launch.Alg} (h : Live .tolerant eig rnd srv n log s) (h0 : usable log ≠ []) {m : Message}
    (hu : Usable m) (adm : Admissible n m s) {pubs : List Pub} (hm : message .tolerant eig n m s = .ok (pubs, s')) :
    ∃ us, MadeFor (timeOf srv) (usable log ++ [m]) us ∧
      Launch.Session .tolerant eig rnd srv (fun _ => True) (us.map Update.entry) s'.alg ∧
      Complete eig srv us m s'.alg.state pubs := by
  obtain ⟨us', inv'⟩ := (Live.message h adm hm).inv he
  obtain ⟨us, inv⟩ := h.inv he
  obtain ⟨a, hl⟩ := inv.launched
  obtain ⟨-, n2, n3, n4, -⟩ := Launch.C130_names hl
  have e2 : n.odom = odomFrame srv := n2
  have e3 : n.fixed = mapFrame srv := n3
  have hst : Message.stamp (Launch.subscribe n).2 = timeOf srv := funext (stamp_eq hl)
  have hmade := inv'.made
  rw [usable_append, if_pos hu, hst] at hmade
  have hlen : 2 ≤ us'.length := by
    have := congrArg List.length hmade
    have h1 := List.length_pos_iff.2 h0
    simp at this
    omega
  have hne' : us' ≠ [] := fun h => by rw [h] at hlen; simp at hlen
  have hready : s.ready = true := by
    rw [inv.ready]
    intro h
    have := inv.made
    unfold MadeFor at this
    rw [h] at this
    exact h0 (List.map_eq_nil_iff.1 this.symm)
  refine ⟨us', hmade, inv'.session, ?_⟩
  have htf := inv'.last ⟨m, pubs⟩ (by simp)
  rw [hst, e2, e3] at htf
  simp only at htf
  have hreach := Whole.C129_runs_partial he inv'.session.own.1
  have hgs := inv'.session.own.1.shown
  have hnodes := (Whole.C115_frames he hreach).1
  rw [message_used _ _ _ _ hu] at hm
  obtain ⟨r, -, hm⟩ := Res.bind_eq_ok.1 hm
  rw [if_pos hready] at hm
  obtain ⟨l, hpl, hm⟩ : ∃ l, publish .tolerant n m r.2.state = .ok l ∧ _ = _ := by
    rcases hp : publish .tolerant n m r.2.state with l | e | e
    · rw [hp] at hm
      exact ⟨l, rfl, Res.ok.inj hm⟩
    · rw [hp] at hm; cases hm
    · rw [hp] at hm; cases hm
  have q1 : _ = pubs := congrArg Prod.fst hm
  have q2 : _ = s' := congrArg Prod.snd hm
  have q3 : r.2 = s'.alg := by rw [← q2]
  rw [q3] at hpl
  rw [e2, e3] at q1
  -- the first message
  rw [← q1] at htf
  simp only [List.head?_cons, Option.some.injEq] at htf
  rw [htf] at q1
  have hlast : ∃ u, u ∈ us'.getLast? := by
    cases hg : us'.getLast? with
    | none => exact absurd (List.getLast?_eq_none_iff.1 hg) hne'
    | some u => exact ⟨u, rfl⟩
  obtain ⟨u, hul⟩ := hlast
  have hcons := inv'.tf.2 hlen u hul
  have hwl : ∃ u, u ∈ (us'.filter Update.inWindow).getLast? := by
    cases hg : (us'.filter Update.inWindow).getLast? with
    | none => exact absurd (List.getLast?_eq_none_iff.1 hg) (inv'.merged hne')
    | some u => exact ⟨u, rfl⟩
  obtain ⟨w, hw⟩ := hwl
  -- the others
  obtain ⟨g, hg, -, g1, g2⟩ := Algo.C124_algorithm_partial (hreach.inv he).2 n.fixed
  have hj : ∃ z, m.junk = some z := by
    cases hj : m.junk with
    | none => rw [publish_junk hj] at hpl; cases hpl
    | some z => exact ⟨z, rfl⟩
  obtain ⟨z, hj⟩ := hj
  obtain ⟨msg, hdesc, hp⟩ := publish_ok (n := n) (m := m) (s := s'.alg.state) hj hg
  rw [hp, e3] at hpl
  have hll := (Res.ok.inj hpl).symm
  have hser : (if n.serialize then [Pub.graph g] else []) =
      if srv.flag "serialize_graph" = some false then [] else [Pub.graph g] := by
    by_cases h : srv.flag "serialize_graph" = some false
    · rw [if_pos h, if_neg (by rw [n4.2 h]; simp)]
    · rw [if_neg h, if_pos (by
        cases hs : n.serialize with
        | true => rfl
        | false => exact absurd (n4.1 hs) h)]
  rw [hser] at hll
  rw [hll] at q1
  have hmem : ∀ p ∈ pubs, p = .tf s'.tf (timeOf srv m) (mapFrame srv) (odomFrame srv) ∨
      p = .window s'.alg.state.windowTime (mapFrame srv) s'.alg.state.windowSeq msg ∨
      p = .grid m.now (mapFrame srv) s'.alg.state.loadTime s'.alg.state.occ ∨
      p = .windowCloud (mapFrame srv) (Whole.pclWindow s'.alg.state) ∨
      p = .mapCloud (mapFrame srv) (Whole.pclMap s'.alg.state) ∨ p = .graph g := by
    intro p hp
    rw [← q1] at hp
    split_ifs at hp <;> simp at hp <;> tauto
  refine ⟨?_, ?_, ?_, ?_, ?_, ?_, ?_⟩
  · rw [← q1]
    split_ifs <;> rfl
  · intro t stamp frame child hp
    have := hmem _ hp
    simp at this
    obtain ⟨rfl, rfl, rfl, rfl⟩ := this
    exact ⟨rfl, rfl, rfl, u, hul, hcons⟩
  · intro stamp frame seq msg' hp
    have := hmem _ hp
    simp at this
    obtain ⟨rfl, rfl, rfl, rfl⟩ := this
    exact ⟨⟨w, hw, inv'.time w hw⟩, rfl, inv'.seq, hdesc⟩
  · intro stamp frame load msg' hp
    have := hmem _ hp
    simp at this
    obtain ⟨rfl, rfl, rfl, rfl⟩ := this
    have hlen0 : s'.alg.state.store = [] ↔ s'.alg.state.alg.engine.graph.nodes = [] := by
      rw [← List.length_eq_zero_iff, hnodes, List.length_eq_zero_iff]
    refine ⟨rfl, rfl, fun h0 => ?_, fun h0 => hgs.2 fun h => h0 (hlen0.1 h)⟩
    rw [hgs.1 (hlen0.2 h0)]
    exact ⟨rfl, rfl, rfl⟩
  · intro frame points hp
    have := hmem _ hp
    simp at this
    obtain ⟨rfl, rfl⟩ := this
    exact ⟨rfl, fun v hv => Whole.C114_window he hreach hv⟩
  · intro frame points hp
    have := hmem _ hp
    simp at this
    obtain ⟨rfl, rfl⟩ := this
    exact ⟨rfl, fun v hv => Whole.C113_map he hreach hv⟩
  · intro arrows hp
    have := hmem _ hp
    simp at this
    subst this
    exact ⟨g1, g2⟩

/-- **C136**, partial: the time of the last recalculation shown in the map changes only with new loop constraints; then
it is the time of the message. -/
theorem C136_load_partial (he : NDT.EigOk eig) {n : Launch.Names} {log : List Served}
    {s s' : Node.State Launch.Alg} (h : Live .tolerant eig rnd srv n log s) {m : Message} (adm : Admissible n m s)
    {pubs : List Pub} (hm : message .tolerant eig n m s = .ok (pubs, s')) :
    (∀ stamp frame load msg, .grid stamp frame load msg ∈ pubs → load = s'.alg.state.loadTime) ∧
    ((loopCount s'.alg.state = loopCount s.alg.state ∧ s'.alg.state.loadTime = s.alg.state.loadTime) ∨
      (loopCount s.alg.state < loopCount s'.alg.state ∧ s'.alg.state.loadTime = timeOf srv m)) := by
  obtain ⟨us, inv⟩ := h.inv he
  obtain ⟨a, hl⟩ := inv.launched
  by_cases hu : Usable m
  · rw [message_used _ _ _ _ hu] at hm
    obtain ⟨r, hr, hm⟩ := Res.bind_eq_ok.1 hm
    obtain ⟨u1, -⟩ := Launch.update_settings hr
    have hst := load_step he inv.session.own.1 (admissible_step adm hu) u1
    rw [← stamp_eq hl m]
    split_ifs at hm with hready
    · obtain ⟨l, hpl, hm⟩ : ∃ l, publish .tolerant n m r.2.state = .ok l ∧ _ = _ := by
        rcases hp : publish .tolerant n m r.2.state with l | e | e
        · rw [hp] at hm
          exact ⟨l, rfl, Res.ok.inj hm⟩
        · rw [hp] at hm; cases hm
        · rw [hp] at hm; cases hm
      have e1 := congrArg Prod.fst hm
      have e2 := congrArg Prod.snd hm
      simp only at e1 e2
      subst e1 e2
      refine ⟨?_, hst⟩
      intro stamp frame load msg hp
      unfold publish at hpl
      obtain ⟨wp, hwp, hpl⟩ := Res.bind_eq_ok.1 hpl
      have hwp' : ∀ a b c d, wp ≠ .grid a b c d := by
        intro a b c d hc
        rw [hc] at hwp
        unfold getNDTMap at hwp
        simp only at hwp
        rcases ht : toMapMsg { World.serialize r.2.state.window with origin :=
          ((World.serialize r.2.state.window).origin.1, (World.serialize r.2.state.window).origin.2.1, m.junk) } with
          x | x | x <;> rw [ht] at hwp <;> simp [Res.map] at hwp
      simp only [getOccupancyGrid, getPclMap2, getPclMap] at hpl
      have key : ∀ g : List Pub, (∀ x ∈ g, ∀ a b c d, x ≠ Pub.grid a b c d) → l = [wp, .grid m.now n.fixed
          r.2.state.loadTime r.2.state.occ, .windowCloud n.fixed (Whole.pclWindow r.2.state),
          .mapCloud n.fixed (Whole.pclMap r.2.state)] ++ g → load = r.2.state.loadTime := by
        intro g hg hlg
        rw [hlg] at hp
        simp at hp
        rcases hp with hp | hp | hp
        · exact absurd hp.symm (hwp' _ _ _ _)
        · exact hp.2.2.1
        · exact absurd rfl (hg _ hp _ _ _ _)
      split_ifs at hpl with hs
      · rcases hg : Algo.getGraphSerialized .tolerant r.2.state.alg n.fixed with g | e | e
        · rw [hg] at hpl
          exact key [.graph g] (by simp) (Res.ok.inj hpl).symm
        · rw [hg] at hpl; cases hpl
        · rw [hg] at hpl; cases hpl
      · exact key [] (by simp) (by rw [List.append_nil]; exact (Res.ok.inj hpl).symm)
    · have hm' := Res.ok.inj hm
      have e1 := congrArg Prod.fst hm'
      have e2 := congrArg Prod.snd hm'
      simp only at e1 e2
      subst e1 e2
      exact ⟨by simp, hst⟩
  · rw [message_dropped _ _ _ _ hu] at hm
    have hm' := Res.ok.inj hm
    have e1 := congrArg Prod.fst hm'
    have e2 := congrArg Prod.snd hm'
    simp only at e1 e2
    subst e1 e2
    exact ⟨by simp, .inl ⟨rfl, rfl⟩⟩

/-- **C136**, partial: a message is answered whenever the update of the algorithm succeeds. -/
theorem C136_answered_partial (he : NDT.EigOk eig) {n : Launch.Names} {log : List Served} {s : Node.State Launch.Alg}
    (h : Live .tolerant eig rnd srv n log s) {m : Message} {z : ℝ} (hj : m.junk = some z) (adm : Admissible n m s)
    (hu : Usable m → ∃ r, Launch.update .tolerant eig (m.input (Launch.subscribe n).2 (motion m s)) s.alg = .ok r) :
    ∃ pubs s', message .tolerant eig n m s = .ok (pubs, s') := by
  by_cases h1 : Usable m
  · obtain ⟨r, hr⟩ := hu h1
    rw [message_used _ _ _ _ h1, hr]
    obtain ⟨us, inv⟩ := h.inv he
    obtain ⟨hs, -⟩ := step_inv he inv adm h1 hr
    obtain ⟨g, hg, -⟩ := Algo.C124_algorithm_partial ((Whole.C129_runs_partial he hs.own.1).inv he).2 n.fixed
    obtain ⟨msg, -, hp⟩ := publish_ok (n := n) (m := m) (s := r.2.state) hj hg
    simp only [Res.bind_ok]
    rw [hp]
    split_ifs
    · exact ⟨_, _, rfl⟩
    · exact ⟨_, _, rfl⟩
    · exact ⟨_, _, rfl⟩
  · exact ⟨_, _, message_dropped _ _ _ _ h1⟩

/-- C136 fails in the strict reading: from the second message on that can be used, a value that was never written is
read for the window message (C108), whatever the update does. -/
theorem C136_false (o : Loop.Overread) (n : Launch.Names) {s : Node.State Launch.Alg} (hr : s.ready = true) {m : Message}
    (hu : Usable m) (hj : m.junk = none) : ∀ pubs s', message o eig n m s ≠ .ok (pubs, s') := by
  intro pubs s' h
  rw [message_used _ _ _ _ hu] at h
  obtain ⟨r, -, h⟩ := Res.bind_eq_ok.1 h
  rw [if_pos hr, publish_junk hj] at h
  cases h

/-! ### A run -/

/-- The message that makes the algorithm do this step. -/
noncomputable def exMessage (d : Launch.Step) : Message :=
  ⟨d.time, d.time, true, convertFromTransform d.motion, true, d.scan, d, 0, some 0⟩

theorem exMessage_odom {d : Launch.Step} (h : IsRigid d.motion) : getTransFromPose (exMessage d).odom = d.motion := by
  show getTransFromPose (getPoseFromTransform (convertToTransform (convertFromTransform d.motion))) = d.motion
  rw [C44_round_trips.2.2.2.2.2.2.2.1 _ h]
  exact C44_round_trips.2.2.1 _ h

theorem exMessage_input (c : Launch.Callback) (d : Launch.Step) {t : Trans} (h : d.motion = t) :
    (exMessage d).input c t = d := by
  subst h
  cases c <;> rfl

theorem exMessage_admissible {n : Launch.Names} {d : Launch.Step} {s : Node.State Launch.Alg}
    (h : Whole.AdmissibleOwn s.alg.state (d.outer s.alg)) : Admissible n (exMessage d) s := by
  intro _
  obtain ⟨-, h2, h3, h4, h5, h6, h7⟩ := h
  exact ⟨Algo.rigid_one, h2, h3, h4, h5, h6, h7⟩

/-- A run: the program is launched without parameters; the second message that can be used is answered completely. -/
theorem exRun : ∃ eig, NDT.EigOk eig ∧ ∃ srv n s0 m0 pubs0 s m pubs s', Live .tolerant eig id srv n [] s0 ∧
    Usable m0 ∧ Admissible n m0 s0 ∧ message .tolerant eig n m0 s0 = .ok (pubs0, s) ∧
    Usable m ∧ Admissible n m s ∧ message .tolerant eig n m s = .ok (pubs, s') := by
  obtain ⟨eig, he⟩ := NDT.exists_eig
  set srv : Launch.Server := ⟨none, fun _ => none, fun _ => none, fun _ => none⟩ with hsrv
  obtain ⟨n, a0, h0⟩ := (Launch.C130_starts eig id srv).1 (by simp [Launch.number, hsrv]; norm_num)
  obtain ⟨e0, -⟩ := Launch.launch_settings h0
  have r0 : Whole.Reach eig (fun a => Algo.NoLoops a) [] a0.state := by
    rw [e0]
    exact (Whole.Reach.init.setRadius _).setDistance _
  obtain ⟨inp, o, s1, inp1, g, mm, q, p, s, hp, ⟨hsc, hmo⟩, adm, hu, hp1, hsc1, adm1, hu1, -⟩ :=
    Whole.matched_step he r0 (fun _ _ _ _ => rfl) (by rw [e0]; rfl) (by rw [e0]; rfl) (fun _ _ _ _ => rfl)
  have s0 : Launch.Session .tolerant eig id srv (fun _ => True) [] a0 := .start h0
  obtain ⟨d0, -, ⟨c0, m0⟩, adm0, hu0⟩ := s0.extend he hp adm hu (fun _ _ => trivial)
  have s1' := s0.step trivial adm0 hu0
  obtain ⟨d1, -, ⟨c1, m1⟩, adm1', hu1'⟩ := s1'.extend he hp1 adm1 hu1 (fun _ _ => trivial)
  have l0 : Live .tolerant eig id srv n [] (Node.init a0) := .start h0
  have u0 : Usable (exMessage d0) := ⟨rfl, rfl, by
    show 400 ≤ d0.scan.length
    rw [c0, hsc, World.exScan, List.length_replicate]⟩
  have u1 : Usable (exMessage d1) := ⟨rfl, rfl, by
    show 400 ≤ d1.scan.length
    rw [c1, hsc1, World.exScan, List.length_replicate]⟩
  have ad0 : Admissible n (exMessage d0) (Node.init a0) := exMessage_admissible adm0
  have mo0 : motion (exMessage d0) (Node.init a0) = 1 := by simp [motion, Node.init]
  have q0 := message_used .tolerant eig n (Node.init a0) u0
  rw [mo0, exMessage_input _ _ (m0.trans hmo), show (Node.init a0).alg = a0 from rfl, hu0] at q0
  simp only [Res.bind_ok, Node.init, Bool.false_eq_true, if_false] at q0
  have l1 := Live.message l0 ad0 q0
  have mo1 : motion (exMessage d1) ⟨true, (exMessage d0).odom, ⟨0, 0, 0⟩, none, { a0 with state := s1 }⟩ = d1.motion := by
    unfold motion
    rw [if_pos rfl]
    simp only
    rw [exMessage_odom adm1'.motion, exMessage_odom adm0.motion, m0, hmo, inv_one, Matrix.one_mul]
  obtain ⟨pubs, s', hm⟩ := C136_answered_partial he l1 (m := exMessage d1) (z := 0) rfl
    (exMessage_admissible adm1') (fun _ => ⟨((.matched g mm q, p), { a0 with state := s }), by
      rw [mo1, exMessage_input _ _ rfl]
      exact hu1'⟩)
  exact ⟨eig, he, srv, n, _, _, _, _, _, _, _, l0, u0, ad0, q0, u1, exMessage_admissible adm1', hm⟩

theorem exUsable {m : Message} (pubs : List Pub) (h : Usable m) : usable ([] ++ [⟨m, pubs⟩]) ≠ [] := by
  rw [usable_append, if_pos h]
  simp

/-- The hypotheses of `C136_published_partial`, `C136_load_partial` and `C136_answered_partial` are met. -/
example : ∃ eig, NDT.EigOk eig ∧ ∃ srv n log s m pubs s', Live .tolerant eig id srv n log s ∧ usable log ≠ [] ∧
    Usable m ∧ Admissible n m s ∧ message .tolerant eig n m s = .ok (pubs, s') := by
  obtain ⟨eig, he, srv, n, s0, m0, pubs0, s, m, pubs, s', h, hu0, adm0, hm0, hu, adm, hm⟩ := exRun
  exact ⟨eig, he, srv, n, _, s, m, pubs, s', .message h adm0 hm0, exUsable _ hu0, hu, adm, hm⟩

/-- Those of `C136_unusable_partial` too: TF does not know the transforms. -/
example : ∃ eig, NDT.EigOk eig ∧ ∃ srv n log s m, Live .tolerant eig id srv n log s ∧ log ≠ [] ∧ ¬ Usable m := by
  obtain ⟨eig, he, srv, n, s0, m0, pubs0, s, m, pubs, s', h, hu0, adm0, hm0, -⟩ := exRun
  exact ⟨eig, he, srv, n, _, s, { m with tfFound := false }, .message h adm0 hm0, by simp, fun h => by cases h.1⟩

/-- Those of `C136_first_partial` too. -/
example : ∃ eig, NDT.EigOk eig ∧ ∃ srv n s m pubs s', Live .tolerant eig id srv n [] s ∧ usable [] = [] ∧ Usable m ∧
    message .tolerant eig n m s = .ok (pubs, s') := by
  obtain ⟨eig, he, srv, n, s0, m0, pubs0, s, m, pubs, s', h, hu0, adm0, hm0, -⟩ := exRun
  exact ⟨eig, he, srv, n, s0, m0, pubs0, s, h, by simp [usable], hu0, hm0⟩

/-- Those of `C136_false` too. -/
example : ∃ eig, NDT.EigOk eig ∧ ∃ srv n log s m, Live .tolerant eig id srv n log s ∧ s.ready = true ∧ Usable m ∧
    m.junk = none := by
  obtain ⟨eig, he, srv, n, s0, m0, pubs0, s, m, pubs, s', h, hu0, adm0, hm0, hu, -⟩ := exRun
  have h1 := Live.message h adm0 hm0
  obtain ⟨us, inv⟩ := h1.inv he
  refine ⟨eig, he, srv, n, _, s, { m with junk := none }, h1, inv.ready.2 fun hus => exUsable pubs0 hu0 ?_, hu, rfl⟩
  have := inv.made
  unfold MadeFor at this
  rw [hus] at this
  exact List.map_eq_nil_iff.1 this.symm

end Verif.Program
