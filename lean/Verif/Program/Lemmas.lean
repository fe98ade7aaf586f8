import Verif.Program.Spec
import Verif.Whole.Published
import Verif.Launch.Props
import Verif.Node.Props

/-
Helper lemmas for the program.
-/
namespace Verif.Program

open Verif Verif.Geo Verif.World

variable {eig : NDT.Eig} {rnd : ℝ → ℝ} {srv : Launch.Server}

theorem usable_iff (m : Message) : Node.Usable m.node ↔ Usable m := Iff.rfl

/-- The motion handed to the algorithm. -/
noncomputable def motion (m : Message) (s : Node.State Launch.Alg) : Trans :=
  if s.ready then (getTransFromPose s.lastOdom)⁻¹ * getTransFromPose m.odom else 1

theorem motion_rigid (m : Message) (s : Node.State Launch.Alg) : IsRigid (motion m s) := by
  unfold motion
  split_ifs
  · rw [trans_inv]; exact rigid_mul (getTransFromPose_rigid _) (getTransFromPose_rigid _)
  · exact Algo.rigid_one

theorem admissible_step {n : Launch.Names} {m : Message} {s : Node.State Launch.Alg} (h : Admissible n m s)
    (hu : Usable m) : Whole.AdmissibleOwn s.alg.state ((m.input (Launch.subscribe n).2 (motion m s)).outer s.alg) := by
  obtain ⟨h1, h2, h3, h4, h5, h6, h7⟩ := h hu
  exact ⟨motion_rigid m s, h2, h3, h4, h5, h6, h7⟩

/-- What a message does that cannot be used. -/
theorem message_dropped (o : Loop.Overread) (eig : NDT.Eig) (n : Launch.Names) {m : Message} (s : Node.State Launch.Alg)
    (h : ¬ Usable m) : message o eig n m s = .ok ([.tf s.tf (m.stamp (Launch.subscribe n).2) n.fixed n.odom], s) := by
  unfold message
  simp only
  rw [Node.C122_dropped _ s (fun h' => h ((usable_iff m).1 h'))]
  simp

/-- What a message does that can be used. -/
theorem message_used (o : Loop.Overread) (eig : NDT.Eig) (n : Launch.Names) {m : Message} (s : Node.State Launch.Alg)
    (h : Usable m) : message o eig n m s =
      (Launch.update o eig (m.input (Launch.subscribe n).2 (motion m s)) s.alg).bind fun r =>
        if s.ready then
          (publish o n m r.2.state).map fun l =>
            (.tf (some (Node.updateTFTrans m.odom r.1.2)) (m.stamp (Launch.subscribe n).2) n.fixed n.odom :: l,
              ⟨true, m.odom, r.1.2, some (Node.updateTFTrans m.odom r.1.2), r.2⟩)
        else .ok ([.tf s.tf (m.stamp (Launch.subscribe n).2) n.fixed n.odom], ⟨true, m.odom, ⟨0, 0, 0⟩, s.tf, r.2⟩) := by
  unfold message
  simp only
  have hp : Node.prepareAllData m.node = some m.odom := Node.prepare_some ((usable_iff m).2 h)
  unfold Node.callback
  rw [hp]
  simp only [Node.doAlgorithm]
  obtain ⟨ready, lo, lp, tf, a⟩ := s
  cases ready with
  | false =>
    simp only [Bool.not_false, if_true, motion, Bool.false_eq_true, if_false, algorithm]
    rw [show m.node.env = m from rfl]
    rcases Launch.update o eig (m.input (Launch.subscribe n).2 1) a with r | e | u
    · simp
    · rfl
    · rfl
  | true =>
    simp only [Bool.not_true, Bool.false_eq_true, if_false, motion, if_true, algorithm]
    rw [show m.node.env = m from rfl]
    rcases Launch.update o eig (m.input (Launch.subscribe n).2 ((getTransFromPose lo)⁻¹ * getTransFromPose m.odom)) a
      with r | e | u
    · simp
    · rfl
    · rfl

theorem grown_loops (s : Whole.State) :
    ((Whole.grown s).cons.filter fun c => decide (c.2.2.2 = Slam.EKind.loop)).length = loopCount s := by
  unfold loopCount Whole.grown
  simp only [List.filter_append, List.length_append]
  split <;> simp

/-- What an update does to the time of the last recalculation. -/
theorem load_step (he : NDT.EigOk eig) {d : Whole.Outer} {log : List Whole.Entry} {s s' : Whole.State}
    {out : Algo.Event × Pose} (h : Whole.Own .tolerant eig log s) (adm : Whole.AdmissibleOwn s d)
    (hu : Whole.updateOwn .tolerant eig d s = .ok (out, s')) :
    (loopCount s' = loopCount s ∧ s'.loadTime = s.loadTime) ∨ (loopCount s < loopCount s' ∧ s'.loadTime = d.time) := by
  obtain ⟨h1, h2⟩ := h.inv he
  obtain ⟨⟨b, inv⟩, -⟩ := h1.inv he
  obtain ⟨adm', hu', hb⟩ := Whole.own_step he h1 h2 adm hu
  obtain ⟨-, hd, -⟩ := Whole.update_spec he inv.full adm'.alg (inv.window.winB.inv he) inv.window.winO inv.window.winC hu'
  have same : s'.store.length = s.store.length → loopCount s' = loopCount s := by
    intro hl
    rcases hb with ⟨-, hb⟩ | ⟨hl', -⟩
    · unfold loopCount; rw [hb]
    · omega
  have merged : ∀ {inc}, Whole.Merged eig (d.withLoops (Whole.expected d (Whole.grown s))) inc s s' →
      (loopCount s' = loopCount s ∧ s'.loadTime = s.loadTime) ∨ (loopCount s < loopCount s' ∧ s'.loadTime = d.time) := by
    intro inc hm
    have count : s'.store.length = s.store.length + 1 →
        loopCount s' = loopCount s + (Whole.loopConstraints d.env (Whole.grown s)).length := by
      intro hl
      rcases hb with ⟨hl', -⟩ | ⟨-, hb⟩
      · omega
      · have hall : ∀ c ∈ Whole.loopConstraints d.env (Whole.grown s), decide (c.2.2.2 = Slam.EKind.loop) = true := by
          intro c hc
          unfold Whole.loopConstraints at hc
          obtain ⟨x, -, rfl⟩ := List.mem_map.1 hc
          simp
        have hgr := grown_loops s
        unfold loopCount at hgr ⊢
        rw [hb]
        simp only [List.filter_append, List.length_append]
        rw [List.filter_eq_self.2 hall, hgr]
    have hexp := Whole.expected_map adm.enough (Whole.grown s)
    cases hm with
    | kept _ _ hs _ _ _ hl => exact .inl ⟨same (by rw [hs]), hl⟩
    | inserted _ _ hc _ =>
      rcases hc with ⟨h0, hs, -, -, -, hl⟩ | ⟨h0, hs, -, -, -, -, hl⟩
      · left
        have h0' : Whole.expected d (Whole.grown s) = [] := h0
        rw [h0'] at hexp
        rw [count (by rw [hs]; simp), ← hexp]
        exact ⟨rfl, hl⟩
      · right
        have h0' : Whole.expected d (Whole.grown s) ≠ [] := h0
        rw [count (by rw [hs, Whole.sync_length]; simp), ← hexp, List.length_map]
        have := List.length_pos_iff.2 h0'
        exact ⟨by omega, hl⟩
  obtain ⟨e, p⟩ := out
  cases hd with
  | first _ _ _ _ hs _ _ _ hl => exact .inl ⟨same (by rw [hs]), hl⟩
  | idle _ _ _ hs _ _ _ hl => exact .inl ⟨same (by rw [hs]), hl⟩
  | failed _ hm => exact merged hm
  | matched _ _ _ hm => exact merged hm

theorem session_nil {o : Loop.Overread} {P : Launch.Step → Prop} {log : List Whole.Entry} {a : Launch.Alg}
    (h : Launch.Session o eig rnd srv P log a) (hl : log = []) : a.state.alg.initialized = false := by
  cases h with
  | start h =>
    obtain ⟨rfl, -⟩ := Launch.launch_settings h
    rfl
  | step => simp at hl

/-- The state of a program that runs. -/
structure LInv (eig : NDT.Eig) (rnd : ℝ → ℝ) (srv : Launch.Server) (n : Launch.Names) (log : List Served)
    (s : Node.State Launch.Alg) (us : List Update) : Prop where
  launched : ∃ a, Launch.launch eig rnd srv = .ok (n, a)
  session : Launch.Session .tolerant eig rnd srv (fun _ => True) (us.map Update.entry) s.alg
  made : MadeFor (Message.stamp (Launch.subscribe n).2) (usable log) us
  ready : s.ready = true ↔ us ≠ []
  merged : us ≠ [] → us.filter Update.inWindow ≠ []
  time : ∀ u ∈ (us.filter Update.inWindow).getLast?, s.alg.state.windowTime = u.time
  seq : s.alg.state.windowSeq = (us.filter Update.matched).length % 2 ^ 32
  tf : (us.length ≤ 1 → s.tf = none) ∧
    (2 ≤ us.length → ∀ u ∈ us.getLast?, Node.Consistent s.tf u.odom u.entry.pose)
  last : ∀ x ∈ log.getLast?, x.pubs.head? = some (.tf s.tf (x.msg.stamp (Launch.subscribe n).2) n.fixed n.odom)

/-- One update for a message. -/
theorem step_inv (he : NDT.EigOk eig) {n : Launch.Names} {log : List Served} {s : Node.State Launch.Alg}
    {us : List Update} (inv : LInv eig rnd srv n log s us) {m : Message} (adm : Admissible n m s) (hu : Usable m)
    {r : (Algo.Event × Pose) × Launch.Alg}
    (h : Launch.update .tolerant eig (m.input (Launch.subscribe n).2 (motion m s)) s.alg = .ok r) :
    let u : Update := ⟨m.stamp (Launch.subscribe n).2, m.odom, ⟨r.1.1, r.1.2, m.cloud⟩⟩
    Launch.Session .tolerant eig rnd srv (fun _ => True) ((us ++ [u]).map Update.entry) r.2 ∧
    ((us ++ [u]).filter Update.inWindow ≠ []) ∧
    (∀ v ∈ ((us ++ [u]).filter Update.inWindow).getLast?, r.2.state.windowTime = v.time) ∧
    r.2.state.windowSeq = ((us ++ [u]).filter Update.matched).length % 2 ^ 32 := by
  intro u
  obtain ⟨⟨e, p⟩, a'⟩ := r
  have adm' := admissible_step adm hu
  have hs : Launch.Session .tolerant eig rnd srv (fun _ => True) ((us ++ [u]).map Update.entry) a' := by
    have := Launch.Session.step inv.session trivial adm' (out := (e, p)) (a' := a') h
    rw [List.map_append]
    exact this
  obtain ⟨u1, -⟩ := Launch.update_settings h
  obtain ⟨-, st⟩ := Whole.update_published u1 inv.session.own.1.shown
  have ht : ((m.input (Launch.subscribe n).2 (motion m s)).outer s.alg).time = u.time := rfl
  rw [ht] at st
  obtain ⟨h1, h2⟩ := inv.session.own.1.inv he
  obtain ⟨⟨b, wi⟩, -⟩ := h1.inv he
  obtain ⟨adm2, hu2, -⟩ := Whole.own_step he h1 h2 adm' u1
  obtain ⟨-, hd, -⟩ := Whole.update_spec he wi.full adm2.alg (wi.window.winB.inv he) wi.window.winO wi.window.winC hu2
  rw [List.filter_append, List.filter_append]
  refine ⟨hs, ?_⟩
  have hnil : us = [] → s.alg.state.alg.initialized = false := fun h0 =>
    session_nil inv.session (by rw [h0]; rfl)
  cases hd with
  | first h0 =>
    obtain ⟨t1, t2⟩ := st.first rfl
    have hus : us = [] := by simpa using (wi.start h0).1
    have e1 : [u].filter Update.inWindow = [u] := rfl
    have e2 : [u].filter Update.matched = [] := rfl
    rw [e1, e2, hus]
    refine ⟨by simp, ?_, by simpa using t2⟩
    intro v hv
    simp at hv
    rw [← hv]; exact t1
  | @idle m' h0 =>
    obtain ⟨t1, t2⟩ := st.other (by simp) (by simp)
    have hus : us ≠ [] := fun h => by have := hnil h; rw [h0] at this; cases this
    have e1 : [u].filter Update.inWindow = [] := rfl
    have e2 : [u].filter Update.matched = [] := rfl
    rw [e1, e2, List.append_nil, List.append_nil]
    refine ⟨inv.merged hus, fun v hv => ?_, ?_⟩
    · exact t1.trans (inv.time v hv)
    · exact t2.trans inv.seq
  | @failed g m' h0 =>
    obtain ⟨t1, t2⟩ := st.other (by simp) (by simp)
    have hus : us ≠ [] := fun h => by have := hnil h; rw [h0] at this; cases this
    have e1 : [u].filter Update.inWindow = [] := rfl
    have e2 : [u].filter Update.matched = [] := rfl
    rw [e1, e2, List.append_nil, List.append_nil]
    refine ⟨inv.merged hus, fun v hv => ?_, ?_⟩
    · exact t1.trans (inv.time v hv)
    · exact t2.trans inv.seq
  | matched h0 =>
    obtain ⟨t1, t2⟩ := st.matched _ _ _ rfl
    have e1 : [u].filter Update.inWindow = [u] := rfl
    have e2 : [u].filter Update.matched = [u] := rfl
    rw [e1, e2]
    refine ⟨by simp, ?_, ?_⟩
    · intro v hv
      simp at hv
      rw [← hv]; exact t1
    · refine t2.trans ?_
      rw [inv.seq, List.length_append, List.length_singleton, Nat.mod_add_mod]

open Classical in
theorem usable_append (log : List Served) (x : Served) :
    usable (log ++ [x]) = usable log ++ if Usable x.msg then [x.msg] else [] := by
  unfold usable
  rw [List.map_append, List.filter_append]
  by_cases h : Usable x.msg <;> simp [h]

/-- The invariant holds at all times. -/
theorem Live.inv (he : NDT.EigOk eig) {n : Launch.Names} {log : List Served} {s : Node.State Launch.Alg}
    (h : Live .tolerant eig rnd srv n log s) : ∃ us, LInv eig rnd srv n log s us := by
  induction h with
  | @start a h =>
    exact ⟨[], ⟨a, h⟩, .start h, rfl, by simp [Node.init], by simp, by simp, by
      obtain ⟨rfl, -⟩ := Launch.launch_settings h
      rfl, ⟨fun _ => rfl, by simp⟩, by simp⟩
  | @message log s m pubs s' _ adm hm ih =>
    obtain ⟨us, inv⟩ := ih
    by_cases hu : Usable m
    · rw [message_used _ _ _ _ hu] at hm
      obtain ⟨r, hr, hm⟩ := Res.bind_eq_ok.1 hm
      obtain ⟨s1, s2, s3, s4⟩ := step_inv he inv adm hu hr
      set u : Update := ⟨m.stamp (Launch.subscribe n).2, m.odom, ⟨r.1.1, r.1.2, m.cloud⟩⟩ with hudef
      have made : MadeFor (Message.stamp (Launch.subscribe n).2) (usable (log ++ [⟨m, pubs⟩])) (us ++ [u]) := by
        unfold MadeFor
        rw [usable_append, if_pos hu, List.map_append, List.map_append, inv.made]
        rfl
      split_ifs at hm with hready
      · obtain ⟨l, hl, hm⟩ : ∃ l, publish .tolerant n m r.2.state = .ok l ∧ _ = _ := by
          rcases hp : publish .tolerant n m r.2.state with l | e | e
          · rw [hp] at hm
            exact ⟨l, rfl, Res.ok.inj hm⟩
          · rw [hp] at hm; cases hm
          · rw [hp] at hm; cases hm
        have e1 := congrArg Prod.fst hm
        have e2 := congrArg Prod.snd hm
        simp only at e1 e2
        subst e1 e2
        have hne : us ≠ [] := inv.ready.1 hready
        have hpos : 0 < us.length := List.length_pos_iff.2 hne
        refine ⟨us ++ [u], inv.launched, s1, made, by simp, fun _ => s2, s3, s4, ⟨?_, ?_⟩, by simp⟩
        · intro hlen; simp at hlen; exact absurd hlen hne
        · intro _ v hv
          simp at hv
          subst hv
          exact ⟨_, rfl, Node.updateTFTrans_spec _ _⟩
      · have hm' := Res.ok.inj hm
        have e1 := congrArg Prod.fst hm'
        have e2 := congrArg Prod.snd hm'
        simp only at e1 e2
        subst e1 e2
        have h0 : us = [] := by
          by_contra h0
          exact hready (inv.ready.2 h0)
        refine ⟨us ++ [u], inv.launched, s1, made, by simp, fun _ => s2, s3, s4, ⟨?_, ?_⟩, by simp⟩
        · intro _; exact inv.tf.1 (by rw [h0]; simp)
        · intro h2; rw [h0] at h2; simp at h2
    · rw [message_dropped _ _ _ _ hu] at hm
      have hm' := Res.ok.inj hm
      have e1 := congrArg Prod.fst hm'
      have e2 := congrArg Prod.snd hm'
      simp only at e1 e2
      subst e1 e2
      refine ⟨us, inv.launched, inv.session, ?_, inv.ready, inv.merged, inv.time, inv.seq, inv.tf, by simp⟩
      rw [usable_append, if_neg hu, List.append_nil]
      exact inv.made

end Verif.Program
