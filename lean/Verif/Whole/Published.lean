import Verif.Whole.DetectSpec
import Verif.Whole.Lemmas

/-
What is published: the occupancy grid and the header of the window message.  Helper lemmas.
-/
namespace Verif.Whole

open Verif Verif.Geo Verif.NDTGrid Verif.World

/-- The occupancy grid kept for publishing is that of the map, if there is one. -/
def GridShown (eig : NDT.Eig) (s : State) : Prop :=
  (s.store = [] → s.occ = noGrid) ∧ (s.store ≠ [] → s.occ = occupancyMsg eig s.global)

/-- What a step does to the header of the window message. -/
structure Stamped (time : ℝ) (e : Algo.Event) (s s' : State) : Prop where
  first : e = .first → s'.windowTime = time ∧ s'.windowSeq = 0
  matched : ∀ g m q, e = .matched g m q → s'.windowTime = time ∧ s'.windowSeq = (s.windowSeq + 1) % 2 ^ 32
  other : e ≠ .first → (∀ g m q, e ≠ .matched g m q) → s'.windowTime = s.windowTime ∧ s'.windowSeq = s.windowSeq

/-- Properties of the loop closing. -/
def Closing (eig : NDT.Eig) (close : State → Res State) : Prop :=
  ∀ s s', close s = .ok s' → s'.windowTime = s.windowTime ∧ s'.windowSeq = s.windowSeq ∧
    s'.store.length = s.store.length ∧ (s.occ = occupancyMsg eig s.global → s'.occ = occupancyMsg eig s'.global)

theorem sync_len (e : Slam.State Algo.Frame) (l : List Map) : (sync e l).length = l.length := by
  unfold sync; simp

theorem closing_search (o : Loop.Overread) (eig : NDT.Eig) (d : Outer) : Closing eig (searchLoops o eig d) := by
  intro s s' h
  unfold searchLoops at h
  obtain ⟨_, -, h⟩ := Res.bind_eq_ok.1 h
  split at h
  · cases h
  · obtain ⟨r, -, h⟩ := Res.bind_eq_ok.1 h
    unfold afterSearch at h
    simp only at h
    split_ifs at h
    · obtain ⟨r', -, h⟩ := Res.bind_eq_ok.1 h
      split_ifs at h
      · unfold recalc at h
        obtain ⟨g, -, h⟩ := Res.bind_eq_ok.1 h
        split_ifs at h
        cases h
        exact ⟨rfl, rfl, sync_len _ _, fun _ => rfl⟩
      · cases h
        exact ⟨rfl, rfl, sync_len _ _, fun h => h⟩
    · cases h
      exact ⟨rfl, rfl, rfl, fun h => h⟩

theorem graph_published {eig : NDT.Eig} {close : State → Res State} (hc : Closing eig close) {inc cov : Trans}
    {inp : Input} {s s' : State} (h : updateGraphWith close eig inc cov inp s = .ok s') (hs : GridShown eig s) :
    GridShown eig s' ∧ s'.windowTime = s.windowTime ∧ s'.windowSeq = s.windowSeq := by
  unfold updateGraphWith at h
  simp only at h
  split_ifs at h
  · obtain ⟨s1, h1, h⟩ := Res.bind_eq_ok.1 h
    obtain ⟨a2, -, h⟩ := Res.bind_eq_ok.1 h
    obtain ⟨s3, h3, h4⟩ := Res.bind_eq_ok.1 h
    unfold addFrame at h1
    obtain ⟨g, -, h1⟩ := Res.bind_eq_ok.1 h1
    cases h1
    obtain ⟨c1, c2, c3, c4⟩ := hc _ _ h3
    unfold restart at h4
    obtain ⟨a4, -, h4⟩ := Res.bind_eq_ok.1 h4
    obtain ⟨t, -, h4⟩ := Res.bind_eq_ok.1 h4
    cases h4
    refine ⟨⟨fun h0 => ?_, fun _ => c4 rfl⟩, c1, c2⟩
    simp only at h0
    rw [h0] at c3
    simp at c3
  · obtain ⟨t, -, h⟩ := Res.bind_eq_ok.1 h
    cases h
    exact ⟨hs, rfl, rfl⟩

/-- One update. -/
theorem update_published {o : Loop.Overread} {eig : NDT.Eig} {d : Outer} {s s' : State} {out : Algo.Event × Pose}
    (h : updateOwn o eig d s = .ok (out, s')) (hs : GridShown eig s) :
    GridShown eig s' ∧ Stamped d.time out.1 s s' := by
  have hc := closing_search o eig d
  unfold updateOwn updateWith at h
  split_ifs at h with h0
  · obtain ⟨s1, h1, h⟩ := Res.bind_eq_ok.1 h
    unfold firstUpdate at h1
    simp only at h1
    obtain ⟨g, hg, h1⟩ := Res.bind_eq_ok.1 h1
    obtain ⟨w, hw, h1⟩ := Res.bind_eq_ok.1 h1
    obtain ⟨t, ht, h1⟩ := Res.bind_eq_ok.1 h1
    cases h1
    cases h
    exact ⟨hs, fun _ => ⟨rfl, rfl⟩, by simp, by simp⟩
  · simp only at h
    split_ifs at h with h1
    · obtain ⟨scan, -, h⟩ := Res.bind_eq_ok.1 h
      split at h
      · obtain ⟨s1, h2, h⟩ := Res.bind_eq_ok.1 h
        obtain ⟨g1, g2, g3⟩ := graph_published hc h2 hs
        obtain ⟨sc, -, h⟩ := Res.bind_eq_ok.1 h
        obtain ⟨w, -, h⟩ := Res.bind_eq_ok.1 h
        obtain ⟨r, -, h⟩ := Res.bind_eq_ok.1 h
        cases h
        refine ⟨g1, by simp, fun _ _ _ _ => ⟨rfl, ?_⟩, fun _ h => absurd rfl (h _ _ _)⟩
        simp only
        rw [g3]
      · obtain ⟨s1, h2, h⟩ := Res.bind_eq_ok.1 h
        obtain ⟨g1, g2, g3⟩ := graph_published hc h2 hs
        cases h
        exact ⟨g1, by simp, by simp, fun _ _ => ⟨g2, g3⟩⟩
    · cases h
      exact ⟨hs, by simp, by simp, fun _ _ => ⟨rfl, rfl⟩⟩

theorem Own.shown {o : Loop.Overread} {eig : NDT.Eig} {log : List Entry} {s : State} (h : Own o eig log s) :
    GridShown eig s := by
  induction h with
  | init => exact ⟨fun _ => rfl, fun h => absurd rfl h⟩
  | setDistance d _ ih => exact ih
  | setRadius r _ ih => exact ih
  | update _ _ hu ih => exact (update_published hu ih).1

end Verif.Whole
