import Verif.Opt.Destroy

/- C161: destruction of `Slam2D`. -/
namespace Verif.Opt

open Verif Verif.Slam

variable {τ : Type}

/-- **C161** for a library which deletes its actions and none of the solver objects: every object created is deleted
exactly once, whatever was put into the optimiser. -/
theorem C161_partial (s : RState τ) : ∃ done, destroy ⟨false, false, false, true⟩ s = .ok done ∧
    done.Perm (created s) ∧ done.Nodup := by
  refine ⟨_, destroy_plain s true, ?_, ?_⟩
  · unfold created
    generalize edgesOf s = E
    generalize verticesOf s = V
    rw [List.perm_iff_count]
    intro o
    simp only [List.count_append, List.count_cons, List.count_nil, if_true]
    omega
  · have a := nodup_edgesOf s
    have b := nodup_verticesOf s
    simp only [if_true]
    rw [List.nodup_append, List.nodup_append, List.nodup_append]
    refine ⟨⟨⟨by simp, a, ?_⟩, b, ?_⟩, by simp, ?_⟩
    · rintro x hx y hy rfl
      rcases mem_edgesOf hy with ⟨i, rfl⟩ | ⟨i, rfl⟩ | ⟨i, rfl⟩ <;> simp at hx
    · rintro x hx y hy rfl
      rw [List.mem_append] at hx
      rcases hx with hx | hx
      · rcases mem_verticesOf hy with ⟨i, rfl⟩ | ⟨i, rfl⟩ <;> simp at hx
      · rcases mem_verticesOf hy with ⟨i, rfl⟩ | ⟨i, rfl⟩ <;>
          rcases mem_edgesOf hx with ⟨j, h⟩ | ⟨j, h⟩ | ⟨j, h⟩ <;> cases h
    · rintro x hx y hy rfl
      rw [List.mem_singleton] at hy
      subst hy
      simp only [List.mem_append] at hx
      rcases hx with (hx | hx) | hx
      · simp at hx
      · rcases mem_edgesOf hx with ⟨j, h⟩ | ⟨j, h⟩ | ⟨j, h⟩ <;> cases h
      · rcases mem_verticesOf hx with ⟨j, h⟩ | ⟨j, h⟩ <;> cases h

/-- What has to be deleted after a run of calls: nothing but the five objects of the constructor before the first call,
one more for each pose, three more for each switchable constraint. -/
theorem C161_created (s : RState τ) :
    (created (RState.init : RState τ)).length = 5 ∧
    (∀ p obj, (created ((Call.pose p obj).run s)).length = (created s).length + 1) ∧
    (∀ src dst t i, (created ((Call.switchable src dst t i : Call τ).run s)).length = (created s).length + 3) := by
  refine ⟨rfl, ?_, ?_⟩
  · intro p obj
    show (created { s with slam := (addPose s.slam p obj).2 }).length = _
    unfold addPose created verticesOf edgesOf
    split_ifs <;> simp <;> omega
  · intro src dst t i
    simp [Call.run, addSwitchConstrainEdge, created, verticesOf, edgesOf]
    omega

/-- **C161** is false when the library deletes any of the solver objects it is handed: the same object is deleted twice,
in every state. -/
theorem C161_false_twice (lib : Lib) (s : RState τ) (h : lib.algorithm = true ∨ lib.block = true ∨ lib.linear = true) :
    destroy lib s = .ub .dangling := by
  obtain ⟨a, b, l, c⟩ := lib
  cases a <;> cases b <;> cases l <;> simp at h <;> rfl

/-- **C161** is false when the library does not delete its actions: the action is never deleted. -/
theorem C161_false_leak (s : RState τ) : ∃ done, destroy ⟨false, false, false, false⟩ s = .ok done ∧
    Obj.action ∈ created s ∧ Obj.action ∉ done := by
  refine ⟨_, destroy_plain s false, by simp [created], ?_⟩
  simp only [List.mem_append]
  rintro ((((h | h) | h) | h) | h)
  · simp at h
  · simp at h
  · rcases mem_edgesOf h with ⟨j, h⟩ | ⟨j, h⟩ | ⟨j, h⟩ <;> cases h
  · rcases mem_verticesOf h with ⟨j, h⟩ | ⟨j, h⟩ <;> cases h
  · simp at h

/-- A state with two poses and a switchable constraint. -/
example : (created ((Call.switchable 0 1 ⟨0, 0, 0⟩ 1 : Call ℕ).run ((Call.pose ⟨1, 0, 0⟩ 1).run
    ((Call.pose ⟨0, 0, 0⟩ 0).run RState.init)))).length = 10 := by
  rw [(C161_created _).2.2, (C161_created _).2.1, (C161_created _).2.1,
    (C161_created RState.init).1]

end Verif.Opt
