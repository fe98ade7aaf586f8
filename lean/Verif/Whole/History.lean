import Verif.Whole.Props
import Verif.World.HistoryProps

/-
C168 for the whole algorithm.
-/
namespace Verif.Whole

open Verif Verif.Voxel Verif.NDTGrid Verif.Geo Verif.World

/-- C168 for the algorithm: whatever the robot has done, every cell of the global map, of the window, of the unfinished
frame and of every stored frame has a sound occupancy. -/
theorem C168_algorithm {eig : NDT.Eig} (he : NDT.EigOk eig) {P : Algo.Input → Prop} {log : List Entry} {s : State}
    (h : Reach eig P log s) :
    ∀ n ∈ s.global :: s.window :: s.temp :: s.store, ∀ c ∈ getValidCells n.grid,
      NDT.Reach eig NDT.properRay c ∧ SoundOcc c := by
  obtain ⟨⟨b, inv⟩, -⟩ := h.inv he
  have hb : ∀ n ∈ s.global :: s.window :: s.temp :: s.store, Built eig true n := by
    intro n hn
    simp only [List.mem_cons] at hn
    rcases hn with rfl | rfl | rfl | hn
    · exact inv.mapped.globalB
    · exact inv.window.winB
    · exact inv.frames.tempB
    · exact inv.frames.storeB n hn
  intro n hn c hc
  exact ⟨C168_history he (hb n hn) c hc, C168_occupancy he (hb n hn) c hc⟩

end Verif.Whole
