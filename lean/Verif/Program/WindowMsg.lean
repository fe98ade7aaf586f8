import Verif.Program.Props
import Verif.Match.Reference

/-
C176: where the published window message puts the running window.
-/
namespace Verif.Program

open Verif Verif.Geo Verif.World Verif.Voxel Verif.Whole

variable {eig : NDT.Eig}

/-! ### Specification -/

/-- Centre, in the world, of the area a map covers. -/
noncomputable def centre (n : Map) : ℝ × ℝ :=
  toWorld (origin n) (((n.grid.right : ℝ) - n.grid.left) / 2 * n.grid.cellSize, ((n.grid.up : ℝ) - n.grid.down) / 2 * n.grid.cellSize)

/-- The message, in the frame of the world, shows the map where it is: the centre, and the mean of every Gaussian. -/
structure InPlace (n : Map) (msg : MapMsg) : Prop where
  centre : (msg.cen.1, msg.cen.2.1) = centre n
  means : List.Forall₂ (fun (c : NDT.Cell) (m : CellMsg) => c.gaussian = true → (m.mean.1, m.mean.2.1) = worldPos n c)
    (getValidCells n.grid) msg.cells

/-! ### Lemmas -/

/-- The message in terms of the world. -/
theorem message_eq {z t : ℝ} {s : Whole.State} {frame f : String} {k : ℕ} {msg : MapMsg}
    (h : getNDTMap (some z) s frame = .ok (.window t f k msg)) :
    (msg.cen.1, msg.cen.2.1) = toWorld (origin s.window) (NDTGrid.serializeCorner s.window.grid) ∧ f = frame ∧
    List.Forall₂ (fun (c : NDT.Cell) (m : CellMsg) => (m.mean.1, m.mean.2.1) = (c.mean 0, c.mean 1))
      (getValidCells s.window.grid) msg.cells := by
  have h1 := C108_window_message_partial s.window (act (transBtwFrames (origin s.window) ⟨0, 0, 0⟩)
    (NDTGrid.serializeCorner s.window.grid)).1 (act (transBtwFrames (origin s.window) ⟨0, 0, 0⟩)
    (NDTGrid.serializeCorner s.window.grid)).2 z
  have h2 := congrArg (Res.map fun msg => Pub.window s.windowTime frame s.windowSeq msg) h1
  have h3 : getNDTMap (some z) s frame = _ := h2
  rw [h] at h3
  obtain ⟨rfl, rfl, rfl, rfl⟩ := Pub.window.inj (Res.ok.inj h3)
  refine ⟨?_, rfl, ?_⟩
  · show (act _ _) = _
    rw [transBtwFrames_eq, trans_zero, inv_one, Matrix.one_mul, act_trans]
  · rw [List.forall₂_map_right_iff]
    exact List.forall₂_same.2 fun _ _ => rfl

theorem window_th (he : NDT.EigOk eig) {P : Algo.Input → Prop} {log : List Entry} {s : Whole.State} (h : Reach eig P log s) :
    s.window.th = 0 := by
  obtain ⟨⟨b, inv⟩, -⟩ := h.inv he
  have := inv.full.win.th
  rw [← inv.window.winO] at this
  exact this

theorem unturned {n : Map} (h : n.th = 0) (v : ℝ × ℝ) : toWorld (origin n) v = (v.1 + n.ox, v.2 + n.oy) := by
  unfold toWorld origin
  simp only [h, Real.cos_zero, Real.sin_zero]
  ext <;> simp [add_comm]

/-! ### C176 -/

/-- C176, what holds: the means of the message are positions relative to the origin of the window; moved by it they are where the Gaussians
are in the world, and where scans saw something.
Missing: the message is said to be in the frame of the map (`C176_false`). -/
theorem C176_means_partial (he : NDT.EigOk eig) {P : Algo.Input → Prop} {log : List Entry} {s : Whole.State} (h : Reach eig P log s)
    {z t : ℝ} {frame f : String} {k : ℕ} {msg : MapMsg} (hm : getNDTMap (some z) s frame = .ok (.window t f k msg)) :
    List.Forall₂ (fun (c : NDT.Cell) (m : CellMsg) => c.gaussian = true →
      (m.mean.1 + s.window.ox, m.mean.2.1 + s.window.oy) = worldPos s.window c ∧ WindowPoint log (worldPos s.window c))
      (getValidCells s.window.grid) msg.cells := by
  obtain ⟨⟨b, inv⟩, -⟩ := h.inv he
  have hth := window_th he h
  refine ((List.forall₂_and_left _ _).2 ⟨fun c hc => hc, (message_eq hm).2.2⟩).imp fun c m hcm hg => ?_
  obtain ⟨hc, e⟩ := hcm
  refine ⟨?_, inv.window.src c (mem_gaussians.2 ⟨hc, hg⟩)⟩
  unfold worldPos
  rw [unturned hth, ← e]

/-- C176, where it holds: the Gaussians are shown at their places exactly as long as the origin of the window is that of the map. -/
theorem C176_means_iff (he : NDT.EigOk eig) {P : Algo.Input → Prop} {log : List Entry} {s : Whole.State} (h : Reach eig P log s)
    (hg : gaussians s.window ≠ []) {z t : ℝ} {frame f : String} {k : ℕ} {msg : MapMsg}
    (hm : getNDTMap (some z) s frame = .ok (.window t f k msg)) :
    List.Forall₂ (fun (c : NDT.Cell) (m : CellMsg) => c.gaussian = true → (m.mean.1, m.mean.2.1) = worldPos s.window c)
      (getValidCells s.window.grid) msg.cells ↔ s.window.ox = 0 ∧ s.window.oy = 0 := by
  have hth := window_th he h
  have hm := (message_eq hm).2.2
  constructor
  · intro hall
    obtain ⟨c, hc⟩ := List.exists_mem_of_ne_nil _ hg
    obtain ⟨hv, hgc⟩ := mem_gaussians.1 hc
    have hboth : List.Forall₂ (fun (c : NDT.Cell) (_ : CellMsg) => c.gaussian = true → (c.mean 0, c.mean 1) = worldPos s.window c)
        (getValidCells s.window.grid) msg.cells :=
      List.Forall₂.mp (fun a b h1 h2 hg => h1.symm.trans (h2 hg)) hm hall
    have := ((List.forall₂_and_left (R := fun _ (_ : CellMsg) => True) _ _).1 (hboth.imp fun _ _ h => ⟨h, trivial⟩)).1 c hv hgc
    unfold worldPos at this
    rw [unturned hth] at this
    have e1 := congrArg Prod.fst this
    have e2 := congrArg Prod.snd this
    simp only at e1 e2
    exact ⟨by linarith, by linarith⟩
  · rintro ⟨h1, h2⟩
    refine hm.imp fun c m e _ => ?_
    unfold worldPos
    rw [e, unturned hth, h1, h2, add_zero, add_zero]

/-- Negation of C176 for the centre, in every run from the first scan on: with a radius of more than half a cell (and less than a thousand
kilometres) the published centre is wrong by more than `2 ^ 61` metres. -/
theorem C176_centre_false (he : NDT.EigOk eig) {P : Algo.Input → Prop} {R T : ℝ} (hR : 0 ≤ R) (hT : 0 ≤ T)
    (hP : ∀ a, P a → NearWindow T a) {s0 s1 s : Whole.State} (h0 : Reach eig P [] s0) {inp : Input}
    {o : Algo.Event × Pose} (hp : P inp.alg) (adm : Whole.Admissible s0 inp) (h1 : Whole.update eig inp s0 = .ok (o, s1))
    {log : List Entry} (h : Runs eig P s1 log s) (hs1 : InRange R inp.scan) (hs : ∀ e ∈ log, InRange R e.scan)
    (hmin : 1 / 8 < s0.radius) (hmax : max s0.radius (R + T) ≤ 1000000) {z t : ℝ} {frame f : String} {k : ℕ} {msg : MapMsg}
    (hm : getNDTMap (some z) s frame = .ok (.window t f k msg)) :
    (centre s.window).1 + 2 ^ 61 < msg.cen.1 ∧ ¬ InPlace s.window msg := by
  suffices hfar : (centre s.window).1 + 2 ^ 61 < msg.cen.1 by
    refine ⟨hfar, fun hin => ?_⟩
    have := congrArg Prod.fst hin.centre
    simp only at this
    rw [this] at hfar
    norm_num at hfar
  have h01 : Reach eig P [⟨o.1, o.2, inp.scan⟩] s1 := .update h0 hp adm h1
  have hreach := h.reach h01
  have hth := window_th he hreach
  obtain ⟨⟨b, inv⟩, -⟩ := hreach.inv he
  have hcs : s.window.grid.cellSize = 1 / 4 := inv.window.winC.trans (hreach.cell he)
  obtain ⟨-, e1, e2⟩ := run_ext he hR hP h0 hp adm h1 h hs1 hs
  have l1 : 1 ≤ side (1 / 4) s0.radius := by
    by_contra hn
    have h0 : side (1 / 4 : ℝ) s0.radius = 0 := by omega
    have := le_side (cs := (1 / 4 : ℝ)) (B := s0.radius) (by norm_num)
    rw [h0] at this
    norm_num at this
    linarith
  have l2 : side (1 / 4 : ℝ) s0.radius ≤ s.window.grid.left := e1.1
  have e3 : NDTGrid.extOf s.window.grid ≤ Whole.square (side (1 / 4) (max s0.radius (R + T))) := by
    refine e2.trans (sup_le (sup_le ?_ ?_) ?_) <;> refine (fun hh => ⟨hh, hh, hh, hh⟩) (side_mono (by norm_num) ?_)
    · exact le_max_left _ _
    · exact le_trans (by linarith) (le_max_right _ _)
    · exact le_max_right _ _
  have l3 : s.window.grid.left ≤ side (1 / 4) (max s0.radius (R + T)) := e3.1
  have l4 : s.window.grid.right ≤ side (1 / 4) (max s0.radius (R + T)) := e3.2.1
  have l5 := side_lt (cs := (1 / 4 : ℝ)) (B := max s0.radius (R + T)) (by norm_num) (le_max_of_le_right (by linarith))
  have l6 : side (1 / 4) (max s0.radius (R + T)) < 5000000 := by
    have : ((side (1 / 4) (max s0.radius (R + T)) : ℕ) : ℝ) < 5000000 := by linarith
    exact_mod_cast this
  have hc := congrArg Prod.fst (message_eq hm).1
  rw [unturned hth] at hc
  unfold NDTGrid.serializeCorner at hc
  simp only at hc
  rw [hcs] at hc
  unfold centre
  rw [unturned hth, hcs, hc]
  simp only
  have hmod : (2 ^ 64 - s.window.grid.left) % 2 ^ 64 = 2 ^ 64 - s.window.grid.left := by
    rw [Nat.mod_eq_of_lt]
    omega
  have hcast : (((2 ^ 64 - s.window.grid.left) % 2 ^ 64 : ℕ) : ℝ) = 2 ^ 64 - (s.window.grid.left : ℝ) := by
    rw [hmod, Nat.cast_sub (by omega)]
    norm_num
  rw [hcast]
  have r1 : (s.window.grid.left : ℝ) < 5000000 := by exact_mod_cast lt_of_le_of_lt l3 l6
  have r2 : (s.window.grid.right : ℝ) < 5000000 := by exact_mod_cast lt_of_le_of_lt l4 l6
  norm_num
  linarith

/-- Negation of C176 for the means: a run with one match, a metre ahead, after which every Gaussian of the window (and there are some) is
shown more than 0.7 m from its place, behind it. -/
theorem C176_false : ∃ eig, NDT.EigOk eig ∧ ∃ log s, Reach eig (NearWindow 1) log s ∧ gaussians s.window ≠ [] ∧
    ∀ z frame, ∃ t k msg, getNDTMap (some z) s frame = .ok (.window t frame k msg) ∧
      List.Forall₂ (fun (c : NDT.Cell) (m : CellMsg) => c.gaussian = true → m.mean.1 + 0.7 < (worldPos s.window c).1)
        (getValidCells s.window.grid) msg.cells := by
  obtain ⟨eig, he⟩ := NDT.exists_eig
  have h0 : Reach eig (NearWindow 1) [] (Whole.setRadius (Whole.init eig) 7) := .setRadius 7 .init
  have hr : InRange 5 (exScan 5) := exScan_range
  obtain ⟨inp, o, s1, inp1, g, m, q, p, s, hp, hsc, adm, hu, hp1, hsc1, adm1, hu1, hq⟩ := matched_step he h0
    (fun m a est order r hr => by cases hr) rfl rfl (fun m a est order r hr => by
      cases hr
      rw [Algo.ahead_eq]
      simp [convertFromTransform, planar4, getPoseFromTransform])
  have h1 : Reach eig (NearWindow 1) _ s1 := .update h0 hp adm hu
  have h2 : Reach eig (NearWindow 1) _ s := .update h1 hp1 adm1 hu1
  have hth := window_th he h2
  obtain ⟨hx, -⟩ := C127_centred he h1 adm1 hu1
  rw [hq, abs_lt] at hx
  have hx : (1 : ℝ) - s.window.ox < 1 / 4 := hx.2
  refine ⟨eig, he, _, s, h2, ?_, fun z frame => ?_⟩
  · refine Match.C174_target_partial he (R := 5) (T := 1) (by norm_num) (by norm_num) h0 adm hu
      ⟨by rw [hsc.1]; exact hr, hp, fun _ => by rw [hsc.1]; exact Match.exScan_echo⟩ (by rw [hsc.1]; exact Match.exScan_echo) ?_
      (.update .refl ⟨by rw [hsc1]; exact hr, hp1, fun _ => by rw [hsc1]; exact Match.exScan_echo⟩ adm1 hu1)
    show (5 : ℝ) + 1 < 7
    norm_num
  · obtain ⟨msg, hm, -⟩ := getNDTMap_ok z s frame
    refine ⟨_, _, msg, hm, (message_eq hm).2.2.imp fun c m e _ => ?_⟩
    unfold worldPos
    rw [unturned hth, ← e]
    show m.mean.1 + 0.7 < m.mean.1 + s.window.ox
    norm_num
    linarith

/-- The hypotheses of `C176_centre_false` are met by the first scan of a run with the default radius. -/
example : ∃ eig, NDT.EigOk eig ∧ ∃ (s0 s1 : Whole.State) (inp : Input) (o : Algo.Event × Pose) (t : ℝ) (k : ℕ) (msg : MapMsg),
    Reach eig (NearWindow 1) [] s0 ∧ NearWindow 1 inp.alg ∧ Whole.Admissible s0 inp ∧ Whole.update eig inp s0 = .ok (o, s1) ∧ InRange 5 inp.scan ∧
    1 / 8 < s0.radius ∧ max s0.radius (5 + 1) ≤ 1000000 ∧ getNDTMap (some 0) s1 "map" = .ok (.window t "map" k msg) := by
  obtain ⟨eig, he⟩ := NDT.exists_eig
  have h0 : Reach eig (NearWindow 1) [] (Whole.init eig) := .init
  obtain ⟨inp, o, s1, hp, ⟨hsc, -⟩, adm, hu, -⟩ := first_run he h0 (fun m a est order r hr => by cases hr) rfl
  obtain ⟨msg, hm, -⟩ := getNDTMap_ok 0 s1 "map"
  refine ⟨eig, he, _, s1, inp, o, _, _, msg, h0, hp, adm, hu, by rw [hsc]; exact exScan_range, ?_, ?_, hm⟩ <;> norm_num [Whole.init]

end Verif.Program
