import Verif.Cell.Evidence

/- C156: merging the cells of several maps. -/
namespace Verif.NDT

open Verif Matrix

/-! ### Specification -/

/-- The cell of the map after the cells of a series of maps are merged into it. -/
noncomputable def merged (eig : Eig) (ds : List Cell) : Cell := ds.foldl (merge eig) init

/-- Those with a Gaussian. -/
def occupied (ds : List Cell) : List Cell := ds.filter fun d => d.gaussian

/-- Number of points. -/
def total (ds : List Cell) : ℕ := (ds.map Cell.points).sum

/-- Sum of all points. -/
noncomputable def momentum (ds : List Cell) : Vec := (ds.map fun d => (d.points : ℝ) • d.mean).sum

/-! ### Lemmas -/

/-- A cell without Gaussian takes over a cell with one. -/
theorem merge_takeover {eig : Eig} {c d : Cell} (hc : c.gaussian = false) (hd : d.gaussian = true) (hp : 2 < d.points) :
    merge eig c d = d := by
  unfold merge
  rw [if_neg (by omega), if_neg (by rw [hd]; simp), if_neg (by rw [hc]; simp)]
  cases d
  simp only at hd
  rw [hd]

/-- Two Gaussians. -/
theorem merge_two {eig : Eig} (he : EigOk eig) {c d : Cell} (hc : Reach eig properRay c) (hd : Reach eig properRay d)
    (gc : c.gaussian = true) (gd : d.gaussian = true) (ht : c.points + d.points ≤ 1000000000) :
    (merge eig c d).points = c.points + d.points ∧
    ((merge eig c d).points : ℝ) • (merge eig c d).mean = (c.points : ℝ) • c.mean + (d.points : ℝ) • d.mean := by
  obtain ⟨-, -, hp, -⟩ := hd.ginv he gd
  obtain ⟨o, ho, hpos⟩ := hc.positive he gc
  have hne : ((d.points + c.points : ℕ) : ℝ) ≠ 0 := by
    have : (d.points + c.points) ≠ 0 := by omega
    exact_mod_cast this
  have hcap : cap (d.points + c.points) = c.points + d.points := by
    unfold cap maxPoints
    rw [if_neg (by omega)]; omega
  have key : ((c.points + d.points : ℕ) : ℝ) • ((1 / ((d.points + c.points : ℕ) : ℝ)) •
      ((d.points : ℝ) • d.mean + (c.points : ℝ) • c.mean)) = (c.points : ℝ) • c.mean + (d.points : ℝ) • d.mean := by
    rw [smul_smul, Nat.add_comm c.points, mul_one_div_cancel hne, one_smul, add_comm]
  unfold merge
  simp only
  rw [if_neg (by omega), if_neg (by rw [gd]; simp), if_pos gc]
  split_ifs
  · exact ⟨hcap, by simp only; rw [hcap]; exact key⟩
  · exact ⟨hcap, by simp only [rescale]; rw [hcap]; exact key⟩

/-- What holds after each merge. -/
structure MergedInv (eig : Eig) (ds : List Cell) (c : Cell) : Prop where
  reach : Reach eig properRay c
  none : occupied ds = [] → c = init
  one : ∀ d, occupied ds = [d] → c = d
  gauss : occupied ds ≠ [] → c.gaussian = true
  many : 2 ≤ (occupied ds).length → c.occ = some 1
  points : occupied ds ≠ [] → total (occupied ds) ≤ 1000000000 →
    c.points = total (occupied ds) ∧ (c.points : ℝ) • c.mean = momentum (occupied ds)

theorem merged_inv {eig : Eig} (he : EigOk eig) (ds : List Cell) (h : ∀ d ∈ ds, Reach eig properRay d) :
    MergedInv eig ds (merged eig ds) := by
  induction ds using List.reverseRecOn with
  | nil =>
    refine ⟨.init, fun _ => rfl, fun d hd => ?_, fun hd => absurd rfl hd, fun hd => ?_, fun hd => absurd rfl hd⟩
    · cases hd
    · simp [occupied] at hd
  | append_singleton ds d ih =>
    have ih := ih fun d hd => h d (by simp [hd])
    have hd : Reach eig properRay d := h d (by simp)
    have em : merged eig (ds ++ [d]) = merge eig (merged eig ds) d := by simp [merged]
    have hreach : Reach eig properRay (merged eig (ds ++ [d])) := by rw [em]; exact .merge ih.reach hd
    cases gd : d.gaussian with
    | false =>
      have eo : occupied (ds ++ [d]) = occupied ds := by simp [occupied, gd]
      have e : merge eig (merged eig ds) d = merged eig ds := (C25_merge_bounded_partial eig _ d).1 (.inl gd)
      rw [em, e]
      exact ⟨ih.reach, by rw [eo]; exact ih.none, by rw [eo]; exact ih.one, by rw [eo]; exact ih.gauss,
        by rw [eo]; exact ih.many, by rw [eo]; exact ih.points⟩
    | true =>
      have eo : occupied (ds ++ [d]) = occupied ds ++ [d] := by simp [occupied, gd]
      obtain ⟨-, -, hp, -⟩ := hd.ginv he gd
      have ne : occupied (ds ++ [d]) ≠ [] := by rw [eo]; simp
      rcases hos : occupied ds with _ | ⟨d0, rest⟩
      · have e : merge eig (merged eig ds) d = d := by
          rw [ih.none hos]; exact merge_takeover rfl gd (by omega)
        rw [em, e]
        rw [hos, List.nil_append] at eo
        refine ⟨hd, fun h => absurd h ne, fun d' h => ?_, fun _ => gd, fun h => ?_, fun _ _ => ?_⟩
        · rw [eo] at h; cases h; rfl
        · rw [eo] at h; simp at h
        · rw [eo]; simp [total, momentum]
      · have ne0 : occupied ds ≠ [] := by rw [hos]; simp
        have gc := ih.gauss ne0
        obtain ⟨-, -, h3⟩ := C121_confirmed he ih.reach gc
        obtain ⟨h4, h5⟩ := h3 d hd gd
        rw [em]
        refine ⟨.merge ih.reach hd, fun h => absurd h ne, fun d' h => ?_, fun _ => h5, fun _ => h4, fun _ ht => ?_⟩
        · rw [eo, hos] at h; simp at h
        · have et : total (occupied ds ++ [d]) = total (occupied ds) + d.points := by simp [total]
          have emm : momentum (occupied ds ++ [d]) = momentum (occupied ds) + (d.points : ℝ) • d.mean := by
            simp [momentum]
          rw [eo, et] at ht
          obtain ⟨q1, q2⟩ := ih.points ne0 (by omega)
          obtain ⟨r1, r2⟩ := merge_two he ih.reach hd gc gd (by omega)
          rw [eo, et, emm, r2, r1, q2, q1]
          exact ⟨rfl, rfl⟩

theorem occupied_perm {ds ds' : List Cell} (h : ds.Perm ds') : (occupied ds).Perm (occupied ds') := h.filter _

/-! ### C156 -/

/-- C156, obstacles.  After merging any cells into a new map, the cell is occupied exactly if one of them is; a single
Gaussian is taken over as it is, several give certainty; count and mean are those of all points (as long as the count is
below its limit). -/
theorem C156_obstacles_partial {eig : Eig} (he : EigOk eig) (ds : List Cell) (h : ∀ d ∈ ds, Reach eig properRay d) :
    ((merged eig ds).gaussian = true ↔ ∃ d ∈ ds, d.gaussian = true) ∧
    (∀ d, occupied ds = [d] → merged eig ds = d) ∧
    (2 ≤ (occupied ds).length → (merged eig ds).occ = some 1) ∧
    (occupied ds ≠ [] → total (occupied ds) ≤ 1000000000 → (merged eig ds).points = total (occupied ds) ∧
      (merged eig ds).mean = (1 / (total (occupied ds) : ℝ)) • momentum (occupied ds)) := by
  have inv := merged_inv he ds h
  refine ⟨⟨fun hg => ?_, fun ⟨d, hd, gd⟩ => inv.gauss ?_⟩, inv.one, inv.many, fun h1 h2 => ?_⟩
  · by_contra hcon
    push Not at hcon
    have : occupied ds = [] := List.filter_eq_nil_iff.2 fun d hd => by simpa using hcon d hd
    rw [inv.none this] at hg
    cases hg
  · exact List.ne_nil_of_mem (List.mem_filter.2 ⟨hd, gd⟩)
  · obtain ⟨q1, q2⟩ := inv.points h1 h2
    refine ⟨q1, ?_⟩
    obtain ⟨-, -, hp, -⟩ := inv.reach.ginv he (inv.gauss h1)
    have hne : (total (occupied ds) : ℝ) ≠ 0 := by
      rw [← q1]
      have : (merged eig ds).points ≠ 0 := by omega
      exact_mod_cast this
    rw [← q2, q1, smul_smul, one_div_mul_cancel hne, one_smul]

/-- C156, order: neither the flag nor the occupancy nor (below the limit) count and mean depend on the order. -/
theorem C156_order_partial {eig : Eig} (he : EigOk eig) (ds ds' : List Cell) (hperm : ds.Perm ds')
    (h : ∀ d ∈ ds, Reach eig properRay d) :
    (merged eig ds).gaussian = (merged eig ds').gaussian ∧ (merged eig ds).occ = (merged eig ds').occ ∧
    (total (occupied ds) ≤ 1000000000 → (merged eig ds).points = (merged eig ds').points ∧
      (merged eig ds).mean = (merged eig ds').mean) := by
  have h' : ∀ d ∈ ds', Reach eig properRay d := fun d hd => h d (hperm.mem_iff.2 hd)
  obtain ⟨a1, a2, a3, a4⟩ := C156_obstacles_partial he ds h
  obtain ⟨b1, b2, b3, b4⟩ := C156_obstacles_partial he ds' h'
  have i1 := merged_inv he ds h
  have i2 := merged_inv he ds' h'
  have hop := occupied_perm hperm
  have hg : (merged eig ds).gaussian = (merged eig ds').gaussian := by
    rw [Bool.eq_iff_iff, a1, b1]
    exact ⟨fun ⟨d, m, g⟩ => ⟨d, hperm.mem_iff.1 m, g⟩, fun ⟨d, m, g⟩ => ⟨d, hperm.mem_iff.2 m, g⟩⟩
  rcases hos : occupied ds with _ | ⟨d0, _ | ⟨d1, rest⟩⟩
  · have hos' : occupied ds' = [] := by rw [hos] at hop; exact hop.symm.eq_nil
    rw [i1.none hos, i2.none hos']
    exact ⟨rfl, rfl, fun _ => ⟨rfl, rfl⟩⟩
  · have hos' : occupied ds' = [d0] := by rw [hos] at hop; exact List.perm_singleton.1 hop.symm
    rw [a2 d0 hos, b2 d0 hos']
    exact ⟨rfl, rfl, fun _ => ⟨rfl, rfl⟩⟩
  · have hl : 2 ≤ (occupied ds).length := by rw [hos]; simp
    have hl' : 2 ≤ (occupied ds').length := by rw [← hop.length_eq]; exact hl
    refine ⟨hg, by rw [a3 hl, b3 hl'], fun ht => ?_⟩
    rw [← hos] at ht
    have et : total (occupied ds) = total (occupied ds') := (hop.map _).sum_eq
    have em : momentum (occupied ds) = momentum (occupied ds') := (hop.map _).sum_eq
    have ne : occupied ds ≠ [] := by rw [hos]; simp
    have ne' : occupied ds' ≠ [] := fun hh => by rw [hh] at hl'; simp at hl'
    obtain ⟨p1, p2⟩ := a4 ne ht
    obtain ⟨q1, q2⟩ := b4 ne' (by rw [← et]; exact ht)
    rw [p1, p2, q1, q2, et, em]
    exact ⟨rfl, rfl⟩

/-- Negation of C156 for free space: a cell that one map knows to be free with certainty and that another shows as an
obstacle is an obstacle of the same occupancy in the merged map, in either order: what the first map saw is lost. -/
theorem C156_false {eig : Eig} (he : EigOk eig) : ∃ free obstacle : Cell, Reach eig properRay free ∧
    Reach eig properRay obstacle ∧ free.occ = some (-1) ∧ obstacle.gaussian = true ∧
    merged eig [free, obstacle] = obstacle ∧ merged eig [obstacle, free] = obstacle := by
  have hr := C121_ray_empty init 0 (fun _ => 1) 5 (o := 0) rfl rfl
  have hfree : Reach eig properRay { init with occ := some (limited (0 - 0.2 * (5 : ℕ))) } :=
    .ray 0 (fun _ => 1) 5 .init (fun h => by have := congrFun h 0; norm_num at this) hr
  have hob : Reach eig properRay (computeGaussian eig exCell) := .computeGaussian (exCell_reach eig _)
  have hog : (computeGaussian eig exCell).gaussian = true := by rw [exCompute]; rfl
  refine ⟨_, _, hfree, hob, ?_, hog, ?_, ?_⟩
  · simp only [limited]; norm_num
  · refine (C156_obstacles_partial he _ ?_).2.1 _ ?_
    · intro d hd; simp only [List.mem_cons, List.not_mem_nil, or_false] at hd
      rcases hd with rfl | rfl
      · exact hfree
      · exact hob
    · simp [occupied, hog, init]
  · refine (C156_obstacles_partial he _ ?_).2.1 _ ?_
    · intro d hd; simp only [List.mem_cons, List.not_mem_nil, or_false] at hd
      rcases hd with rfl | rfl
      · exact hob
      · exact hfree
    · simp [occupied, hog, init]

/-- Reachable cells with and without a Gaussian, and two with one. -/
example : ∃ eig, EigOk eig ∧ ∃ ds : List Cell, (∀ d ∈ ds, Reach eig properRay d) ∧ 2 ≤ (occupied ds).length ∧
    total (occupied ds) ≤ 1000000000 ∧ init ∈ ds := by
  obtain ⟨eig, he⟩ := exists_eig
  have hog : (computeGaussian eig exCell).gaussian = true := by rw [exCompute]; rfl
  refine ⟨eig, he, [computeGaussian eig exCell, init, computeGaussian eig exCell], ?_, ?_, ?_, by simp⟩
  · intro d hd
    simp only [List.mem_cons, List.not_mem_nil, or_false] at hd
    rcases hd with rfl | rfl | rfl
    · exact .computeGaussian (exCell_reach eig _)
    · exact .init
    · exact .computeGaussian (exCell_reach eig _)
  · simp [occupied, hog, init]
  · have : (computeGaussian eig exCell).points = 6 := by rw [exCompute]; rfl
    simp [occupied, hog, init, total, this]

end Verif.NDT
