import Verif.NDTGrid.Nearest

/- C149: the nearest Gaussians by rings that grow. -/
namespace Verif.NDTGrid

open Verif Verif.Voxel

variable {K : Type v} [Field K] [LinearOrder K] [IsStrictOrderedRing K] [FloorRing K] {γ : Type u}

/-- C149 for a point inside the grid: the search ends, and returns different cells with Gaussians, at most `k`.
If they are `k`, none is farther than a metre or twice as far as the `k`-th nearest.  If they are fewer, they are
all Gaussians within a radius of a metre and of half the width of the grid — in cells, not in metres.  Partial: the
`k` cells need not be the nearest ones, and fewer than `k` need not be all (`C149_false`). -/
theorem C149_partial {sort : List (ℕ × γ) → List (ℕ × γ)} (hsort : ∀ l, (sort l).Perm l) {I : CellI K γ}
    {n : NGrid K γ} (hwf : WF n.grid) (hcs : 0 < n.grid.cellSize) (hp : Placed I n.grid) {p : K × K}
    (hin : isInside n.grid p = true) (k : ℕ) :
    ∃ res, nearestVoxel sort I n p k = .ok res ∧ (res.map Prod.fst).Nodup ∧ res.length ≤ k ∧
      (∀ D, Enough I n p k D → ∀ x ∈ res, Within I n p (max 1 (4 * D)) x) ∧
      (res.length < k → ∃ r : ℕ, 1 ≤ r ∧ n.grid.width ≤ 2 * r ∧
        ∀ x, x ∈ res ↔ Within I n p ((r : K) ^ 2) x) := by
  unfold nearestVoxel
  have e1 := (near_spec hwf hcs hp hin (r := (1 : K)) one_pos).1
  rw [e1, Res.bind_ok]
  obtain ⟨r, hr, hg, hfew, hend⟩ := grow_spec hwf hcs hp hin k 1 le_rfl
  rw [Nat.cast_one, mul_one] at hg
  rw [hg, Res.bind_ok]
  have r0 : (0 : K) < r := by exact_mod_cast hr
  obtain ⟨-, hm, hs⟩ := near_spec hwf hcs hp hin r0
  have nd : ((near I n p (r : K)).map Prod.fst).Nodup := hs.imp fun h => ne_of_lt h
  have bound : ∀ D, Enough I n p k D → (r : K) ^ 2 ≤ max 1 (4 * D) := by
    intro D hD
    rcases hfew with rfl | ⟨m, hm1, rfl, hlt⟩
    · simp
    · have m0 : (0 : K) < m := by exact_mod_cast hm1
      have : (m : K) ^ 2 < D := by
        by_contra hle
        obtain ⟨l, l1, l2, l3⟩ := hD
        refine few hwf hcs hp hin m0 hlt ⟨l, l1, l2, fun x hx => ?_⟩
        obtain ⟨q, q1, q2, q3, q4⟩ := l3 x hx
        exact ⟨q, q1, q2, q3, q4.trans (not_lt.1 hle)⟩
      refine le_max_of_le_right ?_
      push_cast
      linarith
  have wide : ∀ D, Enough I n p k D → ∀ x, Within I n p ((r : K) ^ 2) x → Within I n p (max 1 (4 * D)) x := by
    rintro D hD x ⟨q, q1, q2, q3, q4⟩
    exact ⟨q, q1, q2, q3, q4.trans (bound D hD)⟩
  by_cases hk : (near I n p (r : K)).length < k
  · rw [if_pos hk]
    refine ⟨_, rfl, nd, hk.le, fun D hD x hx => wide D hD x ((hm x).1 hx), fun _ => ⟨r, hr, ?_, hm⟩⟩
    omega
  · rw [if_neg hk]
    have hlen : ((sort (near I n p (r : K))).take k).length = k := by
      rw [List.length_take, (hsort _).length_eq]; omega
    refine ⟨_, rfl, ?_, hlen.le, fun D hD x hx => wide D hD x ((hm x).1 ?_), fun h => by omega⟩
    · have : ((sort (near I n p (r : K))).map Prod.fst).Nodup := ((hsort _).map Prod.fst).nodup_iff.2 nd
      rw [List.map_take]
      exact this.sublist (List.take_sublist _ _)
    · exact (hsort _).mem_iff.1 (List.mem_of_mem_take hx)

/-- A column of seven squares with a Gaussian at each end. -/
def colN : NGrid ℚ Toy :=
  { exN with
    grid := { cellSize := 1, left := 0, right := 0, up := 0, down := 6, validCells := 2,
              cells := [some (toy 0 0 3), none, none, none, none, none, some (toy 0 (-6) 4)] } }

/-- Negation of C149.  First part: a sort that leaves equal elements in their order is allowed, and then the one
nearest Gaussian to `(3/4, 0)` is said to be the one at `(0, 0)`, while that at `(9/8, 1/4)` is nearer.  Second part:
of the two Gaussians of a narrow grid only one is found. -/
theorem C149_false : nearestVoxel id toyI exN (3 / 4, 0) 1 = .ok [(0, toy 0 0 3)] ∧
    Within toyI exN (3 / 4, 0) (13 / 64) (1, toy (9 / 8) (1 / 4) 4) ∧
    ¬ Within toyI exN (3 / 4, 0) (13 / 64) (0, toy 0 0 3) ∧
    nearestVoxel id toyI colN (0, 0) 2 = .ok [(0, toy 0 0 3)] ∧
    Within toyI colN (0, 0) 36 (6, toy 0 (-6) 4) := by
  refine ⟨?_, ⟨(1, 0), ?_, ?_, rfl, ?_⟩, ?_, ?_, ⟨(0, -6), ?_, ?_, rfl, ?_⟩⟩
  · unfold nearestVoxel
    rw [show neighbours toyI exN (3 / 4, 0) 1 = .ok [(0, toy 0 0 3), (1, toy (9 / 8) (1 / 4) 4)] by decide +kernel,
      Res.bind_ok, grow, if_neg (by decide), Res.bind_ok, if_neg (by decide)]
    rfl
  · decide +kernel
  · decide +kernel
  · decide +kernel
  · rintro ⟨q, -, -, -, h⟩
    revert h
    decide +kernel
  · unfold nearestVoxel
    rw [show neighbours toyI colN (0, 0) 1 = .ok [(0, toy 0 0 3)] by decide +kernel,
      Res.bind_ok, grow, if_neg (by decide), Res.bind_ok, if_pos (by decide)]
  · decide +kernel
  · decide +kernel
  · decide +kernel

/-- The hypotheses of `C149_partial` are met by a grid with two Gaussians. -/
example : ∃ res, nearestVoxel id toyI exN (3 / 4, 0) 2 = .ok res ∧ (res.map Prod.fst).Nodup ∧ res.length ≤ 2 := by
  obtain ⟨res, h1, h2, h3, -⟩ := C149_partial (sort := id) (fun l => List.Perm.refl l) (I := toyI) exN_wf
    (by decide +kernel) exN_placed (p := (3 / 4, 0)) (by decide +kernel) 2
  exact ⟨res, h1, h2, h3⟩

end Verif.NDTGrid
