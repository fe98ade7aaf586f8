import Verif.Grid.Ops

/-
Loop of `rayTrace`.
-/
namespace Verif.Voxel

set_option linter.unusedSectionVars false

variable {K : Type v} [Field K] [LinearOrder K] [IsStrictOrderedRing K] [FloorRing K] {α : Type u}

/-- What the walk may do to the cells: existing cells stay, new cells are default cells in visited
slots, every newly visited slot holds a cell. -/
structure RayRel (ops : CellOps α) (s s' : RayState α) : Prop where
  len : s'.cells.length = s.cells.length
  keep : ∀ i c, slot s.cells i = some c → slot s'.cells i = some c
  fresh : ∀ i c, slot s.cells i = none → slot s'.cells i = some c → c = ops.default ∧ i ∈ s'.visited
  sub : ∃ l, s'.visited = s.visited ++ l ∧ ∀ i ∈ l, (slot s'.cells i).isSome

theorem RayRel.refl (ops : CellOps α) (s : RayState α) : RayRel ops s s :=
  ⟨rfl, fun _ _ h => h, fun i c h h' => absurd (h.symm.trans h') (by simp), [], by simp, by simp⟩

theorem RayRel.trans {ops : CellOps α} {a b c : RayState α} (h1 : RayRel ops a b)
    (h2 : RayRel ops b c) : RayRel ops a c := by
  obtain ⟨l1, e1, p1⟩ := h1.sub
  obtain ⟨l2, e2, p2⟩ := h2.sub
  refine ⟨h2.len.trans h1.len, fun i x h => h2.keep i x (h1.keep i x h), ?_, l1 ++ l2, ?_, ?_⟩
  · intro i x ha hc
    cases hb : slot b.cells i with
    | none => exact h2.fresh i x hb hc
    | some y =>
      have := h2.keep i y hb
      rw [hc] at this
      cases this
      obtain ⟨hd, hm⟩ := h1.fresh i x ha hb
      exact ⟨hd, by rw [e2]; exact List.mem_append_left _ hm⟩
  · rw [e2, e1, List.append_assoc]
  · intro i hi
    rcases List.mem_append.1 hi with h | h
    · obtain ⟨x, hx⟩ := Option.isSome_iff_exists.1 (p1 i h)
      rw [h2.keep i x hx]; rfl
    · exact p2 i h

theorem rayVisit_rel {ops : CellOps α} {s s' : RayState α} {i : ℕ}
    (h : rayVisit ops s i = .ok s') : RayRel ops s s' ∧ s'.visited = s.visited ++ [i] := by
  unfold rayVisit readSlot writeSlot at h
  split_ifs at h with hi
  · rw [Res.bind_ok] at h
    cases hc : slot s.cells i with
    | some a =>
      rw [hc] at h
      cases h
      refine ⟨⟨rfl, fun _ _ h => h, fun i c h h' => absurd (h.symm.trans h') (by simp),
        [i], rfl, ?_⟩, rfl⟩
      intro j hj
      rw [List.mem_singleton.1 hj, hc]; rfl
    | none =>
      rw [hc] at h
      cases h
      refine ⟨⟨by simp, ?_, ?_, [i], rfl, ?_⟩, rfl⟩
      · intro j c hj
        simp only [slot_set]
        rw [if_neg, hj]
        rintro ⟨rfl, -⟩
        rw [hc] at hj; cases hj
      · intro j c hj hj'
        simp only [slot_set] at hj'
        split_ifs at hj' with hh
        · cases hj'
          exact ⟨rfl, by simp [hh.1]⟩
        · rw [hj] at hj'; cases hj'
      · intro j hj
        rw [List.mem_singleton.1 hj]
        simp [hi]
  · cases h

theorem rayLoop_rel {ops : CellOps α} {g : Grid K α} {delta : K × K} {n : ℕ} :
    ∀ {p : K × K} {o c : ℕ} {s s' : RayState α},
    rayLoop ops g delta n p o c s = .ok s' → RayRel ops s s' := by
  induction n with
  | zero => intro p o c s s' h; cases h; exact RayRel.refl _ _
  | succ n ih =>
    intro p o c s s' h
    unfold rayLoop at h
    obtain ⟨s1, h1, h⟩ := Res.bind_eq_ok.1 h
    have r1 : RayRel ops s s1 := by
      split_ifs at h1
      · exact (rayVisit_rel h1).1
      · cases h1; exact RayRel.refl _ _
    simp only at h
    split_ifs at h
    · cases h; exact r1
    · obtain ⟨idx, -, h⟩ := Res.bind_eq_ok.1 h
      exact r1.trans (ih h)

/-- Position after `k` half steps. -/
def rayPoint (start delta : K × K) (k : ℕ) : K × K := (start.1 + k * delta.1, start.2 + k * delta.2)

theorem rayVisit_ok (ops : CellOps α) {s : RayState α} {i : ℕ} (h : i < s.cells.length) :
    ∃ s', rayVisit ops s i = .ok s' := by
  unfold rayVisit
  rw [readSlot_lt h, Res.bind_ok]
  cases slot s.cells i with
  | some a => exact ⟨_, rfl⟩
  | none => simp only; rw [writeSlot_lt h]; exact ⟨_, rfl⟩

/-- For rays of at least one and fewer than 2^63 cells the loop bound does not wrap. -/
theorem rayBound_nat {n : ℕ} (h1 : 1 ≤ n) (h2 : n < 2 ^ 63) :
    (if 2 ^ 64 ≤ n then Res.ub .badCast else .ok ((2 * n + (2 ^ 64 - 1)) % 2 ^ 64))
      = Res.ok (2 * n - 1) := by
  have e : (2 * n + (2 ^ 64 - 1)) % 2 ^ 64 = 2 * n - 1 := by omega
  rw [e]
  exact if_neg (by omega)

/-- Staying strictly between the four border lines means being in the extent. -/
theorem inExtent_of_strict {g : Grid K α} (hcs : 0 < g.cellSize) {p : K × K}
    (h : ¬ (p.1 ≥ (g.right : K) * g.cellSize + g.half ∨ p.1 ≤ -(g.left : K) * g.cellSize - g.half ∨
       p.2 ≥ (g.up : K) * g.cellSize + g.half ∨ p.2 ≤ -(g.down : K) * g.cellSize - g.half)) :
    InExtent g (squareOf g.cellSize p) := by
  push Not at h
  obtain ⟨h1, h2, h3, h4⟩ := h
  unfold Grid.half at *
  rw [inExtent_iff hcs, le_div_iff₀ hcs, div_lt_iff₀ hcs, lt_div_iff₀ hcs, div_le_iff₀ hcs]
  exact ⟨⟨by linarith, by linarith⟩, by linarith, by linarith⟩

theorem rayLoop_ok (ops : CellOps α) {g : Grid K α} (hwf : WF g) (hcs : 0 < g.cellSize)
    (start delta : K × K) (n : ℕ) : ∀ (k o : ℕ) (s : RayState α),
    s.cells.length = g.cells.length →
    InExtent g (squareOf g.cellSize (rayPoint start delta k)) →
    ∃ s', rayLoop ops g delta n (rayPoint start delta k) o
        (slotNo g (squareOf g.cellSize (rayPoint start delta k))) s = .ok s' ∧
      ∀ i ∈ s'.visited, i ∈ s.visited ∨ ∃ j, k ≤ j ∧ j < k + n ∧
        InExtent g (squareOf g.cellSize (rayPoint start delta j)) ∧
        i = slotNo g (squareOf g.cellSize (rayPoint start delta j)) := by
  unfold WF at hwf
  induction n with
  | zero => intro k o s hl hin; exact ⟨s, rfl, fun i hi => Or.inl hi⟩
  | succ n ih =>
    intro k o s hl hin
    have hlt := slotNo_lt hin
    obtain ⟨s1, h1, hlen1, hv1⟩ : ∃ s1, (if slotNo g (squareOf g.cellSize (rayPoint start delta k)) ≠ o
        then rayVisit ops s (slotNo g (squareOf g.cellSize (rayPoint start delta k))) else .ok s)
        = .ok s1 ∧ s1.cells.length = g.cells.length ∧ ∀ i ∈ s1.visited, i ∈ s.visited ∨
          i = slotNo g (squareOf g.cellSize (rayPoint start delta k)) := by
      split_ifs
      · obtain ⟨s1, h1⟩ := rayVisit_ok ops (s := s)
          (i := slotNo g (squareOf g.cellSize (rayPoint start delta k))) (by omega)
        have r := rayVisit_rel h1
        refine ⟨s1, h1, r.1.len.trans hl, ?_⟩
        intro i hi
        rw [r.2] at hi
        rcases List.mem_append.1 hi with h | h
        · exact Or.inl h
        · exact Or.inr (List.mem_singleton.1 h)
      · exact ⟨s, rfl, hl, fun i hi => Or.inl hi⟩
    have hnext : ((rayPoint start delta k).1 + delta.1, (rayPoint start delta k).2 + delta.2)
        = rayPoint start delta (k + 1) := by
      unfold rayPoint; ext <;> push_cast <;> ring
    unfold rayLoop
    rw [h1, Res.bind_ok]
    have hnext1 := congrArg Prod.fst hnext
    have hnext2 := congrArg Prod.snd hnext
    simp only at hnext1 hnext2
    simp only [hnext1, hnext2, Prod.mk.eta]
    have hbase : ∀ i ∈ s1.visited, i ∈ s.visited ∨ ∃ j, k ≤ j ∧ j < k + (n + 1) ∧
        InExtent g (squareOf g.cellSize (rayPoint start delta j)) ∧
        i = slotNo g (squareOf g.cellSize (rayPoint start delta j)) := by
      intro i hi
      rcases hv1 i hi with h | h
      · exact Or.inl h
      · exact Or.inr ⟨k, le_rfl, by omega, hin, h⟩
    split_ifs with hout
    · exact ⟨s1, rfl, hbase⟩
    · have hin' := inExtent_of_strict hcs hout
      rw [calcIndex_inExtent hcs hin', Res.bind_ok]
      obtain ⟨s', h', hv'⟩ := ih (k + 1) (slotNo g (squareOf g.cellSize (rayPoint start delta k)))
        s1 hlen1 hin'
      refine ⟨s', h', ?_⟩
      intro i hi
      rcases hv' i hi with h | ⟨j, hj1, hj2, hj3, hj4⟩
      · exact hbase i h
      · exact Or.inr ⟨j, by omega, by omega, hj3, hj4⟩

end Verif.Voxel
