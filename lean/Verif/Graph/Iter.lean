import Verif.Graph.Lemmas
import Mathlib.Data.Finset.Card
import Mathlib.Data.Finset.Range
import Mathlib.Data.Finset.Dedup
import Mathlib.Data.Finset.Filter

namespace Verif.PoseGraph

open Verif

variable {ν : Type u} {ε : Type v} {β : Type w}

theorem skipPrefix_ok {l : List (Option β)} {pos pos' : ℕ} (h : skipPrefix l pos = .ok pos') :
    pos ≤ pos' ∧ pos' < l.length := by
  induction hk : l.length - pos generalizing pos with
  | zero =>
    rw [skipPrefix, dif_neg (by omega)] at h; cases h
  | succ k ih =>
    rw [skipPrefix, dif_pos (by omega)] at h
    split at h
    · have := ih h (by omega); omega
    · cases h; omega

/-- The prefix increment never produces the end position. -/
theorem nextPrefix_ok {l : List (Option β)} {pos pos' : ℕ} (h : nextPrefix l pos = .ok pos') :
    pos < pos' ∧ pos' < l.length := by
  unfold nextPrefix at h
  split at h
  · have := skipPrefix_ok h; omega
  · cases h

theorem skipPrefix_spec (l : List (Option β)) (pos p : ℕ) :
    skipPrefix l pos = .ok p ↔
      pos ≤ p ∧ (∃ b, l[p]? = some (some b)) ∧ ∀ i, pos ≤ i → i < p → l[i]? = some none := by
  induction hk : l.length - pos generalizing pos with
  | zero =>
    rw [skipPrefix, dif_neg (by omega)]
    refine ⟨fun h => (nomatch h), ?_⟩
    rintro ⟨h1, ⟨b, h2⟩, -⟩
    rw [List.getElem?_eq_none (by omega)] at h2
    cases h2
  | succ k ih =>
    have hlt : pos < l.length := by omega
    rw [skipPrefix, dif_pos hlt]
    split
    · rename_i hn
      rw [ih (pos + 1) (by omega)]
      have hn' : l[pos]? = some none := by rw [List.getElem?_eq_getElem hlt, hn]
      constructor
      · rintro ⟨h1, h2, h3⟩
        refine ⟨by omega, h2, fun i hi hp => ?_⟩
        rcases Nat.eq_or_lt_of_le hi with rfl | hi
        exacts [hn', h3 i hi hp]
      · rintro ⟨h1, ⟨b, h2⟩, h3⟩
        refine ⟨?_, ⟨b, h2⟩, fun i hi hp => h3 i (by omega) hp⟩
        rcases Nat.eq_or_lt_of_le h1 with rfl | h1
        · rw [hn'] at h2; cases h2
        · exact h1
    · rename_i b hb
      have hb' : l[pos]? = some (some b) := by rw [List.getElem?_eq_getElem hlt, hb]
      constructor
      · intro h
        cases h
        exact ⟨le_rfl, ⟨b, hb'⟩, fun i h1 h2 => by omega⟩
      · rintro ⟨h1, -, h3⟩
        rcases Nat.eq_or_lt_of_le h1 with rfl | h1
        · rfl
        · rw [h3 pos le_rfl h1] at hb'; cases hb'

theorem skipPrefix_not_throw (l : List (Option β)) (pos : ℕ) :
    (∃ p, skipPrefix l pos = .ok p) ∨ (skipPrefix l pos).IsUB := by
  induction hk : l.length - pos generalizing pos with
  | zero => right; rw [skipPrefix, dif_neg (by omega)]; exact ⟨_, rfl⟩
  | succ k ih =>
    rw [skipPrefix, dif_pos (by omega)]
    split
    · exact ih _ (by omega)
    · exact .inl ⟨_, rfl⟩

theorem nextPrefix_not_throw (l : List (Option β)) (pos : ℕ) :
    (∃ p, nextPrefix l pos = .ok p) ∨ (nextPrefix l pos).IsUB := by
  unfold nextPrefix; split
  · exact skipPrefix_not_throw _ _
  · exact .inr ⟨_, rfl⟩

theorem traverse_prefix_ub (l : List (Option β)) (fuel pos : ℕ) (h : pos < l.length)
    (hf : l.length - pos < fuel) : (traverse nextPrefix l fuel pos).IsUB := by
  induction fuel generalizing pos with
  | zero => omega
  | succ fuel ih =>
    rw [traverse, if_neg (by omega)]
    rcases hd : derefIter l pos with b | e | u
    · rw [Res.bind_ok]
      rcases nextPrefix_not_throw l pos with ⟨p, hp⟩ | ⟨u, hu⟩
      · have := nextPrefix_ok hp
        rw [hp, Res.bind_ok]
        obtain ⟨u, hu⟩ := ih p this.2 (by omega)
        exact ⟨u, by rw [hu]; rfl⟩
      · exact ⟨u, by rw [hu]; rfl⟩
    · unfold derefIter at hd; split at hd <;> cases hd
    · exact ⟨u, rfl⟩

theorem drop_cons {l : List (Option β)} {pos : ℕ} (h : pos < l.length) :
    l.drop pos = l[pos] :: l.drop (pos + 1) := (List.getElem_cons_drop h).symm

theorem skipPostfix_spec (l : List (Option β)) (pos : ℕ) (h : pos ≤ l.length) :
    pos ≤ skipPostfix l pos ∧ skipPostfix l pos ≤ l.length ∧
    (skipPostfix l pos < l.length → ∃ b, l[skipPostfix l pos]? = some (some b)) ∧
    (l.drop pos).filterMap id = (l.drop (skipPostfix l pos)).filterMap id := by
  induction hk : l.length - pos generalizing pos with
  | zero =>
    rw [skipPostfix, dif_neg (by omega)]
    exact ⟨le_rfl, h, fun _ => by omega, rfl⟩
  | succ k ih =>
    rw [skipPostfix, dif_pos (by omega)]
    split
    · rename_i hn
      obtain ⟨h1, h2, h3, h4⟩ := ih (pos + 1) (by omega) (by omega)
      refine ⟨by omega, h2, h3, ?_⟩
      rw [drop_cons (by omega : pos < l.length), hn]
      simpa using h4
    · rename_i b hb
      exact ⟨le_rfl, h, fun hlt => ⟨b, by rw [List.getElem?_eq_getElem hlt, hb]⟩, rfl⟩

theorem traverse_postfix (l : List (Option β)) (fuel pos : ℕ) (h : pos ≤ l.length)
    (hs : pos < l.length → ∃ b, l[pos]? = some (some b)) (hf : l.length - pos < fuel) :
    traverse nextPostfix l fuel pos = .ok ((l.drop pos).filterMap id) := by
  induction fuel generalizing pos with
  | zero => omega
  | succ fuel ih =>
    rw [traverse]
    by_cases hp : pos = l.length
    · rw [if_pos hp, hp]; simp
    · have hlt : pos < l.length := by omega
      obtain ⟨b, hb⟩ := hs hlt
      obtain ⟨h1, h2, h3, h4⟩ := skipPostfix_spec l (pos + 1) (by omega)
      have hb' : l[pos] = some b := by
        rw [List.getElem?_eq_getElem hlt] at hb; exact Option.some.inj hb
      rw [if_neg hp, derefIter, hb, Res.bind_ok, nextPostfix, if_pos hlt, Res.bind_ok,
        ih _ h2 h3 (by omega), Res.map_ok, drop_cons hlt, hb', ← h4]
      simp

theorem loopPostfix_eq (l : List (Option β)) (h : l.head? ≠ some none) :
    loopPostfix l = .ok (l.filterMap id) := by
  unfold loopPostfix
  rw [traverse_postfix l (l.length + 1) 0 (by omega) ?_ (by omega)]
  · simp
  · intro _
    rcases l with _ | ⟨_ | b, l⟩
    · simp at *
    · simp at h
    · exact ⟨b, rfl⟩

/-! ### Counting -/

theorem Inv.finite {g : Graph ν ε} {log : Log ν ε} (inv : Inv g log) :
    {id | log.edge id ≠ none} =
      ((Finset.range g.edges.length).filter fun id => (live g id).isSome : Finset ℕ) := by
  ext id
  simp only [Set.mem_ofPred_eq, inv.edge, ne_eq, Option.map_eq_none_iff, Finset.coe_filter,
    Finset.mem_range]
  constructor
  · intro h
    obtain ⟨e, he⟩ := Option.ne_none_iff_exists'.1 h
    exact ⟨live_lt he, by simp [he]⟩
  · rintro ⟨_, h⟩ hn
    rw [hn] at h; cases h

theorem Inv.count {g : Graph ν ε} {log : Log ν ε} (inv : Inv g log) :
    {id | log.edge id ≠ none}.ncard + g.pool.length = g.edges.length := by
  have hp : (Finset.range g.edges.length).filter (fun id => ¬ (live g id).isSome) =
      g.pool.toFinset := by
    ext id
    simp only [Finset.mem_filter, Finset.mem_range, List.mem_toFinset, inv.pool]
    rcases slot_cases g id with h | h | ⟨e, h⟩
    · rw [live, h]; rw [List.getElem?_eq_none_iff] at h; simp; omega
    · rw [live, h]; simp
      by_contra hc
      rw [List.getElem?_eq_none (by omega)] at h; cases h
    · rw [live, h]; simp
  rw [inv.finite, Set.ncard_coe_finset, ← List.toFinset_card_of_nodup inv.poolNodup, ← hp,
    Finset.card_filter_add_card_filter_not, Finset.card_range]

theorem Inv.edgeCount {g : Graph ν ε} {log : Log ν ε} (inv : Inv g log)
    (hb : g.edges.length < 2 ^ 64) :
    PoseGraph.edgeCount g = {id | log.edge id ≠ none}.ncard := by
  have := inv.count
  unfold PoseGraph.edgeCount
  omega

end Verif.PoseGraph
