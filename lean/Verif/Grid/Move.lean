import Verif.Grid.Enlarge

/-
Closed form of the shifting loops `moveLeft`, `moveRight`, `moveUp`, `moveDown` and of `translate`.
-/
namespace Verif.Voxel

set_option linter.unusedSectionVars false

variable {K : Type v} [Field K] [LinearOrder K] [IsStrictOrderedRing K] [FloorRing K] {α : Type u}

theorem slot_moveSlot {l : List (Option α)} {dst src : ℕ} (hd : dst < l.length) (j : ℕ) :
    slot (moveSlot l dst src) j =
      if j = dst then slot l src else if j = src then none else slot l j := by
  unfold moveSlot
  simp only [slot_set, List.length_set]
  by_cases h1 : j = dst
  · subst h1; simp [hd]
  · have h1' : dst ≠ j := fun h => h1 h.symm
    by_cases h2 : j = src
    · subst h2
      by_cases h3 : j < l.length
      · simp [h1, h1', h3]
      · simp [h1, h1', h3, slot_of_length_le (Nat.le_of_not_lt h3)]
    · have h2' : src ≠ j := fun h => h2 h.symm
      simp [h1, h1', h2, h2']

@[simp] theorem length_moveSlot (l : List (Option α)) (dst src : ℕ) :
    (moveSlot l dst src).length = l.length := by simp [moveSlot]

/-! ### moveLeft -/

structure LeftInv (orig : List (Option α)) (w m i : ℕ) (s : MoveState α) : Prop where
  len : s.cells.length = orig.length
  used : s.used = if i % w ≤ w - m then i % w else 0
  unused : s.unused = i % w - (w - m)
  done : ∀ j < i, slot s.cells j = if j % w + m < w then slot orig (j + m) else none
  todo : ∀ j, i + m ≤ j → slot s.cells j = slot orig j

theorem moveLeft_loop {orig : List (Option α)} {w h m : ℕ} (hw : 0 < w) (hm : 0 < m) (hmw : m ≤ w)
    (hlen : orig.length = w * h) :
    LeftInv orig w m orig.length
      ((List.range orig.length).foldl (moveLeftStep m (w - m)) ⟨orig, 0, 0⟩) := by
  apply foldl_range_inv (P := LeftInv orig w m)
  · exact ⟨rfl, by simp, by simp, fun j hj => by omega, fun j _ => rfl⟩
  · intro i hi s inv
    have hmod := Nat.mod_lt i hw
    have hnext := succ_mod_div (i := i) hw
    by_cases hc : i % w + m < w
    · -- the slot receives the one `m` columns to the right
      have hin : i + m < orig.length := by
        rw [hlen]
        have h1 : i / w < h := Nat.div_lt_of_lt_mul (by omega)
        have := idx_lt hc h1
        have e := idx_eq w i
        omega
      have hu : s.used = i % w := by rw [inv.used, if_pos (by omega)]
      have hn : s.unused = 0 := by rw [inv.unused]; omega
      have hstep : moveLeftStep m (w - m) s i = ⟨moveSlot s.cells i (i + m), i % w + 1, 0⟩ := by
        unfold moveLeftStep
        rw [if_pos ⟨by rw [inv.len]; exact hin, by rw [hu]; omega, hn⟩, hu]
      rw [hstep]
      have hi' : i < s.cells.length := by rw [inv.len]; exact hi
      refine ⟨by simp [inv.len], ?_, ?_, ?_, ?_⟩
      · by_cases hz : i % w + 1 = w
        · omega
        · rw [(hnext.2 hz).1, if_pos (by omega)]
      · by_cases hz : i % w + 1 = w
        · omega
        · rw [(hnext.2 hz).1]; simp only; omega
      · intro j hj
        simp only [slot_moveSlot hi']
        by_cases hji : j = i
        · subst hji; rw [if_pos rfl, if_pos hc, inv.todo _ le_rfl]
        · rw [if_neg hji, if_neg (by omega), inv.done j (by omega)]
      · intro j hj
        simp only [slot_moveSlot hi']
        rw [if_neg (by omega), if_neg (by omega), inv.todo j (by omega)]
    · have hstep : moveLeftStep m (w - m) s i =
          ⟨s.cells.set i none, 0, if i % w + 1 = w then 0 else i % w + 1 - (w - m)⟩ := by
        unfold moveLeftStep
        rw [if_neg, inv.unused]
        · congr 1
          split_ifs <;> omega
        · rintro ⟨-, h2, h3⟩
          rw [inv.used] at h2
          rw [inv.unused] at h3
          split_ifs at h2 <;> omega
      rw [hstep]
      refine ⟨by simp [inv.len], ?_, ?_, ?_, ?_⟩
      · by_cases hz : i % w + 1 = w
        · rw [(hnext.1 hz).1]; simp
        · rw [(hnext.2 hz).1]; simp only; split_ifs <;> omega
      · by_cases hz : i % w + 1 = w
        · rw [(hnext.1 hz).1]; simp [hz]
        · rw [(hnext.2 hz).1]; simp only; rw [if_neg hz]
      · intro j hj
        simp only [slot_set, inv.len]
        by_cases hji : j = i
        · subst hji; rw [if_pos ⟨rfl, hi⟩, if_neg hc]
        · rw [if_neg (by omega), inv.done j (by omega)]
      · intro j hj
        simp only [slot_set]
        rw [if_neg (by omega), inv.todo j (by omega)]

/-! ### moveRight -/

structure RightInv (orig : List (Option α)) (w m k : ℕ) (s : MoveState α) : Prop where
  len : s.cells.length = orig.length
  used : s.used = if (orig.length - k) % w ≤ w - m then (orig.length - k) % w else 0
  unused : s.unused = (orig.length - k) % w - (w - m)
  done : ∀ j < orig.length, k ≤ j → slot s.cells j = if m ≤ j % w then slot orig (j - m) else none
  todo : ∀ j, j + m < k → slot s.cells j = slot orig j

theorem col_from_right {w h i : ℕ} (hw : 0 < w) (hi : i < w * h) :
    (w * h - (i + 1)) % w = w - 1 - i % w := by
  have hmod := Nat.mod_lt i hw
  have h1 : i / w < h := Nat.div_lt_of_lt_mul hi
  have e := idx_eq w i
  obtain ⟨t, ht⟩ : ∃ t, h = i / w + 1 + t := ⟨h - i / w - 1, by omega⟩
  have : w * h - (i + 1) = t * w + (w - 1 - i % w) := by
    have e2 : w * h = i / w * w + w + t * w := by rw [ht]; ring
    generalize i / w * w = a at *
    generalize i % w = c at *
    omega
  rw [this, idx_mod (by omega)]

theorem moveRight_loop {orig : List (Option α)} {w h m : ℕ} (hw : 0 < w) (hm : 0 < m) (hmw : m ≤ w)
    (hlen : orig.length = w * h) :
    RightInv orig w m 0
      ((List.range orig.length).reverse.foldl (moveRightStep m (w - m)) ⟨orig, 0, 0⟩) := by
  apply foldl_range_reverse_inv (P := RightInv orig w m)
  · exact ⟨rfl, by simp, by simp, fun j hj hj' => by omega, fun j _ => rfl⟩
  · intro i hi s inv
    have hmod := Nat.mod_lt i hw
    have hr : (orig.length - (i + 1)) % w = w - 1 - i % w := by
      rw [hlen]; exact col_from_right hw (by omega)
    have hnext := succ_mod_div (i := orig.length - (i + 1)) hw
    rw [show orig.length - (i + 1) + 1 = orig.length - i by omega, hr] at hnext
    have hused := inv.used
    have hunused := inv.unused
    rw [hr] at hused hunused
    by_cases hc : m ≤ i % w
    · have him : m ≤ i := le_trans hc (Nat.mod_le _ _)
      have hu : s.used = w - 1 - i % w := by rw [hused, if_pos (by omega)]
      have hn : s.unused = 0 := by rw [hunused]; omega
      have hstep : moveRightStep m (w - m) s i =
          ⟨moveSlot s.cells i (i - m), w - 1 - i % w + 1, 0⟩ := by
        unfold moveRightStep
        rw [if_pos ⟨him, by rw [hu]; omega, hn⟩, hu]
      rw [hstep]
      have hi' : i < s.cells.length := by rw [inv.len]; exact hi
      have hz : w - 1 - i % w + 1 ≠ w := by omega
      refine ⟨by simp [inv.len], ?_, ?_, ?_, ?_⟩
      · rw [(hnext.2 hz).1, if_pos (by omega)]
      · rw [(hnext.2 hz).1]; simp only; omega
      · intro j hj hj'
        simp only [slot_moveSlot hi']
        by_cases hji : j = i
        · subst hji; rw [if_pos rfl, if_pos hc, inv.todo _ (by omega)]
        · rw [if_neg hji, if_neg (by omega), inv.done j hj (by omega)]
      · intro j hj
        simp only [slot_moveSlot hi']
        rw [if_neg (by omega), if_neg (by omega), inv.todo j (by omega)]
    · have hstep : moveRightStep m (w - m) s i =
          ⟨s.cells.set i none, 0,
            if w - 1 - i % w + 1 = w then 0 else w - 1 - i % w + 1 - (w - m)⟩ := by
        unfold moveRightStep
        rw [if_neg, hunused]
        · congr 1
          split_ifs <;> omega
        · rintro ⟨-, h2, h3⟩
          rw [hused] at h2
          rw [hunused] at h3
          split_ifs at h2 <;> omega
      rw [hstep]
      refine ⟨by simp [inv.len], ?_, ?_, ?_, ?_⟩
      · by_cases hz : w - 1 - i % w + 1 = w
        · rw [(hnext.1 hz).1]; simp
        · rw [(hnext.2 hz).1]; simp only; split_ifs <;> omega
      · by_cases hz : w - 1 - i % w + 1 = w
        · rw [(hnext.1 hz).1]; simp [hz]
        · rw [(hnext.2 hz).1]; simp only; rw [if_neg hz]
      · intro j hj hj'
        simp only [slot_set, inv.len]
        by_cases hji : j = i
        · subst hji; rw [if_pos ⟨rfl, hi⟩, if_neg hc]
        · rw [if_neg (by omega), inv.done j hj (by omega)]
      · intro j hj
        simp only [slot_set]
        rw [if_neg (by omega), inv.todo j (by omega)]

/-! ### moveUp, moveDown -/

theorem moveUp_loop {orig : List (Option α)} {w m : ℕ} (hmw : 0 < m * w) :
    let s := (List.range orig.length).foldl (moveUpStep m w) orig
    s.length = orig.length ∧ ∀ j < orig.length, slot s j = slot orig (j + m * w) := by
  have := foldl_range_inv
    (P := fun i s => s.length = orig.length ∧ (∀ j < i, slot s j = slot orig (j + m * w)) ∧
      ∀ j, i + m * w ≤ j → slot s j = slot orig j)
    (moveUpStep m w) orig orig.length ⟨rfl, fun j hj => by omega, fun j _ => rfl⟩ ?_
  · exact ⟨this.1, this.2.1⟩
  · rintro i hi s ⟨hl, hd, ht⟩
    have hi' : i < s.length := by omega
    unfold moveUpStep
    simp only
    split_ifs with hc
    · refine ⟨by simpa using hl, ?_, ?_⟩
      · intro j hj
        rw [slot_moveSlot hi']
        by_cases hji : j = i
        · subst hji; rw [if_pos rfl, ht _ le_rfl]
        · rw [if_neg hji, if_neg (by omega), hd j (by omega)]
      · intro j hj
        rw [slot_moveSlot hi', if_neg (by omega), if_neg (by omega), ht j (by omega)]
    · refine ⟨by simpa using hl, ?_, ?_⟩
      · intro j hj
        rw [slot_set]
        by_cases hji : j = i
        · subst hji
          rw [if_pos ⟨rfl, hi'⟩, slot_of_length_le (by omega)]
        · rw [if_neg (by omega), hd j (by omega)]
      · intro j hj
        rw [slot_set, if_neg (by omega), ht j (by omega)]

theorem moveDown_loop {orig : List (Option α)} {w m : ℕ} (hmw : 0 < m * w) :
    let s := (List.range orig.length).reverse.foldl (moveDownStep m w) orig
    s.length = orig.length ∧
      ∀ j < orig.length, slot s j = if m * w ≤ j then slot orig (j - m * w) else none := by
  have := foldl_range_reverse_inv
    (P := fun k s => s.length = orig.length ∧
      (∀ j < orig.length, k ≤ j → slot s j = if m * w ≤ j then slot orig (j - m * w) else none) ∧
      ∀ j, j + m * w < k → slot s j = slot orig j)
    (moveDownStep m w) orig orig.length ⟨rfl, fun j hj hj' => by omega, fun j _ => rfl⟩ ?_
  · exact ⟨this.1, fun j hj => this.2.1 j hj (by omega)⟩
  · rintro i hi s ⟨hl, hd, ht⟩
    have hi' : i < s.length := by omega
    unfold moveDownStep
    split_ifs with hc
    · refine ⟨by simpa using hl, ?_, ?_⟩
      · intro j hj hj'
        rw [slot_moveSlot hi']
        by_cases hji : j = i
        · subst hji; rw [if_pos rfl, if_pos hc, ht _ (by omega)]
        · rw [if_neg hji, if_neg (by omega), hd j hj (by omega)]
      · intro j hj
        rw [slot_moveSlot hi', if_neg (by omega), if_neg (by omega), ht j (by omega)]
    · refine ⟨by simpa using hl, ?_, ?_⟩
      · intro j hj hj'
        rw [slot_set]
        by_cases hji : j = i
        · subst hji; rw [if_pos ⟨rfl, hi'⟩, if_neg hc]
        · rw [if_neg (by omega), hd j hj (by omega)]
      · intro j hj
        rw [slot_set, if_neg (by omega), ht j (by omega)]

/-! ### On the abstract content -/

/-- `g'` has the extents, resolution and counter of `g`. -/
structure SameFrame (g g' : Grid K α) : Prop where
  left : g'.left = g.left
  right : g'.right = g.right
  up : g'.up = g.up
  down : g'.down = g.down
  cs : g'.cellSize = g.cellSize
  valid : g'.validCells = g.validCells

theorem SameFrame.refl (g : Grid K α) : SameFrame g g := ⟨rfl, rfl, rfl, rfl, rfl, rfl⟩

theorem SameFrame.trans {a b c : Grid K α} (h : SameFrame a b) (h' : SameFrame b c) :
    SameFrame a c :=
  ⟨h'.1.trans h.1, h'.2.trans h.2, h'.3.trans h.3, h'.4.trans h.4, h'.5.trans h.5, h'.6.trans h.6⟩

theorem SameFrame.inExtent {g g' : Grid K α} (h : SameFrame g g') (q : ℤ × ℤ) :
    InExtent g' q ↔ InExtent g q := by
  unfold InExtent; rw [h.left, h.right, h.up, h.down]

theorem SameFrame.withCells (g : Grid K α) (l : List (Option α)) :
    SameFrame g { g with cells := l } := ⟨rfl, rfl, rfl, rfl, rfl, rfl⟩

theorem content_withCells {g : Grid K α} {q : ℤ × ℤ} (h : InExtent g q) (l : List (Option α)) :
    content { g with cells := l } q = slot l (slotNo g q) := if_pos h

theorem moveLeft_spec {g : Grid K α} (hwf : WF g) (m : ℕ) :
    WF (moveLeft g m) ∧ SameFrame g (moveLeft g m) ∧
      ∀ q, InExtent g q → content (moveLeft g m) q = content g (q.1 + m, q.2) := by
  unfold moveLeft
  by_cases h0 : m = 0
  · rw [if_pos h0]; subst h0; exact ⟨hwf, SameFrame.refl _, fun q _ => by simp⟩
  rw [if_neg h0]
  have hwp := width_pos g
  set m' := if m > g.width then g.width else m with hm'
  have hm1 : 0 < m' := by rw [hm']; split_ifs <;> omega
  have hm2 : m' ≤ g.width := by rw [hm']; split_ifs <;> omega
  have inv := moveLeft_loop hwp hm1 hm2 hwf
  refine ⟨?_, SameFrame.withCells _ _, ?_⟩
  · unfold WF at *; simp only; rw [inv.len]; exact hwf
  · intro q hq
    have hlt := slotNo_lt hq
    refine (content_withCells hq _).trans ?_
    rw [inv.done _ (by unfold WF at hwf; omega)]
    unfold slotNo
    rw [idx_mod hq.col_lt]
    by_cases hin : InExtent g (q.1 + m, q.2)
    · have hq' := hq
      rw [content_of_in hin]
      unfold InExtent at hin hq'
      simp only at hin
      have hm3 : m' = m := by rw [hm', if_neg]; unfold Grid.width; omega
      rw [hm3, if_pos (by unfold Grid.width; omega)]
      unfold slotNo
      simp only
      congr 1
      omega
    · rw [content_of_not_in hin, if_neg]
      unfold InExtent at hin hq
      simp only at hin
      rw [hm']
      unfold Grid.width
      split_ifs <;> omega

theorem moveRight_spec {g : Grid K α} (hwf : WF g) (m : ℕ) :
    WF (moveRight g m) ∧ SameFrame g (moveRight g m) ∧
      ∀ q, InExtent g q → content (moveRight g m) q = content g (q.1 - m, q.2) := by
  unfold moveRight
  by_cases h0 : m = 0
  · rw [if_pos h0]; subst h0; exact ⟨hwf, SameFrame.refl _, fun q _ => by simp⟩
  rw [if_neg h0]
  have hwp := width_pos g
  set m' := if m > g.width then g.width else m with hm'
  have hm1 : 0 < m' := by rw [hm']; split_ifs <;> omega
  have hm2 : m' ≤ g.width := by rw [hm']; split_ifs <;> omega
  have inv := moveRight_loop hwp hm1 hm2 hwf
  refine ⟨?_, SameFrame.withCells _ _, ?_⟩
  · unfold WF at *; simp only; rw [inv.len]; exact hwf
  · intro q hq
    have hlt := slotNo_lt hq
    refine (content_withCells hq _).trans ?_
    rw [inv.done _ (by unfold WF at hwf; omega) (by omega)]
    unfold slotNo
    rw [idx_mod hq.col_lt]
    by_cases hin : InExtent g (q.1 - m, q.2)
    · have hq' := hq
      rw [content_of_in hin]
      unfold InExtent at hin hq'
      simp only at hin
      have hm3 : m' = m := by rw [hm', if_neg]; unfold Grid.width; omega
      rw [hm3, if_pos (by omega)]
      unfold slotNo
      simp only
      congr 1
      omega
    · rw [content_of_not_in hin, if_neg]
      unfold InExtent at hin hq
      simp only at hin
      rw [hm']
      unfold Grid.width
      split_ifs <;> omega

theorem moveUp_spec {g : Grid K α} (hwf : WF g) (m : ℕ) :
    WF (moveUp g m) ∧ SameFrame g (moveUp g m) ∧
      ∀ q, InExtent g q → content (moveUp g m) q = content g (q.1, q.2 - m) := by
  unfold moveUp
  by_cases h0 : m = 0
  · rw [if_pos h0]; subst h0; exact ⟨hwf, SameFrame.refl _, fun q _ => by simp⟩
  rw [if_neg h0]
  have hwp := width_pos g
  have hhp := height_pos g
  set m' := if m > g.height then g.height else m with hm'
  have hm1 : 0 < m' := by rw [hm']; split_ifs <;> omega
  obtain ⟨hl, hd⟩ := moveUp_loop (orig := g.cells) (Nat.mul_pos hm1 hwp)
  refine ⟨?_, SameFrame.withCells _ _, ?_⟩
  · unfold WF at *; simp only; rw [hl]; exact hwf
  · intro q hq
    have hlt := slotNo_lt hq
    refine (content_withCells hq _).trans ?_
    have hwf' : g.cells.length = g.width * g.height := hwf
    rw [hd _ (by omega)]
    have e2 : slotNo g q + m' * g.width
        = ((g.up - q.2).toNat + m') * g.width + (q.1 + g.left).toNat := by unfold slotNo; ring
    rw [e2]
    by_cases hin : InExtent g (q.1, q.2 - m)
    · have hq' := hq
      rw [content_of_in hin]
      unfold InExtent at hin hq'
      simp only at hin
      have hm3 : m' = m := by rw [hm', if_neg]; unfold Grid.height; omega
      rw [hm3]
      unfold slotNo
      simp only
      congr 3
      omega
    · rw [content_of_not_in hin, slot_of_length_le]
      rw [hwf', Nat.mul_comm g.width]
      refine le_trans (Nat.mul_le_mul_right _ ?_) (Nat.le_add_right _ _)
      unfold InExtent at hin hq
      simp only at hin
      rw [hm']
      unfold Grid.height
      split_ifs <;> omega

theorem moveDown_spec {g : Grid K α} (hwf : WF g) (m : ℕ) :
    WF (moveDown g m) ∧ SameFrame g (moveDown g m) ∧
      ∀ q, InExtent g q → content (moveDown g m) q = content g (q.1, q.2 + m) := by
  unfold moveDown
  by_cases h0 : m = 0
  · rw [if_pos h0]; subst h0; exact ⟨hwf, SameFrame.refl _, fun q _ => by simp⟩
  rw [if_neg h0]
  have hwp := width_pos g
  have hhp := height_pos g
  set m' := if m > g.height then g.height else m with hm'
  have hm1 : 0 < m' := by rw [hm']; split_ifs <;> omega
  obtain ⟨hl, hd⟩ := moveDown_loop (orig := g.cells) (Nat.mul_pos hm1 hwp)
  refine ⟨?_, SameFrame.withCells _ _, ?_⟩
  · unfold WF at *; simp only; rw [hl]; exact hwf
  · intro q hq
    have hlt := slotNo_lt hq
    refine (content_withCells hq _).trans ?_
    have hwf' : g.cells.length = g.width * g.height := hwf
    rw [hd _ (by omega)]
    by_cases hin : InExtent g (q.1, q.2 + m)
    · have hq' := hq
      rw [content_of_in hin]
      unfold InExtent at hin hq'
      simp only at hin
      have hm3 : m' = m := by rw [hm', if_neg]; unfold Grid.height; omega
      have e2 : slotNo g q = slotNo g (q.1, q.2 + m) + m * g.width := by
        unfold slotNo
        simp only
        have : (g.up - q.2).toNat = (g.up - (q.2 + m)).toNat + m := by omega
        rw [this]; ring
      rw [hm3, if_pos (by omega), e2, Nat.add_sub_cancel]
    · rw [content_of_not_in hin, if_neg]
      have hlt2 : (g.up - q.2).toNat < m' := by
        unfold InExtent at hin hq
        simp only at hin
        rw [hm']
        unfold Grid.height
        split_ifs <;> omega
      have := idx_lt hq.col_lt hlt2
      rw [Nat.mul_comm g.width m'] at this
      unfold slotNo
      omega

/-- `translate`: every square of the resulting extent receives the cell of the square that lies the
translation behind it. -/
theorem translate_spec {g : Grid K α} (hwf : WF g) (tx ty : ℤ) (discard : Bool) :
    ∃ g', translate g tx ty discard = .ok g' ∧ WF g' ∧
      g'.left = g.left + (if discard then 0 else (-tx).toNat) ∧
      g'.right = g.right + (if discard then 0 else tx.toNat) ∧
      g'.up = g.up + (if discard then 0 else ty.toNat) ∧
      g'.down = g.down + (if discard then 0 else (-ty).toNat) ∧
      g'.cellSize = g.cellSize ∧ g'.validCells = g.validCells ∧
      ∀ q, InExtent g' q → content g' q = content g (q.1 - tx, q.2 - ty) := by
  have e1 : (if tx < 0 then tx.natAbs else 0) = (-tx).toNat := by split_ifs <;> omega
  have e2 : (if tx < 0 then 0 else tx.toNat) = tx.toNat := by split_ifs <;> omega
  have e3 : (if ty < 0 then (ty * -1).toNat else 0) = (-ty).toNat := by split_ifs <;> omega
  have e4 : (if ty < 0 then 0 else ty.toNat) = ty.toNat := by split_ifs <;> omega
  unfold translate
  simp only [e1, e2, e3, e4]
  -- the (possibly) enlarged grid
  obtain ⟨g1, hg1, hwf1, hL, hR, hU, hD, hcs, hv, hc⟩ : ∃ g1, (if discard then Res.ok g else
      enlargeGrid g (-tx).toNat tx.toNat ty.toNat (-ty).toNat) = .ok g1 ∧ WF g1 ∧
      g1.left = g.left + (if discard then 0 else (-tx).toNat) ∧
      g1.right = g.right + (if discard then 0 else tx.toNat) ∧
      g1.up = g.up + (if discard then 0 else ty.toNat) ∧
      g1.down = g.down + (if discard then 0 else (-ty).toNat) ∧
      g1.cellSize = g.cellSize ∧ g1.validCells = g.validCells ∧
      ∀ q, content g1 q = content g q := by
    cases discard
    · simpa using enlargeGrid_spec hwf _ _ _ _
    · exact ⟨g, rfl, hwf, rfl, rfl, rfl, rfl, rfl, rfl, fun _ => rfl⟩
  rw [hg1]
  obtain ⟨w2, f2, c2⟩ := moveLeft_spec hwf1 (-tx).toNat
  obtain ⟨w3, f3, c3⟩ := moveRight_spec w2 tx.toNat
  obtain ⟨w4, f4, c4⟩ := moveUp_spec w3 ty.toNat
  obtain ⟨w5, f5, c5⟩ := moveDown_spec w4 (-ty).toNat
  have f := ((f2.trans f3).trans f4).trans f5
  refine ⟨_, rfl, w5, f.left.trans hL, f.right.trans hR, f.up.trans hU, f.down.trans hD,
    f.cs.trans hcs, f.valid.trans hv, ?_⟩
  intro q hq
  have hq1 : InExtent g1 q := (f.inExtent q).1 hq
  have h2 : ∀ q, InExtent g1 q → InExtent (moveLeft g1 (-tx).toNat) q :=
    fun q h => (f2.inExtent q).2 h
  have h3 : ∀ q, InExtent g1 q → InExtent (moveRight (moveLeft g1 (-tx).toNat) tx.toNat) q :=
    fun q h => ((f2.trans f3).inExtent q).2 h
  have h4 : ∀ q, InExtent g1 q →
      InExtent (moveUp (moveRight (moveLeft g1 (-tx).toNat) tx.toNat) ty.toNat) q :=
    fun q h => (((f2.trans f3).trans f4).inExtent q).2 h
  have out2 : ∀ q, ¬ InExtent g1 q → content (moveLeft g1 (-tx).toNat) q = none :=
    fun q h => content_of_not_in fun h' => h ((f2.inExtent q).1 h')
  have out3 : ∀ q, ¬ InExtent g1 q →
      content (moveRight (moveLeft g1 (-tx).toNat) tx.toNat) q = none :=
    fun q h => content_of_not_in fun h' => h (((f2.trans f3).inExtent q).1 h')
  have out4 : ∀ q, ¬ InExtent g1 q →
      content (moveUp (moveRight (moveLeft g1 (-tx).toNat) tx.toNat) ty.toNat) q = none :=
    fun q h => content_of_not_in fun h' => h ((((f2.trans f3).trans f4).inExtent q).1 h')
  -- horizontal part
  have horiz : ∀ q, InExtent g1 q →
      content (moveRight (moveLeft g1 (-tx).toNat) tx.toNat) q = content g (q.1 - tx, q.2) := by
    intro q hq
    rw [c3 q (h2 q hq), ← hc]
    rcases le_or_gt 0 tx with h | h
    · have z : (-tx).toNat = 0 := by omega
      have z' : ((tx.toNat : ℕ) : ℤ) = tx := by omega
      rw [z']
      simp only [z, moveLeft, if_true]
    · have z : tx.toNat = 0 := by omega
      have z' : (((-tx).toNat : ℕ) : ℤ) = -tx := by omega
      simp only [z, Nat.cast_zero, sub_zero]
      rw [c2 q hq, z']
      simp only [sub_eq_add_neg]
  rw [c5 q (h4 q hq1)]
  rcases le_or_gt 0 ty with h | h
  · have z : (-ty).toNat = 0 := by omega
    have z' : ((ty.toNat : ℕ) : ℤ) = ty := by omega
    simp only [z, Nat.cast_zero, add_zero]
    rw [c4 q (h3 q hq1), z']
    by_cases hin : InExtent g1 (q.1, q.2 - ty)
    · rw [horiz _ hin]
    · rw [out3 _ hin, eq_comm]
      rw [← hc]
      rcases Decidable.em (InExtent g1 (q.1 - tx, q.2 - ty)) with h' | h'
      · exfalso
        unfold InExtent at hin hq1 h'
        simp only at hin h'
        omega
      · exact content_of_not_in h'
  · have z : ty.toNat = 0 := by omega
    have z' : (((-ty).toNat : ℕ) : ℤ) = -ty := by omega
    rw [z']
    by_cases hin : InExtent g1 (q.1, q.2 + -ty)
    · rw [c4 _ (h3 _ hin), z]
      simp only [Nat.cast_zero, sub_zero]
      rw [horiz _ hin]
      simp only [sub_eq_add_neg]
    · rw [out4 _ hin, eq_comm, ← hc]
      rcases Decidable.em (InExtent g1 (q.1 - tx, q.2 - ty)) with h' | h'
      · exfalso
        unfold InExtent at hin hq1 h'
        simp only at hin h'
        omega
      · exact content_of_not_in h'

end Verif.Voxel
