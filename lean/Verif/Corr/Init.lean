import Verif.Corr.Lemmas

/-
The table built by `initGrid`.
-/
namespace Verif.Corr

open Verif Verif.Geo

/-! ### Bounding box -/

theorem minMax_spec (l : List Pt) :
    IsLeast {v | ∃ q ∈ (0, 0) :: l, q.1 = v} (getMinMax2D l).1 ∧
    IsLeast {v | ∃ q ∈ (0, 0) :: l, q.2 = v} (getMinMax2D l).2.1 ∧
    IsGreatest {v | ∃ q ∈ (0, 0) :: l, q.1 = v} (getMinMax2D l).2.2.1 ∧
    IsGreatest {v | ∃ q ∈ (0, 0) :: l, q.2 = v} (getMinMax2D l).2.2.2 := by
  induction l using List.reverseRecOn with
  | nil =>
    have e : getMinMax2D [] = (0, 0, 0, 0) := rfl
    rw [e]
    refine ⟨⟨⟨(0, 0), by simp, rfl⟩, ?_⟩, ⟨⟨(0, 0), by simp, rfl⟩, ?_⟩, ⟨⟨(0, 0), by simp, rfl⟩, ?_⟩,
      ⟨⟨(0, 0), by simp, rfl⟩, ?_⟩⟩ <;>
    · rintro v ⟨q, hq, rfl⟩
      rw [List.mem_singleton.1 hq]
  | append_singleton l p ih =>
    obtain ⟨⟨⟨q1, m1, e1⟩, l1⟩, ⟨⟨q2, m2, e2⟩, l2⟩, ⟨⟨q3, m3, e3⟩, l3⟩, ⟨⟨q4, m4, e4⟩, l4⟩⟩ := ih
    have e : getMinMax2D (l ++ [p]) =
        (if p.1 < (getMinMax2D l).1 then p.1 else (getMinMax2D l).1,
         if p.2 < (getMinMax2D l).2.1 then p.2 else (getMinMax2D l).2.1,
         if p.1 > (getMinMax2D l).2.2.1 then p.1 else (getMinMax2D l).2.2.1,
         if p.2 > (getMinMax2D l).2.2.2 then p.2 else (getMinMax2D l).2.2.2) := by
      unfold getMinMax2D
      rw [List.foldl_append]
      rfl
    have hm : ∀ q, q ∈ (0, 0) :: l → q ∈ (0, 0) :: (l ++ [p]) := by
      intro q hq
      simp only [List.mem_cons, List.mem_append] at hq ⊢
      tauto
    have hp : p ∈ (0, 0) :: (l ++ [p]) := by simp
    have hor : ∀ q, q ∈ (0, 0) :: (l ++ [p]) → q ∈ (0, 0) :: l ∨ q = p := by
      intro q hq
      simp only [List.mem_cons, List.mem_append, List.not_mem_nil, or_false] at hq ⊢
      tauto
    rw [e]
    refine ⟨⟨?_, ?_⟩, ⟨?_, ?_⟩, ⟨?_, ?_⟩, ⟨?_, ?_⟩⟩
    · simp only; split_ifs
      exacts [⟨p, hp, rfl⟩, ⟨q1, hm _ m1, e1⟩]
    · rintro v ⟨q, hq, rfl⟩
      simp only
      rcases hor q hq with hq | rfl
      · have := l1 ⟨q, hq, rfl⟩
        split_ifs <;> linarith
      · split_ifs <;> linarith
    · simp only; split_ifs
      exacts [⟨p, hp, rfl⟩, ⟨q2, hm _ m2, e2⟩]
    · rintro v ⟨q, hq, rfl⟩
      simp only
      rcases hor q hq with hq | rfl
      · have := l2 ⟨q, hq, rfl⟩
        split_ifs <;> linarith
      · split_ifs <;> linarith
    · simp only; split_ifs
      exacts [⟨p, hp, rfl⟩, ⟨q3, hm _ m3, e3⟩]
    · rintro v ⟨q, hq, rfl⟩
      simp only
      rcases hor q hq with hq | rfl
      · have := l3 ⟨q, hq, rfl⟩
        split_ifs <;> linarith
      · split_ifs <;> linarith
    · simp only; split_ifs
      exacts [⟨p, hp, rfl⟩, ⟨q4, hm _ m4, e4⟩]
    · rintro v ⟨q, hq, rfl⟩
      simp only
      rcases hor q hq with hq | rfl
      · have := l4 ⟨q, hq, rfl⟩
        split_ifs <;> linarith
      · split_ifs <;> linarith

theorem initGrid_eq (target : List Pt) (step std : ℝ) : initGrid target step std = (frame target step std).initWindow target :=
  rfl

theorem inside_iff (target : List Pt) (step std : ℝ) (p : Pt) :
    (frame target step std).inside p ↔ InBox target p := by
  obtain ⟨⟨⟨q1, m1, e1⟩, l1⟩, ⟨⟨q2, m2, e2⟩, l2⟩, ⟨⟨q3, m3, e3⟩, l3⟩, ⟨⟨q4, m4, e4⟩, l4⟩⟩ := minMax_spec target
  unfold Table.inside InBox frame
  simp only
  constructor
  · rintro ⟨h1, h2, h3, h4⟩
    exact ⟨⟨q1, m1, by linarith⟩, ⟨q3, m3, by linarith⟩, ⟨q2, m2, by linarith⟩, ⟨q4, m4, by linarith⟩⟩
  · rintro ⟨⟨a, ha, h1⟩, ⟨b, hb, h2⟩, ⟨c, hc, h3⟩, ⟨d, hd, h4⟩⟩
    exact ⟨h2.trans_le (l3 ⟨b, hb, rfl⟩), h4.trans_le (l4 ⟨d, hd, rfl⟩), (l1 ⟨a, ha, rfl⟩).trans_lt h1,
      (l2 ⟨c, hc, rfl⟩).trans_lt h3⟩

/-- What is known about the shape of a table. -/
structure Shape (t : Table) (step std : ℝ) : Prop where
  kernel : HasKernel t step std
  cs : t.cs = step
  border : t.border = reach step std
  n : (t.n : ℤ) = ⌈(t.maxx - t.minx) / step⌉ + 1 + 2 * reach step std
  m : (t.m : ℤ) = ⌈(t.maxy - t.miny) / step⌉ + 1 + 2 * reach step std

theorem frame_shape {step std : ℝ} (h : 0 < step) (target : List Pt) : Shape (frame target step std) step std := by
  obtain ⟨⟨⟨q1, m1, e1⟩, l1⟩, ⟨⟨q2, m2, e2⟩, l2⟩, ⟨⟨q3, m3, e3⟩, l3⟩, ⟨⟨q4, m4, e4⟩, l4⟩⟩ := minMax_spec target
  have hx : 0 ≤ ((getMinMax2D target).2.2.1 - (getMinMax2D target).1) / step :=
    div_nonneg (by have := l1 ⟨q3, m3, rfl⟩; linarith) h.le
  have hy : 0 ≤ ((getMinMax2D target).2.2.2 - (getMinMax2D target).2.1) / step :=
    div_nonneg (by have := l2 ⟨q4, m4, rfl⟩; linarith) h.le
  have hx' := Int.ceil_nonneg hx
  have hy' := Int.ceil_nonneg hy
  refine ⟨⟨h, rfl⟩, rfl, half_eq h, ?_, ?_⟩
  · unfold frame
    simp only [half_eq h]
    omega
  · unfold frame
    simp only [half_eq h]
    omega

theorem Shape.place {t : Table} {step std : ℝ} (h : Shape t step std) {p : Pt} (hp : t.inside p) :
    ∃ i j : ℕ, t.row p = i ∧ t.col p = j ∧ reach step std ≤ i ∧ i + reach step std < t.m ∧ reach step std ≤ j ∧
      j + reach step std < t.n ∧ t.cellIdx p = .ok ((i : ℤ) * t.n + j) := by
  have hs := h.kernel.1
  obtain ⟨h1, h2, h3, h4⟩ := hp
  have fl : ∀ a b : ℝ, 0 ≤ a → a ≤ b → 0 ≤ ⌊a / step + 1 / 2⌋ ∧ ⌊a / step + 1 / 2⌋ ≤ ⌈b / step⌉ := by
    intro a b ha hab
    have h0 : 0 ≤ a / step := div_nonneg ha hs.le
    have h1 : a / step ≤ b / step := by gcongr
    constructor
    · apply Int.floor_nonneg.2; linarith
    · have : ⌊a / step + 1 / 2⌋ < ⌈b / step⌉ + 1 := by
        rw [Int.floor_lt]
        have := Int.le_ceil (b / step)
        push_cast
        linarith
      omega
  obtain ⟨c1, c2⟩ := fl (p.1 - t.minx) (t.maxx - t.minx) (by linarith) (by linarith)
  obtain ⟨r1, r2⟩ := fl (t.maxy - p.2) (t.maxy - t.miny) (by linarith) (by linarith)
  have hn := h.n
  have hm := h.m
  have ec : ⌊(p.1 - t.minx + t.cs / 2) / t.cs⌋ = ⌊(p.1 - t.minx) / step + 1 / 2⌋ := by
    rw [h.cs]; congr 1; field_simp
  have er : ⌊(-p.2 + t.maxy + t.cs / 2) / t.cs⌋ = ⌊(t.maxy - p.2) / step + 1 / 2⌋ := by
    rw [h.cs]; congr 1; field_simp; ring
  refine ⟨(⌊(t.maxy - p.2) / step + 1 / 2⌋ + reach step std).toNat, (⌊(p.1 - t.minx) / step + 1 / 2⌋ + reach step std).toNat,
    ?_, ?_, by omega, by omega, by omega, by omega, ?_⟩
  · unfold Table.row; rw [h.cs, h.border]; omega
  · unfold Table.col; rw [h.cs, h.border]; omega
  · unfold Table.cellIdx
    simp only [ec, er, h.border]
    rw [if_neg (by omega), Int.toNat_of_nonneg (by omega), Int.toNat_of_nonneg (by omega)]

/-! ### Marking -/

/-- A place of the table is occupied by one of the points. -/
def Occupied (t : Table) (pts : List Pt) (i j : ℕ) : Prop := ∃ p ∈ pts, t.inside p ∧ t.row p = i ∧ t.col p = j

open Classical in
theorem mark_ok {t : Table} {step std : ℝ} (h : Shape t step std) (target : List Pt) :
    ∃ cells, forEach t.mark (List.replicate (t.n * t.m) 0) target = .ok cells ∧
      Tab t.m t.n cells fun i j => if Occupied t target i j then OCCUPIED else 0 := by
  apply forEach_inv' (f := t.mark) (fun done cells => Tab t.m t.n cells fun i j => if Occupied t done i j then OCCUPIED else 0)
  · intro done p cells _ ht
    unfold Table.mark
    by_cases hp : t.inside p
    · rw [if_pos hp]
      obtain ⟨i, j, hi, hj, h1, h2, h3, h4, hidx⟩ := h.place hp
      rw [hidx, Res.bind_ok]
      obtain ⟨l', e, ht'⟩ := ht.put (i := i) (j := j) (by omega) (by omega) OCCUPIED
      refine ⟨l', e, ht'.congr fun a b _ _ => ?_⟩
      by_cases hab : a = i ∧ b = j
      · rw [if_pos hab, if_pos]
        exact ⟨p, by simp, hp, by rw [hi, hab.1], by rw [hj, hab.2]⟩
      · rw [if_neg hab]
        have : Occupied t (done ++ [p]) a b ↔ Occupied t done a b := by
          constructor
          · rintro ⟨q, hq, hin, hr, hc⟩
            rcases List.mem_append.1 hq with hq | hq
            · exact ⟨q, hq, hin, hr, hc⟩
            · rw [List.mem_singleton.1 hq] at hr hc
              exact absurd ⟨by omega, by omega⟩ hab
          · rintro ⟨q, hq, hh⟩
            exact ⟨q, by simp [hq], hh⟩
        simp only [this]
    · rw [if_neg hp]
      refine ⟨cells, rfl, ht.congr fun a b _ _ => ?_⟩
      have : Occupied t (done ++ [p]) a b ↔ Occupied t done a b := by
        constructor
        · rintro ⟨q, hq, hin, hrc⟩
          rcases List.mem_append.1 hq with hq | hq
          · exact ⟨q, hq, hin, hrc⟩
          · rw [List.mem_singleton.1 hq] at hin
            exact absurd hin hp
        · rintro ⟨q, hq, hh⟩
          exact ⟨q, by simp [hq], hh⟩
      simp only [this]
  · refine (tab_replicate t.m t.n).congr fun i j _ _ => ?_
    rw [if_neg]
    rintro ⟨p, hp, -⟩
    simp at hp

theorem Shape.occ {t : Table} {step std : ℝ} (h : Shape t step std) {pts : List Pt} {i j : ℕ} (ho : Occupied t pts i j) :
    reach step std ≤ i ∧ i + reach step std < t.m ∧ reach step std ≤ j ∧ j + reach step std < t.n := by
  obtain ⟨p, -, hin, hr, hc⟩ := ho
  obtain ⟨i', j', hi, hj, h1, h2, h3, h4, -⟩ := h.place hin
  omega

/-- Result of `initGrid`. -/
theorem initGrid_ok {step std : ℝ} (h : 0 < step) (hs : Sharp (sigma step std)) (target : List Pt) :
    ∃ cells f, initGrid target step std = .ok { frame target step std with cells := cells } ∧
      Tab (frame target step std).m (frame target step std).n cells f ∧
      ∀ i j, IsGreatest (Offers step std 0 (Occupied (frame target step std) target) i j) (f i j) := by
  have hsh := frame_shape (std := std) h target
  obtain ⟨cells, e, ht⟩ := mark_ok hsh target
  obtain ⟨l', f, e', ht', hf⟩ := smooth_ok hsh.kernel hs ht fun i j ho => hsh.occ ho
  refine ⟨l', f, ?_, ht', hf⟩
  rw [initGrid_eq]
  unfold Table.initWindow
  rw [e, Res.bind_ok, e', Res.bind_ok]

/-! ### Overrun -/

/-- Entries are never lowered. -/
def AtLeast (l l' : List ℤ) : Prop := l.length = l'.length ∧ ∀ (i : ℕ) (v : ℤ), l[i]? = some v → ∃ v' : ℤ, l'[i]? = some v' ∧ v ≤ v'

theorem AtLeast.refl (l : List ℤ) : AtLeast l l := ⟨rfl, fun _ v h => ⟨v, h, le_rfl⟩⟩

theorem AtLeast.trans {a b c : List ℤ} (h : AtLeast a b) (h' : AtLeast b c) : AtLeast a c :=
  ⟨h.1.trans h'.1, fun i v hv => by
    obtain ⟨v', h1, h2⟩ := h.2 i v hv
    obtain ⟨v'', h3, h4⟩ := h'.2 i v' h1
    exact ⟨v'', h3, h2.trans h4⟩⟩

theorem at?_ok {l : List ℤ} {i v : ℤ} (h : at? l i = .ok v) : 0 ≤ i ∧ l[i.toNat]? = some v := by
  unfold at? at h
  split at h
  · rename_i h0
    refine ⟨h0, ?_⟩
    split at h
    · rename_i w hw
      cases h
      exact hw
    · cases h
  · cases h

theorem stamp_mono {t : Table} {row col : ℤ} {cells cells' : List ℤ} {o : ℤ × ℤ}
    (h : t.stamp row col cells o = .ok cells') :
    AtLeast cells cells' ∧ ∃ k v, t.kernel.get o.1 o.2 = .ok k ∧ 0 ≤ (row + o.1) * t.n + (col + o.2) ∧
      cells'[((row + o.1) * t.n + (col + o.2)).toNat]? = some v ∧ k ≤ v := by
  unfold Table.stamp at h
  simp only at h
  obtain ⟨k, hk, h⟩ := Res.bind_eq_ok.1 h
  obtain ⟨v, hv, h⟩ := Res.bind_eq_ok.1 h
  obtain ⟨h0, hv⟩ := at?_ok hv
  split_ifs at h with hlt
  · unfold put at h
    split_ifs at h with hb
    cases h
    refine ⟨⟨by simp, fun i w hw => ?_⟩, k, k, hk, h0, ?_, le_rfl⟩
    · rw [List.getElem?_set]
      split_ifs with hi hlen
      · refine ⟨k, rfl, ?_⟩
        rw [hi] at hv
        rw [hv] at hw
        cases hw
        exact hlt.le
      · rw [← hi] at hw
        rw [List.getElem?_eq_none (by omega)] at hw
        cases hw
      · exact ⟨w, hw, le_rfl⟩
    · rw [List.getElem?_set_self hb.2]
  · cases h
    exact ⟨AtLeast.refl _, k, v, hk, h0, hv, not_lt.1 hlt⟩

theorem stamps_mono {t : Table} {row col : ℤ} : ∀ {l : List (ℤ × ℤ)} {cells cells' : List ℤ},
    forEach (t.stamp row col) cells l = .ok cells' →
    AtLeast cells cells' ∧ ∀ o ∈ l, ∃ k v, t.kernel.get o.1 o.2 = .ok k ∧ 0 ≤ (row + o.1) * t.n + (col + o.2) ∧
      cells'[((row + o.1) * t.n + (col + o.2)).toNat]? = some v ∧ k ≤ v
  | [], cells, cells', h => by
    cases h
    exact ⟨AtLeast.refl _, by simp⟩
  | o :: l, cells, cells', h => by
    obtain ⟨c1, h1, h2⟩ := Res.bind_eq_ok.1 h
    obtain ⟨m1, k, v, hk, h0, hv, hle⟩ := stamp_mono h1
    obtain ⟨m2, hall⟩ := stamps_mono h2
    refine ⟨m1.trans m2, fun o' ho' => ?_⟩
    rcases List.mem_cons.1 ho' with rfl | ho'
    · obtain ⟨v', hv', hle'⟩ := m2.2 _ _ hv
      exact ⟨k, v', hk, h0, hv', hle.trans hle'⟩
    · exact hall o' ho'

theorem smooths_mono {t : Table} : ∀ {l : List (ℕ × ℕ)} {cells cells' : List ℤ},
    forEach t.smooth cells l = .ok cells' → AtLeast cells cells'
  | [], cells, cells', h => by
    cases h
    exact AtLeast.refl _
  | p :: l, cells, cells', h => by
    obtain ⟨c1, h1, h2⟩ := Res.bind_eq_ok.1 h
    refine AtLeast.trans ?_ (smooths_mono h2)
    unfold Table.smooth at h1
    obtain ⟨v, -, h1⟩ := Res.bind_eq_ok.1 h1
    split_ifs at h1
    · exact (stamps_mono h1).1
    · cases h1
      exact AtLeast.refl _

theorem forEach_not_throw {α σ : Type} {f : σ → α → Res σ} (hf : ∀ s a e, f s a ≠ .throw e) :
    ∀ (l : List α) (s : σ) (e : Exn), forEach f s l ≠ .throw e
  | [], s, e, h => by cases h
  | a :: l, s, e, h => by
    rw [forEach] at h
    cases hfa : f s a with
    | ok s' => rw [hfa] at h; exact forEach_not_throw hf l s' e h
    | throw e' => exact hf s a e' hfa
    | ub u => rw [hfa] at h; cases h

theorem at?_not_throw (l : List ℤ) (i : ℤ) (e : Exn) : at? l i ≠ .throw e := by
  unfold at?
  split
  · split <;> simp
  · simp

theorem stamp_not_throw (t : Table) (row col : ℤ) (cells : List ℤ) (o : ℤ × ℤ) (e : Exn) :
    t.stamp row col cells o ≠ .throw e := by
  unfold Table.stamp
  simp only
  cases h1 : t.kernel.get o.1 o.2 with
  | throw e' => exact absurd h1 (at?_not_throw _ _ _)
  | ub u => simp
  | ok k =>
    simp only [Res.bind_ok]
    cases h2 : at? cells ((row + o.1) * t.n + (col + o.2)) with
    | throw e' => exact absurd h2 (at?_not_throw _ _ _)
    | ub u => simp
    | ok v =>
      simp only [Res.bind_ok]
      split_ifs
      · unfold put; split_ifs <;> simp
      · simp

theorem smooth_not_throw (t : Table) (cells : List ℤ) (p : ℕ × ℕ) (e : Exn) : t.smooth cells p ≠ .throw e := by
  unfold Table.smooth
  cases h : at? cells ((p.1 : ℤ) * t.n + p.2) with
  | throw e' => exact absurd h (at?_not_throw _ _ _)
  | ub u => simp
  | ok v =>
    simp only [Res.bind_ok]
    split_ifs
    · exact forEach_not_throw (stamp_not_throw t _ _) _ _ _
    · simp

/-- No entry exceeds 100. -/
def Capped (l : List ℤ) : Prop := ∀ v ∈ l, v ≤ OCCUPIED

theorem stamp_capped {t : Table} {step std : ℝ} (hk : HasKernel t step std) {row col : ℤ} {cells cells' : List ℤ}
    {o : ℤ × ℤ} (ho : |o.1| ≤ reach step std ∧ |o.2| ≤ reach step std) (hc : Capped cells)
    (h : t.stamp row col cells o = .ok cells') : Capped cells' := by
  unfold Table.stamp at h
  simp only at h
  rw [hk.get ho.1 ho.2, Res.bind_ok] at h
  obtain ⟨v, hv, h⟩ := Res.bind_eq_ok.1 h
  split_ifs at h with hlt
  · unfold put at h
    split_ifs at h with hb
    cases h
    intro w hw
    rcases List.mem_or_eq_of_mem_set hw with hw | rfl
    · exact hc w hw
    · exact bell_le _ _ _
  · cases h; exact hc

theorem stamps_capped {t : Table} {step std : ℝ} (hk : HasKernel t step std) {row col : ℤ} :
    ∀ {l : List (ℤ × ℤ)} {cells cells' : List ℤ}, (∀ o ∈ l, |o.1| ≤ reach step std ∧ |o.2| ≤ reach step std) →
      Capped cells → forEach (t.stamp row col) cells l = .ok cells' → Capped cells'
  | [], cells, cells', _, hc, h => by cases h; exact hc
  | o :: l, cells, cells', ho, hc, h => by
    obtain ⟨c1, h1, h2⟩ := Res.bind_eq_ok.1 h
    exact stamps_capped hk (fun o' ho' => ho o' (by simp [ho'])) (stamp_capped hk (ho o (by simp)) hc h1) h2

theorem smooth_capped {t : Table} {step std : ℝ} (hk : HasKernel t step std) {cells cells' : List ℤ} {p : ℕ × ℕ}
    (hc : Capped cells) (h : t.smooth cells p = .ok cells') : Capped cells' := by
  unfold Table.smooth at h
  obtain ⟨v, -, h⟩ := Res.bind_eq_ok.1 h
  split_ifs at h
  · refine stamps_capped hk (fun o ho => ?_) hc h
    rw [hk.half] at ho
    exact mem_offsets.1 ho
  · cases h; exact hc

theorem smooths_capped {t : Table} {step std : ℝ} (hk : HasKernel t step std) :
    ∀ {l : List (ℕ × ℕ)} {cells cells' : List ℤ}, Capped cells → forEach t.smooth cells l = .ok cells' → Capped cells'
  | [], cells, cells', hc, h => by cases h; exact hc
  | p :: l, cells, cells', hc, h => by
    obtain ⟨c1, h1, h2⟩ := Res.bind_eq_ok.1 h
    exact smooths_capped hk (smooth_capped hk hc h1) h2

theorem still_full {cells cells' : List ℤ} (h : AtLeast cells cells') (hc : Capped cells') {i : ℕ}
    (hi : cells[i]? = some OCCUPIED) : cells'[i]? = some OCCUPIED := by
  obtain ⟨v, hv, hle⟩ := h.2 i _ hi
  rw [hv, le_antisymm (hc v (List.mem_of_getElem? hv)) hle]

/-- Once a full place is met by the smoothing and the value below it in the kernel is 100, too, the column is
filled downwards until the kernel leaves the table. -/
theorem cascade {t : Table} {step std : ℝ} (hk : HasKernel t step std) (hd : bell (sigma step std) 1 0 = OCCUPIED)
    (h2 : 2 ≤ reach step std) {c : ℕ} (hc1 : 1 ≤ c) (hc2 : c + 1 < t.n) :
    ∀ (k r : ℕ) (cells cells' : List ℤ), r + k + 1 = t.m → 1 ≤ k → cells.length = t.m * t.n → Capped cells →
      cells[r * t.n + c]? = some OCCUPIED →
      forEach t.smooth cells ((List.range' r k).flatMap fun row =>
        (List.range' 1 (t.n - 1 - 1)).map fun col => (row, col)) ≠ .ok cells' := by
  intro k
  induction k with
  | zero => intro r cells cells' _ h; omega
  | succ k ih =>
    intro r cells cells' hr _ hlen hcap hfull he
    rw [List.range'_succ, List.flatMap_cons] at he
    have hmem : (r, c) ∈ (List.range' 1 (t.n - 1 - 1)).map fun col => (r, col) := by
      simp only [List.mem_map, List.mem_range'_1]
      exact ⟨c, by omega, rfl⟩
    obtain ⟨L1, L2, hL⟩ := List.append_of_mem hmem
    rw [hL, List.append_assoc, forEach_append] at he
    obtain ⟨c1, he1, he⟩ := Res.bind_eq_ok.1 he
    have m1 := smooths_mono he1
    have cap1 := smooths_capped hk hcap he1
    have full1 := still_full m1 cap1 hfull
    rw [List.cons_append] at he
    obtain ⟨c2, he2, he⟩ := Res.bind_eq_ok.1 he
    have cap2 := smooth_capped hk cap1 he2
    unfold Table.smooth at he2
    have hat : at? c1 ((r : ℤ) * t.n + c) = .ok OCCUPIED := by
      unfold at?
      rw [show (r : ℤ) * t.n + c = ((r * t.n + c : ℕ) : ℤ) by push_cast; ring, if_pos (Int.natCast_nonneg _),
        Int.toNat_natCast, full1]
    simp only [hat, Res.bind_ok, if_true] at he2
    obtain ⟨m2, hall⟩ := stamps_mono he2
    rw [hk.half] at hall
    rcases Nat.eq_zero_or_pos k with rfl | hkpos
    · obtain ⟨kv, v, -, -, hv, -⟩ := hall ((2 : ℤ), (0 : ℤ)) (mem_offsets.2 ⟨by simpa using h2, by simp⟩)
      have hlt := (List.getElem?_eq_some_iff.1 hv).1
      rw [← m2.1, ← m1.1, hlen] at hlt
      have e : (((r : ℤ) + 2) * t.n + (c + 0)).toNat = (r + 2) * t.n + c := by
        rw [show ((r : ℤ) + 2) * t.n + (c + 0) = (((r + 2) * t.n + c : ℕ) : ℤ) by push_cast; ring, Int.toNat_natCast]
      rw [e, show r + 2 = t.m by omega] at hlt
      omega
    · obtain ⟨kv, v, hkv, -, hv, hle⟩ := hall ((1 : ℤ), (0 : ℤ)) (mem_offsets.2 ⟨by simp; omega, by simp⟩)
      rw [hk.get (by simp; omega) (by simp), hd] at hkv
      cases hkv
      have e : (((r : ℤ) + 1) * t.n + (c + 0)).toNat = (r + 1) * t.n + c := by
        rw [show ((r : ℤ) + 1) * t.n + (c + 0) = (((r + 1) * t.n + c : ℕ) : ℤ) by push_cast; ring, Int.toNat_natCast]
      rw [e] at hv
      have full2 : c2[(r + 1) * t.n + c]? = some OCCUPIED := by
        rw [hv, le_antisymm (cap2 v (List.mem_of_getElem? hv)) hle]
      rw [forEach_append] at he
      obtain ⟨c3, he3, he⟩ := Res.bind_eq_ok.1 he
      have m3 := smooths_mono he3
      have cap3 := smooths_capped hk cap2 he3
      refine ih (r + 1) c3 cells' (by omega) hkpos ?_ cap3 (still_full m3 cap3 full2) he
      rw [← m3.1, ← m2.1, ← m1.1, hlen]

/-- Undefined behaviour of `initGrid` for a blunt kernel. -/
theorem initGrid_overrun {step std : ℝ} (h : 0 < step) (hb : ¬ Sharp (sigma step std)) {target : List Pt} {p : Pt}
    (hp : p ∈ target) (hin : InBox target p) : (initGrid target step std).IsUB := by
  have hσ := sigma_pos step std
  unfold Sharp at hb
  rw [not_lt] at hb
  have hd : bell (sigma step std) 1 0 = OCCUPIED := by
    apply le_antisymm (bell_le _ _ _)
    unfold bell
    rw [round_eq, Int.le_floor]
    simp only [Int.cast_one, one_pow, Int.cast_zero]
    norm_num at hb ⊢
    linarith
  have h9 : 1 < sigma step std := by
    by_contra h9
    rw [not_lt] at h9
    have := sharp_of_le hσ (by linarith : sigma step std ≤ 9.97)
    unfold Sharp at this
    linarith
  have h2 : 2 ≤ reach step std := by
    unfold reach
    rw [round_eq]
    have : 2 ≤ ⌊2 * sigma step std + 1 / 2⌋ := by rw [Int.le_floor]; push_cast; linarith
    omega
  have hsh := frame_shape (std := std) h target
  obtain ⟨cells, e, ht⟩ := mark_ok hsh target
  obtain ⟨i, j, hi, hj, h3, h4, h5, h6, -⟩ := hsh.place ((inside_iff target step std p).2 hin)
  rw [initGrid_eq]
  unfold Table.initWindow
  rw [e, Res.bind_ok]
  cases hres : forEach (frame target step std).smooth cells (frame target step std).scan with
  | ub u => exact ⟨u, rfl⟩
  | throw ex => exact absurd hres (forEach_not_throw (smooth_not_throw _) _ _ _)
  | ok cells' =>
    exfalso
    have hcap : Capped cells := by
      intro v hv
      obtain ⟨q, hq, rfl⟩ := List.getElem_of_mem hv
      have hn : 0 < (frame target step std).n := by omega
      have hq' : q < (frame target step std).m * (frame target step std).n := by rw [← ht.1]; exact hq
      have hdiv : q / (frame target step std).n < (frame target step std).m := by
        rw [Nat.div_lt_iff_lt_mul hn]; exact hq'
      have hv := ht.2 _ _ hdiv (Nat.mod_lt q hn)
      rw [Nat.mul_comm, Nat.div_add_mod, List.getElem?_eq_getElem hq, Option.some.injEq] at hv
      rw [hv]
      simp only
      split_ifs <;> simp [OCCUPIED]
    have hfull : cells[i * (frame target step std).n + j]? = some OCCUPIED := by
      rw [ht.2 i j (by omega) (by omega)]
      simp only
      rw [if_pos]
      exact ⟨p, hp, (inside_iff target step std p).2 hin, hi, hj⟩
    unfold Table.scan at hres
    rw [show (frame target step std).m - 1 - 1 = (i - 1) + ((frame target step std).m - 1 - i) by omega,
      ← List.range'_append_1, List.flatMap_append, forEach_append, show 1 + (i - 1) = i by omega] at hres
    obtain ⟨c1, he1, hres⟩ := Res.bind_eq_ok.1 hres
    have m1 := smooths_mono he1
    have cap1 := smooths_capped hsh.kernel hcap he1
    exact cascade hsh.kernel hd h2 (c := j) (by omega) (by omega) _ i c1 cells' (by omega) (by omega)
      (by rw [← m1.1, ht.1]) cap1 (still_full m1 cap1 hfull) hres

end Verif.Corr
