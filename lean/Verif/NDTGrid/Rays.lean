import Verif.NDTGrid.Place
import Verif.Grid.Props

/-
Rays: which squares a ray passes (specification) and what tracing does to each square (helper lemmas).
-/
namespace Verif.NDTGrid

open Verif Verif.Voxel

set_option linter.unusedSectionVars false

variable {K : Type v} [Field K] [LinearOrder K] [IsStrictOrderedRing K] [FloorRing K] {γ : Type u}

/-! ### Specification -/

/-- Length of a ray in cells: the longer one of the two axes. -/
def cellsBetween (cs : K) (a b : K × K) : K := max |b.1 - a.1| |b.2 - a.2| / cs

/-- The point of the segment from `a` to `b` that is `k` half cells away from `a`. -/
def halfStep (cs : K) (a b : K × K) (k : ℕ) : K × K :=
  (a.1 + k / 2 / cellsBetween cs a b * (b.1 - a.1), a.2 + k / 2 / cellsBetween cs a b * (b.2 - a.2))

/-- Strictly inside the outline of the grid. -/
def Strictly (g : Grid K γ) (p : K × K) : Prop :=
  -(g.left + 1 / 2) * g.cellSize < p.1 ∧ p.1 < (g.right + 1 / 2) * g.cellSize ∧
  -(g.down + 1 / 2) * g.cellSize < p.2 ∧ p.2 < (g.up + 1 / 2) * g.cellSize

/-- The ray from `a` to `b` passes square `q` of the grid: the ray starts in the grid, and `q` contains one of
the points of the ray spaced by half a cell, beginning with `a`, that are at least one cell short of `b` and
strictly inside the outline of the grid. -/
def Swept (g : Grid K γ) (a b : K × K) (q : ℤ × ℤ) : Prop :=
  InExtent g (squareOf g.cellSize a) ∧ ∃ k : ℕ,
    (k : K) / 2 ≤ ⌊cellsBetween g.cellSize a b⌋ - 1 ∧
    (k = 0 ∨ Strictly g (halfStep g.cellSize a b k)) ∧
    squareOf g.cellSize (halfStep g.cellSize a b k) = q

open Classical in
/-- What the Gaussians of `cells`, seen from `s`, do to one square holding `o`: each ray that passes the square
updates its cell once (a square without a cell gets a new one first). -/
noncomputable def cleared (I : CellI K γ) (g : Grid K γ) (s : Fin 3 → K) (q : ℤ × ℤ) :
    Option γ → List γ → Res (Option γ)
  | o, [] => .ok o
  | o, c :: cs =>
    if I.gaussian c = true ∧ Swept g (head s) (head (I.mean c)) q then
      (I.ray (o.getD I.default) s (I.mean c) (I.points c)).bind fun c' => cleared I g s q (some c') cs
    else cleared I g s q o cs

/-! ### Lemmas -/

theorem swept_box {g g' : Grid K γ} (h : SameBox g g') (a b : K × K) (q : ℤ × ℤ) :
    Swept g' a b q ↔ Swept g a b q := by
  unfold Swept Strictly
  rw [h.inExtent, h.left, h.right, h.up, h.down, h.cs]

theorem cleared_box {I : CellI K γ} {g g' : Grid K γ} (h : SameBox g g') (s : Fin 3 → K) (q : ℤ × ℤ) :
    ∀ (cells : List γ) (o : Option γ), cleared I g' s q o cells = cleared I g s q o cells := by
  intro cells
  induction cells with
  | nil => intro o; rfl
  | cons c cs ih =>
    intro o
    have e : (I.gaussian c = true ∧ Swept g' (head s) (head (I.mean c)) q)
        = (I.gaussian c = true ∧ Swept g (head s) (head (I.mean c)) q) := by rw [swept_box h]
    simp only [cleared, ih]
    by_cases hs : I.gaussian c = true ∧ Swept g (head s) (head (I.mean c)) q
    · rw [if_pos hs, if_pos (e ▸ hs)]
    · rw [if_neg hs, if_neg (e ▸ hs)]

theorem floor_between {a b c : K} (h : (a ≤ b ∧ b ≤ c) ∨ (c ≤ b ∧ b ≤ a)) (he : ⌊a⌋ = ⌊c⌋) : ⌊b⌋ = ⌊c⌋ := by
  rcases h with ⟨h1, h2⟩ | ⟨h1, h2⟩
  · have := Int.floor_le_floor h1
    have := Int.floor_le_floor h2
    omega
  · have := Int.floor_le_floor h1
    have := Int.floor_le_floor h2
    omega

theorem ceil_between {a b c : K} (h : (a ≤ b ∧ b ≤ c) ∨ (c ≤ b ∧ b ≤ a)) (he : ⌈a⌉ = ⌈c⌉) : ⌈b⌉ = ⌈c⌉ := by
  rcases h with ⟨h1, h2⟩ | ⟨h1, h2⟩
  · have := Int.ceil_le_ceil h1
    have := Int.ceil_le_ceil h2
    omega
  · have := Int.ceil_le_ceil h1
    have := Int.ceil_le_ceil h2
    omega

theorem line_between (x d : K) {i j k : ℕ} (h1 : i ≤ j) (h2 : j ≤ k) :
    (x + i * d ≤ x + j * d ∧ x + j * d ≤ x + k * d) ∨ (x + k * d ≤ x + j * d ∧ x + j * d ≤ x + i * d) := by
  have e1 : (i : K) ≤ j := by exact_mod_cast h1
  have e2 : (j : K) ≤ k := by exact_mod_cast h2
  rcases le_total 0 d with hd | hd
  · left
    constructor <;> nlinarith
  · right
    constructor <;> nlinarith

/-- A straight walk does not come back to a square it has left. -/
theorem square_between {cs : K} (hcs : 0 < cs) (start delta : K × K) {i j k : ℕ} (h1 : i ≤ j) (h2 : j ≤ k)
    (he : squareOf cs (rayPoint start delta i) = squareOf cs (rayPoint start delta k)) :
    squareOf cs (rayPoint start delta j) = squareOf cs (rayPoint start delta k) := by
  unfold squareOf rayPoint at *
  simp only [Prod.mk.injEq] at he ⊢
  have key : ∀ x d c : K, (x + i * d ≤ x + j * d ∧ x + j * d ≤ x + k * d) ∨
      (x + k * d ≤ x + j * d ∧ x + j * d ≤ x + i * d) →
      ((x + i * d) / cs + c ≤ (x + j * d) / cs + c ∧ (x + j * d) / cs + c ≤ (x + k * d) / cs + c) ∨
      ((x + k * d) / cs + c ≤ (x + j * d) / cs + c ∧ (x + j * d) / cs + c ≤ (x + i * d) / cs + c) := by
    intro x d c h
    rcases h with ⟨a, b⟩ | ⟨a, b⟩
    · left
      exact ⟨by linarith [div_le_div_of_nonneg_right a hcs.le], by linarith [div_le_div_of_nonneg_right b hcs.le]⟩
    · right
      exact ⟨by linarith [div_le_div_of_nonneg_right a hcs.le], by linarith [div_le_div_of_nonneg_right b hcs.le]⟩
  refine ⟨floor_between (key _ _ _ (line_between _ _ h1 h2)) he.1, ?_⟩
  have := key start.2 delta.2 (-(1 / 2)) (line_between _ _ h1 h2)
  simp only [← sub_eq_add_neg] at this
  exact ceil_between this he.2

/-- The test of line 563 of voxel_grid2d.h. -/
def Out (g : Grid K γ) (p : K × K) : Prop :=
  p.1 ≥ (g.right : K) * g.cellSize + g.half ∨ p.1 ≤ -(g.left : K) * g.cellSize - g.half ∨
       p.2 ≥ (g.up : K) * g.cellSize + g.half ∨ p.2 ≤ -(g.down : K) * g.cellSize - g.half

theorem not_out_iff {g : Grid K γ} {p : K × K} : ¬ Out g p ↔ Strictly g p := by
  unfold Out Strictly Grid.half
  push Not
  constructor
  · rintro ⟨h1, h2, h3, h4⟩
    exact ⟨by linarith, by linarith, by linarith, by linarith⟩
  · rintro ⟨h1, h2, h3, h4⟩
    exact ⟨by linarith, by linarith, by linarith, by linarith⟩

/-- The loop visits each square once: exactly the slots of the points up to the bound or the outline. -/
theorem rayLoop_exact (ops : CellOps γ) {g : Grid K γ} (hcs : 0 < g.cellSize)
    (start delta : K × K) (n : ℕ) : ∀ (k o : ℕ) (s s' : RayState γ),
    (∀ m ≤ k, InExtent g (squareOf g.cellSize (rayPoint start delta m))) →
    o = slotNo g (squareOf g.cellSize (rayPoint start delta (k - 1))) →
    s.visited.Nodup →
    (∀ i, i ∈ s.visited ↔ ∃ m, m ≤ k - 1 ∧ i = slotNo g (squareOf g.cellSize (rayPoint start delta m))) →
    rayLoop ops g delta n (rayPoint start delta k) o
        (slotNo g (squareOf g.cellSize (rayPoint start delta k))) s = .ok s' →
    s'.visited.Nodup ∧ ∀ i, i ∈ s'.visited ↔
      ∃ m, (m ≤ k - 1 ∨ (m < k + n ∧ ∀ j, k < j → j ≤ m → Strictly g (rayPoint start delta j))) ∧
        i = slotNo g (squareOf g.cellSize (rayPoint start delta m)) := by
  induction n with
  | zero =>
    intro k o s s' hin ho hnd hv h
    cases h
    refine ⟨hnd, fun i => ?_⟩
    rw [hv]
    constructor
    · rintro ⟨m, h1, h2⟩; exact ⟨m, Or.inl h1, h2⟩
    · rintro ⟨m, h1 | ⟨h1, -⟩, h2⟩
      · exact ⟨m, h1, h2⟩
      · exact ⟨m, by omega, h2⟩
  | succ n ih =>
    intro k o s s' hin ho hnd hv h
    unfold rayLoop at h
    obtain ⟨s1, h1, h⟩ := Res.bind_eq_ok.1 h
    have hs1 : s1.visited.Nodup ∧ ∀ i, i ∈ s1.visited ↔
        ∃ m, m ≤ k ∧ i = slotNo g (squareOf g.cellSize (rayPoint start delta m)) := by
      split_ifs at h1 with hne
      · have r := (rayVisit_rel h1).2
        have hnew : slotNo g (squareOf g.cellSize (rayPoint start delta k)) ∉ s.visited := by
          intro hmem
          obtain ⟨m, hm, he⟩ := (hv _).1 hmem
          have e := slotNo_inj (hin k le_rfl) (hin m (by omega)) he
          apply hne
          rw [ho, square_between hcs start delta hm (by omega : k - 1 ≤ k) e.symm]
        constructor
        · rw [r]
          exact List.nodup_append.2 ⟨hnd, by simp, by
            intro a ha b hb
            rw [List.mem_singleton.1 hb]
            rintro rfl
            exact hnew ha⟩
        · intro i
          rw [r, List.mem_append, hv, List.mem_singleton]
          constructor
          · rintro (⟨m, hm, e⟩ | e)
            · exact ⟨m, by omega, e⟩
            · exact ⟨k, le_rfl, e⟩
          · rintro ⟨m, hm, e⟩
            rcases Nat.lt_or_ge m k with hlt | hge
            · exact Or.inl ⟨m, by omega, e⟩
            · right
              rw [e, show m = k by omega]
      · push Not at hne
        cases h1
        refine ⟨hnd, fun i => ?_⟩
        rw [hv]
        constructor
        · rintro ⟨m, hm, e⟩; exact ⟨m, by omega, e⟩
        · rintro ⟨m, hm, e⟩
          rcases Nat.lt_or_ge m k with hlt | hge
          · exact ⟨m, by omega, e⟩
          · refine ⟨k - 1, le_rfl, ?_⟩
            rw [e, show m = k by omega, hne, ho]
    have hnext : ((rayPoint start delta k).1 + delta.1, (rayPoint start delta k).2 + delta.2)
        = rayPoint start delta (k + 1) := by
      unfold rayPoint; ext <;> push_cast <;> ring
    have hnext1 := congrArg Prod.fst hnext
    have hnext2 := congrArg Prod.snd hnext
    simp only at hnext1 hnext2
    simp only [hnext1, hnext2, Prod.mk.eta] at h
    split_ifs at h with hout
    · cases h
      refine ⟨hs1.1, fun i => ?_⟩
      rw [hs1.2]
      constructor
      · rintro ⟨m, hm, e⟩
        exact ⟨m, Or.inr ⟨by omega, fun j hj hj' => by omega⟩, e⟩
      · rintro ⟨m, hm | ⟨-, hm⟩, e⟩
        · exact ⟨m, by omega, e⟩
        · refine ⟨m, ?_, e⟩
          by_contra hlt
          exact not_out_iff.2 (hm (k + 1) (by omega) (by omega)) hout
    · have hst := not_out_iff.1 hout
      have hin' := inExtent_of_strict hcs hout
      rw [calcIndex_inExtent hcs hin', Res.bind_ok] at h
      obtain ⟨r1, r2⟩ := ih (k + 1) _ s1 s' (by
        intro m hm
        rcases Nat.lt_or_ge m (k + 1) with hlt | hge
        · exact hin m (by omega)
        · rw [show m = k + 1 by omega]; exact hin') (by simp) hs1.1 (by simpa using hs1.2) h
      refine ⟨r1, fun i => ?_⟩
      rw [r2]
      constructor
      · rintro ⟨m, hm | ⟨hm, hm'⟩, e⟩
        · exact ⟨m, Or.inr ⟨by omega, fun j hj hj' => by omega⟩, e⟩
        · refine ⟨m, Or.inr ⟨by omega, fun j hj hj' => ?_⟩, e⟩
          rcases Nat.lt_or_ge (k + 1) j with hlt | hge
          · exact hm' j hlt hj'
          · rw [show j = k + 1 by omega]; exact hst
      · rintro ⟨m, hm | ⟨hm, hm'⟩, e⟩
        · exact ⟨m, Or.inl (by omega), e⟩
        · exact ⟨m, Or.inr ⟨by omega, fun j hj hj' => hm' j (by omega) hj'⟩, e⟩

/-- Between a point of the closed outline and a point strictly inside, everything is strictly inside. -/
theorem strictly_between {g : Grid K γ} {start delta : K × K}
    (hin : isInside g start = true) {j k : ℕ} (hj : 0 < j) (hjk : j ≤ k)
    (hk : Strictly g (rayPoint start delta k)) : Strictly g (rayPoint start delta j) := by
  unfold isInside Grid.half at hin
  simp only [Bool.and_eq_true, decide_eq_true_eq, ge_iff_le] at hin
  obtain ⟨⟨⟨a1, a2⟩, a3⟩, a4⟩ := hin
  unfold Strictly rayPoint at *
  obtain ⟨b1, b2, b3, b4⟩ := hk
  have hj' : (0 : K) < j := by exact_mod_cast hj
  have hk' : (j : K) ≤ k := by exact_mod_cast hjk
  have hkp : (0 : K) < k := lt_of_lt_of_le hj' hk'
  have key : ∀ x d L : K, x ≤ L → x + k * d < L → x + j * d < L := by
    intro x d L h1 h2
    have : k * (x + j * d) < k * L := by
      have e : k * (x + j * d) = (k - j) * x + j * (x + k * d) := by ring
      rw [e]
      nlinarith
    exact lt_of_mul_lt_mul_left this hkp.le
  simp only at b1 b2 b3 b4 ⊢
  refine ⟨?_, key _ _ _ (by linarith) b2, ?_, key _ _ _ (by linarith) b4⟩
  · have := key (-start.1) (-delta.1) ((g.left + 1 / 2) * g.cellSize) (by linarith) (by linarith)
    linarith
  · have := key (-start.2) (-delta.2) ((g.down + 1 / 2) * g.cellSize) (by linarith) (by linarith)
    linarith

/-- A ray of at least one cell: the visited slots are those of the swept squares, each once; the missing cells
of these squares are created and nothing else changes. -/
theorem rayTrace_exact (ops : CellOps γ) {g : Grid K γ} (hwf : WF g) (hcs : 0 < g.cellSize)
    {a b : K × K} (ha : isInside g a = true → ¬ OnEdge g a)
    (hlong : isInside g a = true → g.cellSize ≤ max |b.1 - a.1| |b.2 - a.2| ∧
      max |b.1 - a.1| |b.2 - a.2| < 2 ^ 63 * g.cellSize)
    {r : List ℕ × Grid K γ} (h : rayTrace ops g a b = .ok r) :
    r.1.Nodup ∧ (∀ q, InExtent g q → (slotNo g q ∈ r.1 ↔ Swept g a b q)) ∧
    (∀ q, Swept g a b q → InExtent g q) ∧
    (∀ i ∈ r.1, ∃ q, InExtent g q ∧ i = slotNo g q) := by
  by_cases hin : isInside g a = true
  swap
  · have hno : ¬ InExtent g (squareOf g.cellSize a) := fun h => hin (inExtent_isInside hcs h)
    have : r = ([], g) := by
      unfold rayTrace at h
      rw [if_pos (by simp [hin])] at h
      exact (Res.ok.inj h).symm
    subst this
    exact ⟨by simp, fun q _ => ⟨fun h => by simp at h, fun h => absurd h.1 hno⟩, fun q h => absurd h.1 hno,
      fun i h => by simp at h⟩
  obtain ⟨hext, -⟩ := C06_inside_addresses_own_slot_partial hwf hcs hin (ha hin)
  unfold rayTrace at h
  rw [hin] at h
  simp only [Bool.not_true, Bool.false_eq_true, if_false] at h
  rw [if_neg (ne_of_gt hcs), calcIndex_inExtent hcs hext, Res.bind_ok] at h
  have hlen' : max (|b.1 - a.1| / g.cellSize) (|b.2 - a.2| / g.cellSize) = cellsBetween g.cellSize a b := by
    rw [max_div_div_right hcs.le]; rfl
  rw [hlen'] at h
  have h1 : 1 ≤ cellsBetween g.cellSize a b := by
    unfold cellsBetween; rw [le_div_iff₀ hcs]; linarith [(hlong hin).1]
  set len := cellsBetween g.cellSize a b with hlen
  have hlenpos : 0 < len := by linarith
  have hlen0 : len ≠ 0 := ne_of_gt hlenpos
  obtain ⟨s1, hs1, h⟩ := Res.bind_eq_ok.1 h
  have r1 := rayVisit_rel hs1
  rw [if_neg hlen0] at h
  obtain ⟨n, hn, h⟩ := Res.bind_eq_ok.1 h
  obtain ⟨s2, hs2, hfin⟩ := Res.bind_eq_ok.1 h
  have hfl1 : (1 : ℤ) ≤ ⌊len⌋ := Int.le_floor.2 (by exact_mod_cast h1)
  set delta : K × K := ((b.1 - a.1) / len * (1 / 2), (b.2 - a.2) / len * (1 / 2)) with hdelta
  have hpt : ∀ j : ℕ, rayPoint a delta j = halfStep g.cellSize a b j := by
    intro j
    unfold rayPoint halfStep
    rw [hdelta, ← hlen]
    ext
    · simp only; field_simp
    · simp only; field_simp
  have hp0 : rayPoint a delta 0 = a := by unfold rayPoint; ext <;> simp
  have ex := rayLoop_exact ops hcs a delta n 0 (slotNo g (squareOf g.cellSize a)) s1 s2
    (by intro m hm; rw [show m = 0 by omega, hp0]; exact hext) (by rw [hp0])
    (by rw [r1.2]; simp) (by
      intro i
      rw [r1.2]
      simp only [List.nil_append, List.mem_singleton]
      constructor
      · intro e; exact ⟨0, le_rfl, by rw [hp0]; exact e⟩
      · rintro ⟨m, hm, e⟩; rw [show m = 0 by omega, hp0] at e; exact e)
    (by rw [hp0]; exact hs2)
  have hr : r = (s2.visited, { g with cells := s2.cells }) := (Res.ok.inj hfin).symm
  subst hr
  -- the bound of the loop
  have hn' : (n : ℤ) = 2 * ⌊len⌋ - 1 := by
    have h2 : len < 2 ^ 63 := by
      rw [hlen]; unfold cellsBetween; rw [div_lt_iff₀ hcs]; exact (hlong hin).2
    have hfl2 : ⌊len⌋ < 2 ^ 63 := Int.floor_lt.2 (by exact_mod_cast h2)
    obtain ⟨m, hm⟩ : ∃ m : ℕ, ⌊len⌋ = m := ⟨⌊len⌋.toNat, by omega⟩
    unfold rayBound at hn
    rw [hm, toSizeT_of_nonneg (by omega), Res.bind_ok] at hn
    simp only [Int.toNat_natCast] at hn
    rw [rayBound_nat (by omega) (by omega)] at hn
    have := Res.ok.inj hn
    omega
  have hk : ∀ k : ℕ, (k : K) / 2 ≤ ⌊len⌋ - 1 ↔ k < n := by
    intro k
    rw [div_le_iff₀ (by norm_num)]
    have e : ((⌊len⌋ : K) - 1) * 2 = ((2 * (⌊len⌋ - 1) : ℤ) : K) := by push_cast; ring
    rw [e, show (k : K) = ((k : ℤ) : K) by push_cast; rfl, Int.cast_le]
    omega
  have hsw : ∀ q, Swept g a b q ↔ ∃ m, (m ≤ 0 - 1 ∨ (m < 0 + n ∧ ∀ j, 0 < j → j ≤ m →
      Strictly g (rayPoint a delta j))) ∧ squareOf g.cellSize (rayPoint a delta m) = q := by
    intro q
    unfold Swept
    rw [← hlen]
    constructor
    · rintro ⟨-, k, k1, k2, k3⟩
      refine ⟨k, Or.inr ⟨by have := (hk k).1 k1; omega, fun j hj hj' => ?_⟩, by rw [hpt]; exact k3⟩
      rcases k2 with rfl | k2
      · omega
      · rw [← hpt] at k2
        exact strictly_between hin hj hj' k2
    · rintro ⟨m, hm, e⟩
      refine ⟨hext, m, (hk m).2 (by omega), ?_, by rw [← hpt]; exact e⟩
      rcases Nat.eq_zero_or_pos m with h0 | h0
      · exact Or.inl h0
      · right
        rcases hm with hm | ⟨-, hm⟩
        · omega
        · rw [← hpt]; exact hm m h0 le_rfl
  have hsin : ∀ m, (m ≤ 0 - 1 ∨ (m < 0 + n ∧ ∀ j, 0 < j → j ≤ m → Strictly g (rayPoint a delta j))) →
      InExtent g (squareOf g.cellSize (rayPoint a delta m)) := by
    intro m hm
    rcases Nat.eq_zero_or_pos m with h0 | h0
    · rw [h0, hp0]; exact hext
    · rcases hm with hm | ⟨-, hm⟩
      · omega
      · exact inExtent_of_strict hcs (not_out_iff.2 (hm m h0 le_rfl))
  refine ⟨ex.1, ?_, ?_, ?_⟩
  · intro q hq
    rw [ex.2, hsw]
    constructor
    · rintro ⟨m, hm, e⟩
      exact ⟨m, hm, (slotNo_inj hq (hsin m hm) e).symm⟩
    · rintro ⟨m, hm, e⟩
      exact ⟨m, hm, by rw [e]⟩
  · intro q hq
    obtain ⟨m, hm, e⟩ := (hsw q).1 hq
    rw [← e]; exact hsin m hm
  · intro i hi
    obtain ⟨m, hm, e⟩ := (ex.2 i).1 hi
    exact ⟨_, hsin m hm, e⟩

/-- Updating the cells of a ray: each listed slot once, no other slot. -/
theorem updateRay_exact {I : CellI K γ} {s e : Fin 3 → K} {k : ℕ} :
    ∀ {is : List ℕ} {l l' : List (Option γ)}, is.Nodup → updateRay I s e k is l = .ok l' →
      (∀ i ∉ is, slot l' i = slot l i) ∧
      ∀ i ∈ is, ∃ c c', slot l i = some c ∧ I.ray c s e k = .ok c' ∧ slot l' i = some c' := by
  intro is
  induction is with
  | nil => intro l l' _ h; cases h; exact ⟨fun _ _ => rfl, fun i hi => by simp at hi⟩
  | cons i is ih =>
    intro l l' hnd h
    obtain ⟨hni, hnd'⟩ := List.nodup_cons.1 hnd
    unfold updateRay at h
    obtain ⟨c, hc, h⟩ := Res.bind_eq_ok.1 h
    unfold readSlot at hc
    split_ifs at hc with hi
    cases hc
    cases hs : slot l i with
    | none => rw [hs] at h; cases h
    | some c =>
      rw [hs] at h
      simp only at h
      obtain ⟨c', hc', h⟩ := Res.bind_eq_ok.1 h
      obtain ⟨l1, hl1, h⟩ := Res.bind_eq_ok.1 h
      rw [writeSlot_lt hi] at hl1
      cases hl1
      obtain ⟨r1, r2⟩ := ih hnd' h
      constructor
      · intro j hj
        rw [r1 j (fun h => hj (List.mem_cons_of_mem _ h)), slot_set, if_neg]
        rintro ⟨rfl, -⟩
        exact hj List.mem_cons_self
      · intro j hj
        rcases List.mem_cons.1 hj with rfl | hj'
        · exact ⟨c, c', hs, hc', by rw [r1 j hni, slot_set, if_pos ⟨rfl, hi⟩]⟩
        · obtain ⟨d, d', e1, e2, e3⟩ := r2 j hj'
          refine ⟨d, d', ?_, e2, e3⟩
          rw [slot_set, if_neg] at e1
          · exact e1
          · rintro ⟨rfl, -⟩
            exact hni hj'

/-- The rays of a merge are neither too short nor too long and do not start on the right or bottom edge. -/
def RaysOk (I : CellI K γ) (g : Grid K γ) (a : K × K) (cells : List γ) : Prop :=
  isInside g a = true → ¬ OnEdge g a ∧ ∀ c ∈ cells, I.gaussian c = true →
    g.cellSize ≤ max |(head (I.mean c)).1 - a.1| |(head (I.mean c)).2 - a.2| ∧
    max |(head (I.mean c)).1 - a.1| |(head (I.mean c)).2 - a.2| < 2 ^ 63 * g.cellSize

theorem rays_box {I : CellI K γ} {g g' : Grid K γ} (h : SameBox g g') {a : K × K} {cells : List γ}
    (hr : RaysOk I g a cells) : RaysOk I g' a cells := by
  unfold RaysOk OnEdge at *
  rw [h.isInside, h.right, h.down, h.cs]
  exact hr

/-- What tracing does to each square. -/
theorem traceAll_exact {I : CellI K γ} (hI : Lawful I) {s : Fin 3 → K} :
    ∀ {cells : List γ} {g g' : Grid K γ}, WF g → 0 < g.cellSize → RaysOk I g (head s) cells →
      traceAll I s g cells = .ok g' → ∀ q, cleared I g s q (content g q) cells = .ok (content g' q) := by
  intro cells
  induction cells with
  | nil => intro g g' _ _ _ h q; cases h; rfl
  | cons c cells ih =>
    intro g g' hwf hcs hr h q
    have hr' : RaysOk I g (head s) cells :=
      fun hin => ⟨(hr hin).1, fun d hd => (hr hin).2 d (List.mem_cons_of_mem _ hd)⟩
    unfold traceAll at h
    by_cases hg : I.gaussian c = true
    swap
    · rw [if_neg hg] at h
      unfold cleared
      rw [if_neg (fun hh => hg hh.1)]
      exact ih hwf hcs hr' h q
    rw [if_pos hg] at h
    obtain ⟨r, hray, h⟩ := Res.bind_eq_ok.1 h
    obtain ⟨l, hl, h⟩ := Res.bind_eq_ok.1 h
    obtain ⟨x1, x2, x3, x4⟩ := rayTrace_exact I.toCellOps hwf hcs (fun hin => (hr hin).1)
      (fun hin => (hr hin).2 c List.mem_cons_self hg) hray
    obtain ⟨cells1, e1, e2, e3, e4⟩ := rayTrace_rel hray
    have hone : traceAll I s g [c] = .ok { r.2 with cells := l } := by
      unfold traceAll
      rw [if_pos hg, hray, Res.bind_ok, hl, Res.bind_ok]
      rfl
    obtain ⟨hb, -, ht⟩ := traceAll_traced hI hone
    have rest := ih (hb.wf ht hwf) (by rw [hb.cs]; exact hcs) (rays_box hb hr') h q
    rw [cleared_box hb] at rest
    obtain ⟨u1, u2⟩ := updateRay_exact x1 hl
    have hslot : slotNo { r.2 with cells := l } q = slotNo g q := by
      unfold slotNo Grid.width; rw [hb.left, hb.up, hb.right]
    unfold cleared
    by_cases hin : InExtent g q
    · have hin' := (hb.inExtent q).2 hin
      rw [content_of_in hin', hslot] at rest
      change cleared I g s q (slot l (slotNo g q)) cells = _ at rest
      rw [content_of_in hin]
      have hold : slot r.2.cells (slotNo g q) = slot g.cells (slotNo g q) ∨
          (slot g.cells (slotNo g q) = none ∧ slot r.2.cells (slotNo g q) = some I.default) := by
        rw [e1]
        cases h0 : slot g.cells (slotNo g q) with
        | some y => exact Or.inl (e3 _ _ h0)
        | none =>
          cases h1 : slot cells1 (slotNo g q) with
          | none => exact Or.inl rfl
          | some y => exact Or.inr ⟨rfl, by rw [← e4 _ _ h0 h1]⟩
      by_cases hsw : Swept g (head s) (head (I.mean c)) q
      · rw [if_pos ⟨hg, hsw⟩]
        obtain ⟨d, d', f1, f2, f3⟩ := u2 _ ((x2 q hin).2 hsw)
        have : (slot g.cells (slotNo g q)).getD I.default = d := by
          rcases hold with h0 | ⟨h0, h1⟩
          · rw [← h0, f1]; rfl
          · rw [f1] at h1
            rw [h0]
            exact (Option.some.inj h1).symm
        rw [this, f2, Res.bind_ok, ← f3]
        exact rest
      · rw [if_neg (fun hh => hsw hh.2)]
        have hn : slotNo g q ∉ r.1 := fun hh => hsw ((x2 q hin).1 hh)
        rw [u1 _ hn] at rest
        rcases hold with h0 | ⟨h0, h1⟩
        · rw [← h0]; exact rest
        · -- a cell created by the walk belongs to a visited slot
          exfalso
          have hfr := (C11_ray_preserves I.toCellOps g _ _ r.1 r.2 hray).2.2.2.2.2.2.1 q I.default
            (by rw [content_of_in hin]; exact h0) (by
              rw [e1, content_withCells hin]
              rw [e1] at h1
              exact h1)
          exact hn hfr.2
    · have hin' : ¬ InExtent { r.2 with cells := l } q := fun h => hin ((hb.inExtent q).1 h)
      rw [content_of_not_in hin'] at rest
      rw [content_of_not_in hin, if_neg (fun hh => hin (x3 q hh.2))]
      exact rest

end Verif.NDTGrid
