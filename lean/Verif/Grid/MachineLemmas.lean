import Verif.Grid.Machine
import Verif.Grid.Ops
import Mathlib.Tactic.IntervalCases

/- Where the integers of the machine give the numbers of `Grid/Model.lean`. -/
namespace Verif.Voxel.Machine

open Verif Verif.Voxel

set_option linter.unusedSectionVars false

variable {K : Type v} [Field K] [LinearOrder K] [IsStrictOrderedRing K] [FloorRing K] {α : Type u}

/-! ### Integers -/

theorem add64_eq {a b : ℕ} (h : a + b < 2 ^ 64) : add64 a b = a + b := Nat.mod_eq_of_lt h
theorem mul64_eq {a b : ℕ} (h : a * b < 2 ^ 64) : mul64 a b = a * b := Nat.mod_eq_of_lt h
theorem sub64_eq {a b : ℕ} (h : b ≤ a) (ha : a < 2 ^ 64) : sub64 a b = a - b := by
  unfold sub64
  rw [show a + (2 ^ 64 - b) = (a - b) + 2 ^ 64 by omega, Nat.add_mod_right, Nat.mod_eq_of_lt (by omega)]
theorem toLong_eq {a : ℕ} (h : a < 2 ^ 63) : toLong a = a := if_pos h
theorem long_eq {z : ℤ} (h : -2 ^ 63 ≤ z) (h' : z < 2 ^ 63) : long z = .ok z := if_pos ⟨h, h'⟩
theorem int_eq {z : ℤ} (h : -2 ^ 31 ≤ z) (h' : z < 2 ^ 31) : int z = .ok z := if_pos ⟨h, h'⟩
theorem ofLong_eq {z : ℤ} (h : 0 ≤ z) (h' : z < 2 ^ 64) : ofLong z = z.toNat := by
  unfold ofLong; rw [Int.emod_eq_of_lt h h']
theorem ofLong_nat {n : ℕ} (h : n < 2 ^ 64) : ofLong (n : ℤ) = n := by
  rw [ofLong_eq (by omega) (by omega)]; omega
theorem toSizeT64_eq {z : ℤ} (h : z < 2 ^ 64) : toSizeT64 z = toSizeT z := by
  unfold toSizeT64 toSizeT
  by_cases h0 : z < 0
  · rw [if_pos (Or.inl h0), if_pos h0]
  · rw [if_neg (by omega), if_neg h0]

theorem downFrom_eq {n : ℕ} (h : n < 2 ^ 63) : downFrom n = (List.range n).reverse := by
  unfold downFrom
  rcases Nat.eq_zero_or_pos n with rfl | hn
  · rfl
  · rw [sub64_eq (by omega) (by omega), toLong_eq (by omega)]
    congr 2
    omega

/-! ### Loops -/

theorem loop_eq {σ : Type w} (P : σ → Prop) {f : σ → ℕ → Res σ} {f' : σ → ℕ → σ} : ∀ (l : List ℕ) (s : σ), P s →
    (∀ i ∈ l, ∀ s, P s → f s i = .ok (f' s i) ∧ P (f' s i)) → loop f l s = .ok (l.foldl f' s)
  | [], _, _, _ => rfl
  | i :: is, s, hP, h => by
    obtain ⟨h1, h2⟩ := h i (by simp) s hP
    rw [loop, h1, Res.bind_ok]
    exact loop_eq P is _ h2 fun j hj => h j (by simp [hj])

theorem loop_append {σ : Type w} {f : σ → ℕ → Res σ} : ∀ (l l' : List ℕ) (s : σ),
    loop f (l ++ l') s = (loop f l s).bind (loop f l')
  | [], _, _ => rfl
  | i :: is, l', s => by
    rw [List.cons_append, loop, loop]
    cases f s i with
    | ok a => exact loop_append is l' a
    | throw e => rfl
    | ub u => rfl

theorem loop_range_eq {σ : Type w} (P : ℕ → σ → Prop) {f : σ → ℕ → Res σ} {f' : σ → ℕ → σ} {s : σ} (n : ℕ)
    (h0 : P 0 s) (h : ∀ i < n, ∀ s, P i s → f s i = .ok (f' s i) ∧ P (i + 1) (f' s i)) :
    loop f (List.range n) s = .ok ((List.range n).foldl f' s) ∧ P n ((List.range n).foldl f' s) := by
  induction n with
  | zero => exact ⟨rfl, h0⟩
  | succ n ih =>
    obtain ⟨h1, h2⟩ := ih fun i hi => h i (by omega)
    obtain ⟨h3, h4⟩ := h n (by omega) _ h2
    rw [List.range_succ, loop_append, h1, List.foldl_append]
    exact ⟨by rw [Res.bind_ok, loop, h3]; rfl, h4⟩

/-! ### Small grids -/

/-- The extents are at most 2^30. -/
structure Small (g : Grid K α) : Prop where
  left : g.left ≤ 2 ^ 30
  right : g.right ≤ 2 ^ 30
  up : g.up ≤ 2 ^ 30
  down : g.down ≤ 2 ^ 30

section
variable {g : Grid K α} (hs : Small g)
include hs

theorem width_eq : width g = g.width := by
  have := hs.left; have := hs.right
  unfold width Grid.width
  rw [add64_eq (a := g.left) (by omega), add64_eq (by omega)]

theorem height_eq : height g = g.height := by
  have := hs.up; have := hs.down
  unfold height Grid.height
  rw [add64_eq (a := g.up) (by omega), add64_eq (by omega)]

theorem width_le : g.width ≤ 2 ^ 31 + 1 := by
  have := hs.left; have := hs.right; unfold Grid.width; omega

theorem height_le : g.height ≤ 2 ^ 31 + 1 := by
  have := hs.up; have := hs.down; unfold Grid.height; omega

theorem area_lt : g.width * g.height < 2 ^ 63 - 2 ^ 32 :=
  lt_of_le_of_lt (Nat.mul_le_mul (width_le hs) (height_le hs)) (by norm_num)

theorem indexOf_eq {c : ℕ × ℕ} (h1 : c.1 < 2 ^ 32) (h2 : c.2 < 2 ^ 32) : indexOf g c = Voxel.indexOf g c := by
  unfold indexOf Voxel.indexOf
  have := Nat.mul_le_mul h2.le (width_le hs)
  rw [width_eq hs, mul64_eq (by omega), add64_eq (by omega)]

/-- The point lies within 2^30 + 1 cells of the origin. -/
def Near (cs : K) (p : K × K) : Prop := |p.1 / cs| ≤ 2 ^ 30 + 1 ∧ |p.2 / cs| ≤ 2 ^ 30 + 1

theorem coord_lt (hcs : 0 < g.cellSize) {p : K × K} (hp : Near g.cellSize p) :
    ⌊(p.1 + g.cellSize * g.left + g.half) / g.cellSize⌋ < 2 ^ 32 ∧
    ⌊(-p.2 + g.cellSize * g.up + g.half) / g.cellSize⌋ < 2 ^ 32 := by
  have h1 : (g.left : K) ≤ 2 ^ 30 := by exact_mod_cast hs.left
  have h2 : (g.up : K) ≤ 2 ^ 30 := by exact_mod_cast hs.up
  have h3 := (abs_le.1 hp.1).2
  have h4 := (abs_le.1 hp.2).1
  have hc := ne_of_gt hcs
  unfold Grid.half
  constructor
  · rw [Int.floor_lt]
    have : (p.1 + g.cellSize * g.left + g.cellSize / 2) / g.cellSize = p.1 / g.cellSize + g.left + 1 / 2 := by
      field_simp
    rw [this]; push_cast
    linarith
  · rw [Int.floor_lt]
    have : (-p.2 + g.cellSize * g.up + g.cellSize / 2) / g.cellSize = -(p.2 / g.cellSize) + g.up + 1 / 2 := by
      field_simp
    rw [this]; push_cast
    linarith

theorem calcCoordinates_eq' (hcs : 0 < g.cellSize) {p : K × K} (hp : Near g.cellSize p) :
    calcCoordinates g p = Voxel.calcCoordinates g p ∧
    ∀ c, Voxel.calcCoordinates g p = .ok c → c.1 < 2 ^ 32 ∧ c.2 < 2 ^ 32 := by
  obtain ⟨h1, h2⟩ := coord_lt hs hcs hp
  unfold calcCoordinates Voxel.calcCoordinates
  rw [toSizeT64_eq (by omega), toSizeT64_eq (by omega)]
  refine ⟨rfl, fun c h => ?_⟩
  rw [if_neg (ne_of_gt hcs)] at h
  obtain ⟨a, ha, h⟩ := Res.bind_eq_ok.1 h
  obtain ⟨b, hb, h⟩ := Res.bind_eq_ok.1 h
  cases h
  unfold toSizeT at ha hb
  split_ifs at ha hb
  cases ha; cases hb
  constructor <;> simp only [] <;> omega

theorem calcIndex_eq (hcs : 0 < g.cellSize) {p : K × K} (hp : Near g.cellSize p) :
    calcIndex g p = Voxel.calcIndex g p := by
  obtain ⟨h1, h2⟩ := calcCoordinates_eq' hs hcs hp
  unfold calcIndex Voxel.calcIndex
  rw [h1]
  cases h : Voxel.calcCoordinates g p with
  | ok c => rw [Res.map_ok, Res.map_ok, indexOf_eq hs (h2 c h).1 (h2 c h).2]
  | throw e => rfl
  | ub u => rfl

theorem near_of_inside (hcs : 0 < g.cellSize) {p : K × K} (h : isInside g p = true) : Near g.cellSize p := by
  obtain ⟨⟨a, b⟩, c, d⟩ := (isInside_iff hcs p).1 h
  have h1 : (g.left : K) ≤ 2 ^ 30 := by exact_mod_cast hs.left
  have h2 : (g.up : K) ≤ 2 ^ 30 := by exact_mod_cast hs.up
  have h3 : (g.right : K) ≤ 2 ^ 30 := by exact_mod_cast hs.right
  have h4 : (g.down : K) ≤ 2 ^ 30 := by exact_mod_cast hs.down
  constructor <;> rw [abs_le] <;> constructor <;> linarith

/-! ### Growing -/

/-- The coordinate lies within 2^30 cells of the origin. -/
def Close (cs x : K) : Prop := |x| ≤ 2 ^ 30 * cs

theorem inc_lt {cs a x : K} (hcs : 0 < cs) (ha : 0 ≤ a) (hx : x ≤ 2 ^ 30 * cs) : ⌈(x - a) / cs⌉ < 2 ^ 64 := by
  have : (x - a) / cs ≤ 2 ^ 30 := by rw [div_le_iff₀ hcs]; linarith
  have h2 : ⌈(x - a) / cs⌉ ≤ 2 ^ 30 := by rw [Int.ceil_le]; exact_mod_cast this
  omega

omit hs in
theorem inc_le {n m : ℕ} {x : K} (hm : m ≤ 2 ^ 30) (hx : x ≤ 2 ^ 30) (h3 : (m + 1 / 2 : K) < x → (m + n - 1 / 2 : K) < x)
    (h4 : x ≤ (m + 1 / 2 : K) → n = 0) : m + n ≤ 2 ^ 30 := by
  by_cases h : (m + 1 / 2 : K) < x
  · have h5 := h3 h
    have : ((m + n : ℕ) : K) < ((2 ^ 30 + 1 : ℕ) : K) := by push_cast; linarith
    have := Nat.cast_lt.1 this
    omega
  · rw [h4 (not_lt.1 h)]; exact hm

theorem calcIncRight_eq (hcs : 0 < g.cellSize) {x : K} (hx : Close g.cellSize x) :
    ∃ n, calcIncRight g x = .ok n ∧ Voxel.calcIncRight g x = .ok n ∧ g.right + n ≤ 2 ^ 30 := by
  obtain ⟨n, h1, -, h3, h4⟩ := calcIncRight_spec hcs x
  have hx2 := (abs_le.1 hx).2
  refine ⟨n, ?_, h1, ?_⟩
  · rw [← h1]
    unfold calcIncRight Voxel.calcIncRight
    have : ⌈(x - ((g.right : K) * g.cellSize + g.half)) / g.cellSize⌉ < 2 ^ 64 :=
      inc_lt hs hcs (by unfold Grid.half; positivity) hx2
    simp only [toSizeT64_eq this]
  · exact inc_le hs.right (x := x / g.cellSize) (by rw [div_le_iff₀ hcs]; exact hx2) h3 h4

theorem calcIncUp_eq (hcs : 0 < g.cellSize) {x : K} (hx : Close g.cellSize x) :
    ∃ n, calcIncUp g x = .ok n ∧ Voxel.calcIncUp g x = .ok n ∧ g.up + n ≤ 2 ^ 30 := by
  obtain ⟨n, h1, -, h3, h4⟩ := calcIncUp_spec hcs x
  have hx2 := (abs_le.1 hx).2
  refine ⟨n, ?_, h1, ?_⟩
  · rw [← h1]
    unfold calcIncUp Voxel.calcIncUp
    have : ⌈(x - ((g.up : K) * g.cellSize + g.half)) / g.cellSize⌉ < 2 ^ 64 :=
      inc_lt hs hcs (by unfold Grid.half; positivity) hx2
    simp only [toSizeT64_eq this]
  · exact inc_le hs.up (x := x / g.cellSize) (by rw [div_le_iff₀ hcs]; exact hx2) h3 h4

theorem calcIncLeft_eq (hcs : 0 < g.cellSize) {x : K} (hx : Close g.cellSize x) :
    ∃ n, calcIncLeft g x = .ok n ∧ Voxel.calcIncLeft g x = .ok n ∧ g.left + n ≤ 2 ^ 30 := by
  obtain ⟨n, h1, -, h3, h4⟩ := calcIncLeft_spec hcs x
  have hx2 := (abs_le.1 hx).1
  refine ⟨n, ?_, h1, ?_⟩
  · rw [← h1]
    unfold calcIncLeft Voxel.calcIncLeft
    have : ⌈(-(g.left : K) * g.cellSize - g.half - x) / g.cellSize⌉ < 2 ^ 64 := by
      rw [show -(g.left : K) * g.cellSize - g.half - x = -x - ((g.left : K) * g.cellSize + g.half) by ring]
      exact inc_lt hs hcs (by unfold Grid.half; positivity) (by linarith)
    simp only [toSizeT64_eq this]
  · refine inc_le hs.left (x := -(x / g.cellSize)) ?_ (fun h => ?_) (fun h => ?_)
    · rw [← neg_div, div_le_iff₀ hcs]; linarith
    · have := h3 (by linarith); linarith
    · exact h4 (by linarith)

theorem calcIncDown_eq (hcs : 0 < g.cellSize) {x : K} (hx : Close g.cellSize x) :
    ∃ n, calcIncDown g x = .ok n ∧ Voxel.calcIncDown g x = .ok n ∧ g.down + n ≤ 2 ^ 30 := by
  obtain ⟨n, h1, -, h3, h4⟩ := calcIncDown_spec hcs x
  have hx2 := (abs_le.1 hx).1
  refine ⟨n, ?_, h1, ?_⟩
  · rw [← h1]
    unfold calcIncDown Voxel.calcIncDown
    have : ⌈(-(g.down : K) * g.cellSize - g.half - x) / g.cellSize⌉ < 2 ^ 64 := by
      rw [show -(g.down : K) * g.cellSize - g.half - x = -x - ((g.down : K) * g.cellSize + g.half) by ring]
      exact inc_lt hs hcs (by unfold Grid.half; positivity) (by linarith)
    simp only [toSizeT64_eq this]
  · refine inc_le hs.down (x := -(x / g.cellSize)) ?_ (fun h => ?_) (fun h => ?_)
    · rw [← neg_div, div_le_iff₀ hcs]; linarith
    · have := h3 (by linarith); linarith
    · exact h4 (by linarith)

theorem enlargeGrid_eq (hwf : WF g) (mem : ℕ) {l r u d : ℕ} (hl : g.left + l ≤ 2 ^ 30) (hr : g.right + r ≤ 2 ^ 30)
    (hu : g.up + u ≤ 2 ^ 30) (hd : g.down + d ≤ 2 ^ 30) :
    (enlargeGrid mem g l r u d = Voxel.enlargeGrid g l r u d ∨ enlargeGrid mem g l r u d = .throw .badAlloc) ∧
    ∀ g', Voxel.enlargeGrid g l r u d = .ok g' → Small g' := by
  have hsp := enlargeGrid_spec hwf l r u d
  refine ⟨?_, fun g' h => ?_⟩
  swap
  · obtain ⟨g2, h2, -, e1, e2, e3, e4, -⟩ := hsp
    rw [h2] at h
    cases h
    exact ⟨by omega, by omega, by omega, by omega⟩
  unfold enlargeGrid Voxel.enlargeGrid
  have hw : g.width + l + r ≤ 2 ^ 31 + 1 := by unfold Grid.width; omega
  have hh : g.height + u + d ≤ 2 ^ 31 + 1 := by unfold Grid.height; omega
  have ha := Nat.mul_le_mul hw hh
  rw [width_eq hs, height_eq hs, add64_eq (a := l) (by omega), add64_eq (a := l + r) (by omega),
    add64_eq (a := l + r + u) (by omega), add64_eq (a := g.width) (by omega), add64_eq (a := g.width + l) (by omega),
    add64_eq (a := g.height) (by omega), add64_eq (a := g.height + u) (by omega)]
  by_cases h0 : l + r + u + d = 0
  · left; rw [if_pos h0, if_pos h0]
  rw [if_neg h0, if_neg h0]
  simp only []
  rw [mul64_eq (by omega)]
  by_cases hm : mem < (g.width + l + r) * (g.height + u + d)
  · right; rw [if_pos hm]
  left
  rw [if_neg hm]
  have hwf' : g.cells.length = g.width * g.height := hwf
  have := loop_range_eq
    (P := EnlargeInv g.cells g.width (g.width + l + r) l r u ((g.width + l + r) * (g.height + u + d)))
    (f := enlargeStep g.cells g.width (g.width + l + r) l r u)
    (f' := Voxel.enlargeStep g.cells g.width (g.width + l + r) l r u)
    g.cells.length (enlarge_start _ _ _ _ _ _ _) (fun i hi s inv => ?_)
  · obtain ⟨h1, h2⟩ := this
    rw [h1, Res.bind_ok, h2.oob, add64_eq (by omega), add64_eq (by omega), add64_eq (by omega), add64_eq (by omega)]
    simp
  · refine ⟨?_, enlarge_step (width_pos g) hwf i hi s inv⟩
    have hdest := enlargeDest_lt (left := l) (right := r) (up := u) (down := d) (width_pos g) hwf' hi
    have hn := enlarge_newIndex g.width l r u i inv.off
    have hmod := Nat.mod_lt i (width_pos g)
    have hdiv : i / g.width < g.height := Nat.div_lt_of_lt_mul (by omega)
    have hoff : s.offsetX ≤ (2 ^ 31 + 1) * (2 ^ 31 + 1) := by
      rw [inv.off]; exact Nat.mul_le_mul (by omega) (by omega)
    have hun : u * (g.width + l + r) ≤ 2 ^ 30 * (2 ^ 31 + 1) := Nat.mul_le_mul (by omega) hw
    have hi2 : i < (2 ^ 31 + 1) * (2 ^ 31 + 1) := by
      have := Nat.mul_le_mul (width_le hs) (height_le hs); omega
    have e : newIndex (g.width + l + r) l u s.offsetX i = enlargeDest g.width (g.width + l + r) l u i := by
      rw [← hn]
      unfold newIndex
      rw [mul64_eq (by omega), add64_eq (a := i) (b := u * (g.width + l + r)) (by omega),
        add64_eq (b := s.offsetX) (by omega), add64_eq (b := s.offsetX) (by omega),
        add64_eq (b := l) (by omega), add64_eq (b := s.offsetX) (by omega)]
    unfold enlargeStep Voxel.enlargeStep
    rw [e, writeSlot_lt (by rw [inv.len]; exact hdest), Res.bind_ok, hn]
    simp only []
    have hoob : (s.oob || decide (s.large.length ≤ enlargeDest g.width (g.width + l + r) l u i)) = s.oob := by
      rw [inv.oob, inv.len]; simp; omega
    rw [hoob, add64_eq (a := s.wUsed) (by rw [inv.used]; omega), add64_eq (a := r) (by omega),
      add64_eq (a := s.offsetX) (by omega)]

theorem enlarge_eq (hwf : WF g) (hcs : 0 < g.cellSize) (mem : ℕ) {a b c d : K} (ha : Close g.cellSize a)
    (hb : Close g.cellSize b) (hc : Close g.cellSize c) (hd : Close g.cellSize d) :
    (enlarge mem g a b c d = Voxel.enlarge g a b c d ∨ enlarge mem g a b c d = .throw .badAlloc) ∧
    ∀ g', Voxel.enlarge g a b c d = .ok g' → Small g' := by
  obtain ⟨l, l1, l2, l3⟩ := calcIncLeft_eq hs hcs ha
  obtain ⟨r, r1, r2, r3⟩ := calcIncRight_eq hs hcs hc
  obtain ⟨u, u1, u2, u3⟩ := calcIncUp_eq hs hcs hd
  obtain ⟨n, n1, n2, n3⟩ := calcIncDown_eq hs hcs hb
  unfold enlarge Voxel.enlarge
  rw [l1, l2, r1, r2, u1, u2, n1, n2]
  exact enlargeGrid_eq hs hwf mem l3 r3 u3 n3

theorem enlargeToFit_eq (hwf : WF g) (hcs : 0 < g.cellSize) (mem : ℕ) {p : K × K} (h1 : Close g.cellSize p.1)
    (h2 : Close g.cellSize p.2) :
    (enlargeToFit mem g p = Voxel.enlargeToFit g p ∨ enlargeToFit mem g p = .throw .badAlloc) ∧
    ∀ g', Voxel.enlargeToFit g p = .ok g' → Small g' := by
  have he := enlarge_eq hs hwf hcs mem h1 h2 h1 h2
  unfold enlargeToFit Voxel.enlargeToFit
  by_cases hin : isInside g p = true
  · rw [if_pos hin, if_pos hin]
    exact ⟨Or.inl rfl, fun g' h => by cases h; exact hs⟩
  · rw [if_neg hin, if_neg hin]
    exact he

/-! ### Moving -/

theorem moveLeft_eq (hwf : WF g) (move : ℕ) : moveLeft g move = .ok (Voxel.moveLeft g move) := by
  have hwf' : g.cells.length = g.width * g.height := hwf
  have harea := area_lt hs
  have hw := width_le hs
  unfold moveLeft Voxel.moveLeft
  rw [width_eq hs]
  by_cases h0 : move = 0
  · rw [if_pos h0, if_pos h0]
  rw [if_neg h0, if_neg h0]
  simp only []
  obtain ⟨m, hm⟩ : ∃ m, (if move > g.width then g.width else move) = m := ⟨_, rfl⟩
  have hmw : m ≤ g.width := by rw [← hm]; split_ifs <;> omega
  have hm0 : 0 < m := by rw [← hm]; have := width_pos g; split_ifs <;> omega
  rw [hm, sub64_eq hmw (by omega)]
  rw [loop_eq (P := fun s : MoveState α => s.cells.length = g.cells.length ∧ s.used ≤ g.width ∧ s.unused < m)
    (f' := Voxel.moveLeftStep m (g.width - m)) _ _ ⟨rfl, by simp, hm0⟩]
  · rfl
  rintro i hi s ⟨p1, p2, p3⟩
  have hi' : i < g.cells.length := List.mem_range.1 hi
  unfold moveLeftStep Voxel.moveLeftStep
  rw [toLong_eq (by omega), toLong_eq (by omega), long_eq (by omega) (by omega), Res.bind_ok,
    show ((i : ℤ) + (m : ℤ)) = ((i + m : ℕ) : ℤ) by push_cast; rfl, ofLong_nat (by omega),
    add64_eq (a := s.used) (by omega), add64_eq (a := s.unused) (by omega)]
  refine ⟨rfl, ?_⟩
  simp only []
  by_cases hc : i + m < s.cells.length ∧ s.used < g.width - m ∧ s.unused = 0
  · rw [if_pos hc]
    refine ⟨by simp [moveSlot, p1], ?_, hm0⟩
    simp only []; omega
  · rw [if_neg hc]
    refine ⟨by simp [p1], Nat.zero_le _, ?_⟩
    simp only []
    split_ifs <;> omega

theorem moveRight_eq (hwf : WF g) (move : ℕ) : moveRight g move = .ok (Voxel.moveRight g move) := by
  have hwf' : g.cells.length = g.width * g.height := hwf
  have harea := area_lt hs
  have hw := width_le hs
  unfold moveRight Voxel.moveRight
  rw [width_eq hs]
  by_cases h0 : move = 0
  · rw [if_pos h0, if_pos h0]
  rw [if_neg h0, if_neg h0]
  simp only []
  obtain ⟨m, hm⟩ : ∃ m, (if move > g.width then g.width else move) = m := ⟨_, rfl⟩
  have hmw : m ≤ g.width := by rw [← hm]; split_ifs <;> omega
  have hm0 : 0 < m := by rw [← hm]; have := width_pos g; split_ifs <;> omega
  rw [hm, sub64_eq hmw (by omega), downFrom_eq (by omega)]
  rw [loop_eq (P := fun s : MoveState α => s.cells.length = g.cells.length ∧ s.used ≤ g.width ∧ s.unused < m)
    (f' := Voxel.moveRightStep m (g.width - m)) _ _ ⟨rfl, by simp, hm0⟩]
  · rfl
  rintro i hi s ⟨p1, p2, p3⟩
  have hi' : i < g.cells.length := by simpa using hi
  unfold moveRightStep Voxel.moveRightStep
  rw [toLong_eq (by omega), long_eq (by omega) (by omega), Res.bind_ok,
    add64_eq (a := s.used) (by omega), add64_eq (a := s.unused) (by omega)]
  by_cases hc : m ≤ i ∧ s.used < g.width - m ∧ s.unused = 0
  · rw [if_pos hc, if_pos ⟨by omega, hc.2⟩, ofLong_eq (by omega) (by omega),
      show ((i : ℤ) - m).toNat = i - m by omega]
    refine ⟨rfl, by simp [moveSlot, p1], ?_, hm0⟩
    simp only []; omega
  · rw [if_neg hc, if_neg (fun h => hc ⟨by omega, h.2⟩)]
    refine ⟨rfl, by simp [p1], Nat.zero_le _, ?_⟩
    simp only []
    split_ifs <;> omega

theorem moveUp_eq (hwf : WF g) (move : ℕ) : moveUp g move = .ok (Voxel.moveUp g move) := by
  have hwf' : g.cells.length = g.width * g.height := hwf
  have harea := area_lt hs
  have hw := width_le hs
  have hh := height_le hs
  unfold moveUp Voxel.moveUp
  rw [width_eq hs, height_eq hs]
  by_cases h0 : move = 0
  · rw [if_pos h0, if_pos h0]
  rw [if_neg h0, if_neg h0]
  simp only []
  obtain ⟨m, hm⟩ : ∃ m, (if move > g.height then g.height else move) = m := ⟨_, rfl⟩
  have hmw : m ≤ g.height := by rw [← hm]; split_ifs <;> omega
  rw [hm]
  rw [loop_eq (P := fun s : List (Option α) => s.length = g.cells.length)
    (f' := Voxel.moveUpStep m g.width) _ _ rfl]
  · rfl
  rintro i hi s p1
  have hi' : i < g.cells.length := List.mem_range.1 hi
  have := Nat.mul_le_mul (hmw.trans hh) hw
  unfold moveUpStep Voxel.moveUpStep
  rw [mul64_eq (by omega), add64_eq (by omega)]
  refine ⟨rfl, ?_⟩
  simp only []
  split_ifs <;> simp [moveSlot, p1]

theorem moveDown_eq (hwf : WF g) (move : ℕ) : moveDown g move = .ok (Voxel.moveDown g move) := by
  have hwf' : g.cells.length = g.width * g.height := hwf
  have harea := area_lt hs
  have hw := width_le hs
  have hh := height_le hs
  unfold moveDown Voxel.moveDown
  rw [width_eq hs, height_eq hs]
  by_cases h0 : move = 0
  · rw [if_pos h0, if_pos h0]
  rw [if_neg h0, if_neg h0]
  simp only []
  obtain ⟨m, hm⟩ : ∃ m, (if move > g.height then g.height else move) = m := ⟨_, rfl⟩
  have hmw : m ≤ g.height := by rw [← hm]; split_ifs <;> omega
  rw [hm, downFrom_eq (by omega)]
  rw [loop_eq (P := fun s : List (Option α) => s.length = g.cells.length)
    (f' := Voxel.moveDownStep m g.width) _ _ rfl]
  · rfl
  rintro i hi s p1
  have hi' : i < g.cells.length := by simpa using hi
  have hk := Nat.mul_le_mul (hmw.trans hh) hw
  unfold moveDownStep Voxel.moveDownStep
  obtain ⟨k, hk'⟩ : ∃ k, m * g.width = k := ⟨_, rfl⟩
  rw [toLong_eq (by omega), toLong_eq (by omega),
    show ((m : ℤ) * (g.width : ℤ)) = (k : ℤ) by rw [← hk']; push_cast; rfl, hk']
  rw [hk'] at hk
  rw [long_eq (by omega) (by omega), Res.bind_ok, long_eq (by omega) (by omega), Res.bind_ok]
  by_cases hc : k ≤ i
  · rw [if_pos hc, if_pos (by omega), ofLong_eq (by omega) (by omega), show ((i : ℤ) - k).toNat = i - k by omega]
    exact ⟨rfl, by simp [moveSlot, p1]⟩
  · rw [if_neg hc, if_neg (by omega)]
    exact ⟨rfl, by simp [p1]⟩

end

end Verif.Voxel.Machine
