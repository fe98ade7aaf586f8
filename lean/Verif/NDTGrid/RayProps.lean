import Verif.NDTGrid.Rays
import Verif.NDTGrid.Props

/-
Property C135 for any cell type: what merging with ray tracing does to each square.
-/
namespace Verif.NDTGrid

open Verif Verif.Voxel

set_option linter.unusedSectionVars false

variable {K : Type v} [Field K] [LinearOrder K] [IsStrictOrderedRing K] [FloorRing K] {γ : Type u}

/-- A point of the straight line from `a` to `b`. -/
def between (a b : K × K) (t : K) : K × K := (a.1 + t * (b.1 - a.1), a.2 + t * (b.2 - a.2))

theorem square_ne {cs : K} (hcs : 0 < cs) {p q : K × K} (h : cs ≤ |q.1 - p.1| ∨ cs ≤ |q.2 - p.2|) :
    squareOf cs p ≠ squareOf cs q := by
  intro he
  have h1 := (squareOf_iff hcs _ _).1 he
  have h2 := (squareOf_iff hcs q (squareOf cs q)).1 rfl
  obtain ⟨a1, a2, a3, a4⟩ := h1
  obtain ⟨b1, b2, b3, b4⟩ := h2
  rcases h with h | h
  · rcases le_abs.1 h with h | h <;> nlinarith
  · rcases le_abs.1 h with h | h <;> nlinarith

/-- A swept square contains a point of the line and is not the square at the end of the line. -/
theorem swept_line {g : Grid K γ} (hcs : 0 < g.cellSize) {a b : K × K} {q : ℤ × ℤ}
    (hlong : g.cellSize ≤ max |b.1 - a.1| |b.2 - a.2|) (h : Swept g a b q) :
    q ≠ squareOf g.cellSize b ∧ ∃ t, 0 ≤ t ∧ t < 1 ∧ squareOf g.cellSize (between a b t) = q := by
  obtain ⟨-, k, h1, -, h2⟩ := h
  set L := cellsBetween g.cellSize a b with hL
  have hL1 : 1 ≤ L := by rw [hL]; unfold cellsBetween; rw [le_div_iff₀ hcs]; linarith
  have hLp : 0 < L := by linarith
  have hm : max |b.1 - a.1| |b.2 - a.2| = L * g.cellSize := by
    rw [hL]; unfold cellsBetween; field_simp
  have hfl := Int.floor_le L
  have hk : (k : K) / 2 ≤ L - 1 := by linarith
  have hk0 : (0 : K) ≤ k / 2 := by positivity
  have ht : (k : K) / 2 / L < 1 := by rw [div_lt_one hLp]; linarith
  have ht0 : (0 : K) ≤ k / 2 / L := by positivity
  constructor
  · rw [← h2]
    apply square_ne hcs
    have key : ∀ x y : K, |y - x| = L * g.cellSize → g.cellSize ≤ |y - (x + k / 2 / L * (y - x))| := by
      intro x y hxy
      have e : y - (x + k / 2 / L * (y - x)) = (1 - k / 2 / L) * (y - x) := by ring
      rw [e, abs_mul, hxy, abs_of_pos (by linarith)]
      have e2 : (1 - (k : K) / 2 / L) * (L * g.cellSize) = (L - k / 2) * g.cellSize := by field_simp
      rw [e2]
      nlinarith
    rcases max_choice |b.1 - a.1| |b.2 - a.2| with h | h
    · exact Or.inl (key _ _ (by rw [← h, hm]))
    · exact Or.inr (key _ _ (by rw [← h, hm]))
  · exact ⟨k / 2 / L, ht0, ht, h2⟩

/-- A square that no ray passes is left as it was. -/
theorem cleared_none {I : CellI K γ} {g : Grid K γ} {s : Fin 3 → K} {q : ℤ × ℤ} :
    ∀ {cells : List γ} {o : Option γ},
      (∀ c ∈ cells, I.gaussian c = true → ¬ Swept g (head s) (head (I.mean c)) q) →
      cleared I g s q o cells = .ok o := by
  intro cells
  induction cells with
  | nil => intro o _; rfl
  | cons c cells ih =>
    intro o h
    unfold cleared
    rw [if_neg (fun hh => h c List.mem_cons_self hh.1 hh.2)]
    exact ih fun d hd => h d (List.mem_cons_of_mem _ hd)

theorem swept_long {I : CellI K γ} {g : Grid K γ} (hcs : 0 < g.cellSize) {a : K × K} {cells : List γ}
    (hr : RaysOk I g a cells) {c : γ} (hc : c ∈ cells) (hg : I.gaussian c = true) {q : ℤ × ℤ}
    (h : Swept g a (head (I.mean c)) q) :
    q ≠ squareOfMean I g.cellSize c ∧
      ∃ t, 0 ≤ t ∧ t < 1 ∧ squareOf g.cellSize (between a (head (I.mean c)) t) = q :=
  swept_line hcs ((hr (inExtent_isInside hcs h.1)).2 c hc hg).1 h

/-- C135 for any cell type, for rays of at least one cell: a square that receives no Gaussian is updated once by
each ray that passes it (`cleared`), so that it changes only if it lies on the line from the start to a Gaussian,
before the square of that Gaussian.  The rays pass only squares of the extent before the merge. -/
theorem C135_merge_partial {I : CellI K γ} (hI : Lawful I) {n n' : NGrid K γ} (hwf : WF n.grid)
    (hcs : 0 < n.grid.cellSize) {sx sy : K} {cells : List γ} {resize : Bool}
    (hoff : CellsOffLines I n.grid.cellSize cells) (hr : RaysOk I n.grid (sx, sy) cells)
    (h : mergeTraced I n sx sy cells resize = .ok n') (q : ℤ × ℤ)
    (hq : ∀ c ∈ cells, I.gaussian c = true → squareOfMean I n.grid.cellSize c ≠ q) :
    cleared I n.grid ![sx, sy, 0] q (content n.grid q) cells = .ok (content n'.grid q) ∧
    (content n'.grid q = content n.grid q ∨ ∃ c ∈ cells, I.gaussian c = true ∧
      ∃ t, 0 ≤ t ∧ t < 1 ∧ squareOf n.grid.cellSize (between (sx, sy) (head (I.mean c)) t) = q) := by
  have main : cleared I n.grid ![sx, sy, 0] q (content n.grid q) cells = .ok (content n'.grid q) := by
    unfold mergeTraced at h
    obtain ⟨g, hg, h⟩ := Res.bind_eq_ok.1 h
    obtain ⟨hb, -, ht⟩ := traceAll_traced hI hg
    have hr' : RaysOk I n.grid (head ![sx, sy, 0]) cells := hr
    rw [traceAll_exact hI hwf hcs hr' hg q]
    congr 1
    have hsq : inSquare I g.cellSize cells q = [] := by
      rw [List.eq_nil_iff_forall_not_mem]
      intro c hc
      obtain ⟨h1, h2, h3⟩ := mem_inSquare.1 hc
      rw [hb.cs] at h3
      exact hq c h1 h2 h3
    have hwf' := hb.wf ht hwf
    have hcs' : 0 < g.cellSize := by rw [hb.cs]; exact hcs
    by_cases hres : resize = true ∨ n.initialized = false
    · obtain ⟨g', h', -, -, -, -, -, -, hcont, -⟩ := mergeCells_resize I (n := { n with grid := g }) hwf' hcs' cells
        resize hres (fun c hc hgc => by
          have := hoff c hc hgc
          rw [← hb.cs] at this
          exact this.notOpen)
      rw [h'] at h
      cases h
      show _ = content g' q
      rw [hcont]
      show _ = ((inSquare I g.cellSize cells q).getLast?).or (content g q)
      rw [hsq]
      rfl
    · push Not at hres
      obtain ⟨h1, h2⟩ := hres
      have hinit : n.initialized = true := by simpa using h2
      have hrf : resize = false := by simpa using h1
      subst hrf
      obtain ⟨g', h', -, -, hcont⟩ := mergeCells_noresize I (n := { n with grid := g }) hwf' hcs' cells hinit
        (fun c hc hgc _ => by
          have := hoff c hc hgc
          rw [← hb.cs] at this
          exact this.notOpen)
      rw [h'] at h
      cases h
      show _ = content g' q
      rw [hcont]
      show _ = if InExtent g q then (inSquare I g.cellSize cells q).foldl (mergeStep I) (content g q) else none
      rw [hsq]
      split_ifs with hin
      · rfl
      · exact content_of_not_in hin
  refine ⟨main, ?_⟩
  by_cases hsw : ∃ c ∈ cells, I.gaussian c = true ∧ Swept n.grid (sx, sy) (head (I.mean c)) q
  · obtain ⟨c, hc, hg, hs⟩ := hsw
    exact Or.inr ⟨c, hc, hg, (swept_long hcs hr hc hg hs).2⟩
  · left
    push Not at hsw
    rw [cleared_none (cells := cells) (s := ![sx, sy, 0]) hsw] at main
    exact (Res.ok.inj main).symm

/-- C135, the first scan of a map: the rays start at the origin of the map.  Every cell afterwards is in the
square of a Gaussian of the scan or on the line from the origin to one of them. -/
theorem C135_first_scan_partial {I : CellI K γ} (hI : Lawful I) {n n' scan : NGrid K γ} (hwf : WF n.grid)
    (hcs : 0 < n.grid.cellSize)
    {ps : List (Fin 3 → K)} (hscan : createGrid I n.ox n.oy n.th n.grid.cellSize ps = .ok scan)
    (hoff : CellsOffLines I n.grid.cellSize (getValidCells scan.grid))
    (hr : RaysOk I (Voxel.clear n.grid) (0, 0) (getValidCells scan.grid))
    (h : initScan I n ps true = .ok n') (q : ℤ × ℤ) (hq : (content n'.grid q).isSome) :
    ∃ c ∈ getValidCells scan.grid, I.gaussian c = true ∧ (squareOfMean I n.grid.cellSize c = q ∨
      ∃ t, 0 ≤ t ∧ t < 1 ∧ squareOf n.grid.cellSize (between (0, 0) (head (I.mean c)) t) = q) := by
  unfold initScan at h
  rw [hscan, Res.bind_ok] at h
  simp only [if_true] at h
  by_cases hrec : ∀ c ∈ getValidCells scan.grid, I.gaussian c = true → squareOfMean I n.grid.cellSize c ≠ q
  · have := (C135_merge_partial hI (n := { n with grid := Voxel.clear n.grid }) (clear_wf hwf) hcs hoff hr h q
      hrec).2
    rcases this with h0 | ⟨c, hc, hg, ht⟩
    · rw [show content (Voxel.clear n.grid) q = none from clear_content n.grid q] at h0
      rw [h0] at hq
      cases hq
    · exact ⟨c, hc, hg, Or.inr ht⟩
  · push Not at hrec
    obtain ⟨c, hc, hg, he⟩ := hrec
    exact ⟨c, hc, hg, Or.inl he⟩

/-! ### Where it fails -/

/-- Cells whose rays are counted. -/
def rayI : CellI ℚ Toy := { toyI with ray := fun c _ _ k => .ok { c with n := c.n + k, g := false } }

/-- A row of five unit cells with a Gaussian in the last one. -/
def row5 : NGrid ℚ Toy :=
  { ox := 0, oy := 0, th := 0, initialized := true, timestamp := 0,
    grid := { cellSize := 1, left := 0, right := 4, up := 0, down := 0, validCells := 1,
              cells := [none, none, none, none, some (toy 4 0 3)] },
    means := [![4, 0, 0]] }

/-- Negation of C135 for a Gaussian closer than one cell to the start: its ray runs on behind it to the border of
the map and removes the Gaussian four cells away. -/
theorem C135_false_short : (mergeTraced rayI row5 0 0 [toy (3 / 4) 0 2] true).map (fun n => n.grid.cells) =
    .ok [some ⟨0, 0, 0, false, 2, some (1 / 2)⟩, some (toy (3 / 4) 0 2), some ⟨0, 0, 0, false, 2, some (1 / 2)⟩,
      some ⟨0, 0, 0, false, 2, some (1 / 2)⟩, some ⟨4, 0, 0, false, 5, some (9 / 10)⟩] := by decide +kernel

/-- The space before a Gaussian outside the extent of the map is not recorded as free, although the map grows
over it in the same call. -/
theorem C135_false_outside : (mergeTraced rayI (NDTGrid.init rayI 0 0 0 1) 0 0 [toy 3 0 2] true).map
    (fun n => n.grid.cells) =
    .ok [some ⟨0, 0, 0, false, 2, some (1 / 2)⟩, none, none, some (toy 3 0 2)] := by decide +kernel

/-- A case with a ray of three cells: the squares 0, 1 and 2 are passed, each once. -/
example : (mergeTraced rayI row5 0 0 [toy (13 / 4) 0 2] true).map (fun n => n.grid.cells) =
    .ok [some ⟨0, 0, 0, false, 2, some (1 / 2)⟩, some ⟨0, 0, 0, false, 2, some (1 / 2)⟩,
      some ⟨0, 0, 0, false, 2, some (1 / 2)⟩, some (toy (13 / 4) 0 2), some (toy 4 0 3)] := by decide +kernel

example : RaysOk rayI row5.grid (0, 0) [toy (13 / 4) 0 2] ∧
    CellsOffLines rayI row5.grid.cellSize [toy (13 / 4) 0 2] ∧ WF row5.grid := by
  refine ⟨?_, ?_, by unfold WF; rfl⟩
  · intro _
    refine ⟨?_, ?_⟩
    · unfold OnEdge row5
      norm_num
    · intro c hc _
      rw [List.mem_singleton.1 hc]
      simp only [rayI, toyI, toy, head, row5, Matrix.cons_val_zero, Matrix.cons_val_one]
      constructor <;> norm_num
  · intro c hc _
    rw [List.mem_singleton.1 hc]
    simp only [rayI, toyI, toy, head, row5, Matrix.cons_val_zero, Matrix.cons_val_one, OffLines]
    constructor
    · intro k hk
      have h1 : (4 * k : ℚ) = 11 := by linarith
      have h2 : 4 * k = 11 := by exact_mod_cast h1
      omega
    · intro k hk
      have h1 : (2 * k : ℚ) = -1 := by linarith
      have h2 : 2 * k = -1 := by exact_mod_cast h1
      omega

theorem ray_lawful : Lawful rayI where
  default_gaussian := rfl
  mean_setMean := toy_lawful.mean_setMean
  gaussian_setMean := toy_lawful.gaussian_setMean
  ray c s e k c' h hg := by cases h; cases hg
  merge := toy_lawful.merge

end Verif.NDTGrid
