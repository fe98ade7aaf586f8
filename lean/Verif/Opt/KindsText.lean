import Verif.Opt.KindsProps

/-
Property theorems C143: writing and reading back the mixture edges between poses and landmarks and between poses in space.
`rnd` is what printing makes of a number.
-/
namespace Verif.Opt

open Verif Verif.Geo Matrix

variable {k n : ℕ} {E : Type}

/-! ### Specification -/

/-- A mixture as its constructor leaves it: one weight for every component, symmetric information. -/
structure MixWellFormed (m : Mix k n) : Prop where
  number : m.number = m.comps.length
  weights : m.weights.length = m.comps.length
  symm : ∀ e ∈ m.comps, e.info.transpose = e.info

/-- All numbers of a component as they are printed. -/
def printedComp (rnd : ℝ → ℝ) (e : Comp k n) : Comp k n := ⟨e.v0, e.v1, fun i => rnd (e.meas i), e.info.map rnd⟩

/-- `e'` is `e` with the numbers as they are printed, but for the last four of the measurement, a quaternion, which are
scaled to length one. -/
def ScaledTo (rnd : ℝ → ℝ) (e e' : Comp 7 6) : Prop :=
  e'.v0 = e.v0 ∧ e'.v1 = e.v1 ∧ e'.info = e.info.map rnd ∧ (∀ i < 3, e'.meas i = rnd (e.meas i)) ∧
    (∃ l : ℝ, 0 < l ∧ ∀ i, 3 ≤ i → l * e'.meas i = rnd (e.meas i)) ∧
    e'.meas 3 ^ 2 + e'.meas 4 ^ 2 + e'.meas 5 ^ 2 + e'.meas 6 ^ 2 = 1

/-! ### Lemmas -/

theorem finRange_meas (rnd : ℝ → ℝ) (q : Fin k → ℝ) (r : List Piece) :
    ∀ (l : List (Fin k)) (o : Fin k → Option ℝ),
      l.foldl (fun r i => (Function.update r.1 i (r.2.getNum (r.1 i)).1, (r.2.getNum (r.1 i)).2))
        (o, (⟨.blank :: ((l.flatMap fun i => [.num (rnd (q i)), .blank]) ++ r), false, false⟩ : In)) =
      (fun i => if i ∈ l then some (rnd (q i)) else o i, ⟨.blank :: r, false, false⟩) := by
  intro l
  induction l with
  | nil => intro o; simp
  | cons a l ih =>
    intro o
    have e : ((a :: l).flatMap fun i => [Piece.num (rnd (q i)), .blank]) ++ r =
        .num (rnd (q a)) :: .blank :: ((l.flatMap fun i => [.num (rnd (q i)), .blank]) ++ r) := by simp
    rw [e, List.foldl_cons]
    simp only [getNum_blank, getNum_num (sep_blank _), List.isEmpty_cons]
    rw [ih]
    congr 1
    funext i
    by_cases h : i = a
    · subst h; simp
    · simp [h, Function.update_of_ne h]

theorem readMeas_write (rnd : ℝ → ℝ) (q : Fin k → ℝ) (r : List Piece) :
    readMeas ⟨.blank :: (((List.finRange k).flatMap fun i => [.num (rnd (q i)), .blank]) ++ r), false, false⟩ =
      (fun i => some (rnd (q i)), ⟨.blank :: r, false, false⟩) := by
  have := finRange_meas rnd q r (List.finRange k) fun _ => none
  simp only [List.mem_finRange, if_true] at this
  exact this

theorem upper_read (rnd : ℝ → ℝ) {a : Matrix (Fin n) (Fin n) ℝ} (ha : a.transpose = a) (r : List Piece) :
    ∀ (l : List (Fin n × Fin n)) (o : Fin n → Fin n → Option ℝ),
      l.foldl (fun r ij => readUpper ij r)
        (o, (⟨(l.flatMap fun ij => [.blank, .num (rnd (a ij.1 ij.2))]) ++ .blank :: r, false, false⟩ : In)) =
      (fun i j => if (i, j) ∈ l ∨ (j, i) ∈ l then some (rnd (a i j)) else o i j, ⟨.blank :: r, false, false⟩) := by
  have hs : ∀ i j, a i j = a j i := fun i j => congrFun (congrFun ha j) i
  intro l
  induction l with
  | nil => intro o; simp
  | cons b l ih =>
    intro o
    have e : ((b :: l).flatMap fun ij => [Piece.blank, .num (rnd (a ij.1 ij.2))]) ++ .blank :: r =
        .blank :: .num (rnd (a b.1 b.2)) :: ((l.flatMap fun ij => [.blank, .num (rnd (a ij.1 ij.2))]) ++ .blank :: r) := by
      simp
    have sep : ∃ t, (l.flatMap fun ij => [Piece.blank, .num (rnd (a ij.1 ij.2))]) ++ .blank :: r = .blank :: t := by
      cases l with
      | nil => exact ⟨r, rfl⟩
      | cons c l => exact ⟨_, by simp; rfl⟩
    obtain ⟨t, ht⟩ := sep
    rw [e, List.foldl_cons, readUpper]
    simp only [getNum_blank]
    rw [ht, getNum_num (sep_blank _), ← ht]
    simp only [ht, List.isEmpty_cons]
    rw [← ht, ih]
    congr 1
    funext i j
    obtain ⟨b1, b2⟩ := b
    by_cases h1 : (i, j) = (b1, b2)
    · cases h1; simp
    · by_cases h2 : (j, i) = (b1, b2)
      · cases h2; simp [hs]
      · simp [h1, h2]

theorem mem_upper (i j : Fin n) : (i, j) ∈ upper n ∨ (j, i) ∈ upper n := by
  unfold upper
  simp only [List.mem_flatMap, List.mem_finRange, List.mem_map, List.mem_filter, true_and, decide_eq_true_eq,
    Prod.mk.injEq]
  rcases le_total i j with h | h
  · exact .inl ⟨i, j, h, rfl, rfl⟩
  · exact .inr ⟨j, i, h, rfl, rfl⟩

/-- `e'` is what is read from the text of `e`. -/
def ReadAs (rnd : ℝ → ℝ) (fix : (Fin k → ℝ) → Option (Fin k → ℝ)) (e e' : Comp k n) : Prop :=
  fix (fun i => rnd (e.meas i)) = some e'.meas ∧ e'.v0 = e.v0 ∧ e'.v1 = e.v1 ∧ e'.info = e.info.map rnd

theorem mix_readComponent_at (rnd : ℝ → ℝ) (tag : String) (fix : (Fin k → ℝ) → Option (Fin k → ℝ)) (known : ℕ → Bool)
    {m : Mix k n} {e e' : Comp k n} (w : ℝ) (w0 : Option ℝ) (hs : e.info.transpose = e.info) (h0 : known e.v0 = true)
    (h1 : known e.v1 = true) (hn : 0 < n) (he : ReadAs rnd fix e e') (r : List Piece) {c : ℕ} (hc : c ≤ m.comps.length) :
    m.readComponent fix known c w0 ⟨.blank :: (writeComp rnd tag w e ++ r), false, false⟩ =
      .ok (some (rnd w), { m with comps := (m.comps ++ [Comp.blank]).set c e', weights := m.weights ++ [rnd w] },
        ⟨.blank :: r, false, false⟩) := by
  have e1 : (⟨.blank :: (writeComp rnd tag w e ++ r), false, false⟩ : In) =
      ⟨.blank :: .word tag :: .blank :: .num (rnd w) :: .blank :: .int e.v0 :: .blank :: .int e.v1 :: .blank ::
        (((List.finRange k).flatMap fun i => [.num (rnd (e.meas i)), .blank]) ++
          (((upper n).flatMap fun ij => [.blank, .num (rnd (e.info ij.1 ij.2))]) ++ .blank :: r)), false, false⟩ := by
    simp [writeComp]
  have e3 : ∀ (l : List (Fin n × Fin n)) o (t : List Piece), l ≠ [] →
      l.foldl (fun r ij => readUpper ij r) (o, (⟨.blank :: t, false, false⟩ : In)) =
      l.foldl (fun r ij => readUpper ij r) (o, (⟨t, false, false⟩ : In)) := by
    intro l o t hl
    cases l with
    | nil => exact absurd rfl hl
    | cons a l => simp only [List.foldl_cons, readUpper, getNum_blank]
  rw [e1]
  unfold Mix.readComponent
  simp only [skipWord_blank, skipWord_word (sep_blank _), List.isEmpty_cons, getNum_blank, getNum_num (sep_blank _),
    getInt_blank, getInt_int (sep_blank _), need, Res.bind_ok, readMeas_write]
  have hv : ∀ i : ℕ, known i = true → vertexAt known i = .ok i := by
    intro i hi
    unfold vertexAt
    rw [if_pos (by simp [hi])]
    rfl
  have hup : upper n ≠ [] := by
    intro h
    rcases mem_upper (n := n) ⟨0, hn⟩ ⟨0, hn⟩ with h' | h' <;> rw [h] at h' <;> cases h'
  obtain ⟨f1, f2, f3, f4⟩ := he
  rw [hv _ h0, Res.bind_ok, hv _ h1, Res.bind_ok, e3 _ _ _ hup, upper_read rnd hs]
  simp only [mem_upper, if_true, Option.isSome_some, implies_true, and_self, Option.getD_some, f1]
  have ha : ∃ x, at? (m.comps ++ [(Comp.blank : Comp k n)]) c = .ok x := by
    have hl : c < (m.comps ++ [(Comp.blank : Comp k n)]).length := by simp; omega
    unfold at?
    rw [List.getElem?_eq_getElem hl]
    exact ⟨_, rfl⟩
  obtain ⟨x, ha⟩ := ha
  rw [ha, Res.bind_ok]
  have hc : (⟨e.v0, e.v1, e'.meas, .of fun i j => rnd (e.info i j)⟩ : Comp k n) = e' := by
    cases e'
    simp only at f2 f3 f4
    subst f2 f3 f4
    rfl
  rw [hc]

theorem mix_readComponent (rnd : ℝ → ℝ) (tag : String) (fix : (Fin k → ℝ) → Option (Fin k → ℝ)) (known : ℕ → Bool)
    {m : Mix k n} {e e' : Comp k n} (w : ℝ) (w0 : Option ℝ) (hs : e.info.transpose = e.info) (h0 : known e.v0 = true)
    (h1 : known e.v1 = true) (hn : 0 < n) (he : ReadAs rnd fix e e') (r : List Piece) :
    m.readComponent fix known m.comps.length w0 ⟨.blank :: (writeComp rnd tag w e ++ r), false, false⟩ =
      .ok (some (rnd w), { m with comps := m.comps ++ [e'], weights := m.weights ++ [rnd w] },
        ⟨.blank :: r, false, false⟩) := by
  rw [mix_readComponent_at rnd tag fix known w w0 hs h0 h1 hn he r le_rfl]
  simp

theorem mix_readFrom (rnd : ℝ → ℝ) (tag : String) (fix : (Fin k → ℝ) → Option (Fin k → ℝ)) (known : ℕ → Bool) (hn : 0 < n)
    (r : List Piece) : ∀ (l : List (Comp k n × Comp k n × ℝ))
    (_ : ∀ x ∈ l, x.1.info.transpose = x.1.info ∧ known x.1.v0 = true ∧ known x.1.v1 = true ∧ ReadAs rnd fix x.1 x.2.1)
    (m : Mix k n) (w0 : Option ℝ),
    Mix.readFrom fix known m.comps.length l.length w0 m
        ⟨.blank :: ((l.flatMap fun x => writeComp rnd tag x.2.2 x.1) ++ r), false, false⟩ =
      .ok ({ m with comps := m.comps ++ l.map fun x => x.2.1, weights := m.weights ++ l.map fun x => rnd x.2.2 },
        ⟨.blank :: r, false, false⟩) := by
  intro l
  induction l with
  | nil => intro _ m w0; simp [Mix.readFrom]
  | cons x l ih =>
    intro hs m w0
    obtain ⟨h1, h2, h3, h4⟩ := hs x List.mem_cons_self
    have := ih (fun y hy => hs y (List.mem_cons_of_mem _ hy))
      { m with comps := m.comps ++ [x.2.1], weights := m.weights ++ [rnd x.2.2] } (some (rnd x.2.2))
    simp only [List.length_append, List.length_singleton] at this
    rw [List.length_cons, Mix.readFrom, List.flatMap_cons, List.append_assoc,
      mix_readComponent rnd tag fix known x.2.2 w0 h1 h2 h3 hn h4, Res.bind_ok]
    simp only
    rw [this]
    simp

theorem mix_writeFrom (rnd : ℝ → ℝ) (tag : String) (m : Mix k n) (hw : m.weights.length = m.comps.length) :
    ∀ j c, c + j = m.comps.length →
      m.writeFrom rnd tag c j = .ok (((m.comps.zip m.weights).drop c).flatMap fun x => writeComp rnd tag x.2 x.1) := by
  intro j
  induction j with
  | zero =>
    intro c hc
    rw [Mix.writeFrom, List.drop_eq_nil_of_le (by rw [List.length_zip, hw]; omega)]
    rfl
  | succ j ih =>
    intro c hc
    have h1 : c < m.comps.length := by omega
    have h2 : c < m.weights.length := by omega
    have h3 : c < (m.comps.zip m.weights).length := by rw [List.length_zip]; omega
    rw [Mix.writeFrom, ih (c + 1) (by omega), List.drop_eq_getElem_cons h3]
    unfold at?
    rw [List.getElem?_eq_getElem h1, List.getElem?_eq_getElem h2]
    simp only [Res.bind_ok, Res.map_ok, List.getElem_zip]
    simp

theorem mix_roundTrip (rnd : ℝ → ℝ) (tag : String) (err : Comp k n → E → Fin n → ℝ)
    (fix : (Fin k → ℝ) → Option (Fin k → ℝ)) (known : ℕ → Bool) (est : E) (hn : 0 < n) {m : Mix k n} (h : MixWellFormed m)
    (hk : ∀ e ∈ m.comps, known e.v0 = true ∧ known e.v1 = true) {comps : List (Comp k n)}
    (hc : List.Forall₂ (ReadAs rnd fix) m.comps comps) (r : List Piece) :
    ∃ l, m.write rnd tag = .ok l ∧ Mix.empty.read err fix known est (.start (l ++ r)) =
      (Mix.empty.initializeComponents err comps (m.weights.map rnd) est).map fun m' =>
        (true, m', ⟨.blank :: r, false, false⟩) := by
  have hcl := hc.length_eq
  have hw := h.weights
  set z := m.comps.zip (comps.zip m.weights) with hz
  have hzl : z.length = m.number := by simp [hz, h.number, hw, ← hcl]
  have z1 : z.map Prod.fst = m.comps := List.map_fst_zip (by simp [hw, ← hcl])
  have z2 : z.map (fun x => x.2.1) = comps := by
    have : z.map Prod.snd = comps.zip m.weights := List.map_snd_zip (by simp [hw, ← hcl])
    rw [show (fun x : Comp k n × Comp k n × ℝ => x.2.1) = Prod.fst ∘ Prod.snd from rfl, ← List.map_map, this,
      List.map_fst_zip (by omega)]
  have z3 : z.map (fun x => rnd x.2.2) = m.weights.map rnd := by
    have : z.map Prod.snd = comps.zip m.weights := List.map_snd_zip (by simp [hw, ← hcl])
    rw [show (fun x : Comp k n × Comp k n × ℝ => rnd x.2.2) = (rnd ∘ Prod.snd) ∘ Prod.snd from rfl, ← List.map_map, this,
      ← List.map_map, List.map_snd_zip (by omega)]
  have z4 : (m.comps.zip m.weights).flatMap (fun x => writeComp rnd tag x.2 x.1) =
      z.flatMap fun x => writeComp rnd tag x.2.2 x.1 := by
    have : m.comps.zip m.weights = z.map fun x => (x.1, x.2.2) := by
      apply List.ext_getElem
      · simp [hzl, h.number, hw]
      · intro i h1 h2
        simp [hz]
    rw [this, List.flatMap_map]
  refine ⟨.int m.number :: .blank :: z.flatMap fun x => writeComp rnd tag x.2.2 x.1, by
    rw [Mix.write, mix_writeFrom rnd tag m hw m.number 0 (by rw [h.number]; omega), List.drop_zero, z4]; rfl, ?_⟩
  have key := mix_readFrom rnd tag fix known hn r z (fun x hx => by
    have hx1 : x.1 ∈ m.comps := by rw [← z1]; exact List.mem_map_of_mem hx
    refine ⟨h.symm _ hx1, (hk _ hx1).1, (hk _ hx1).2, ?_⟩
    obtain ⟨i, hi, rfl⟩ := List.getElem_of_mem hx
    simp only [hz, List.getElem_zip]
    exact List.forall₂_iff_get.1 hc |>.2 i _ _) { Mix.empty with number := m.number } none
  rw [hzl, z2, z3] at key
  unfold Mix.read In.start
  rw [List.cons_append, List.cons_append, getInt_int (sep_blank _)]
  simp only [Mix.empty, List.isEmpty_cons, List.length_nil, List.nil_append] at key ⊢
  rw [key, Res.bind_ok]
  simp only [Mix.initializeComponents, In.good]
  rw [List.take_of_length_le (by rw [h.number, hcl]), ← hcl, ← h.number]
  rfl

/-! ### C143 -/

/-- C143, landmarks: a new edge object that reads the text of a mixture is the mixture of the same components and weights,
up to printing; the text is accepted and what follows it is left.  Missing: objects that already hold components (false
as in C125). -/
theorem C143_landmark_partial (rnd : ℝ → ℝ) (tag : String) (known : ℕ → Bool) (est : Estimates) {m : Mix 2 2}
    (h : MixWellFormed m) (hk : ∀ e ∈ m.comps, known e.v0 = true ∧ known e.v1 = true) (r : List Piece) :
    ∃ l, m.write rnd tag = .ok l ∧ Mix.empty.read landmarkError some known est (.start (l ++ r)) =
      (Mix.empty.initializeComponents landmarkError (m.comps.map (printedComp rnd)) (m.weights.map rnd) est).map fun m' =>
        (true, m', ⟨.blank :: r, false, false⟩) :=
  mix_roundTrip rnd tag landmarkError some known est (by norm_num) h hk
    (by rw [List.forall₂_map_right_iff, List.forall₂_same]; exact fun e _ => ⟨rfl, rfl, rfl, rfl⟩) r

/-- C143, poses in space: the same, with the quaternions scaled to length one, provided that no quaternion is printed as
zero.  Missing: as for landmarks. -/
theorem C143_space_partial (rnd : ℝ → ℝ) (tag : String) (known : ℕ → Bool) (err : Comp 7 6 → E → Fin 6 → ℝ) (est : E)
    {m : Mix 7 6} (h : MixWellFormed m) (hk : ∀ e ∈ m.comps, known e.v0 = true ∧ known e.v1 = true)
    (hq : ∀ e ∈ m.comps, ∃ i, 3 ≤ i ∧ rnd (e.meas i) ≠ 0) (r : List Piece) :
    ∃ l comps, m.write rnd tag = .ok l ∧ List.Forall₂ (ScaledTo rnd) m.comps comps ∧
      Mix.empty.read err normalizeQuat known est (.start (l ++ r)) =
        (Mix.empty.initializeComponents err comps (m.weights.map rnd) est).map fun m' =>
          (true, m', ⟨.blank :: r, false, false⟩) := by
  let len (e : Comp 7 6) : ℝ :=
    Real.sqrt (rnd (e.meas 3) ^ 2 + rnd (e.meas 4) ^ 2 + rnd (e.meas 5) ^ 2 + rnd (e.meas 6) ^ 2)
  let new (e : Comp 7 6) : Comp 7 6 := ⟨e.v0, e.v1, fun i => if i < 3 then rnd (e.meas i) else rnd (e.meas i) / len e,
    e.info.map rnd⟩
  have hpos : ∀ e ∈ m.comps, 0 < rnd (e.meas 3) ^ 2 + rnd (e.meas 4) ^ 2 + rnd (e.meas 5) ^ 2 + rnd (e.meas 6) ^ 2 := by
    intro e he
    obtain ⟨i, hi, hne⟩ := hq e he
    have := sq_nonneg (rnd (e.meas 3))
    have := sq_nonneg (rnd (e.meas 4))
    have := sq_nonneg (rnd (e.meas 5))
    have := sq_nonneg (rnd (e.meas 6))
    have hsq := pow_pos (abs_pos.2 hne) 2
    rw [sq_abs] at hsq
    fin_cases i <;> simp at hi <;> simp at hsq <;> first | (exact absurd hi (by decide)) | positivity
  have hlen : ∀ e ∈ m.comps, 0 < len e := fun e he => Real.sqrt_pos.2 (hpos e he)
  obtain ⟨l, h1, h2⟩ := mix_roundTrip rnd tag err normalizeQuat known est (by norm_num) h hk (comps := m.comps.map new) (by
    rw [List.forall₂_map_right_iff, List.forall₂_same]
    intro e he
    refine ⟨?_, rfl, rfl, rfl⟩
    unfold normalizeQuat
    rw [if_neg (hlen e he).ne']) r
  refine ⟨l, m.comps.map new, h1, ?_, h2⟩
  rw [List.forall₂_map_right_iff, List.forall₂_same]
  intro e he
  have hl := hlen e he
  refine ⟨rfl, rfl, rfl, fun i hi => if_pos hi, ⟨len e, hl, fun i hi => ?_⟩, ?_⟩
  · simp only [new]
    rw [if_neg (not_lt.2 hi)]
    field_simp
  · have h2 : len e ^ 2 = _ := Real.sq_sqrt (hpos e he).le
    simp only [new]
    rw [if_neg (by decide), if_neg (by decide), if_neg (by decide), if_neg (by decide)]
    field_simp
    exact h2.symm

/-- C143, exact printing and unit quaternions: what was written is read, for poses in space too. -/
theorem C143_space_exact {e e' : Comp 7 6} (h : ScaledTo id e e')
    (hu : e.meas 3 ^ 2 + e.meas 4 ^ 2 + e.meas 5 ^ 2 + e.meas 6 ^ 2 = 1) : e' = e := by
  obtain ⟨h1, h2, h3, h4, ⟨l, hl, h5⟩, h6⟩ := h
  have hl1 : l = 1 := by
    have a3 := h5 3 (by decide)
    have a4 := h5 4 (by decide)
    have a5 := h5 5 (by decide)
    have a6 := h5 6 (by decide)
    simp only [id] at a3 a4 a5 a6
    rw [← a3, ← a4, ← a5, ← a6] at hu
    have : l ^ 2 = 1 := by linear_combination hu - l ^ 2 * h6
    nlinarith
  subst hl1
  have hm : e'.meas = e.meas := by
    funext i
    by_cases hi : i < 3
    · exact h4 i hi
    · have := h5 i (not_lt.1 hi)
      simpa using this
  cases e; cases e'
  simp only at h1 h2 h3 hm
  subst h1 h2 hm
  simp at h3
  rw [h3]

/-- C143 for landmarks at full strength: for objects that already hold components, too. -/
def LandmarkKept : Prop := ∀ (rnd : ℝ → ℝ) (tag : String) (known : ℕ → Bool) (est : Estimates) (m t : Mix 2 2)
  (l r : List Piece), MixWellFormed m → MixWellFormed t → (∀ e ∈ m.comps, known e.v0 = true ∧ known e.v1 = true) →
  m.write rnd tag = .ok l →
  t.read landmarkError some known est (.start (l ++ r)) =
    (Mix.empty.initializeComponents landmarkError (m.comps.map (printedComp rnd)) (m.weights.map rnd) est).map fun m' =>
      (true, m', ⟨.blank :: r, false, false⟩)

theorem mix_computeError_comps {err : Comp k n → E → Fin n → ℝ} {m m' : Mix k n} {est : E}
    (h : m.computeError err est = .ok m') : m'.comps = m.comps := by
  unfold Mix.computeError at h
  cases hr : m.search err est 0 m.number none with
  | ok r =>
    rw [hr, Res.bind_ok] at h
    cases r with
    | none => exact nomatch h
    | some r =>
      simp only at h
      cases ha : at? m.comps r.1 with
      | ok e =>
        rw [ha, Res.bind_ok] at h
        have := Res.ok.inj h
        subst this
        rfl
      | ub u => rw [ha] at h; exact nomatch h
      | throw u => rw [ha] at h; exact nomatch h
  | ub u => rw [hr] at h; exact nomatch h
  | throw u => rw [hr] at h; exact nomatch h

/-- One sighting of landmark 1 from pose 0. -/
noncomputable def sighting : Comp 2 2 := ⟨0, 1, ![1, 0], 1⟩

noncomputable def oneSighting : Mix 2 2 := ⟨1, [sighting], [1], [], none, sighting, 0⟩

theorem oneSighting_wf : MixWellFormed oneSighting := ⟨rfl, rfl, by simp [oneSighting, sighting]⟩

theorem sighting_sensible : Sensible [sighting] [1] :=
  ⟨rfl, by simp [sighting, Matrix.PosDef.one], by simp, ⟨1, by simp⟩⟩

theorem printed_sighting : printedComp id sighting = sighting := by simp [printedComp, sighting]

/-- C143 is false for objects that already hold a component: the new component is appended and at the same time
overwrites the old one. -/
theorem C143_false : ¬ LandmarkKept := by
  intro h
  have hw : oneSighting.write id "EDGE_SE2_POINTXY" =
      .ok (.int 1 :: .blank :: writeComp id "EDGE_SE2_POINTXY" 1 sighting) := by
    simp [Mix.write, Mix.writeFrom, oneSighting, at?]
  have h1 := h id "EDGE_SE2_POINTXY" (fun _ => true) (landmarksAt 1 3) oneSighting oneSighting _ [] oneSighting_wf
    oneSighting_wf (by simp) hw
  obtain ⟨m', hm, hh, -⟩ := mix_new (err := landmarkError) sighting_sensible (landmarksAt 1 3)
  have e1 : oneSighting.comps.map (printedComp id) = [sighting] := by
    show [printedComp id sighting] = _
    rw [printed_sighting]
  have e2 : oneSighting.weights.map id = [1] := by simp [oneSighting]
  rw [e1, e2, hm] at h1
  unfold Mix.read In.start at h1
  rw [List.cons_append, List.cons_append, getInt_int (sep_blank _)] at h1
  simp only [List.isEmpty_cons] at h1
  have hr : Mix.readFrom some (fun _ => true) 0 1 none { oneSighting with number := 1 }
      ⟨.blank :: (writeComp id "EDGE_SE2_POINTXY" 1 sighting ++ []), false, false⟩ =
      .ok ({ oneSighting with number := 1, comps := [sighting, .blank], weights := [1, 1] }, ⟨.blank :: [], false, false⟩) := by
    rw [Mix.readFrom, mix_readComponent_at id "EDGE_SE2_POINTXY" some (fun _ => true) (e' := sighting) 1 none
      (by simp [sighting]) rfl rfl (by norm_num) ⟨rfl, rfl, rfl, by simp [sighting]⟩ [] (by omega), Res.bind_ok]
    rfl
  have hr' : Mix.readFrom some (fun _ => true) 0 1 none { oneSighting with number := 1 }
      ⟨.blank :: (writeComp id "EDGE_SE2_POINTXY" 1 sighting ++ []), false, false⟩ = _ := hr
  change (Mix.readFrom some (fun _ => true) 0 1 none { oneSighting with number := 1 }
      ⟨.blank :: (writeComp id "EDGE_SE2_POINTXY" 1 sighting ++ []), false, false⟩).bind _ = _ at h1
  rw [hr', Res.bind_ok] at h1
  simp only [Res.map_ok] at h1
  generalize hg : Mix.computeError landmarkError _ (landmarksAt 1 3) = q at h1
  cases q with
  | ub u => exact nomatch h1
  | throw u => exact nomatch h1
  | ok m'' =>
    have h2 := mix_computeError_comps hg
    have h3 : m'' = m' := congrArg (fun x => x.2.1) (Res.ok.inj h1)
    rw [h3, hh.2.1] at h2
    have := congrArg List.length h2
    simp at this

/-- The hypotheses of `C143_landmark_partial` are met, and the mixture that is read exists. -/
example : MixWellFormed oneSighting ∧ (∀ e ∈ oneSighting.comps, (fun _ : ℕ => true) e.v0 = true ∧ (fun _ : ℕ => true) e.v1 = true) ∧
    ∃ m' : Mix 2 2, Mix.empty.initializeComponents landmarkError (oneSighting.comps.map (printedComp id))
      (oneSighting.weights.map id) (landmarksAt 1 3) = .ok m' := by
  refine ⟨oneSighting_wf, by simp, ?_⟩
  have e1 : oneSighting.comps.map (printedComp id) = [sighting] := by
    show [printedComp id sighting] = _
    rw [printed_sighting]
  rw [e1]
  obtain ⟨m', hm, -⟩ := mix_new (err := landmarkError) sighting_sensible (landmarksAt 1 3)
  exact ⟨m', by simpa [oneSighting] using hm⟩

/-- The hypotheses of `C143_space_partial` and `C143_space_exact` are met: a component with the quaternion (0, 0, 0, 1). -/
example : ∃ m : Mix 7 6, MixWellFormed m ∧ m.comps ≠ [] ∧ (∀ e ∈ m.comps, ∃ i, 3 ≤ i ∧ id (e.meas i) ≠ 0) ∧
    ∀ e ∈ m.comps, e.meas 3 ^ 2 + e.meas 4 ^ 2 + e.meas 5 ^ 2 + e.meas 6 ^ 2 = 1 := by
  refine ⟨⟨1, [⟨0, 1, fun i => if i = 6 then 1 else 0, 1⟩], [1], [], none, .blank, 0⟩, ⟨rfl, rfl, by simp⟩, by simp, ?_, ?_⟩
  · intro e he
    obtain rfl := List.mem_singleton.1 he
    exact ⟨6, by decide, by simp⟩
  · intro e he
    obtain rfl := List.mem_singleton.1 he
    simp

end Verif.Opt
