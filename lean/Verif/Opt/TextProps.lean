import Verif.Opt.Text
import Verif.Opt.Props

/-
Property theorems C125 (writing and reading back) and C126 (damaged texts) for the robust edges of the optimiser.
`rnd` is what printing makes of a number.
-/
namespace Verif.Opt

open Verif Verif.Geo Matrix

/-! ### Specification -/

/-- A text that begins with a blank, or is empty: what may follow a number. -/
def Separated (r : List Piece) : Prop := r = [] ∨ ∃ l, r = .blank :: l

/-- All numbers of a pose as they are printed. -/
def printedPose (rnd : ℝ → ℝ) (p : Pose) : Pose := ⟨rnd p.x, rnd p.y, rnd p.th⟩

/-- All numbers of an edge as they are printed. -/
def printedEdge (rnd : ℝ → ℝ) (e : Edge) : Edge := ⟨e.v0, e.v1, printedPose rnd e.meas, e.info.map rnd⟩

/-- A mixture as its constructors leave it: one weight for every component, symmetric information. -/
structure WellFormed (m : Mixture) : Prop where
  number : m.number = m.comps.length
  weights : m.weights.length = m.comps.length
  symm : ∀ e ∈ m.comps, e.info.transpose = e.info

/-! ### Streams -/

theorem getNum_num {x : ℝ} {r : List Piece} (h : Separated r) (o : Option ℝ) :
    (⟨.num x :: r, false, false⟩ : In).getNum o = (some x, ⟨r, false, r.isEmpty⟩) := by
  rcases h with rfl | ⟨l, rfl⟩ <;> simp [In.getNum, In.next, In.good, skipBlanks, firstWord]

theorem getInt_int {n : ℤ} {r : List Piece} (h : Separated r) (o : Option ℤ) :
    (⟨.int n :: r, false, false⟩ : In).getInt o = (some n, ⟨r, false, r.isEmpty⟩) := by
  rcases h with rfl | ⟨l, rfl⟩ <;> simp [In.getInt, In.next, In.good, skipBlanks, firstWord]

theorem skipWord_word {w : String} {r : List Piece} (h : Separated r) :
    (⟨.word w :: r, false, false⟩ : In).skipWord = ⟨r, false, r.isEmpty⟩ := by
  rcases h with rfl | ⟨l, rfl⟩ <;> simp [In.skipWord, In.next, In.good, skipBlanks, firstWord]

theorem getNum_blank (r : List Piece) (o : Option ℝ) :
    (⟨.blank :: r, false, false⟩ : In).getNum o = (⟨r, false, false⟩ : In).getNum o := by
  simp [In.getNum, In.next, In.good, skipBlanks]

theorem getInt_blank (r : List Piece) (o : Option ℤ) :
    (⟨.blank :: r, false, false⟩ : In).getInt o = (⟨r, false, false⟩ : In).getInt o := by
  simp [In.getInt, In.next, In.good, skipBlanks]

theorem skipWord_blank (r : List Piece) :
    (⟨.blank :: r, false, false⟩ : In).skipWord = (⟨r, false, false⟩ : In).skipWord := by
  simp [In.skipWord, In.next, In.good, skipBlanks]

theorem sep_blank (l : List Piece) : Separated (.blank :: l) := .inr ⟨l, rfl⟩

theorem readInfo_write (rnd : ℝ → ℝ) {a : Matrix (Fin 3) (Fin 3) ℝ} (ha : a.transpose = a) (o : Partial3)
    {r : List Piece} (h : Separated r) :
    readInfo o ⟨writeInfo rnd a ++ r, false, false⟩ = (fun i j => some (rnd (a i j)), ⟨r, false, r.isEmpty⟩) := by
  have hs : ∀ i j, a i j = a j i := fun i j => congrFun (congrFun ha j) i
  unfold readInfo writeInfo
  simp only [List.flatMap_cons, List.flatMap_nil, List.cons_append, List.nil_append, List.foldl_cons, List.foldl_nil,
    readEntry, getNum_blank, getNum_num (sep_blank _), List.isEmpty_cons, List.append_nil, getNum_num h]
  congr 1
  funext i j
  fin_cases i <;> fin_cases j <;> simp [hs 1 0, hs 2 0, hs 2 1]

theorem readPose_write (x y z : ℝ) {r : List Piece} (h : Separated r) :
    readPose ⟨[.num x, .blank, .num y, .blank, .num z] ++ r, false, false⟩ =
      (some x, some y, some z, ⟨r, false, r.isEmpty⟩) := by
  simp only [readPose, List.cons_append, List.nil_append, getNum_blank, getNum_num (sep_blank _), List.isEmpty_cons,
    getNum_num h]

theorem separated_info (rnd : ℝ → ℝ) (a : Matrix (Fin 3) (Fin 3) ℝ) (r : List Piece) :
    Separated (writeInfo rnd a ++ r) := by
  unfold writeInfo
  simp only [List.flatMap_cons, List.cons_append]
  exact sep_blank _

/-- The new edge is appended, and the edge at index `c` is overwritten. -/
theorem readComponent_at (rnd : ℝ → ℝ) (tag : String) (known : ℕ → Bool) {m : Mixture} {e : Edge} (w : ℝ)
    (w0 : Option ℝ) (hs : e.info.transpose = e.info) (h0 : known e.v0 = true) (h1 : known e.v1 = true)
    (r : List Piece) {c : ℕ} (hc : c ≤ m.comps.length) :
    m.readComponent known c w0 ⟨.blank :: (writeComponent rnd tag w e ++ r), false, false⟩ =
      .ok (some (rnd w),
        { m with comps := (m.comps ++ [Edge.blank]).set c (printedEdge rnd e), weights := m.weights ++ [rnd w] },
        ⟨.blank :: r, false, false⟩) := by
  have e1 : (⟨.blank :: (writeComponent rnd tag w e ++ r), false, false⟩ : In) =
      ⟨.blank :: .word tag :: .blank :: .num (rnd w) :: .blank :: .int e.v0 :: .blank :: .int e.v1 :: .blank ::
        ([.num (rnd e.meas.x), .blank, .num (rnd e.meas.y), .blank, .num (rnd e.meas.th)] ++
          (.blank :: (writeInfo rnd e.info ++ (.blank :: r)))), false, false⟩ := by
    simp [writeComponent]
  have e2 : ∀ l : List Piece, readPose ⟨.blank :: l, false, false⟩ = readPose ⟨l, false, false⟩ := by
    intro l
    simp only [readPose, getNum_blank]
  have e3 : ∀ o (l : List Piece), readInfo o ⟨.blank :: l, false, false⟩ = readInfo o ⟨l, false, false⟩ := by
    intro o l
    simp only [readInfo, List.foldl_cons, readEntry, getNum_blank]
  rw [e1]
  unfold Mixture.readComponent
  simp only [skipWord_blank, skipWord_word (sep_blank _), List.isEmpty_cons, getNum_blank, getNum_num (sep_blank _),
    getInt_blank, getInt_int (sep_blank _), need, Res.bind_ok, e2, readPose_write _ _ _ (sep_blank _), e3,
    readInfo_write rnd hs _ (sep_blank _)]
  have hv : ∀ i : ℕ, known i = true → vertexAt known i = .ok i := by
    intro i hi
    unfold vertexAt
    rw [if_pos (by simp [hi])]
    rfl
  have hn : needInfo (fun i j => some (rnd (e.info i j))) = .ok (e.info.map rnd) := by
    unfold needInfo
    rw [if_pos (by simp)]
    rfl
  have ha : ∃ x, at? (m.comps ++ [Edge.blank]) c = .ok x := by
    have hl : c < (m.comps ++ [Edge.blank]).length := by simp; omega
    unfold at?
    rw [List.getElem?_eq_getElem hl]
    exact ⟨_, rfl⟩
  obtain ⟨x, ha⟩ := ha
  rw [hv _ h0, Res.bind_ok, hv _ h1, Res.bind_ok, hn, Res.bind_ok, ha, Res.bind_ok]
  rfl

theorem readComponent_write (rnd : ℝ → ℝ) (tag : String) (known : ℕ → Bool) {m : Mixture} {e : Edge} (w : ℝ)
    (w0 : Option ℝ) (hs : e.info.transpose = e.info) (h0 : known e.v0 = true) (h1 : known e.v1 = true)
    (r : List Piece) :
    m.readComponent known m.comps.length w0 ⟨.blank :: (writeComponent rnd tag w e ++ r), false, false⟩ =
      .ok (some (rnd w),
        { m with comps := m.comps ++ [printedEdge rnd e], weights := m.weights ++ [rnd w] },
        ⟨.blank :: r, false, false⟩) := by
  rw [readComponent_at rnd tag known w w0 hs h0 h1 r le_rfl]
  simp

/-- The text of a list of components with their weights. -/
def componentsText (rnd : ℝ → ℝ) (tag : String) (l : List (Edge × ℝ)) : List Piece :=
  l.flatMap fun x => writeComponent rnd tag x.2 x.1

theorem readFrom_write (rnd : ℝ → ℝ) (tag : String) (known : ℕ → Bool) (l : List (Edge × ℝ))
    (hs : ∀ x ∈ l, x.1.info.transpose = x.1.info ∧ known x.1.v0 = true ∧ known x.1.v1 = true) (r : List Piece)
    (m : Mixture) (w0 : Option ℝ) :
    Mixture.readFrom known m.comps.length l.length w0 m ⟨.blank :: (componentsText rnd tag l ++ r), false, false⟩ =
      .ok ({ m with
             comps := m.comps ++ l.map fun x => printedEdge rnd x.1
             weights := m.weights ++ l.map fun x => rnd x.2 },
        ⟨.blank :: r, false, false⟩) := by
  induction l generalizing m w0 with
  | nil => simp [Mixture.readFrom, componentsText]
  | cons x l ih =>
    obtain ⟨h1, h2, h3⟩ := hs x List.mem_cons_self
    have := ih (fun y hy => hs y (List.mem_cons_of_mem _ hy))
      { m with comps := m.comps ++ [printedEdge rnd x.1], weights := m.weights ++ [rnd x.2] } (some (rnd x.2))
    simp only [List.length_append, List.length_singleton] at this
    rw [List.length_cons, Mixture.readFrom]
    have e : componentsText rnd tag (x :: l) ++ r = writeComponent rnd tag x.2 x.1 ++ (componentsText rnd tag l ++ r) := by
      simp [componentsText]
    rw [e, readComponent_write rnd tag known x.2 w0 h1 h2 h3, Res.bind_ok]
    simp only
    rw [this]
    simp

theorem writeFrom_eq (rnd : ℝ → ℝ) (tag : String) (m : Mixture) (hw : m.weights.length = m.comps.length) :
    ∀ n c, c + n = m.comps.length →
      m.writeFrom rnd tag c n = .ok (componentsText rnd tag ((m.comps.zip m.weights).drop c)) := by
  intro n
  induction n with
  | zero =>
    intro c hc
    rw [Mixture.writeFrom, List.drop_eq_nil_of_le (by rw [List.length_zip, hw]; omega)]
    rfl
  | succ n ih =>
    intro c hc
    have h1 : c < m.comps.length := by omega
    have h2 : c < m.weights.length := by omega
    have h3 : c < (m.comps.zip m.weights).length := by rw [List.length_zip]; omega
    rw [Mixture.writeFrom, ih (c + 1) (by omega), List.drop_eq_getElem_cons h3]
    unfold at?
    rw [List.getElem?_eq_getElem h1, List.getElem?_eq_getElem h2]
    simp only [Res.bind_ok, Res.map_ok, List.getElem_zip]
    simp [componentsText]

theorem write_eq (rnd : ℝ → ℝ) (tag : String) {m : Mixture} (h : WellFormed m) :
    m.write rnd tag = .ok (.int m.number :: .blank :: componentsText rnd tag (m.comps.zip m.weights)) := by
  unfold Mixture.write
  rw [writeFrom_eq rnd tag m h.weights m.number 0 (by rw [h.number]; omega)]
  simp

/-! ### C125 -/

/-- C125, switches, at full strength: a switch read from the text of another one has its estimate, up to printing. -/
def SwitchKept : Prop := ∀ (v t : Switch) (rnd : ℝ → ℝ) (r : List Piece), Separated r →
  (t.read (.start (v.write rnd ++ r))).2.1.estimate = rnd v.estimate

/-- **C125**, switches, partial: it holds for all switches whose internal value is their estimate (all switches without
rejected steps of the optimiser, see C65 and C87), and the text is consumed exactly. -/
theorem C125_switch_partial (v t : Switch) (h : v.x = v.estimate) (rnd : ℝ → ℝ) {r : List Piece} (hr : Separated r) :
    t.read (.start (v.write rnd ++ r)) =
      (true, ⟨rnd v.estimate, rnd v.estimate, t.backup⟩, ⟨r, false, r.isEmpty⟩) := by
  unfold Switch.read Switch.write In.start
  rw [List.singleton_append, getNum_num hr]
  simp [h]

/-- **C125** is false for switches after a rejected step: not the estimate is written but the value of the rejected
step. -/
theorem C125_switch_false : ¬ SwitchKept := by
  intro h
  have h1 := h ⟨0, 1, []⟩ Switch.origin id [] (.inl rfl)
  unfold Switch.read Switch.write In.start at h1
  rw [List.append_nil, getNum_num (.inl rfl)] at h1
  norm_num at h1

/-- The switch of `C125_switch_false` occurs: one increment of -1 from 1 is tried and rejected. -/
example : ((Switch.origin.setEstimate 1).push.oplus (-1)).pop = .ok ⟨0, 1, []⟩ := by
  norm_num [Switch.origin, Switch.setEstimate, Switch.push, Switch.oplus, Switch.pop]

/-- **C125**, priors: what is read from the text of a prior is the prior, up to printing; the text is consumed exactly. -/
theorem C125_prior (e t : Prior) (rnd : ℝ → ℝ) {r : List Piece} (hr : Separated r) :
    t.read (.start (e.write rnd ++ r)) = .ok (true, ⟨rnd e.meas, rnd e.info⟩, ⟨r, false, r.isEmpty⟩) := by
  unfold Prior.read Prior.write In.start
  simp [getNum_num (sep_blank _), getNum_blank, getNum_num hr, need]

/-- **C125**, switchable constraints: what is read from the text of a constraint with symmetric information has its
measurement and information, up to printing, and the inverse that belongs to it; the text is consumed exactly. -/
theorem C125_edge (e t : SwitchEdge) (h : e.info.transpose = e.info) (rnd : ℝ → ℝ) {r : List Piece}
    (hr : Separated r) :
    t.read (.start (e.write rnd ++ r)) =
      .ok (true, ⟨printedPose rnd e.meas, se2Inv (printedPose rnd e.meas), e.info.map rnd⟩, ⟨r, false, r.isEmpty⟩) := by
  unfold SwitchEdge.read SwitchEdge.write In.start
  rw [List.append_assoc, readPose_write _ _ _ (separated_info _ _ _)]
  have hne : (writeInfo rnd e.info ++ r).isEmpty = false := by
    rcases separated_info rnd e.info r with hh | ⟨l, hl⟩
    · simp [writeInfo] at hh
    · rw [hl]; rfl
  simp only [need, Res.bind_ok, hne]
  rw [readInfo_write rnd h _ hr]
  rfl

/-- C125, mixtures, at full strength: an edge object, whatever it held before, that reads the text of a mixture is the
mixture of the same components and weights, up to printing; the text is accepted. -/
def MixtureKept : Prop := ∀ (rnd : ℝ → ℝ) (tag : String) (known : ℕ → Bool) (est : ℕ → Pose) (m t : Mixture)
  (l r : List Piece), WellFormed m → WellFormed t → (∀ e ∈ m.comps, known e.v0 = true ∧ known e.v1 = true) →
  m.write rnd tag = .ok l →
  t.read known est (.start (l ++ r)) =
    (Mixture.empty.initializeComponents (m.comps.map (printedEdge rnd)) (m.weights.map rnd) est).map fun m' =>
      (true, m', ⟨.blank :: r, false, false⟩)

/-- **C125**, mixtures, partial: it holds for new edge objects, which is what g2o creates when it loads a file.
Missing: objects that already hold components, for which it is false. -/
theorem C125_mixture_partial (rnd : ℝ → ℝ) (tag : String) (known : ℕ → Bool) (est : ℕ → Pose) {m : Mixture}
    (h : WellFormed m) (hk : ∀ e ∈ m.comps, known e.v0 = true ∧ known e.v1 = true) (r : List Piece) :
    ∃ l, m.write rnd tag = .ok l ∧ Mixture.empty.read known est (.start (l ++ r)) =
      (Mixture.empty.initializeComponents (m.comps.map (printedEdge rnd)) (m.weights.map rnd) est).map fun m' =>
        (true, m', ⟨.blank :: r, false, false⟩) := by
  refine ⟨_, write_eq rnd tag h, ?_⟩
  have hl : (m.comps.zip m.weights).length = m.number := by rw [List.length_zip, h.weights, h.number]; simp
  have h1 : ((m.comps.zip m.weights).map fun x => printedEdge rnd x.1) = m.comps.map (printedEdge rnd) := by
    rw [← List.map_fst_zip (l₁ := m.comps) (l₂ := m.weights) (by rw [h.weights]), List.map_map, List.map_fst_zip (by rw [h.weights])]
    rfl
  have h2 : ((m.comps.zip m.weights).map fun x => rnd x.2) = m.weights.map rnd := by
    rw [← List.map_snd_zip (l₁ := m.comps) (l₂ := m.weights) (by rw [h.weights]), List.map_map, List.map_snd_zip (by rw [h.weights])]
    rfl
  have key := readFrom_write rnd tag known (m.comps.zip m.weights) (fun x hx => by
    have := List.of_mem_zip hx
    exact ⟨h.symm _ this.1, hk _ this.1⟩) r { Mixture.empty with number := m.number } none
  rw [hl, h1, h2] at key
  unfold Mixture.read In.start
  rw [List.cons_append, List.cons_append, getInt_int (sep_blank _)]
  simp only [Mixture.empty, List.isEmpty_cons, List.length_nil, List.nil_append] at key ⊢
  rw [key, Res.bind_ok]
  simp only [Mixture.initializeComponents, In.good]
  rw [List.take_of_length_le (by rw [List.length_map, h.number]), List.length_map, ← h.number]
  rfl

theorem computeError_comps {m m' : Mixture} {est : ℕ → Pose} (h : m.computeError est = .ok m') :
    m'.number = m.number ∧ m'.comps = m.comps ∧ m'.weights = m.weights ∧ m'.dets = m.dets := by
  unfold Mixture.computeError at h
  cases hr : m.search est 0 m.number none with
  | ok r =>
    rw [hr, Res.bind_ok] at h
    cases r with
    | none => exact nomatch h
    | some r =>
      simp only at h
      cases ha : at? m.comps r.1 with
      | ok e =>
        rw [ha, Res.bind_ok] at h
        have := Res.ok.inj h
        subst this
        exact ⟨rfl, rfl, rfl, rfl⟩
      | ub u => rw [ha] at h; exact nomatch h
      | throw u => rw [ha] at h; exact nomatch h
  | ub u => rw [hr] at h; exact nomatch h
  | throw u => rw [hr] at h; exact nomatch h

/-- **C125**, writing again: when printing a printed number changes nothing, a mixture that was written and read into a
new object is written as the same text. -/
theorem C125_again (rnd : ℝ → ℝ) (hrnd : ∀ x, rnd (rnd x) = rnd x) (tag : String) (known : ℕ → Bool) (est : ℕ → Pose)
    {m m' : Mixture} {ok : Bool} {s : In} (h : WellFormed m) (hk : ∀ e ∈ m.comps, known e.v0 = true ∧ known e.v1 = true)
    (r l : List Piece) (hl : m.write rnd tag = .ok l)
    (hr : Mixture.empty.read known est (.start (l ++ r)) = .ok (ok, m', s)) :
    WellFormed m' ∧ m'.write rnd tag = .ok l := by
  obtain ⟨l', hl', hq⟩ := C125_mixture_partial rnd tag known est h hk r
  obtain rfl : l' = l := Res.ok.inj (hl'.symm.trans hl)
  rw [hr] at hq
  cases hi : Mixture.empty.initializeComponents (m.comps.map (printedEdge rnd)) (m.weights.map rnd) est with
  | ub u => rw [hi] at hq; exact nomatch hq
  | throw u => rw [hi] at hq; exact nomatch hq
  | ok m'' =>
    rw [hi] at hq
    have hq := Res.ok.inj hq
    obtain rfl : m' = m'' := congrArg (fun x => x.2.1) hq
    unfold Mixture.initializeComponents at hi
    obtain ⟨h1, h2, h3, -⟩ := computeError_comps hi
    have hw : WellFormed m' := by
      refine ⟨by rw [h1, h2], by rw [h2, h3]; simp [h.weights], ?_⟩
      intro e he
      rw [h2] at he
      obtain ⟨e', he', rfl⟩ := List.mem_map.1 he
      have := h.symm e' he'
      show (e'.info.map rnd).transpose = _
      rw [← Matrix.transpose_map, this]
      rfl
    refine ⟨hw, ?_⟩
    rw [write_eq rnd tag hw, ← hl, write_eq rnd tag h, h1, h2, h3]
    have hc : ∀ (w : ℝ) (e : Edge), writeComponent rnd tag (rnd w) (printedEdge rnd e) = writeComponent rnd tag w e := by
      intro w e
      simp [writeComponent, writeInfo, printedEdge, printedPose, hrnd]
    simp only [List.length_map, h.number]
    congr 3
    unfold componentsText
    rw [List.zip_map, List.flatMap_map]
    simp only [Prod.map_fst, Prod.map_snd, hc]

/-- Witnesses. -/
noncomputable def someEdge : Edge := ⟨0, 1, ⟨0, 0, 0⟩, 1⟩

noncomputable def someMixture : Mixture := ⟨1, [someEdge], [1], [], none, someEdge, 0⟩

theorem someMixture_wf : WellFormed someMixture := ⟨rfl, rfl, by simp [someMixture, someEdge]⟩

/-- The hypotheses of `C125_mixture_partial` and `C125_again` are met, and the mixture that is read exists. -/
example : WellFormed someMixture ∧ (∀ e ∈ someMixture.comps, (fun _ : ℕ => true) e.v0 = true ∧ (fun _ : ℕ => true) e.v1 = true) ∧
    ∃ m' : Mixture, Mixture.empty.initializeComponents (someMixture.comps.map (printedEdge id))
      (someMixture.weights.map id) (fun _ => ⟨0, 0, 0⟩) = .ok m' := by
  refine ⟨someMixture_wf, by simp, ?_⟩
  simp [Mixture.initializeComponents, Mixture.computeError, Mixture.search, Mixture.negLogProb, someMixture, at?,
    Mixture.empty, printedEdge, someEdge, better]

/-- **C125** is false for edge objects that already hold a component: the new components are appended to the old ones
and at the same time overwrite them, and the old weight stays in front. -/
theorem C125_mixture_false : ¬ MixtureKept := by
  intro h
  have h1 := h id "EDGE_SE2" (fun _ => true) (fun _ => ⟨0, 0, 0⟩) someMixture someMixture _ [] someMixture_wf
    someMixture_wf (by simp) (write_eq id "EDGE_SE2" someMixture_wf)
  have hm : ∃ m', Mixture.empty.initializeComponents (someMixture.comps.map (printedEdge id))
      (someMixture.weights.map id) (fun _ => ⟨0, 0, 0⟩) = .ok m' := by
    simp [Mixture.initializeComponents, Mixture.computeError, Mixture.search, Mixture.negLogProb, someMixture, at?,
      Mixture.empty, printedEdge, someEdge, better]
  obtain ⟨m', hm⟩ := hm
  rw [hm] at h1
  have hm' := (computeError_comps hm).2.1
  unfold Mixture.read In.start at h1
  rw [List.cons_append, List.cons_append, getInt_int (sep_blank _)] at h1
  simp only [List.isEmpty_cons] at h1
  have hc : componentsText id "EDGE_SE2" (someMixture.comps.zip someMixture.weights) =
      writeComponent id "EDGE_SE2" 1 someEdge := by
    simp [componentsText, someMixture]
  have hr : Mixture.readFrom (fun _ => true) 0 someMixture.number none { someMixture with number := someMixture.number }
      ⟨.blank :: (componentsText id "EDGE_SE2" (someMixture.comps.zip someMixture.weights) ++ []), false, false⟩ =
      .ok ({ someMixture with
        comps := ([someEdge] ++ [Edge.blank]).set 0 (printedEdge id someEdge), weights := [1] ++ [1] },
        ⟨.blank :: [], false, false⟩) := by
    show Mixture.readFrom (fun _ => true) 0 (0 + 1) none someMixture _ = _
    rw [Mixture.readFrom, hc, readComponent_at id "EDGE_SE2" (fun _ => true) 1 none (by simp [someEdge]) rfl rfl []
      (by omega), Res.bind_ok]
    rfl
  rw [hr, Res.bind_ok] at h1
  simp only [Res.map_ok] at h1
  generalize hg : ({ someMixture with
        comps := ([someEdge] ++ [Edge.blank]).set 0 (printedEdge id someEdge), weights := [1] ++ [1],
        dets := _ } : Mixture).computeError (fun _ => ⟨0, 0, 0⟩) = q at h1
  cases q with
  | ub u => exact nomatch h1
  | throw u => exact nomatch h1
  | ok m'' =>
    have h2 := (computeError_comps hg).2.1
    have h3 : m'' = m' := congrArg (fun x => x.2.1) (Res.ok.inj h1)
    rw [h3, hm'] at h2
    have := congrArg List.length h2
    simp [someMixture] at this

end Verif.Opt
