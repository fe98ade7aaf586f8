import Verif.Opt.TextProps

/-
Property theorems C126: what reading makes of damaged texts.
-/
namespace Verif.Opt

open Verif Verif.Geo Matrix

/-! ### Specification -/

/-- The words of a text: what stands between the blanks. -/
def words : List Piece → List (List Piece)
  | [] => []
  | .blank :: l => words l
  | p :: l =>
    match l with
    | [] => [[p]]
    | .blank :: l' => [p] :: words l'
    | q :: l' =>
      match words (q :: l') with
      | [] => [[p]]
      | w :: ws => (p :: w) :: ws

/-- A word is the number `x`. -/
def Num (w : List Piece) (x : ℝ) : Prop := w = [.num x] ∨ ∃ n : ℤ, w = [.int n] ∧ x = n

/-- The words begin with the numbers `xs`, and `rest` follows. -/
def Numbers : List (List Piece) → List ℝ → List (List Piece) → Prop
  | ws, [], rest => ws = rest
  | ws, x :: xs, rest => ∃ w ws', ws = w :: ws' ∧ Num w x ∧ Numbers ws' xs rest

/-- The words begin with one component of a mixture: a name, the weight, the two vertices, the measurement and the
upper triangle of the information. -/
def Component (ws : List (List Piece)) (e : Edge) (w : ℝ) (rest : List (List Piece)) : Prop :=
  ∃ tag ws1 ws2 ws3, ws = tag :: ws1 ∧ Numbers ws1 [w] ws2 ∧ ws2 = [.int e.v0] :: [.int e.v1] :: ws3 ∧
    Numbers ws3 [e.meas.x, e.meas.y, e.meas.th, e.info 0 0, e.info 0 1, e.info 0 2, e.info 1 1, e.info 1 2, e.info 2 2]
      rest

/-- The words begin with the components `l`. -/
def Components : List (List Piece) → List (Edge × ℝ) → List (List Piece) → Prop
  | ws, [], rest => ws = rest
  | ws, x :: l, rest => ∃ ws', Component ws x.1 x.2 ws' ∧ Components ws' l rest

variable {β : Type}

/-! ### Streams -/

theorem words_skip (l : List Piece) : words (skipBlanks l) = words l := by
  induction l with
  | nil => rfl
  | cons p l ih => cases p <;> simp [skipBlanks, words, ih]

theorem words_first (l : List Piece) : ∀ w l', firstWord l = (w, l') → w ≠ [] → words l = w :: words l' := by
  induction l with
  | nil => intro w l' h hw; simp [firstWord] at h; exact absurd h.1.symm (by simpa using hw)
  | cons p l ih =>
    intro w l' h hw
    by_cases hp : p = .blank
    · subst hp
      simp [firstWord] at h
      exact absurd h.1.symm (by simpa using hw)
    · have hf : firstWord (p :: l) = (p :: (firstWord l).1, (firstWord l).2) := by
        cases p <;> first | rfl | exact absurd rfl hp
      rw [hf] at h
      obtain ⟨rfl, rfl⟩ := Prod.mk.inj h
      cases l with
      | nil => cases p <;> first | rfl | exact absurd rfl hp
      | cons q l =>
        by_cases hq : q = .blank
        · subst hq
          cases p <;> first | exact absurd rfl hp | simp [words, firstWord]
        · have hfq : (firstWord (q :: l)).1 ≠ [] := by
            cases q <;> first | exact absurd rfl hq | simp [firstWord]
          have := ih _ _ rfl hfq
          cases p <;> cases q <;> first | exact absurd rfl hp | exact absurd rfl hq | (rw [words] <;> simp [this])

theorem next_word {s s' : In} {w : List Piece} (h : s.next = (some w, s')) :
    s.good = true ∧ words s.rest = w :: words s'.rest := by
  unfold In.next at h
  split at h
  next hg =>
    refine ⟨hg, ?_⟩
    split at h
    next => exact nomatch h
    next w' l hne hf =>
      obtain ⟨h1, rfl⟩ := Prod.mk.inj h
      obtain rfl := Option.some.inj h1
      rw [← words_skip]
      exact words_first _ _ _ hf (fun h0 => hne h0)
  next => exact nomatch h

theorem next_none {s s' : In} (h : s.next = (none, s')) : s'.fail = true := by
  unfold In.next at h
  split at h
  next =>
    split at h
    next => obtain ⟨-, rfl⟩ := Prod.mk.inj h; rfl
    next => exact nomatch h
  next => obtain ⟨-, rfl⟩ := Prod.mk.inj h; rfl

theorem good_fail {s : In} (h : s.good = true) : s.fail = false := by
  unfold In.good at h
  cases hf : s.fail <;> simp_all

theorem getNum_ok {s : In} {o : Option ℝ} (h : (s.getNum o).2.fail = false) :
    s.fail = false ∧ ∃ w x, (s.getNum o).1 = some x ∧ Num w x ∧ words s.rest = w :: words (s.getNum o).2.rest := by
  rcases hn : s.next with ⟨_ | w, s'⟩
  · have := next_none hn
    unfold In.getNum at h
    rw [hn] at h
    simp [this] at h
  · obtain ⟨hg, hw⟩ := next_word hn
    refine ⟨good_fail hg, ?_⟩
    unfold In.getNum at h ⊢
    rw [hn] at h ⊢
    match w, h, hw with
    | [.num x], h, hw => exact ⟨_, x, rfl, .inl rfl, hw⟩
    | [.int n], h, hw => exact ⟨_, n, rfl, .inr ⟨n, rfl, rfl⟩, hw⟩
    | [], h, hw => simp at h
    | [.word _], h, hw => simp at h
    | [.blank], h, hw => simp at h
    | _ :: _ :: _, h, hw => simp at h

theorem getInt_ok {s : In} {o : Option ℤ} (h : (s.getInt o).2.fail = false) :
    s.fail = false ∧ ∃ n, (s.getInt o).1 = some n ∧ words s.rest = [.int n] :: words (s.getInt o).2.rest := by
  rcases hn : s.next with ⟨_ | w, s'⟩
  · have := next_none hn
    unfold In.getInt at h
    rw [hn] at h
    simp [this] at h
  · obtain ⟨hg, hw⟩ := next_word hn
    refine ⟨good_fail hg, ?_⟩
    unfold In.getInt at h ⊢
    rw [hn] at h ⊢
    match w, h, hw with
    | [.int n], h, hw => exact ⟨n, rfl, hw⟩
    | [], h, hw => simp at h
    | [.num _], h, hw => simp at h
    | [.word _], h, hw => simp at h
    | [.blank], h, hw => simp at h
    | _ :: _ :: _, h, hw => simp at h

theorem skipWord_ok {s : In} (h : s.skipWord.fail = false) :
    s.fail = false ∧ ∃ w, words s.rest = w :: words s.skipWord.rest := by
  rcases hn : s.next with ⟨_ | w, s'⟩
  · have := next_none hn
    unfold In.skipWord at h
    rw [hn] at h
    simp [this] at h
  · obtain ⟨hg, hw⟩ := next_word hn
    refine ⟨good_fail hg, w, ?_⟩
    unfold In.skipWord
    rw [hn]
    exact hw

theorem readEntry_ok {ij : Fin 3 × Fin 3} {r : Partial3 × In} (h : (readEntry ij r).2.fail = false) :
    r.2.fail = false ∧ ∃ w x, Num w x ∧ words r.2.rest = w :: words (readEntry ij r).2.rest ∧
      ∀ k l, (readEntry ij r).1 k l = if (k, l) = ij ∨ (l, k) = ij then some x else r.1 k l := by
  obtain ⟨hf, w, x, hx, hn, hw⟩ := getNum_ok (s := r.2) (o := r.1 ij.1 ij.2) h
  refine ⟨hf, w, x, hn, hw, ?_⟩
  intro k l
  unfold readEntry
  simp only
  rw [← hx]

theorem readInfo_ok {o : Partial3} {s : In} (h : (readInfo o s).2.fail = false) :
    s.fail = false ∧ ∃ a : Matrix (Fin 3) (Fin 3) ℝ, (readInfo o s).1 = (fun i j => some (a i j)) ∧
      Numbers (words s.rest) [a 0 0, a 0 1, a 0 2, a 1 1, a 1 2, a 2 2] (words (readInfo o s).2.rest) := by
  unfold readInfo at h ⊢
  simp only [List.foldl_cons, List.foldl_nil] at h ⊢
  obtain ⟨h5, w5, x5, n5, e5, v5⟩ := readEntry_ok h
  obtain ⟨h4, w4, x4, n4, e4, v4⟩ := readEntry_ok h5
  obtain ⟨h3, w3, x3, n3, e3, v3⟩ := readEntry_ok h4
  obtain ⟨h2, w2, x2, n2, e2, v2⟩ := readEntry_ok h3
  obtain ⟨h1, w1, x1, n1, e1, v1⟩ := readEntry_ok h2
  obtain ⟨h0, w0, x0, n0, e0, v0⟩ := readEntry_ok h1
  refine ⟨h0, !![x0, x1, x2; x1, x3, x4; x2, x4, x5], ?_, ?_⟩
  · funext i j
    rw [v5, v4, v3, v2, v1, v0]
    fin_cases i <;> fin_cases j <;> simp
  · refine ⟨w0, _, e0, by simpa using n0, w1, _, e1, by simpa using n1, w2, _, e2, by simpa using n2, w3, _, e3,
      by simpa using n3, w4, _, e4, by simpa using n4, w5, _, e5, by simpa using n5, rfl⟩

theorem readPose_ok {s : In} (h : (readPose s).2.2.2.fail = false) :
    s.fail = false ∧ ∃ x y z, readPose s = (some x, some y, some z, (readPose s).2.2.2) ∧
      Numbers (words s.rest) [x, y, z] (words (readPose s).2.2.2.rest) := by
  obtain ⟨h2, w2, x2, v2, n2, e2⟩ := getNum_ok (s := ((s.getNum none).2.getNum none).2) (o := none) h
  obtain ⟨h1, w1, x1, v1, n1, e1⟩ := getNum_ok h2
  obtain ⟨h0, w0, x0, v0, n0, e0⟩ := getNum_ok h1
  refine ⟨h0, x0, x1, x2, ?_, w0, _, e0, n0, w1, _, e1, n1, w2, _, e2, n2, rfl⟩
  unfold readPose
  simp only [v0, v1, v2]

theorem Numbers.append {a b c : List (List Piece)} {xs ys : List ℝ} (h : Numbers a xs b) (h' : Numbers b ys c) :
    Numbers a (xs ++ ys) c := by
  induction xs generalizing a with
  | nil => obtain rfl : a = b := h; exact h'
  | cons x xs ih =>
    obtain ⟨w, ws, e, hn, hr⟩ := h
    exact ⟨w, ws, e, hn, ih hr⟩

theorem need_ok {α : Type} {o : Option α} {f : α → Res β} {b : β} (h : (need o).bind f = .ok b) :
    ∃ a, o = some a ∧ f a = .ok b := by
  cases o with
  | none => exact nomatch h
  | some a => exact ⟨a, rfl, h⟩

theorem vertexAt_ok {known : ℕ → Bool} {id : ℤ} {f : ℕ → Res β} {b : β} (h : (vertexAt known id).bind f = .ok b) :
    ∃ v : ℕ, id = v ∧ known v = true ∧ f v = .ok b := by
  unfold vertexAt at h
  split at h
  next hc => exact ⟨id.toNat, (Int.toNat_of_nonneg hc.1).symm, hc.2, h⟩
  next => exact nomatch h

theorem needInfo_ok {a : Matrix (Fin 3) (Fin 3) ℝ} {f : Matrix (Fin 3) (Fin 3) ℝ → Res β} {b : β}
    (h : (needInfo (fun i j => some (a i j))).bind f = .ok b) : f a = .ok b := by
  unfold needInfo at h
  rw [if_pos (by simp)] at h
  exact h

theorem readComponent_ok {known : ℕ → Bool} {c : ℕ} {w w' : Option ℝ} {m m' : Mixture} {s s' : In}
    (h : m.readComponent known c w s = .ok (w', m', s')) (hf : s'.fail = false) :
    s.fail = false ∧ ∃ e x, Component (words s.rest) e x (words s'.rest) ∧ known e.v0 = true ∧ known e.v1 = true ∧
      c ≤ m.comps.length ∧
      m' = { m with comps := (m.comps ++ [Edge.blank]).set c e, weights := m.weights ++ [x] } := by
  unfold Mixture.readComponent at h
  rcases h2 : s.skipWord.getNum w with ⟨ow, s2⟩
  rcases h3 : s2.getInt none with ⟨oa, s3⟩
  rcases h4 : s3.getInt none with ⟨ob, s4⟩
  rcases h5 : readPose s4 with ⟨ox, oy, oz, s5⟩
  rcases h6 : readInfo (fun _ _ => none) s5 with ⟨oi, s6⟩
  simp only [h2, h3, h4, h5, h6] at h
  obtain ⟨x, hx, h⟩ := need_ok h
  obtain ⟨na, hna, h⟩ := need_ok h
  obtain ⟨nb, hnb, h⟩ := need_ok h
  obtain ⟨v0, rfl, hk0, h⟩ := vertexAt_ok h
  obtain ⟨v1, rfl, hk1, h⟩ := vertexAt_ok h
  obtain ⟨px, hpx, h⟩ := need_ok h
  obtain ⟨py, hpy, h⟩ := need_ok h
  obtain ⟨pz, hpz, h⟩ := need_ok h
  obtain ⟨info, hi, h⟩ : ∃ info, needInfo oi = .ok info ∧
      ((at? (m.comps ++ [Edge.blank]) c).bind fun _ => Res.ok (ow, { m with
        comps := (m.comps ++ [Edge.blank]).set c ⟨v0, v1, ⟨px, py, pz⟩, info⟩, weights := m.weights ++ [x] }, s6)) =
        .ok (w', m', s') := by
    cases hi : needInfo oi with
    | ok a => rw [hi] at h; exact ⟨a, rfl, h⟩
    | ub u => rw [hi] at h; exact nomatch h
    | throw u => rw [hi] at h; exact nomatch h
  obtain ⟨hl, h⟩ : c ≤ m.comps.length ∧ Res.ok (ow, { m with
        comps := (m.comps ++ [Edge.blank]).set c ⟨v0, v1, ⟨px, py, pz⟩, info⟩, weights := m.weights ++ [x] }, s6) =
        .ok (w', m', s') := by
    unfold at? at h
    cases hg : (m.comps ++ [Edge.blank])[c]? with
    | none => rw [hg] at h; exact nomatch h
    | some b =>
      have hl := (List.getElem?_eq_some_iff.1 hg).1
      rw [List.length_append, List.length_singleton] at hl
      rw [hg] at h
      exact ⟨by omega, h⟩
  obtain ⟨-, hmm⟩ := Prod.mk.inj (Res.ok.inj h)
  obtain ⟨hm, rfl⟩ := Prod.mk.inj hmm
  have q6 := readInfo_ok (o := fun _ _ => none) (s := s5) (by rw [h6]; exact hf)
  rw [h6] at q6
  obtain ⟨f1, a, ha, hwa⟩ := q6
  have q5 := readPose_ok (s := s4) (by rw [h5]; exact f1)
  rw [h5] at q5
  obtain ⟨f2, qx, qy, qz, hq, hwq⟩ := q5
  have q4 := getInt_ok (s := s3) (o := none) (by rw [h4]; exact f2)
  rw [h4] at q4
  obtain ⟨f3, n1, hn1, hw1⟩ := q4
  have q3 := getInt_ok (s := s2) (o := none) (by rw [h3]; exact f3)
  rw [h3] at q3
  obtain ⟨f4, n0, hn0, hw0⟩ := q3
  have q2 := getNum_ok (s := s.skipWord) (o := w) (by rw [h2]; exact f4)
  rw [h2] at q2
  obtain ⟨f5, ww, x', hx', hnx, hww⟩ := q2
  obtain ⟨f6, tag, htag⟩ := skipWord_ok f5
  obtain rfl : x = x' := Option.some.inj (hx.symm.trans hx')
  obtain rfl : (v0 : ℤ) = n0 := Option.some.inj (hna.symm.trans hn0)
  obtain rfl : (v1 : ℤ) = n1 := Option.some.inj (hnb.symm.trans hn1)
  obtain ⟨e1, hq⟩ := Prod.mk.inj hq
  obtain ⟨e2, hq⟩ := Prod.mk.inj hq
  obtain ⟨e3, -⟩ := Prod.mk.inj hq
  obtain rfl : px = qx := Option.some.inj (hpx.symm.trans e1)
  obtain rfl : py = qy := Option.some.inj (hpy.symm.trans e2)
  obtain rfl : pz = qz := Option.some.inj (hpz.symm.trans e3)
  obtain rfl : a = info := by
    have ha' : oi = fun i j => some (a i j) := ha
    rw [ha'] at hi
    have : (needInfo fun i j => some (a i j)).bind (fun z => Res.ok z) = .ok info := by rw [hi]; rfl
    exact Res.ok.inj (needInfo_ok this)
  refine ⟨f6, ⟨v0, v1, ⟨px, py, pz⟩, a⟩, x, ?_, hk0, hk1, hl, hm.symm⟩
  exact ⟨tag, _, _, _, htag, ⟨ww, _, hww, hnx, rfl⟩, by rw [hw0, hw1], hwq.append hwa⟩

theorem readFrom_ok {known : ℕ → Bool} {n : ℕ} : ∀ {w : Option ℝ} {m m' : Mixture} {s s' : In},
    Mixture.readFrom known m.comps.length n w m s = .ok (m', s') → s'.fail = false →
    s.fail = false ∧ ∃ l : List (Edge × ℝ), l.length = n ∧ Components (words s.rest) l (words s'.rest) ∧
      (∀ x ∈ l, known x.1.v0 = true ∧ known x.1.v1 = true) ∧
      m' = { m with comps := m.comps ++ l.map (·.1), weights := m.weights ++ l.map (·.2) } := by
  induction n with
  | zero =>
    intro w m m' s s' h hf
    rw [Mixture.readFrom] at h
    obtain ⟨rfl, rfl⟩ := Prod.mk.inj (Res.ok.inj h)
    exact ⟨hf, [], rfl, rfl, by simp, by simp⟩
  | succ n ih =>
    intro w m m' s s' h hf
    rw [Mixture.readFrom] at h
    cases hc : m.readComponent known m.comps.length w s with
    | ub u => rw [hc] at h; exact nomatch h
    | throw u => rw [hc] at h; exact nomatch h
    | ok q =>
      obtain ⟨w1, m1, s1⟩ := q
      rw [hc, Res.bind_ok] at h
      simp only at h
      -- the stream after the component has not failed, because the later ones did not
      have key : ∀ (c n : ℕ) (w : Option ℝ) (m m' : Mixture) (s s' : In),
          Mixture.readFrom known c n w m s = .ok (m', s') → s'.fail = false → s.fail = false := by
        intro c n
        induction n generalizing c with
        | zero =>
          intro w m m' s s' h hf
          rw [Mixture.readFrom] at h
          obtain ⟨rfl, rfl⟩ := Prod.mk.inj (Res.ok.inj h)
          exact hf
        | succ n ih =>
          intro w m m' s s' h hf
          rw [Mixture.readFrom] at h
          cases hc : m.readComponent known c w s with
          | ub u => rw [hc] at h; exact nomatch h
          | throw u => rw [hc] at h; exact nomatch h
          | ok q =>
            obtain ⟨w1, m1, s1⟩ := q
            rw [hc, Res.bind_ok] at h
            exact (readComponent_ok hc (ih _ _ _ _ _ _ h hf)).1
      have hf1 := key _ _ _ _ _ _ _ h hf
      obtain ⟨hs, e, x, hcomp, hk0, hk1, -, hm⟩ := readComponent_ok hc hf1
      have hset : (m.comps ++ [Edge.blank]).set m.comps.length e = m.comps ++ [e] := by simp
      rw [hset] at hm
      have hl : m.comps.length + 1 = m1.comps.length := by rw [hm]; simp
      rw [hl] at h
      obtain ⟨-, l, hn, hcs, hk, hm'⟩ := ih h hf
      refine ⟨hs, (e, x) :: l, by simp [hn], ⟨_, hcomp, hcs⟩, ?_, ?_⟩
      · intro y hy
        rcases List.mem_cons.1 hy with rfl | hy
        · exact ⟨hk0, hk1⟩
        · exact hk y hy
      · rw [hm', hm]
        simp

/-! ### C126 -/

/-- C126 at full strength, mixtures: a new object that reads a text reports success only if the text holds a number of components
and these components, completely, with known vertices, and reports failure otherwise. -/
def MixtureChecked : Prop := ∀ (known : ℕ → Bool) (est : ℕ → Pose) (l : List Piece),
  ∃ ok m s, Mixture.empty.read known est (.start l) = .ok (ok, m, s) ∧
    (ok = true → ∃ n : ℕ, ∃ cs : List (Edge × ℝ), ∃ ws rest, cs.length = n ∧ words l = [.int n] :: ws ∧
      Components ws cs rest ∧ (∀ x ∈ cs, known x.1.v0 = true ∧ known x.1.v1 = true) ∧
      m.number = n ∧ m.comps = cs.map (·.1) ∧ m.weights = cs.map (·.2))

/-- **C126**, mixtures, partial: success is reported only for complete texts, and the mixture then holds exactly what the
text says.  Missing: for a truncated text no failure is reported, the behaviour is undefined. -/
theorem C126_mixture_partial {known : ℕ → Bool} {est : ℕ → Pose} {l : List Piece} {m : Mixture} {s : In}
    (h : Mixture.empty.read known est (.start l) = .ok (true, m, s)) :
    ∃ n : ℕ, ∃ cs : List (Edge × ℝ), ∃ ws rest, cs.length = n ∧ words l = [.int n] :: ws ∧
      Components ws cs rest ∧ (∀ x ∈ cs, known x.1.v0 = true ∧ known x.1.v1 = true) ∧
      m.number = n ∧ m.comps = cs.map (·.1) ∧ m.weights = cs.map (·.2) := by
  unfold Mixture.read at h
  rcases hg : (In.start l).getInt (some Mixture.empty.number) with ⟨_ | n, s1⟩
  · rw [hg] at h
    exact nomatch h
  · rw [hg] at h
    cases n with
    | negSucc n => exact nomatch h
    | ofNat n =>
      simp only at h
      cases hr : Mixture.readFrom known 0 n none { Mixture.empty with number := n } s1 with
      | ub u => rw [hr] at h; exact nomatch h
      | throw u => rw [hr] at h; exact nomatch h
      | ok q =>
        obtain ⟨m1, s2⟩ := q
        rw [hr, Res.bind_ok] at h
        simp only at h
        generalize hq : Mixture.computeError _ est = q at h
        cases q with
        | ub u => exact nomatch h
        | throw u => exact nomatch h
        | ok m2 =>
          have h := Res.ok.inj h
          have h2 : m2 = m := congrArg (fun x => x.2.1) h
          have h3 : s2 = s := congrArg (fun x => x.2.2) h
          have h1 : s2.good = true := congrArg (fun x => x.1) h
          subst h2 h3
          obtain ⟨e1, e2, e3, -⟩ := computeError_comps hq
          obtain ⟨hf, cs, hn, hcs, hk, hm⟩ := readFrom_ok (m := { Mixture.empty with number := n }) hr (good_fail h1)
          have hf' : ((In.start l).getInt (some Mixture.empty.number)).2.fail = false := by rw [hg]; exact hf
          obtain ⟨-, n', hn', hw⟩ := getInt_ok hf'
          rw [hg] at hn' hw
          obtain rfl : Int.ofNat n = n' := Option.some.inj hn'
          refine ⟨n, cs, _, _, hn, hw, hcs, hk, ?_, ?_, ?_⟩
          · rw [e1, hm]
          · rw [e2, hm]; simp [Mixture.empty]
          · rw [e3, hm]; simp [Mixture.empty]

/-- **C126** is false: of a text that ends after the number of components, variables without a value are used. -/
theorem C126_mixture_false : ¬ MixtureChecked := by
  intro h
  obtain ⟨ok, m, s, h, -⟩ := h (fun _ => true) (fun _ => ⟨0, 0, 0⟩) [.int 1]
  simp [Mixture.read, In.start, In.getInt, In.getNum, In.next, In.good, skipBlanks, firstWord, Mixture.readFrom,
    Mixture.readComponent, In.skipWord, need] at h

/-- **C126** is false for switches: `read` reports success for every text, also the empty one, and keeps the old value
when there is none. -/
theorem C126_switch_false (v : Switch) (s : In) : (v.read s).1 = true := rfl

theorem C126_switch_old (v : Switch) : v.read (.start []) = (true, { v with estimate := v.x }, ⟨[], true, true⟩) := by
  simp [Switch.read, In.start, In.getNum, In.next, In.good, skipBlanks, firstWord]

/-- **C126** is false for priors and for switchable constraints: whenever reading one has a defined result, success is
reported; a text with words instead of numbers is an example. -/
theorem C126_edge_false :
    (∀ (e e' : Prior) (s s' : In) (ok : Bool), e.read s = .ok (ok, e', s') → ok = true) ∧
    (∀ (e e' : SwitchEdge) (s s' : In) (ok : Bool), e.read s = .ok (ok, e', s') → ok = true) ∧
    (∀ (e : Prior) (w : String), e.read (.start [.word w]) = .ok (true, ⟨0, e.info⟩, ⟨[], true, true⟩)) := by
  refine ⟨?_, ?_, ?_⟩
  · intro e e' s s' ok h
    unfold Prior.read at h
    simp only at h
    obtain ⟨x, hx, h⟩ := need_ok h
    exact (congrArg (fun x => x.1) (Res.ok.inj h)).symm
  · intro e e' s s' ok h
    unfold SwitchEdge.read at h
    simp only at h
    obtain ⟨x, hx, h⟩ := need_ok h
    obtain ⟨y, hy, h⟩ := need_ok h
    obtain ⟨z, hz, h⟩ := need_ok h
    exact (congrArg (fun x => x.1) (Res.ok.inj h)).symm
  · intro e w
    simp [Prior.read, In.start, In.getNum, In.next, In.good, skipBlanks, firstWord, need]

/-- The hypothesis of `C126_mixture_partial` is met by the text of a mixture. -/
example : ∃ l m s, Mixture.empty.read (fun _ => true) (fun _ => ⟨0, 0, 0⟩) (.start l) = .ok (true, m, s) := by
  obtain ⟨l, -, h⟩ := C125_mixture_partial id "EDGE_SE2" (fun _ => true) (fun _ => ⟨0, 0, 0⟩) someMixture_wf (by simp) []
  have hm : ∃ m', Mixture.empty.initializeComponents (someMixture.comps.map (printedEdge id))
      (someMixture.weights.map id) (fun _ => ⟨0, 0, 0⟩) = .ok m' := by
    simp [Mixture.initializeComponents, Mixture.computeError, Mixture.search, Mixture.negLogProb, someMixture, at?,
      Mixture.empty, printedEdge, someEdge, better]
  obtain ⟨m', hm⟩ := hm
  rw [hm] at h
  exact ⟨_, m', _, h⟩

end Verif.Opt
