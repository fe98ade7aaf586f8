import Verif.Opt.Influence

/-
Model of the destruction of `Slam2D` (slam2d.h:84-87, members slam2d.h:129-138): which objects are deleted, and how often.

The optimiser library is outside the repository.  Which of the objects it is handed by raw pointer it deletes itself is
a parameter (`Lib`); that it deletes its vertices and edges is common to its versions.

Simplifications: only the objects created with `new` in slam2d.h.  The order of the vertices and of the edges is the order
in which they were added; every vertex and edge was accepted by the optimiser, as in Slam/Model.lean.
-/
namespace Verif.Opt

open Verif Verif.Slam

variable {τ : Type}

/-- The objects created with `new` in slam2d.h:67-79, 195, 231, 423-425; vertices and edges by their place. -/
inductive Obj
  | optimizer | linear | block | algorithm | action
  | pose (i : ℕ) | switch (i : ℕ)
  | edge (i : ℕ) | prior (i : ℕ) | loop (i : ℕ)
  deriving DecidableEq, Repr

/-- What the destructors of the library delete besides vertices and edges: the optimiser its algorithm
(`setAlgorithm`, slam2d.h:77), the algorithm its block solver, the block solver its linear solver (constructors,
slam2d.h:69-71), the optimiser its actions (`addPostIterationAction`, slam2d.h:82). -/
structure Lib where
  algorithm : Bool
  block : Bool
  linear : Bool
  actions : Bool

/-- `delete`: first the destructor, then the memory.  The state is the list of objects deleted so far; deleting one of
them again is undefined. -/
def delete (o : Obj) (destructor : List Obj → Res (List Obj)) (done : List Obj) : Res (List Obj) :=
  if o ∈ done then .ub .dangling
  else (destructor done).bind fun done => if o ∈ done then .ub .dangling else .ok (done ++ [o])

/-- `delete` of an object whose destructor deletes nothing. -/
def deletePlain (o : Obj) : List Obj → Res (List Obj) := delete o .ok

/-- A loop of `delete`. -/
def deleteEach : List Obj → List Obj → Res (List Obj)
  | [], done => .ok done
  | o :: rest, done => (deletePlain o done).bind (deleteEach rest)

def deleteLinear : List Obj → Res (List Obj) := deletePlain .linear

def deleteBlock (lib : Lib) : List Obj → Res (List Obj) :=
  delete .block fun done => if lib.linear then deleteLinear done else .ok done

def deleteAlgorithm (lib : Lib) : List Obj → Res (List Obj) :=
  delete .algorithm fun done => if lib.block then deleteBlock lib done else .ok done

/-- Edges and vertices held by the optimiser. -/
def edgesOf (s : RState τ) : List Obj :=
  (List.range s.slam.optEdges.length).map .edge ++ (List.range s.priors.length).map .prior ++
    (List.range s.loops.length).map .loop

def verticesOf (s : RState τ) : List Obj :=
  (List.range s.slam.vertices.length).map .pose ++ (List.range s.switches.length).map .switch

def deleteOptimizer (lib : Lib) (s : RState τ) : List Obj → Res (List Obj) :=
  delete .optimizer fun done =>
    ((if lib.algorithm then deleteAlgorithm lib done else .ok done).bind fun done =>
    (if lib.actions then deletePlain .action done else .ok done).bind fun done =>
    (deleteEach (edgesOf s) done).bind (deleteEach (verticesOf s)))

/-- `~Slam2D`: the `unique_ptr` members in the reverse of their declaration, slam2d.h:131-136. -/
def destroy (lib : Lib) (s : RState τ) : Res (List Obj) :=
  (deleteAlgorithm lib []).bind fun done => (deleteBlock lib done).bind fun done => (deleteLinear done).bind fun done =>
    deleteOptimizer lib s done

/-! ### Specification -/

/-- All objects created with `new`: five by the constructor, one vertex for each pose, one edge for each constraint, and
a vertex and two edges for each switchable constraint. -/
def created (s : RState τ) : List Obj :=
  [.optimizer, .linear, .block, .algorithm, .action] ++ verticesOf s ++ edgesOf s

/-! ### Lemmas -/

theorem deletePlain_ok {o : Obj} {done : List Obj} (h : o ∉ done) : deletePlain o done = .ok (done ++ [o]) := by
  unfold deletePlain delete
  rw [if_neg h]
  show (if o ∈ done then _ else _) = _
  rw [if_neg h]

theorem deleteEach_ok : ∀ (l done : List Obj), l.Nodup → (∀ o ∈ l, o ∉ done) → deleteEach l done = .ok (done ++ l) := by
  intro l
  induction l with
  | nil => intro done _ _; simp [deleteEach]
  | cons o l ih =>
    intro done h1 h2
    rw [List.nodup_cons] at h1
    unfold deleteEach
    rw [deletePlain_ok (h2 o (by simp))]
    show deleteEach l _ = _
    rw [ih _ h1.2, List.append_assoc]
    · rfl
    · intro q hq
      rw [List.mem_append, List.mem_singleton]
      rintro (h | rfl)
      · exact h2 q (List.mem_cons_of_mem _ hq) h
      · exact h1.1 hq

theorem nodup_map_range {f : ℕ → Obj} (hf : Function.Injective f) (n : ℕ) : ((List.range n).map f).Nodup :=
  List.nodup_range.map hf

theorem nodup_edgesOf (s : RState τ) : (edgesOf s).Nodup := by
  unfold edgesOf
  rw [List.nodup_append, List.nodup_append]
  refine ⟨⟨nodup_map_range (fun a b h => by simpa using h) _, nodup_map_range (fun a b h => by simpa using h) _, ?_⟩,
    nodup_map_range (fun a b h => by simpa using h) _, ?_⟩
  · rintro a ha b hb rfl
    simp only [List.mem_map] at ha hb
    obtain ⟨i, -, rfl⟩ := ha
    obtain ⟨j, -, hj⟩ := hb
    cases hj
  · rintro a ha b hb rfl
    simp only [List.mem_append, List.mem_map] at ha hb
    obtain ⟨j, -, rfl⟩ := hb
    rcases ha with ⟨i, -, h⟩ | ⟨i, -, h⟩ <;> cases h

theorem nodup_verticesOf (s : RState τ) : (verticesOf s).Nodup := by
  unfold verticesOf
  rw [List.nodup_append]
  refine ⟨nodup_map_range (fun a b h => by simpa using h) _, nodup_map_range (fun a b h => by simpa using h) _, ?_⟩
  rintro a ha b hb rfl
  simp only [List.mem_map] at ha hb
  obtain ⟨i, -, rfl⟩ := ha
  obtain ⟨j, -, hj⟩ := hb
  cases hj

theorem mem_edgesOf {s : RState τ} {o : Obj} (h : o ∈ edgesOf s) :
    (∃ i, o = .edge i) ∨ (∃ i, o = .prior i) ∨ ∃ i, o = .loop i := by
  unfold edgesOf at h
  simp only [List.mem_append, List.mem_map] at h
  rcases h with (⟨i, -, rfl⟩ | ⟨i, -, rfl⟩) | ⟨i, -, rfl⟩
  · exact .inl ⟨i, rfl⟩
  · exact .inr (.inl ⟨i, rfl⟩)
  · exact .inr (.inr ⟨i, rfl⟩)

theorem mem_verticesOf {s : RState τ} {o : Obj} (h : o ∈ verticesOf s) : (∃ i, o = .pose i) ∨ ∃ i, o = .switch i := by
  unfold verticesOf at h
  simp only [List.mem_append, List.mem_map] at h
  rcases h with ⟨i, -, rfl⟩ | ⟨i, -, rfl⟩
  · exact .inl ⟨i, rfl⟩
  · exact .inr ⟨i, rfl⟩

/-- The destruction when the library deletes none of the solver objects. -/
theorem destroy_plain (s : RState τ) (b : Bool) : destroy ⟨false, false, false, b⟩ s =
    .ok ([.algorithm, .block, .linear] ++ (if b then [.action] else []) ++ edgesOf s ++ verticesOf s ++ [.optimizer]) := by
  have e1 : deleteAlgorithm ⟨false, false, false, b⟩ [] = .ok [.algorithm] := rfl
  have e2 : deleteBlock ⟨false, false, false, b⟩ [.algorithm] = .ok [.algorithm, .block] := rfl
  have e3 : deleteLinear [.algorithm, .block] = .ok [.algorithm, .block, .linear] := rfl
  have key : ∀ pre : List Obj, (∀ o ∈ pre, o ∈ [Obj.algorithm, .block, .linear, .action]) →
      (deleteEach (edgesOf s) pre).bind (deleteEach (verticesOf s)) = .ok (pre ++ edgesOf s ++ verticesOf s) := by
    intro pre hp
    rw [deleteEach_ok _ _ (nodup_edgesOf s)]
    · show deleteEach _ _ = _
      rw [deleteEach_ok _ _ (nodup_verticesOf s)]
      intro o ho h
      rw [List.mem_append] at h
      rcases h with h | h
      · have := hp _ h
        rcases mem_verticesOf ho with ⟨i, rfl⟩ | ⟨i, rfl⟩ <;> simp at this
      · rcases mem_verticesOf ho with ⟨i, rfl⟩ | ⟨i, rfl⟩ <;>
          rcases mem_edgesOf h with ⟨j, h⟩ | ⟨j, h⟩ | ⟨j, h⟩ <;> cases h
    · intro o ho h
      have := hp _ h
      rcases mem_edgesOf ho with ⟨i, rfl⟩ | ⟨i, rfl⟩ | ⟨i, rfl⟩ <;> simp at this
  have fin : ∀ pre : List Obj, (∀ o ∈ pre, o ∈ [Obj.algorithm, .block, .linear, .action]) →
      Obj.optimizer ∉ pre ++ edgesOf s ++ verticesOf s := by
    intro pre hp h
    simp only [List.mem_append] at h
    rcases h with (h | h) | h
    · have := hp _ h; simp at this
    · rcases mem_edgesOf h with ⟨j, h⟩ | ⟨j, h⟩ | ⟨j, h⟩ <;> cases h
    · rcases mem_verticesOf h with ⟨j, h⟩ | ⟨j, h⟩ <;> cases h
  unfold destroy
  have ok : ∀ (a : List Obj) (f : List Obj → Res (List Obj)), (Res.ok a).bind f = f a := fun _ _ => rfl
  rw [e1, ok, e2, ok, e3, ok]
  unfold deleteOptimizer delete
  rw [if_neg (by simp)]
  cases b
  · have k := key [.algorithm, .block, .linear] (by simp)
    show ((deleteEach (edgesOf s) [.algorithm, .block, .linear]).bind (deleteEach (verticesOf s))).bind _ = _
    rw [k]
    show (if _ then _ else _) = _
    rw [if_neg (fin _ (by simp))]
    simp
  · have k := key [.algorithm, .block, .linear, .action] (by simp)
    show ((deleteEach (edgesOf s) [.algorithm, .block, .linear, .action]).bind (deleteEach (verticesOf s))).bind _ = _
    rw [k]
    show (if _ then _ else _) = _
    rw [if_neg (fin _ (by simp))]
    simp

end Verif.Opt
