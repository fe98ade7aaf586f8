import Verif.Loop.Spec
import Verif.Pose.Lemmas
import Mathlib.Data.List.Count

namespace Verif.Loop

open Verif Verif.PoseGraph Verif.Slam

variable {τ : Type}

/-- Length of the translation of a constraint. -/
noncomputable def edgeLen (p : Pose) : ℝ := Real.sqrt (p.x ^ 2 + p.y ^ 2)

theorem edgeItem_dist (e : Edge EdgeP) : (edgeItem e).dist = edgeLen e.payload.trans := by
  unfold edgeItem edgeLen
  simp only
  rw [Geo.trans_inv]
  congr 1
  simp only [Geo.getTransFromPose, Geo.invPose]
  simp
  have := Real.sin_sq_add_cos_sq e.payload.trans.th
  linear_combination (e.payload.trans.x ^ 2 + e.payload.trans.y ^ 2) * this

theorem add_dist (a b : Item) : (a.add b).dist = a.dist + b.dist := rfl

theorem guessTrans_eq (target source : Pose) : guessTrans target source = turnOnly target source := by
  unfold guessTrans turnOnly
  rw [Geo.trans_inv]
  ext i j
  fin_cases i <;> fin_cases j <;>
    simp [Geo.getTransFromPose, Geo.invPose, Matrix.mul_apply, Fin.sum_univ_three, Real.cos_sub, Real.sin_sub] <;> ring

/-- Backwards path on the level of slots. -/
inductive LPath (g : G τ) (start : ℕ) : ℕ → ℝ → Prop
  | nil : LPath g start start 0
  | cons {m len id e} : LPath g start m len → live g id = some e → e.dst = m →
      LPath g start e.src (len + edgeLen e.payload.trans)

def unmarkN (n : Node (NodeP τ)) : Node (NodeP τ) :=
  { n with payload := { n.payload with visited := false } }

def unmarkE (e : Edge EdgeP) : Edge EdgeP := { e with payload := { e.payload with used := false } }

/-- Equal up to marks. -/
structure Same (g0 g : G τ) : Prop where
  nodes : ∀ i : ℕ, (g.nodes[i]?).map unmarkN = (g0.nodes[i]?).map unmarkN
  edges : ∀ i : ℕ, (g.edges[i]?).map (Option.map unmarkE) = (g0.edges[i]?).map (Option.map unmarkE)
  pool : g.pool = g0.pool

theorem Same.refl (g : G τ) : Same g g := ⟨fun _ => rfl, fun _ => rfl, rfl⟩

theorem Same.trans {g0 g1 g2 : G τ} (h : Same g0 g1) (h' : Same g1 g2) : Same g0 g2 :=
  ⟨fun i => (h'.nodes i).trans (h.nodes i), fun i => (h'.edges i).trans (h.edges i),
    h'.pool.trans h.pool⟩

theorem Same.symm {g0 g1 : G τ} (h : Same g0 g1) : Same g1 g0 :=
  ⟨fun i => (h.nodes i).symm, fun i => (h.edges i).symm, h.pool.symm⟩

theorem length_of_map_eq {α β γ : Type*} {f : α → γ} {f' : β → γ} {l : List α} {l' : List β}
    (h : ∀ i : ℕ, (l[i]?).map f = (l'[i]?).map f') : l.length = l'.length := by
  have hh : ∀ i, i < l.length ↔ i < l'.length := by
    intro i
    have := h i
    constructor <;> intro h1 <;> by_contra hc
    · rw [List.getElem?_eq_none (by omega : l'.length ≤ i), List.getElem?_eq_getElem h1] at this
      cases this
    · rw [List.getElem?_eq_none (by omega : l.length ≤ i), List.getElem?_eq_getElem h1] at this
      cases this
  have h1 := hh l.length
  have h2 := hh l'.length
  omega

theorem Same.nodesLen {g0 g : G τ} (h : Same g0 g) : g.nodes.length = g0.nodes.length :=
  length_of_map_eq h.nodes

theorem Same.node {g0 g : G τ} (h : Same g0 g) {i : ℕ} {n} (hn : g.nodes[i]? = some n) :
    ∃ n0, g0.nodes[i]? = some n0 ∧ unmarkN n = unmarkN n0 := by
  have := h.nodes i
  rw [hn] at this
  obtain ⟨n0, h0, h1⟩ := Option.map_eq_some_iff.1 this.symm
  exact ⟨n0, h0, h1.symm⟩

theorem Same.live {g0 g : G τ} (h : Same g0 g) {i : ℕ} {e} (he : live g i = some e) :
    ∃ e0, live g0 i = some e0 ∧ unmarkE e = unmarkE e0 := by
  have := h.edges i
  rw [live_iff] at he
  rw [he] at this
  obtain ⟨o, h0, h1⟩ := Option.map_eq_some_iff.1 this.symm
  obtain ⟨e0, rfl, h2⟩ := Option.map_eq_some_iff.1 h1
  exact ⟨e0, live_iff.2 h0, h2.symm⟩

theorem unmarkE_eq {e e0 : Edge EdgeP} (h : unmarkE e = unmarkE e0) :
    e.addr = e0.addr ∧ e.id = e0.id ∧ e.src = e0.src ∧ e.dst = e0.dst ∧
      e.payload.trans = e0.payload.trans := by
  obtain ⟨a, i, s, d, p⟩ := e
  obtain ⟨a', i', s', d', p'⟩ := e0
  simp only [unmarkE, Edge.mk.injEq, EdgeP.mk.injEq] at h
  exact ⟨h.1, h.2.1, h.2.2.1, h.2.2.2.1, h.2.2.2.2.1⟩

theorem edgeItem_unmark {e e0 : Edge EdgeP} (h : unmarkE e = unmarkE e0) : edgeItem e = edgeItem e0 := by
  obtain ⟨a, i, s, d, p⟩ := e
  obtain ⟨a', i', s', d', p'⟩ := e0
  simp only [unmarkE, Edge.mk.injEq, EdgeP.mk.injEq] at h
  unfold edgeItem
  simp only [h]

theorem unmarkN_eq {n n0 : Node (NodeP τ)} (h : unmarkN n = unmarkN n0) :
    n.id = n0.id ∧ n.out = n0.out ∧ n.inn = n0.inn ∧ n.payload.pose = n0.payload.pose ∧
      n.payload.obj = n0.payload.obj := by
  obtain ⟨a, p, s, d⟩ := n
  obtain ⟨a', p', s', d'⟩ := n0
  simp only [unmarkN, Node.mk.injEq, NodeP.mk.injEq] at h
  exact ⟨h.1, h.2.2.1, h.2.2.2, h.2.1.1, h.2.1.2.1⟩

/-- What the search relies on: pointers in the adjacency lists are valid and complete. -/
structure Good (g : G τ) : Prop where
  sound : ∀ (i : ℕ) n a, g.nodes[i]? = some n → a ∈ n.inn →
    ∃ id e, live g id = some e ∧ e.addr = a ∧ e.dst = i
  complete : ∀ id e, live g id = some e → ∃ n, g.nodes[e.dst]? = some n ∧ e.addr ∈ n.inn
  inj : ∀ i j e e', live g i = some e → live g j = some e' → e.addr = e'.addr → i = j
  ends : ∀ id e, live g id = some e → e.src < g.nodes.length ∧ e.dst < g.nodes.length
  eid : ∀ id e, live g id = some e → e.id = id

theorem Good.same {g0 g : G τ} (hg : Good g0) (h : Same g0 g) : Good g where
  sound i n a hn ha := by
    obtain ⟨n0, h0, h1⟩ := h.node hn
    have := unmarkN_eq h1
    obtain ⟨id, e, he, hea, hed⟩ := hg.sound i n0 a h0 (this.2.2.1 ▸ ha)
    obtain ⟨e', he', heq⟩ := h.symm.live he
    have := unmarkE_eq heq
    exact ⟨id, e', he', by rw [← this.1, hea], by rw [← this.2.2.2.1, hed]⟩
  complete id e he := by
    obtain ⟨e0, h0, h1⟩ := h.live he
    have h2 := unmarkE_eq h1
    obtain ⟨n0, hn0, ha⟩ := hg.complete id e0 h0
    obtain ⟨n, hn, heq⟩ := h.symm.node hn0
    have h3 := unmarkN_eq heq
    exact ⟨n, by rw [h2.2.2.2.1]; exact hn, by rw [h2.1, ← h3.2.2.1]; exact ha⟩
  inj i j e e' hi hj ha := by
    obtain ⟨e0, h0, h1⟩ := h.live hi
    obtain ⟨e0', h0', h1'⟩ := h.live hj
    exact hg.inj i j e0 e0' h0 h0' (by rw [← (unmarkE_eq h1).1, ← (unmarkE_eq h1').1, ha])
  ends id e he := by
    obtain ⟨e0, h0, h1⟩ := h.live he
    have h2 := unmarkE_eq h1
    rw [h.nodesLen, h2.2.2.1, h2.2.2.2.1]
    exact hg.ends id e0 h0
  eid id e he := by
    obtain ⟨e0, h0, h1⟩ := h.live he
    rw [(unmarkE_eq h1).2.1]
    exact hg.eid id e0 h0

theorem findEdge_some {g : G τ} {a : ℕ} {e} (h : findEdge g a = some e) :
    e.addr = a ∧ ∃ id, live g id = some e := by
  unfold findEdge at h
  have h1 := List.find?_some h
  have h2 := List.mem_of_find?_eq_some h
  exact ⟨by simpa using h1, mem_filterMap_live.1 h2⟩

theorem findEdge_of_live {g : G τ} (hg : Good g) {id : ℕ} {e} (h : live g id = some e) :
    findEdge g e.addr = some e := by
  rcases hf : findEdge g e.addr with _ | e'
  · unfold findEdge at hf
    rw [List.find?_eq_none] at hf
    have := hf e (mem_filterMap_live.2 ⟨id, h⟩)
    simp at this
  · obtain ⟨ha, id', h'⟩ := findEdge_some hf
    have := hg.inj id' id e' e h' h ha
    subst this
    rw [h] at h'
    exact h'.symm

theorem live_setUsed (g : G τ) (a i : ℕ) : live (setUsed g a) i = (live g i).map fun e =>
    if e.addr = a then { e with payload := { e.payload with used := true } } else e := by
  unfold live setUsed
  rw [List.getElem?_map]
  rcases g.edges[i]? with _ | _ | e <;> rfl

theorem same_setUsed (g : G τ) (a : ℕ) : Same g (setUsed g a) := by
  refine ⟨fun _ => rfl, fun i => ?_, rfl⟩
  unfold setUsed
  rw [List.getElem?_map]
  rcases g.edges[i]? with _ | _ | e
  · rfl
  · rfl
  · simp only [Option.map_some, Option.some.injEq]
    split <;> rfl

/-- What `expand` does when it returns. -/
structure Expanded (l : List ℕ) (base : Item) (g : G τ) (new : List Item) (g' : G τ) : Prop where
  same : Same g g'
  nodes : g'.nodes = g.nodes
  items : ∀ it ∈ new, ∃ id e n, live g id = some e ∧ e.addr ∈ l ∧ it.node = e.src ∧
    it = base.add (edgeItem e) ∧ g.nodes[e.src]? = some n ∧ n.payload.visited = false
  used : ∀ id e, live g' id = some e → e.addr ∈ l → e.payload.used = true
  keep : ∀ id e e', live g id = some e → live g' id = some e' → e.payload.used = true →
    e'.payload.used = true
  newUsed : ∀ id e e', live g id = some e → live g' id = some e' → e'.payload.used = true →
    e.payload.used = true ∨ (e.addr ∈ l ∧ ((∃ n, g.nodes[e.src]? = some n ∧ n.payload.visited = true) ∨
      ∃ it ∈ new, it.node = e.src))

theorem used_stays {l : List ℕ} {base : Item} {out out' : List Item} {g g' : G τ}
    (h : expand l base (out, g) = .ok (out', g')) : ∃ new, out' = out ++ new ∧
      (Good g → Expanded l base g new g') := by
  induction l generalizing out g with
  | nil =>
    simp only [expand, Res.ok.injEq, Prod.mk.injEq] at h
    obtain ⟨rfl, rfl⟩ := h
    exact ⟨[], by simp, fun _ => ⟨.refl _, rfl, by simp, by simp,
      fun id e e' h1 h2 h3 => by rw [h1] at h2; cases h2; exact h3,
      fun id e e' h1 h2 h3 => by rw [h1] at h2; cases h2; exact .inl h3⟩⟩
  | cons a rest ih =>
    simp only [expand] at h
    rcases hf : findEdge g a with _ | e
    · rw [hf] at h; cases h
    · rw [hf] at h
      simp only at h
      obtain ⟨hea, id0, hl0⟩ := findEdge_some hf
      by_cases hu : e.payload.used = true
      · rw [if_pos hu] at h
        obtain ⟨new, hout, hex⟩ := ih h
        refine ⟨new, hout, fun hg => ?_⟩
        obtain ⟨x1, x2, x3, x4, x5, x6⟩ := hex hg
        refine ⟨x1, x2, ?_, ?_, x5, ?_⟩
        · intro it hit
          obtain ⟨id, e1, n, y1, y2, y3⟩ := x3 it hit
          exact ⟨id, e1, n, y1, List.mem_cons_of_mem _ y2, y3⟩
        · intro id e1 h1 h2
          rcases List.mem_cons.1 h2 with h2 | h2
          · obtain ⟨e2, h3, h4⟩ := x1.live h1
            have : e2 = e := by
              have := hg.inj id id0 e2 e h3 hl0 (by rw [← (unmarkE_eq h4).1, h2, hea])
              subst this
              rw [h3] at hl0; exact Option.some.inj hl0
            exact x5 id e2 e1 h3 h1 (this ▸ hu)
          · exact x4 id e1 h1 h2
        · intro id e1 e2 h1 h2 h3
          rcases x6 id e1 e2 h1 h2 h3 with h | ⟨h, h'⟩
          · exact .inl h
          · exact .inr ⟨List.mem_cons_of_mem _ h, h'⟩
      · rw [if_neg hu] at h
        rcases hn : g.nodes[e.src]? with _ | n
        · rw [hn] at h; cases h
        · rw [hn] at h
          simp only at h
          -- common part of both branches
          have comb : ∀ (new : List Item) (pre : List Item),
              (∀ it ∈ pre, it.node = e.src ∧ it = base.add (edgeItem e) ∧
                n.payload.visited = false) →
              (n.payload.visited = true ∨ ∃ it ∈ pre, it.node = e.src) → Good g →
              Expanded rest base (setUsed g a) new g' →
              Expanded (a :: rest) base g (pre ++ new) g' := by
            intro new pre hpre hcov hg hex
            obtain ⟨x1, x2, x3, x4, x5, x6⟩ := hex
            have lift : ∀ {id e1}, live (setUsed g a) id = some e1 → ∃ e2, live g id = some e2 ∧
                e1.addr = e2.addr ∧ e1.src = e2.src ∧ edgeItem e1 = edgeItem e2 ∧
                (e1.payload.used = true ↔ e2.addr = a ∨ e2.payload.used = true) := by
              intro id e1 h1
              rw [live_setUsed, Option.map_eq_some_iff] at h1
              obtain ⟨e2, h2, rfl⟩ := h1
              by_cases hh : e2.addr = a
              · exact ⟨e2, h2, by simp [hh], by simp [hh], by simp [hh, edgeItem], by simp [hh]⟩
              · exact ⟨e2, h2, by simp [hh]⟩
            have lift' : ∀ {id e2}, live g id = some e2 → ∃ e1, live (setUsed g a) id = some e1 ∧
                e1.addr = e2.addr ∧ e1.src = e2.src ∧
                (e1.payload.used = true ↔ e2.addr = a ∨ e2.payload.used = true) := by
              intro id e2 h2
              refine ⟨_, by rw [live_setUsed, h2]; rfl, ?_⟩
              by_cases hh : e2.addr = a <;> simp [hh]
            refine ⟨(same_setUsed g a).trans x1, x2, ?_, ?_, ?_, ?_⟩
            · intro it hit
              rcases List.mem_append.1 hit with hit | hit
              · obtain ⟨y1, y2, y3⟩ := hpre it hit
                exact ⟨id0, e, n, hl0, by simp [hea], y1, y2, hn, y3⟩
              · obtain ⟨id, e1, m, y1, y2, y3, y4, y5, y6⟩ := x3 it hit
                obtain ⟨e2, z1, z2, z3, z4, -⟩ := lift y1
                exact ⟨id, e2, m, z1, by rw [← z2]; exact List.mem_cons_of_mem _ y2, by rw [y3, z3],
                  by rw [y4, z4], by rw [← z3]; exact y5, y6⟩
            · intro id e1 h1 h2
              rcases List.mem_cons.1 h2 with h2 | h2
              · obtain ⟨e2, h3, h4⟩ := x1.live h1
                obtain ⟨e3, z1, z2, z3, z4, z5⟩ := lift h3
                exact x5 id e2 e1 h3 h1 (z5.2 (.inl (by rw [← z2, ← (unmarkE_eq h4).1, h2])))
              · exact x4 id e1 h1 h2
            · intro id e1 e2 h1 h2 h3
              obtain ⟨e3, z1, z2, z3, z4⟩ := lift' h1
              exact x5 id e3 e2 z1 h2 (z4.2 (.inr h3))
            · intro id e1 e2 h1 h2 h3
              obtain ⟨e3, z1, z2, z3, z4⟩ := lift' h1
              rcases x6 id e3 e2 z1 h2 h3 with h | ⟨h, h'⟩
              · rcases z4.1 h with h | h
                · have : e1 = e := by
                    have := hg.inj id id0 e1 e h1 hl0 (by rw [h, hea])
                    subst this
                    rw [h1] at hl0; exact Option.some.inj hl0
                  subst this
                  refine .inr ⟨List.mem_cons.2 (.inl hea), ?_⟩
                  rcases hcov with hc | ⟨it, hit, hc⟩
                  · exact .inl ⟨n, hn, hc⟩
                  · exact .inr ⟨it, List.mem_append_left _ hit, hc⟩
                · exact .inl h
              · refine .inr ⟨by rw [← z2]; exact List.mem_cons_of_mem _ h, ?_⟩
                rw [z3] at h'
                rcases h' with h' | ⟨it, hit, h'⟩
                · exact .inl h'
                · exact .inr ⟨it, List.mem_append_right _ hit, h'⟩
          by_cases hv : n.payload.visited = true
          · rw [if_pos hv] at h
            obtain ⟨new, hout, hex⟩ := ih h
            exact ⟨new, hout, fun hg => comb new [] (by simp) (.inl hv) hg
              (hex (hg.same (same_setUsed g a)))⟩
          · rw [if_neg hv] at h
            obtain ⟨new, hout, hex⟩ := ih h
            refine ⟨base.add (edgeItem e) :: new, by rw [hout]; simp, fun hg => ?_⟩
            exact comb new [base.add (edgeItem e)]
              (by intro it hit; rw [List.mem_singleton] at hit; subst hit; exact ⟨rfl, rfl, by simpa using hv⟩)
              (.inr ⟨_, List.mem_singleton_self _, rfl⟩) hg
              (hex (hg.same (same_setUsed g a)))

/-- `expand` runs without undefined behaviour on addresses of live edges. -/
theorem expand_ok {l : List ℕ} {base : Item} {out : List Item} {g : G τ} (hg : Good g)
    (hl : ∀ a ∈ l, ∃ id e, live g id = some e ∧ e.addr = a) :
    ∃ r, expand l base (out, g) = .ok r := by
  induction l generalizing out g with
  | nil => exact ⟨_, rfl⟩
  | cons a rest ih =>
    obtain ⟨id, e, he, rfl⟩ := hl a (List.mem_cons_self ..)
    have hr : ∀ a' ∈ rest, ∃ id e, live g id = some e ∧ e.addr = a' :=
      fun a' h => hl a' (List.mem_cons_of_mem _ h)
    have hr' : ∀ a' ∈ rest, ∃ id e', live (setUsed g e.addr) id = some e' ∧ e'.addr = a' := by
      intro a' h
      obtain ⟨id', e', h1, h2⟩ := hr a' h
      obtain ⟨e'', h3, h4⟩ := (same_setUsed g e.addr).symm.live h1
      exact ⟨id', e'', h3, by rw [← (unmarkE_eq h4).1, h2]⟩
    have hsrc := List.getElem?_eq_getElem (hg.ends id e he).1
    simp only [expand, findEdge_of_live hg he, hsrc]
    split_ifs
    · exact ih hg hr
    · exact ih (hg.same (same_setUsed g _)) hr'
    · exact ih (hg.same (same_setUsed g _)) hr'

/-! ### Marking a node visited -/

theorem setVisited_ok {g : G τ} {i : ℕ} (h : i < g.nodes.length) : setVisited g i =
    .ok { g with nodes := g.nodes.modify i fun n =>
      { n with payload := { n.payload with visited := true } } } := by
  unfold setVisited modifyNode getNode
  rw [List.getElem?_eq_getElem h]; rfl

theorem setVisited_spec {g g' : G τ} {i : ℕ} (h : setVisited g i = .ok g') :
    i < g.nodes.length ∧ g'.edges = g.edges ∧ g'.pool = g.pool ∧
    ∀ j : ℕ, g'.nodes[j]? = (g.nodes[j]?).map fun n =>
      { n with payload := { n.payload with visited := if j = i then true else n.payload.visited } } := by
  have hlt : i < g.nodes.length := by
    by_contra hc
    unfold setVisited modifyNode getNode at h
    rw [List.getElem?_eq_none (by omega)] at h; cases h
  rw [setVisited_ok hlt] at h
  cases h
  refine ⟨hlt, rfl, rfl, fun j => ?_⟩
  rw [List.getElem?_modify]
  by_cases hj : j = i
  · subst hj; rcases g.nodes[j]? <;> simp
  · rcases g.nodes[j]? <;> simp [hj, Ne.symm hj]

theorem same_setVisited {g g' : G τ} {i : ℕ} (h : setVisited g i = .ok g') : Same g g' := by
  obtain ⟨-, h1, h2, h3⟩ := setVisited_spec h
  refine ⟨fun j => ?_, fun j => by rw [h1], h2⟩
  rw [h3, Option.map_map]; rfl

theorem live_setVisited {g g' : G τ} {i : ℕ} (h : setVisited g i = .ok g') (id : ℕ) :
    live g' id = live g id := by
  unfold live; rw [(setVisited_spec h).2.1]

/-- Number of nodes marked visited. -/
def visitedCount (g : G τ) : ℕ := g.nodes.countP fun n => n.payload.visited

theorem countP_modify_le {α : Type*} (l : List α) (i : ℕ) (f : α → α) (p : α → Bool) :
    (l.modify i f).countP p ≤ l.countP p + 1 := by
  induction l generalizing i with
  | nil => simp
  | cons a l ih =>
    cases i with
    | zero => simp only [List.modify_zero_cons, List.countP_cons]; split <;> split <;> omega
    | succ i => simp only [List.modify_succ_cons, List.countP_cons]; have := ih i; omega

theorem visitedCount_setVisited {g g' : G τ} {i : ℕ} (h : setVisited g i = .ok g') :
    visitedCount g' ≤ visitedCount g + 1 := by
  rw [setVisited_ok (setVisited_spec h).1] at h
  cases h
  exact countP_modify_le ..

theorem visited_setVisited {g g' : G τ} {i j : ℕ} (h : setVisited g i = .ok g') {n'}
    (hn : g'.nodes[j]? = some n') : ∃ n, g.nodes[j]? = some n ∧
      (n'.payload.visited = true ↔ j = i ∨ n.payload.visited = true) := by
  obtain ⟨-, -, -, h3⟩ := setVisited_spec h
  rw [h3, Option.map_eq_some_iff] at hn
  obtain ⟨n, hn, rfl⟩ := hn
  refine ⟨n, hn, ?_⟩
  by_cases hj : j = i <;> simp [hj]

/-! ### Invariant of the search loop -/

/-- Facts about the search that need no assumption on the initial marks. -/
structure LInv (env : Env) (g0 : G τ) (start : ℕ) (s : St τ) : Prop where
  same : Same g0 s.graph
  startVisited : ∃ n, s.graph.nodes[start]? = some n ∧ n.payload.visited = true
  items : ∀ it ∈ s.fringe, it.node ≠ start ∧ it.node < g0.nodes.length ∧
    ∃ len, LPath g0 start it.node len ∧ it.dist = env.junk + len
  found : ∀ c ∈ s.found, c.src = start ∧ c.dst ≠ start ∧
    (∃ len, LPath g0 start c.dst len ∧ env.minDist ≤ env.junk + len) ∧
    (∃ n m, g0.nodes[start]? = some n ∧ g0.nodes[c.dst]? = some m ∧
      poseDist n.payload.pose m.payload.pose < env.maxDist ∧
    ∃ k, k < s.depth ∧ s.attempts[k]? = some c.dst ∧
      Reported (env.matcher k c.dst start (turnOnly n.payload.pose m.payload.pose)) c)
  attempts : s.attempts.length = s.depth
  depth : s.depth ≤ maxDepth

/-- Facts that need all marks to be clear at the beginning. -/
structure FInv (s : St τ) : Prop where
  used : ∀ id e, live s.graph id = some e → e.payload.used = true →
    (∃ n, s.graph.nodes[e.src]? = some n ∧ n.payload.visited = true) ∨
    ∃ it ∈ s.fringe, it.node = e.src
  closed : ∀ (v : ℕ) n, s.graph.nodes[v]? = some n → n.payload.visited = true →
    ∀ id e, live s.graph id = some e → e.dst = v → e.payload.used = true
  count : visitedCount s.graph ≤ s.visited

theorem genPossibleEdges_spec {g : G τ} (hg : Good g) {node : ℕ} {base : Item}
    (h : node < g.nodes.length) : ∃ n items g', g.nodes[node]? = some n ∧
      genPossibleEdges g node base = .ok (items, g') ∧ Expanded n.inn base g items g' := by
  have hn := List.getElem?_eq_getElem h
  obtain ⟨⟨items, g'⟩, hr⟩ := expand_ok (base := base) (out := []) hg (l := g.nodes[node].inn)
    (fun a ha => by
      obtain ⟨id, e, h1, h2, -⟩ := hg.sound node _ a hn ha
      exact ⟨id, e, h1, h2⟩)
  obtain ⟨new, hnew, hex⟩ := used_stays hr
  simp only [List.nil_append] at hnew
  subst hnew
  refine ⟨_, items, g', hn, ?_, hex hg⟩
  unfold genPossibleEdges getNode
  rw [hn]
  exact hr

theorem begin_spec {env : Env} {g : G τ} (hg : Good g) {start : ℕ} (h : start < g.nodes.length) :
    ∃ s, begin env g start = .ok s ∧ LInv env g start s ∧
      (visitedCount g = 0 → (∀ id e, live g id = some e → e.payload.used = false) → FInv s) ∧
      s.visited = 1 := by
  have hv := setVisited_ok h
  have hsame := same_setVisited hv
  obtain ⟨n, items, g', hn, hgen, hex⟩ := genPossibleEdges_spec (hg.same hsame)
    (node := start) (base := startItem env start) (by simpa using h)
  refine ⟨⟨g', items, 1, 0, [], []⟩, ?_, ?_, ?_, rfl⟩
  · unfold begin; rw [hv, Res.bind_ok, hgen]; rfl
  · refine ⟨hsame.trans hex.same, ?_, ?_, by simp, rfl, by simp [maxDepth]⟩
    · refine ⟨n, by rw [hex.nodes]; exact hn, ?_⟩
      obtain ⟨m, -, hiff⟩ := visited_setVisited hv hn
      exact hiff.2 (.inl rfl)
    · intro it hit
      obtain ⟨id, e, m, h1, h2, h3, h4, h5, h6⟩ := hex.items it hit
      rw [live_setVisited hv] at h1
      have hne : it.node ≠ start := by
        intro hc
        rw [← h3, hc] at h5
        obtain ⟨_, _, hiff⟩ := visited_setVisited hv h5
        rw [hiff.2 (.inl rfl)] at h6
        cases h6
      refine ⟨hne, by rw [h3]; exact (hg.ends id e h1).1, 0 + edgeLen e.payload.trans, ?_, ?_⟩
      · rw [h3]
        refine .cons .nil h1 ?_
        obtain ⟨id', e', x1, x2, x3⟩ := (hg.same hsame).sound start n e.addr hn h2
        rw [live_setVisited hv] at x1
        have := hg.inj id' id e' e x1 h1 x2
        subst this
        rw [h1] at x1; cases x1; exact x3
      · rw [h4, add_dist, edgeItem_dist]; simp [startItem]
  · intro h0 hu
    refine ⟨?_, ?_, ?_⟩
    · intro id e he hue
      obtain ⟨e0, h1, h2⟩ := hex.same.live he
      rcases hex.newUsed id e0 e h1 he hue with h | ⟨-, h⟩
      · rw [live_setVisited hv] at h1
        rw [hu id e0 h1] at h; cases h
      · rw [hex.nodes, (unmarkE_eq h2).2.2.1]; exact h
    · intro v m hm hvis id e he hd
      have : v = start := by
        rw [hex.nodes] at hm
        obtain ⟨m0, hm0, hiff⟩ := visited_setVisited hv hm
        rcases hiff.1 hvis with h | h
        · exact h
        · exfalso
          unfold visitedCount at h0
          rw [List.countP_eq_zero] at h0
          exact h0 m0 (List.mem_iff_getElem?.2 ⟨_, hm0⟩) h
      subst this
      obtain ⟨n', hn', ha⟩ := ((hg.same hsame).same hex.same).complete id e he
      rw [hd, hex.nodes, hn] at hn'
      cases hn'
      exact hex.used id e he ha
    · have h1 : visitedCount g' = visitedCount { g with nodes := g.nodes.modify start fun n =>
          { n with payload := { n.payload with visited := true } } } := by
        unfold visitedCount; rw [hex.nodes]
      have h2 := visitedCount_setVisited hv
      simp only
      omega

theorem tryMatch_other (env : Env) (start : ℕ) (s : St τ) (item : Item) (p q : Pose) :
    (tryMatch env start s item p q).graph = s.graph ∧
    (tryMatch env start s item p q).fringe = s.fringe ∧
    (tryMatch env start s item p q).visited = s.visited := by
  unfold tryMatch; split <;> exact ⟨rfl, rfl, rfl⟩

theorem getElem?_append_some {α : Type*} {l : List α} {k : ℕ} {a b : α} (h : l[k]? = some a) :
    (l ++ [b])[k]? = some a := by
  have hlt : k < l.length := by
    by_contra hc
    rw [List.getElem?_eq_none (by omega)] at h; cases h
  rw [List.getElem?_append_left hlt]; exact h

theorem linv_tryMatch {env : Env} {g0 : G τ} {start : ℕ} {s : St τ} (inv : LInv env g0 start s)
    (hd : s.depth < maxDepth) {item : Item} (hi : item ∈ s.fringe) {target source : Node (NodeP τ)}
    (ht : s.graph.nodes[start]? = some target) (hs : s.graph.nodes[item.node]? = some source) :
    LInv env g0 start (tryMatch env start s item target.payload.pose source.payload.pose) := by
  obtain ⟨i1, i2, len, i3, i4⟩ := inv.items item hi
  obtain ⟨t0, ht0, ht1⟩ := inv.same.node ht
  obtain ⟨s0, hs0, hs1⟩ := inv.same.node hs
  unfold tryMatch
  split_ifs with hc
  · refine ⟨inv.same, inv.startVisited, inv.items, ?_, by simp [inv.attempts], by simp; omega⟩
    have old : ∀ c ∈ s.found, c.src = start ∧ c.dst ≠ start ∧
        (∃ len, LPath g0 start c.dst len ∧ env.minDist ≤ env.junk + len) ∧
        (∃ n m, g0.nodes[start]? = some n ∧ g0.nodes[c.dst]? = some m ∧
          poseDist n.payload.pose m.payload.pose < env.maxDist ∧
        ∃ k, k < s.depth + 1 ∧ (s.attempts ++ [item.node])[k]? = some c.dst ∧
          Reported (env.matcher k c.dst start (turnOnly n.payload.pose m.payload.pose)) c) := by
      intro c hc'
      obtain ⟨f1, f2, f3, n, m, f4, f4', f4'', k, f5, f6, f7⟩ := inv.found c hc'
      exact ⟨f1, f2, f3, n, m, f4, f4', f4'', k, by omega, getElem?_append_some f6, f7⟩
    intro c hc'
    simp only at hc'
    split_ifs at hc' with hsucc
    · rcases List.mem_append.1 hc' with hc' | hc'
      · exact old c hc'
      · rw [List.mem_singleton] at hc'
        subst hc'
        refine ⟨rfl, i1, ⟨len, i3, by rw [← i4]; exact not_lt.1 hc.2⟩, t0, s0, ht0, hs0, ?_,
          s.depth, Nat.lt_succ_self _, ?_, ?_⟩
        · rw [← (unmarkN_eq ht1).2.2.2.1, ← (unmarkN_eq hs1).2.2.2.1]; exact hc.1
        · rw [← inv.attempts]; simp
        · rw [← (unmarkN_eq ht1).2.2.2.1, ← (unmarkN_eq hs1).2.2.2.1, ← guessTrans_eq]
          exact ⟨hsucc, rfl, rfl⟩
    · exact old c hc'
  · exact inv

theorem mem_eraseIdx_or {α : Type*} {l : List α} {i : ℕ} {a b : α} (hi : l[i]? = some a)
    (hb : b ∈ l) : b = a ∨ b ∈ l.eraseIdx i := by
  induction l generalizing i with
  | nil => cases hb
  | cons x l ih =>
    cases i with
    | zero =>
      simp only [List.getElem?_cons_zero, Option.some.injEq] at hi
      subst hi
      simpa using hb
    | succ i =>
      simp only [List.getElem?_cons_succ] at hi
      rcases List.mem_cons.1 hb with rfl | hb
      · right; simp
      · rcases ih hi hb with h | h
        · exact .inl h
        · right; simp [h]

theorem body_spec {env : Env} {g0 : G τ} (hg : Good g0) {start : ℕ} {s : St τ}
    (inv : LInv env g0 start s) (hd : s.depth < maxDepth) (hne : s.fringe ≠ []) :
    ∃ s', body env start s = .ok s' ∧ LInv env g0 start s' ∧ (FInv s → FInv s') ∧
      s'.visited = s.visited + 1 := by
  set i := env.pick s.visited s.fringe % s.fringe.length with hi
  have hlt : i < s.fringe.length := Nat.mod_lt _ (List.length_pos_iff.2 hne)
  have hit := List.getElem?_eq_getElem hlt
  set item := s.fringe[i] with hitem
  have hmem : item ∈ s.fringe := List.getElem_mem hlt
  obtain ⟨i1, i2, len, i3, i4⟩ := inv.items item hmem
  have hgs := hg.same inv.same
  obtain ⟨target, ht, htv⟩ := inv.startVisited
  have hilt : item.node < s.graph.nodes.length := by rw [inv.same.nodesLen]; exact i2
  have hsrc := List.getElem?_eq_getElem hilt
  set source := s.graph.nodes[item.node] with hsource
  obtain ⟨tg, tf, tv⟩ := tryMatch_other env start s item target.payload.pose source.payload.pose
  have inv1 := linv_tryMatch inv hd hmem ht hsrc
  set s1 := tryMatch env start s item target.payload.pose source.payload.pose with hs1
  have hv := setVisited_ok hilt
  set g1 : G τ := { s.graph with nodes := s.graph.nodes.modify item.node fun n =>
      { n with payload := { n.payload with visited := true } } } with hg1
  have hsame := same_setVisited hv
  obtain ⟨n, items, g', hn, hgen, hex⟩ := genPossibleEdges_spec (hgs.same hsame)
    (node := item.node) (base := item) (by simpa [hg1] using hilt)
  have hbody : body env start s = .ok
      { s1 with
        graph := g'
        fringe := s.fringe.eraseIdx i ++ items
        visited := s.visited + 1 } := by
    unfold body
    rw [← hi, hit]
    simp only [getNode, ht, hsrc, Res.bind_ok]
    rw [← hs1, tg, hv, Res.bind_ok, hgen]
    rfl
  have visEx : ∀ {j n'}, g'.nodes[j]? = some n' → ∃ m, s.graph.nodes[j]? = some m ∧
      (n'.payload.visited = true ↔ j = item.node ∨ m.payload.visited = true) := by
    intro j n' h
    rw [hex.nodes] at h
    exact visited_setVisited hv h
  refine ⟨_, hbody, ?_, fun finv => ?_, rfl⟩
  · refine ⟨(inv.same.trans hsame).trans hex.same, ?_, ?_, inv1.found, inv1.attempts, inv1.depth⟩
    · have h1 : start < g'.nodes.length := by
        rw [hex.same.nodesLen, hsame.nodesLen]
        by_contra hc
        rw [List.getElem?_eq_none (by omega)] at ht; cases ht
      refine ⟨_, List.getElem?_eq_getElem h1, ?_⟩
      obtain ⟨m, hm, hiff⟩ := visEx (List.getElem?_eq_getElem h1)
      rw [ht] at hm; cases hm
      exact hiff.2 (.inr htv)
    · intro it hit'
      rcases List.mem_append.1 hit' with hit' | hit'
      · exact inv.items it (List.mem_of_mem_eraseIdx hit')
      · obtain ⟨id, e, m, h1, h2, h3, h4, h5, h6⟩ := hex.items it hit'
        rw [live_setVisited hv] at h1
        obtain ⟨e0, k1, k2⟩ := inv.same.live h1
        have k3 := unmarkE_eq k2
        have hne' : it.node ≠ start := by
          intro hc
          rw [← h3, hc] at h5
          obtain ⟨m0, hm0, hiff⟩ := visited_setVisited hv h5
          rw [ht] at hm0; cases hm0
          rw [hiff.2 (.inr htv)] at h6
          cases h6
        refine ⟨hne', by rw [h3, k3.2.2.1]; exact (hg.ends id e0 k1).1,
          len + edgeLen e0.payload.trans, ?_, ?_⟩
        · rw [h3, k3.2.2.1]
          refine .cons i3 k1 ?_
          obtain ⟨id', e', x1, x2, x3⟩ := (hgs.same hsame).sound item.node n e.addr hn h2
          rw [live_setVisited hv] at x1
          have := hgs.inj id' id e' e x1 h1 x2
          subst this
          rw [h1] at x1; cases x1
          rw [← k3.2.2.2.1]; exact x3
        · rw [h4, add_dist, i4, edgeItem_dist, k3.2.2.2.2]; ring
  · refine ⟨?_, ?_, ?_⟩
    · intro id e he hue
      obtain ⟨e0, h1, h2⟩ := hex.same.live he
      have h3 := unmarkE_eq h2
      have hlen : e.src < g'.nodes.length :=
        (((hgs.same hsame).same hex.same).ends id e he).1
      obtain ⟨m, hm, hiff⟩ := visEx (List.getElem?_eq_getElem hlen)
      rcases hex.newUsed id e0 e h1 he hue with h | ⟨-, h⟩
      · rw [live_setVisited hv] at h1
        rcases finv.used id e0 h1 h with ⟨m', k1, k2⟩ | ⟨it, k1, k2⟩
        · left
          rw [← h3.2.2.1, hm] at k1; cases k1
          exact ⟨_, List.getElem?_eq_getElem hlen, hiff.2 (.inr k2)⟩
        · rcases mem_eraseIdx_or hit k1 with rfl | k1
          · left
            exact ⟨_, List.getElem?_eq_getElem hlen, hiff.2 (.inl (by rw [h3.2.2.1, k2]))⟩
          · right
            exact ⟨it, List.mem_append_left _ k1, by rw [k2, h3.2.2.1]⟩
      · rcases h with ⟨m', k1, k2⟩ | ⟨it, k1, k2⟩
        · left
          refine ⟨m', ?_, k2⟩
          simp only
          rw [hex.nodes, h3.2.2.1]; exact k1
        · right
          exact ⟨it, List.mem_append_right _ k1, by rw [k2, h3.2.2.1]⟩
    · intro v m hm hvis id e he hdst
      obtain ⟨m0, hm0, hiff⟩ := visEx hm
      obtain ⟨e0, h1, h2⟩ := hex.same.live he
      have h3 := unmarkE_eq h2
      rcases hiff.1 hvis with h | h
      · subst h
        obtain ⟨n', hn', ha⟩ := ((hgs.same hsame).same hex.same).complete id e he
        rw [hdst, hex.nodes, hn] at hn'
        cases hn'
        exact hex.used id e he ha
      · have h4 := h1
        rw [live_setVisited hv] at h4
        exact hex.keep id e0 e h1 he (finv.closed v m0 hm0 h id e0 h4 (by rw [← h3.2.2.2.1, hdst]))
    · have h1 : visitedCount g' = visitedCount g1 := by
        unfold visitedCount; rw [hex.nodes]
      have h2 := visitedCount_setVisited hv
      have h3 := finv.count
      simp only
      omega

/-! ### The whole loop -/

theorem expand_nodes {l : List ℕ} {b : Item} {out out' : List Item} {g g' : G τ}
    (h : expand l b (out, g) = .ok (out', g')) : g'.nodes = g.nodes := by
  induction l generalizing out g with
  | nil => simp [expand] at h; rw [h.2]
  | cons a rest ih =>
    simp only [expand] at h
    split at h
    · cases h
    · split at h
      · exact ih h
      · split at h
        · cases h
        · split at h
          · exact (ih h).trans rfl
          · exact (ih h).trans rfl

theorem body_visited {env : Env} {start : ℕ} {s s' : St τ} (h : body env start s = .ok s') :
    s'.visited = s.visited + 1 ∧ nodeCount s'.graph = nodeCount s.graph ∧
    s'.depth ≤ s.depth + 1 ∧ s'.attempts.length + s.depth = s.attempts.length + s'.depth := by
  unfold body at h
  split at h
  · cases h
  · rename_i item _
    obtain ⟨target, h1, h⟩ := Res.bind_eq_ok.1 h
    obtain ⟨source, h2, h⟩ := Res.bind_eq_ok.1 h
    obtain ⟨g1, h3, h⟩ := Res.bind_eq_ok.1 h
    obtain ⟨⟨items, g2⟩, h4, h⟩ := Res.map_eq_ok.1 h
    subst h
    obtain ⟨tg, -, -⟩ := tryMatch_other env start s item target.payload.pose source.payload.pose
    obtain ⟨n, h5, h6⟩ := Res.bind_eq_ok.1 h4
    refine ⟨rfl, ?_, ?_, ?_⟩
    · have e1 := expand_nodes h6
      have e2 := (same_setVisited h3).nodesLen
      simp only [nodeCount, e1, e2, tg]
    · show (tryMatch ..).depth ≤ _
      unfold tryMatch; split <;> simp
    · show (tryMatch ..).attempts.length + _ = _ + (tryMatch ..).depth
      unfold tryMatch; split
      · simp; omega
      · rfl

theorem loop_terminates (env : Env) (start fuel : ℕ) (s : St τ)
    (h : nodeCount s.graph - s.visited ≤ fuel) : loop env start fuel s ≠ none := by
  induction fuel generalizing s with
  | zero =>
    unfold loop
    have : ¬ running s := by unfold running; omega
    rw [if_neg this]; simp
  | succ fuel ih =>
    unfold loop
    split
    · rename_i hr
      rcases hb : body env start s with s' | e | u
      · obtain ⟨h1, h2, -⟩ := body_visited hb
        exact ih s' (by unfold running at hr; omega)
      · simp
      · simp
    · simp

theorem loop_attempts {env : Env} {start fuel : ℕ} {s s' : St τ}
    (h : loop env start fuel s = some (.ok s')) (h0 : s.attempts.length = s.depth)
    (h1 : s.depth ≤ maxDepth) : s'.attempts.length = s'.depth ∧ s'.depth ≤ maxDepth := by
  induction fuel generalizing s with
  | zero =>
    unfold loop at h
    split at h
    · cases h
    · cases h; exact ⟨h0, h1⟩
  | succ fuel ih =>
    unfold loop at h
    split at h
    · rename_i hr
      rcases hb : body env start s with s1 | e | u
      · rw [hb] at h
        obtain ⟨k1, k2, k3, k4⟩ := body_visited hb
        unfold running at hr
        exact ih h (by omega) (by omega)
      · rw [hb] at h; cases h
      · rw [hb] at h; cases h
    · cases h; exact ⟨h0, h1⟩

theorem loop_linv {env : Env} {g0 : G τ} (hg : Good g0) {start fuel : ℕ} {s s' : St τ}
    (h : loop env start fuel s = some (.ok s')) (inv : LInv env g0 start s) : LInv env g0 start s' := by
  induction fuel generalizing s with
  | zero =>
    unfold loop at h
    split at h
    · cases h
    · cases h; exact inv
  | succ fuel ih =>
    unfold loop at h
    split at h
    · rename_i hr
      by_cases hne : s.fringe = []
      · have : body env start s = .ub .emptyContainer := by unfold body; rw [hne]; rfl
        rw [this] at h; cases h
      · obtain ⟨s1, hb, i1, -⟩ := body_spec hg inv hr.2 hne
        rw [hb] at h
        exact ih h i1
    · cases h; exact inv

/-- If every node can be reached backwards, the frontier is not empty while the loop runs. -/
theorem fringe_ne_nil {env : Env} {g0 : G τ} {start : ℕ} {s : St τ}
    (inv : LInv env g0 start s) (finv : FInv s)
    (hall : ∀ i, i < g0.nodes.length → ∃ len, LPath g0 start i len) (hr : running s) :
    s.fringe ≠ [] := by
  intro he
  have hvis : ∀ i len, LPath g0 start i len →
      ∃ n, s.graph.nodes[i]? = some n ∧ n.payload.visited = true := by
    intro i len hp
    induction hp with
    | nil => exact inv.startVisited
    | cons _ hl hd ih =>
      obtain ⟨n, hn, hv⟩ := ih
      obtain ⟨e', h1, h2⟩ := inv.same.symm.live hl
      have h3 := unmarkE_eq h2
      have hu := finv.closed _ n hn hv _ e' h1 (by rw [← h3.2.2.2.1, hd])
      rcases finv.used _ e' h1 hu with h | ⟨it, hit, -⟩
      · rw [h3.2.2.1]; exact h
      · rw [he] at hit; cases hit
  have hcount : visitedCount s.graph = s.graph.nodes.length := by
    unfold visitedCount
    rw [List.countP_eq_length]
    intro n hn
    obtain ⟨i, hi⟩ := List.mem_iff_getElem?.1 hn
    have hlt : i < g0.nodes.length := by
      rw [← inv.same.nodesLen]
      by_contra hc
      rw [List.getElem?_eq_none (by omega)] at hi; cases hi
    obtain ⟨len, hp⟩ := hall i hlt
    obtain ⟨m, hm, hv⟩ := hvis i len hp
    rw [hi] at hm; cases hm; exact hv
  have := finv.count
  unfold running nodeCount at hr
  omega

theorem loop_safe {env : Env} {g0 : G τ} (hg : Good g0) {start : ℕ}
    (hall : ∀ i, i < g0.nodes.length → ∃ len, LPath g0 start i len) {fuel : ℕ} {s : St τ}
    (inv : LInv env g0 start s) (finv : FInv s) (hf : nodeCount s.graph - s.visited ≤ fuel) :
    ∃ s', loop env start fuel s = some (.ok s') := by
  induction fuel generalizing s with
  | zero =>
    unfold loop
    have : ¬ running s := by unfold running; omega
    rw [if_neg this]; exact ⟨_, rfl⟩
  | succ fuel ih =>
    unfold loop
    by_cases hr : running s
    · rw [if_pos hr]
      obtain ⟨s1, hb, i1, i2, i3⟩ := body_spec hg inv hr.2 (fringe_ne_nil inv finv hall hr)
      rw [hb]
      obtain ⟨-, k2, -⟩ := body_visited hb
      unfold running at hr
      exact ih i1 (i2 finv) (by omega)
    · rw [if_neg hr]; exact ⟨_, rfl⟩

theorem loop_nodeCount {env : Env} {start fuel : ℕ} {s s' : St τ}
    (h : loop env start fuel s = some (.ok s')) : nodeCount s'.graph = nodeCount s.graph := by
  induction fuel generalizing s with
  | zero =>
    unfold loop at h
    split at h
    · cases h
    · cases h; rfl
  | succ fuel ih =>
    unfold loop at h
    split at h
    · rcases hb : body env start s with s1 | e | u
      · rw [hb] at h
        rw [ih h, (body_visited hb).2.1]
      · rw [hb] at h; cases h
      · rw [hb] at h; cases h
    · cases h; rfl

theorem begin_inv {env : Env} {g : G τ} {start : ℕ} {s : St τ} (h : begin env g start = .ok s) :
    start < g.nodes.length ∧ nodeCount s.graph = nodeCount g ∧ s.visited = 1 ∧ s.depth = 0 ∧
      s.attempts = [] := by
  unfold begin at h
  obtain ⟨g1, h1, h⟩ := Res.bind_eq_ok.1 h
  obtain ⟨⟨items, g2⟩, h2, h⟩ := Res.map_eq_ok.1 h
  subst h
  obtain ⟨n, h5, h6⟩ := Res.bind_eq_ok.1 h2
  refine ⟨(setVisited_spec h1).1, ?_, rfl, rfl, rfl⟩
  simp only [nodeCount]
  rw [expand_nodes h6, (same_setVisited h1).nodesLen]

/-! ### Clean-up -/

theorem cleanup_tolerant {g : G τ} (h : g.edges.head? ≠ some none) :
    cleanup .tolerant g = .ok (clearMarks g) := by
  unfold cleanup forEach
  rw [loopPostfix_eq _ (by rcases g.nodes with _ | ⟨n, l⟩ <;> simp), Res.bind_ok, loopPostfix_eq _ h,
    Res.bind_ok]
  congr 1
  unfold clearMarks
  have h1 : (g.nodes.map fun n =>
      if n.id ∈ ((g.nodes.map some).filterMap id).map Node.id then
        ({ n with payload := { n.payload with visited := false } } : Node (NodeP τ)) else n) =
      g.nodes.map fun n => { n with payload := { n.payload with visited := false } } := by
    apply List.map_congr_left
    intro n hn
    rw [if_pos]
    rw [List.mem_map]
    exact ⟨n, by simpa using hn, rfl⟩
  have h2 : (g.edges.map fun e => e.map fun e : Edge EdgeP =>
      if e.addr ∈ (g.edges.filterMap id).map Edge.addr then
        ({ e with payload := { e.payload with used := false } } : Edge EdgeP) else e) =
      g.edges.map fun e => e.map fun e => { e with payload := { e.payload with used := false } } := by
    apply List.map_congr_left
    intro o ho
    rcases o with _ | e
    · rfl
    · simp only [Option.map_some, Option.some.injEq]
      rw [if_pos]
      rw [List.mem_map]
      exact ⟨e, by simpa using ho, rfl⟩
  rw [h1, h2]

theorem clearMarks_same {g0 g : G τ} (h : Same g0 g) : clearMarks g = clearMarks g0 := by
  unfold clearMarks
  rw [h.pool]
  congr 1
  · apply List.ext_getElem?
    intro i
    rw [List.getElem?_map, List.getElem?_map]
    exact h.nodes i
  · apply List.ext_getElem?
    intro i
    rw [List.getElem?_map, List.getElem?_map]
    exact h.edges i

theorem head_same {g0 g : G τ} (h : Same g0 g) (h0 : g0.edges.head? ≠ some none) :
    g.edges.head? ≠ some none := by
  rw [List.head?_eq_getElem?] at *
  intro hc
  have := h.edges 0
  rw [hc] at this
  obtain ⟨o, h1, h2⟩ := Option.map_eq_some_iff.1 this.symm
  rw [Option.map_none, Option.map_eq_none_iff] at h2
  rw [h2] at h1
  exact h0 h1

end Verif.Loop
