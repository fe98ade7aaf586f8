import Verif.Loop.Model
import Mathlib.Analysis.Complex.Norm
import Mathlib.Algebra.BigOperators.Intervals
import Mathlib.Order.Interval.Finset.Nat

/-
Specification vocabulary for the loop search.
-/
namespace Verif.Loop

open Verif Verif.PoseGraph Verif.Slam

variable {τ : Type}

/-- The place of a pose (or the translation of a relative pose) in the plane. -/
def place (p : Pose) : ℂ := ⟨p.x, p.y⟩

/-- `Path g start n len`: walking constraints backwards from pose `start` one arrives at pose `n`
after the total translation length `len`. -/
inductive Path (g : G τ) (start : ℕ) : ℕ → ℝ → Prop
  | nil : Path g start start 0
  | cons {m len id e} : Path g start m len → getEdge g id = .ok e → e.dst = m →
      Path g start e.src (len + ‖place e.payload.trans‖)

/-- The transform by which the matcher should be started: a turn by the difference of the headings, about the
origin of the target. -/
noncomputable def turnOnly (target source : Pose) : Geo.Trans :=
  !![Real.cos (source.th - target.th), -Real.sin (source.th - target.th), 0;
     Real.sin (source.th - target.th), Real.cos (source.th - target.th), 0; 0, 0, 1]

/-- The match succeeded and the closure carries its transform and information. -/
def Reported (r : MatchResult) (c : LoopClosure) : Prop :=
  r.success = true ∧ c.trans = r.trans ∧ c.inform = r.inform

/-- No node is marked visited and no edge is marked used. -/
def Unmarked (g : G τ) : Prop :=
  (∀ n ∈ g.nodes, n.payload.visited = false) ∧
  ∀ id e, getEdge g id = .ok e → e.payload.used = false

/-! ### Graphs as the mapper builds them -/

/-- Every constraint joins successive poses, from the older to the newer one, or leads from a newer to an older
pose (accepted loop closures); and successive poses are joined by exactly one constraint. -/
def MapperShape (b : Book τ) : Prop :=
  (∀ c ∈ b.cons, c.2.1 = c.1 + 1 ∨ c.2.1 < c.1) ∧
  ∀ i, i + 1 < b.poses.length → ∃! k : ℕ, ∃ c, b.cons[k]? = some c ∧ c.1 = i ∧ c.2.1 = i + 1

/-- Length of the odometry step from pose `i` to pose `i + 1`. -/
noncomputable def leg (b : Book τ) (i : ℕ) : ℝ :=
  ((b.cons.find? fun c => c.1 = i ∧ c.2.1 = i + 1).map fun c => ‖place c.2.2.1‖).getD 0

/-- Distance travelled from pose `i` to the newest pose. -/
noncomputable def travelled (b : Book τ) (i : ℕ) : ℝ := ∑ j ∈ Finset.Ico i (b.poses.length - 1), leg b j

/-- Pose `i` is nearer to the newest pose than the maximum distance, and what the search takes for the distance
travelled in between (with the value `env.junk` in the memory that is never initialised) is at least the
minimum. -/
def Candidate (env : Env) (b : Book τ) (i : ℕ) : Prop :=
  ∃ p q, b.poses[b.poses.length - 1]? = some p ∧ b.poses[i]? = some q ∧
    dist (place p.1) (place q.1) < env.maxDist ∧ env.minDist ≤ env.junk + travelled b i

open Classical in
/-- The poses that a search from the newest pose should try: the candidates from the newest to the oldest, at most 50. -/
noncomputable def tried (env : Env) (b : Book τ) : List ℕ :=
  ((List.range (b.poses.length - 1)).reverse.filter fun i => decide (Candidate env b i)).take 50

/-- The answer of the matcher to attempt `k`, with pose `i`, of a search from the newest pose. -/
noncomputable def answer (env : Env) (b : Book τ) (k i : ℕ) : Option MatchResult :=
  match b.poses[b.poses.length - 1]?, b.poses[i]? with
  | some p, some q => some (env.matcher k i (b.poses.length - 1) (turnOnly p.1 q.1))
  | _, _ => none

/-- The closures for the attempts `l`: one for each success, in this order. -/
noncomputable def closures (env : Env) (b : Book τ) (l : List ℕ) : List LoopClosure :=
  l.zipIdx.filterMap fun x => (answer env b x.2 x.1).bind fun r =>
    if r.success then some ⟨b.poses.length - 1, x.1, r.inform, r.trans⟩ else none

/-- The order of `std::priority_queue` with `EdgeCovComparer`: an element with the largest determinant first. -/
def LargestFirst (env : Env) : Prop :=
  ∀ k l it, l[env.pick k l % l.length]? = some it → ∀ x ∈ l, x.det ≤ it.det

/-! ### Trial closures -/

/-- The closures whose addresses are given lie between existing nodes, and the allocator hands out addresses that
are not in use. -/
structure Trial (g : G τ) (cs : List (ℕ × LoopClosure)) : Prop where
  nodes : ∀ x ∈ cs, x.2.src < nodeCount g ∧ x.2.dst < nodeCount g
  fresh : ∀ x ∈ cs, Fresh g x.1
  distinct : (cs.map Prod.fst).Nodup

/-- Poses and constraints look the same in both graphs to every caller: same number, same ids, same contents. -/
def LooksSame (g g' : G τ) : Prop :=
  nodeCount g' = nodeCount g ∧ edgeCount g' = edgeCount g ∧ (∀ j, getEdge g' j = getEdge g j) ∧
  ∀ i, (getNode g' i).map (fun n => (n.id, n.payload)) = (getNode g i).map (fun n => (n.id, n.payload))

end Verif.Loop
