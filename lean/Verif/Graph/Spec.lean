import Verif.Graph.Model

/-
Specification vocabulary for the pose graph: the book a client keeps.  It records only what the client
passed in and what the calls returned; it does not look inside the graph.
-/
namespace Verif.PoseGraph

open Verif

variable {ν : Type u} {ε : Type v}

/-- What a client knows after a series of calls. -/
structure Log (ν : Type u) (ε : Type v) where
  /-- nodes in the order they were added -/
  nodes : List ν
  /-- edges by the id `addEdge` returned: start node, end node, contents -/
  edge : ℕ → Option (ℕ × ℕ × ε)
  /-- one more than the largest edge id ever returned -/
  high : ℕ
  /-- number of successful removals -/
  removals : ℕ

def Log.empty : Log ν ε := ⟨[], fun _ => none, 0, 0⟩

/-- `addr` is not the address of an existing edge object; the allocator guarantees this for `new`. -/
def Fresh (g : Graph ν ε) (addr : ℕ) : Prop := ∀ id e, live g id = some e → e.addr ≠ addr

/-- `History g log`: the graph `g` results from some series of public calls, all of which returned
normally, and `log` is the client's book of it. -/
inductive History : Graph ν ε → Log ν ε → Prop
  | init : History empty Log.empty
  | addNode {g log} (p : ν) : History g log →
      History (PoseGraph.addNode g p).2 { log with nodes := log.nodes ++ [p] }
  | addEdge {g log addr src dst} {p : ε} {id g'} : History g log → Fresh g addr →
      PoseGraph.addEdge g addr src dst p = .ok (id, g') →
      History g'
        { log with
          edge := Function.update log.edge id (some (src, dst, p))
          high := max log.high (id + 1) }
  | removed {g log id g'} : History g log → removeEdge g id = .ok (true, g') →
      History g'
        { log with
          edge := Function.update log.edge id none
          removals := log.removals + 1 }
  | notRemoved {g log id g'} : History g log → removeEdge g id = .ok (false, g') →
      History g' log
  | touchNode {g log id g'} (f : ν → ν) : History g log → modifyNode g id f = .ok g' →
      History g' { log with nodes := log.nodes.modify id f }
  | touchEdge {g log id g'} (f : ε → ε) : History g log → modifyEdge g id f = .ok g' →
      History g'
        { log with
          edge := Function.update log.edge id
            ((log.edge id).map fun x => (x.1, x.2.1, f x.2.2)) }

end Verif.PoseGraph
