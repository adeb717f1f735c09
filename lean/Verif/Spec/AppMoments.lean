import Verif.Spec.Moments
import Verif.Spec.RocksApp
/-
What calls report that overlap other calls and transactions, in terms of the moments of the call.
-/
namespace IndraDB
namespace Moment
variable (M : Moment → Prop) (edgeLt : Edge → Edge → Bool)

/-- The answers of reading calls that are explained by moments of `M`. Methods that look once (scans, single properties) tell the truth
about one moment; lookups by id may see different moments for different ids; index lookups see the set of indexed names at one moment,
the index at another, and whether each vertex exists at others. -/
def Answered : Access → Answer → Prop
  | .lib (.get q), x => ∃ inc v, x = .reply (.outputs (inc ++ [v])) ∧ Observed M edgeLt q inc v
  | .vertexCount, x => ∃ m l, M m ∧ Enumerates vertexLt l (fun v => m.graph.vertex v.id = some v.t) ∧ x = .count l.length
  | .allVertices, x => ∃ m l, M m ∧ Enumerates vertexLt l (fun v => m.graph.vertex v.id = some v.t) ∧ x = .vertices (l.map .ok)
  | .rangeVertices o, x => ∃ m l, M m ∧
      Enumerates vertexLt l (fun v => m.graph.vertex v.id = some v.t ∧ Order.lt v.id o = false) ∧ x = .vertices (l.map .ok)
  | .specificVertices ids, x => ∃ l, LooksUp M ids l ∧ x = .vertices (l.map .ok)
  | .vertexIdsWithProperty n, x => (x = .ids none ∧ ∃ m, M m ∧ m.graph.indexed n = false) ∨
      ∃ ids, (∃ m, M m ∧ m.graph.indexed n = true) ∧ FromIndex M (·.vLists n) ids ∧ x = .ids (some (ids.map .ok))
  | .vertexIdsWithPropertyValue n v, x => (x = .ids none ∧ ∃ m, M m ∧ m.graph.indexed n = false) ∨
      ∃ ids, (∃ m, M m ∧ m.graph.indexed n = true) ∧ FromIndex M (·.vListsValue n v) ids ∧ x = .ids (some (ids.map .ok))
  | .edgeCount, x => ∃ m l, M m ∧ Enumerates edgeLt l (fun e => m.graph.edge e = true) ∧ x = .count l.length
  | .allEdges, x => ∃ m l, M m ∧ Enumerates edgeLt l (fun e => m.graph.edge e = true) ∧ x = .edges (l.map .ok)
  | .rangeEdges o, x => ∃ m l, M m ∧ Enumerates edgeLt l (fun e => m.graph.edge e = true ∧ edgeLt e o = false) ∧ x = .edges (l.map .ok)
  | .rangeReversedEdges o, x => ∃ m l, M m ∧ Enumerates edgeLt l (fun e => m.graph.edge e.reversed = true ∧ edgeLt e o = false) ∧
      x = .edges (l.map .ok)
  | .specificEdges es, x => ∃ l, Gathers (fun e l => ∃ m, M m ∧ l = [e].filter m.graph.edge) es l ∧ x = .edges (l.map .ok)
  | .edgesWithProperty n, x => (x = .indexedEdges none ∧ ∃ m, M m ∧ m.graph.indexed n = false) ∨
      ∃ (m : Moment) (l : List Edge), (∃ m, M m ∧ m.graph.indexed n = true) ∧ M m ∧ (∀ e, e ∈ l ↔ m.eLists n e = true) ∧ x = .indexedEdges (some (l.map .ok))
  | .edgesWithPropertyValue n v, x => (x = .indexedEdges none ∧ ∃ m, M m ∧ m.graph.indexed n = false) ∨
      ∃ (m : Moment) (l : List Edge), (∃ m, M m ∧ m.graph.indexed n = true) ∧ M m ∧ (∀ e, e ∈ l ↔ m.eListsValue n v e = true) ∧
        x = .indexedEdges (some (l.map .ok))
  | .vertexProperty v n, x => ∃ m, M m ∧ x = .value (m.graph.vprop v.id n)
  | .vertexProperties v, x => ∃ m l, M m ∧
      Enumerates (fun a b : Identifier × Json => Order.lt a.1 b.1) l (fun p => m.graph.vprop v.id p.1 = some p.2) ∧ x = .props (l.map .ok)
  | .edgeProperty e n, x => ∃ m, M m ∧ x = .value (m.graph.eprop e n)
  | .edgeProperties e, x => ∃ m l, M m ∧
      Enumerates (fun a b : Identifier × Json => Order.lt a.1 b.1) l (fun p => m.graph.eprop e p.1 = some p.2) ∧ x = .props (l.map .ok)
  | .lib _, _ => True
  | .write _, _ => True

end Moment

namespace Rocks.App

/-- A step in which task `c` meets no I/O error (the others may). -/
def CalmStep (X : Cfg) (c : Nat) (S : App) (e : List AppEv) (S' : App) : Prop :=
  Step X false S e S' ∨ (Step X true S e S' ∧ S'.tasks c = S.tasks c)

/-- `Watch X s c h l S`: an execution from `s` in which task `c` meets no I/O error, with history `h`, leads to `S`; the states of the
database during its last call are `l`. -/
inductive Watch (X : Cfg) (s : Rocks) (c : Nat) : List AppEv → List Rocks → App → Prop
  | start : Watch X s c [] [] (.init s)
  /-- it makes a call -/
  | enter {h : List AppEv} {l : List Rocks} {S S' : App} {a : Access} : Watch X s c h l S → CalmStep X c S [.enter c a] S' →
      Watch X s c (h ++ [.enter c a]) [S'.db] S'
  /-- it is inside a call -/
  | during {h e : List AppEv} {l : List Rocks} {S S' : App} : Watch X s c h l S → CalmStep X c S e S' → (∀ a, .enter c a ∉ e) →
      (∃ a p k, S'.tasks c = .inside a p k) → Watch X s c (h ++ e) (l ++ [S'.db]) S'
  /-- it is not -/
  | outside {h e : List AppEv} {l : List Rocks} {S S' : App} : Watch X s c h l S → CalmStep X c S e S' → (∀ a, .enter c a ∉ e) →
      (∀ a p k, S'.tasks c ≠ .inside a p k) → Watch X s c (h ++ e) l S'

/-- From `A` on, steps with history `h` lead to `S`; the states of the database at `A` and after each step are `l`. -/
inductive Through (X : Cfg) (io : Bool) (A : App) : List AppEv → List Rocks → App → Prop
  | nil : Through X io A [] [A.db] A
  | snoc {h e : List AppEv} {l : List Rocks} {S S' : App} : Through X io A h l S → Step X io S e S' →
      Through X io A (h ++ e) (l ++ [S'.db]) S'

end Rocks.App
end IndraDB
