import Verif.Spec.Store
/-
What was put into a database (C97).
-/
namespace IndraDB

/-- The vertices a call is given to create. -/
def Op.newVertices : Op → List Vertex
  | .createVertex v => [v]
  | .createVertexFromType id t => [⟨id, t⟩]
  | .bulkInsert items => items.filterMap (fun | .vertex v => some v | _ => none)
  | _ => []

/-- The edges a call is given to create. -/
def Op.newEdges : Op → List Edge
  | .createEdge e => [e]
  | .bulkInsert items => items.filterMap (fun | .edge e => some e | _ => none)
  | _ => []

/-- C97: the vertices and edges of a database are among those that calls were given to create, and there are not more of them
than were created. -/
def Store.OnlyMade (S : Store) : Prop := ∀ hist, S.OkHist hist → ∀ env,
  (∀ l, S.ask env .allVertex (S.run hist S.init) = .ok [.vertices l] →
    (∀ v ∈ l, v ∈ hist.flatMap (·.2.newVertices)) ∧ l.length ≤ (hist.flatMap (·.2.newVertices)).length) ∧
  (∀ l, S.ask env .allEdge (S.run hist S.init) = .ok [.edges l] →
    (∀ e ∈ l, e ∈ hist.flatMap (·.2.newEdges)) ∧ l.length ≤ (hist.flatMap (·.2.newEdges)).length) ∧
  (∀ l, S.ask env (.count .allVertex) (S.run hist S.init) = .ok l →
    ∃ n, l = [.count n] ∧ n ≤ (hist.flatMap (·.2.newVertices)).length) ∧
  (∀ l, S.ask env (.count .allEdge) (S.run hist S.init) = .ok l →
    ∃ n, l = [.count n] ∧ n ≤ (hist.flatMap (·.2.newEdges)).length)

end IndraDB
