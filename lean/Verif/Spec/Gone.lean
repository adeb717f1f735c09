import Verif.Spec.Made
import Verif.Spec.Stays
/-
What was deleted is gone until it is put in again (C99).
-/
namespace IndraDB

namespace Store
variable (S : Store)

/-- C99, vertices: after `delete` of a query for vertices succeeded, no listing contains a vertex with the id of one of them, until a
call is given one to create. -/
def VerticesGone : Prop := ∀ h1 env q vs v h2, S.OkHist (h1 ++ (env, .delete q) :: h2) →
  S.value env q (S.run h1 S.init) = .ok (.vertices vs) → v ∈ vs →
  (S.step env (.delete q) (S.run h1 S.init)).2 = .ok .unit → (∀ p ∈ h2, ∀ w ∈ p.2.newVertices, w.id ≠ v.id) →
  ∀ env' l, S.ask env' .allVertex (S.run (h1 ++ (env, .delete q) :: h2) S.init) = .ok [.vertices l] → ∀ w ∈ l, w.id ≠ v.id

/-- C99, edges (those that `hold` when they are deleted). -/
def EdgesGone (hold : S.Env → Edge → S.State → Prop) : Prop := ∀ h1 env q es e h2, S.OkHist (h1 ++ (env, .delete q) :: h2) →
  S.value env q (S.run h1 S.init) = .ok (.edges es) → e ∈ es → hold env e (S.run h1 S.init) →
  (S.step env (.delete q) (S.run h1 S.init)).2 = .ok .unit → (∀ p ∈ h2, e ∉ p.2.newEdges) →
  ∀ env' l, S.ask env' .allEdge (S.run (h1 ++ (env, .delete q) :: h2) S.init) = .ok [.edges l] → e ∉ l

/-- C99, properties of vertices: after `delete` of a query for properties succeeded, the vertex does not have them, until a call writes
them again. -/
def VertexPropertiesGone : Prop := ∀ h1 env q ps p np h2, S.OkHist (h1 ++ (env, .delete q) :: h2) →
  S.value env q (S.run h1 S.init) = .ok (.vertexProperties ps) → p ∈ ps → np ∈ p.props →
  (S.step env (.delete q) (S.run h1 S.init)).2 = .ok .unit →
  Untouched np.name (fun i => ∃ y, i = .vertexProperty p.vertex.id np.name y) h2 →
  ∀ env' l, S.ask env' (.pipeProperty (.specificVertex [p.vertex.id]) (some np.name))
      (S.run (h1 ++ (env, .delete q) :: h2) S.init) = .ok l → l = [.vertexProperties []]

/-- C99, properties of edges. -/
def EdgePropertiesGone : Prop := ∀ h1 env q ps p np h2, S.OkHist (h1 ++ (env, .delete q) :: h2) →
  S.value env q (S.run h1 S.init) = .ok (.edgeProperties ps) → p ∈ ps → np ∈ p.props →
  (S.step env (.delete q) (S.run h1 S.init)).2 = .ok .unit →
  Untouched np.name (fun i => ∃ y, i = .edgeProperty p.edge np.name y) h2 →
  ∀ env' l, S.ask env' (.pipeProperty (.specificEdge [p.edge]) (some np.name))
      (S.run (h1 ++ (env, .delete q) :: h2) S.init) = .ok l → l = [.edgeProperties []]

/-- The outbound vertex of the edge exists. -/
def HasSource (env : S.Env) (e : Edge) (s : S.State) : Prop := ∃ v, S.value env (.specificVertex [e.outboundId]) s = .ok (.vertices [v])

end Store
end IndraDB
