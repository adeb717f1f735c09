import Verif.Spec.Store
/-
What was put into a database stays there until something else is done to it (C98).
-/
namespace IndraDB

/-- None of the calls deletes anything. -/
def NoDelete {E : Type} (h : List (E × Op)) : Prop := ∀ p ∈ h, ∀ q, p.2 ≠ .delete q

/-- None of the calls sets the property `n` of anything by a query, and no bulk insertion contains an item that is `bad`. -/
def Untouched {E : Type} (n : Identifier) (bad : BulkInsertItem → Prop) (h : List (E × Op)) : Prop := ∀ p ∈ h,
  (∀ q x, p.2 ≠ .setProperties q n x) ∧ ∀ items, p.2 = .bulkInsert items → ∀ i ∈ items, ¬ bad i

namespace Store
variable (S : Store)

/-- C98, vertices: after `create_vertex` said that it created the vertex, all listings contain it, as long as nothing is deleted
and no bulk insertion contains an item that is `bad` for it. -/
def VerticesStay (bad : Vertex → BulkInsertItem → Prop) : Prop := ∀ h1 env v h2, S.OkHist (h1 ++ (env, .createVertex v) :: h2) →
  (S.step env (.createVertex v) (S.run h1 S.init)).2 = .ok (.bool true) → NoDelete h2 →
  (∀ p ∈ h2, ∀ items, p.2 = .bulkInsert items → ∀ i ∈ items, ¬ bad v i) →
  ∀ env' l, S.ask env' .allVertex (S.run (h1 ++ (env, .createVertex v) :: h2) S.init) = .ok [.vertices l] → v ∈ l

/-- C98, edges. -/
def EdgesStay : Prop := ∀ h1 env e h2, S.OkHist (h1 ++ (env, .createEdge e) :: h2) →
  (S.step env (.createEdge e) (S.run h1 S.init)).2 = .ok (.bool true) → NoDelete h2 →
  ∀ env' l, S.ask env' .allEdge (S.run (h1 ++ (env, .createEdge e) :: h2) S.init) = .ok [.edges l] → e ∈ l

/-- C98, properties of vertices: after `set_properties` succeeded for the vertices of a query, each of them has the value, as long
as nothing is deleted and the property is not set again. -/
def VertexPropertiesStay (stored : Json → Json) : Prop := ∀ h1 env q n x vs v h2,
  S.OkHist (h1 ++ (env, .setProperties q n x) :: h2) →
  S.value env q (S.run h1 S.init) = .ok (.vertices vs) → v ∈ vs →
  (S.step env (.setProperties q n x) (S.run h1 S.init)).2 = .ok .unit → NoDelete h2 →
  Untouched n (fun i => ∃ y, i = .vertexProperty v.id n y) h2 →
  ∀ env' l, S.ask env' (.pipeProperty (.specificVertex [v.id]) (some n))
      (S.run (h1 ++ (env, .setProperties q n x) :: h2) S.init) = .ok l →
    ∃ t, l = [.vertexProperties [⟨⟨v.id, t⟩, [⟨n, stored x⟩]⟩]]

/-- C98, properties of edges that exist. -/
def EdgePropertiesStay (stored : Json → Json) : Prop := ∀ h1 env q n x es e h2,
  S.OkHist (h1 ++ (env, .setProperties q n x) :: h2) →
  S.value env q (S.run h1 S.init) = .ok (.edges es) → e ∈ es →
  S.value env (.specificEdge [e]) (S.run h1 S.init) = .ok (.edges [e]) →
  (S.step env (.setProperties q n x) (S.run h1 S.init)).2 = .ok .unit → NoDelete h2 →
  Untouched n (fun i => ∃ y, i = .edgeProperty e n y) h2 →
  ∀ env' l, S.ask env' (.pipeProperty (.specificEdge [e]) (some n))
      (S.run (h1 ++ (env, .setProperties q n x) :: h2) S.init) = .ok l →
    l = [.edgeProperties [⟨e, [⟨n, stored x⟩]⟩]]

end Store
end IndraDB
