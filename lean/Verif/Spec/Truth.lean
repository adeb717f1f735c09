import Verif.Spec.Observe
/-
When is a reply true? Everything in it can be confirmed by asking for it on its own.
-/
namespace IndraDB

/-- The listed properties are properties the owner has, under `get : name ↦ value`, no name twice, and there is one. -/
def PropsTrue (get : Identifier → Option Json) (l : List NamedProperty) : Prop :=
  l ≠ [] ∧ l.Pairwise (fun a b => a.name ≠ b.name) ∧ ∀ p ∈ l, get p.name = some p.value

/-- The vertices in the output exist with the types shown, and the properties shown with them are theirs. -/
def Output.VerticesTrue (g : Graph) : Output → Prop
  | .vertices vs => ∀ v ∈ vs, g.vertex v.id = some v.t
  | .vertexProperties l => ∀ x ∈ l, g.vertex x.vertex.id = some x.vertex.t ∧ PropsTrue (g.vprop x.vertex.id) x.props
  | _ => True

/-- The edges in the output exist, and the properties shown with them are theirs. -/
def Output.EdgesTrue (g : Graph) : Output → Prop
  | .edges es => ∀ e ∈ es, g.edge e = true
  | .edgeProperties l => ∀ x ∈ l, g.edge x.edge = true ∧ PropsTrue (g.eprop x.edge) x.props
  | _ => True

/-- The query itself and every query it is built on. -/
def Query.parts : Query → List Query
  | .pipe i d l t => .pipe i d l t :: i.parts
  | .pipeProperty i n => .pipeProperty i n :: i.parts
  | .pipeWithPropertyPresence i n k => .pipeWithPropertyPresence i n k :: i.parts
  | .pipeWithPropertyValue i n v k => .pipeWithPropertyValue i n v k :: i.parts
  | .incl i => .incl i :: i.parts
  | .count i => .count i :: i.parts
  | q => [q]

/-- No part of the query lists edges by a property they have. -/
def Query.NoEdgePresence (q : Query) : Prop := ∀ p ∈ q.parts, ∀ n, p ≠ .edgeWithPropertyPresence n

/-- No part of the query lists edges by a property or by its value. -/
def Query.NoEdgeLookup (q : Query) : Prop :=
  ∀ p ∈ q.parts, ∀ n, p ≠ .edgeWithPropertyPresence n ∧ ∀ v, p ≠ .edgeWithPropertyValue n v

namespace Store
variable (S : Store)

/-- C84 in state `s`: whatever the query, every one of its outputs (those of its includes, too) is true of the contents
seen by asking for single things (with hash iteration orders `look`); as far as edges go, for queries with `P`. -/
def RepliesTrueAt (P : Query → Prop) (s : S.State) : Prop := ∀ env look q os, S.ask env q s = .ok os →
  ∀ o ∈ os, o.VerticesTrue (S.seen look s) ∧ (P q → o.EdgesTrue (S.seen look s))

/-- C84 in every reachable state. -/
def RepliesTrue (P : Query → Prop) : Prop := ∀ s, S.Reach s → S.RepliesTrueAt P s

end Store
end IndraDB
