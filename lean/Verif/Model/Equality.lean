import Verif.Model.Query
import Verif.Model.Json
/-
`==` and `Hash` of what the API takes and returns: the `PartialEq`, `Eq` and `Hash` instances of `lib/src/models`.
-/
namespace IndraDB

/-- `PartialEq for Vec<T>` (std): same length, equal elements. Used by the derived instances in
`lib/src/models/properties.rs:48,68` and `lib/src/models/queries.rs:716`. -/
def vecEq {α : Type} (eq : α → α → Bool) : List α → List α → Bool
  | [], [] => true
  | a :: l, b :: m => eq a b && vecEq eq l m
  | _, _ => false

/-- `PartialEq for Vertex` (`lib/src/models/vertices.rs:42-46`): the type is not compared. -/
def Vertex.eq (a b : Vertex) : Bool := a.id = b.id

/-- `Hash for Vertex` (`lib/src/models/vertices.rs:48-52`): what is fed to the hasher. The bytes of the id stand for the
calls `Uuid::hash` makes. -/
def Vertex.hashed (a : Vertex) : Bytes := a.id.bytes

/-- Derived `PartialEq for NamedProperty` (`lib/src/models/properties.rs:27-34`). -/
def NamedProperty.eq (a b : NamedProperty) : Bool := a.name = b.name && a.value.eq b.value

/-- Derived `PartialEq for VertexProperties` (`lib/src/models/properties.rs:48-55`). -/
def VertexProperties.eq (a b : VertexProperties) : Bool := a.vertex.eq b.vertex && vecEq NamedProperty.eq a.props b.props

/-- Derived `PartialEq for EdgeProperties` (`lib/src/models/properties.rs:68-75`). -/
def EdgeProperties.eq (a b : EdgeProperties) : Bool := a.edge = b.edge && vecEq NamedProperty.eq a.props b.props

/-- Derived `PartialEq for QueryOutputValue` (`lib/src/models/queries.rs:716-728`). -/
def Output.eq : Output → Output → Bool
  | .vertices l, .vertices m => vecEq Vertex.eq l m
  | .edges l, .edges m => vecEq (fun a b : Edge => decide (a = b)) l m
  | .count n, .count m => n = m
  | .vertexProperties l, .vertexProperties m => vecEq VertexProperties.eq l m
  | .edgeProperties l, .edgeProperties m => vecEq EdgeProperties.eq l m
  | _, _ => false

/-- Derived `PartialEq for BulkInsertItem` (`lib/src/models/bulk_insert.rs:6-18`). -/
def BulkInsertItem.eq : BulkInsertItem → BulkInsertItem → Bool
  | .vertex a, .vertex b => a.eq b
  | .edge a, .edge b => a = b
  | .vertexProperty i n v, .vertexProperty j m w => i = j && n = m && v.eq w
  | .edgeProperty i n v, .edgeProperty j m w => i = j && n = m && v.eq w
  | _, _ => false

/-- Derived `PartialEq for Query` (`lib/src/models/queries.rs:65-101`) and for the query structs in it. -/
def Query.eq : Query → Query → Bool
  | .allVertex, .allVertex => true
  | .rangeVertex l t s, .rangeVertex l' t' s' => l = l' && t = t' && s = s'
  | .specificVertex ids, .specificVertex ids' => vecEq (fun a b : Uuid => decide (a = b)) ids ids'
  | .vertexWithPropertyPresence n, .vertexWithPropertyPresence n' => n = n'
  | .vertexWithPropertyValue n v, .vertexWithPropertyValue n' v' => n = n' && v.eq v'
  | .allEdge, .allEdge => true
  | .specificEdge es, .specificEdge es' => vecEq (fun a b : Edge => decide (a = b)) es es'
  | .edgeWithPropertyPresence n, .edgeWithPropertyPresence n' => n = n'
  | .edgeWithPropertyValue n v, .edgeWithPropertyValue n' v' => n = n' && v.eq v'
  | .pipe i d l t, .pipe i' d' l' t' => i.eq i' && d = d' && l = l' && t = t'
  | .pipeProperty i n, .pipeProperty i' n' => i.eq i' && n = n'
  | .pipeWithPropertyPresence i n k, .pipeWithPropertyPresence i' n' k' => i.eq i' && n = n' && k = k'
  | .pipeWithPropertyValue i n v k, .pipeWithPropertyValue i' n' v' k' => i.eq i' && n = n' && v.eq v' && k = k'
  | .incl i, .incl i' => i.eq i'
  | .count i, .count i' => i.eq i'
  | _, _ => false

end IndraDB
