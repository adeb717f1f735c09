import Verif.Model.Proto
/-
Specification for the protobuf layer: which messages stand for which values.
-/
namespace IndraDB

/-- Made of letters, digits, `-` and `_` only (`letter` is `char::is_alphanumeric`). The model's `Identifier` already
has at most 255 bytes. -/
def Identifier.Valid (letter : Char → Bool) (i : Identifier) : Prop :=
  ∃ s : String, i.bytes = strBytes s ∧ ∀ c ∈ s.toList, c = '-' ∨ c = '_' ∨ letter c = true

/-- The value survives printing and parsing. -/
def JsonText.Faithful (J : JsonText) (v : Json) : Prop := J.parse (J.print v) = some v

/-- All identifiers of the query satisfy `I` and all its JSON values `V`, at any depth. -/
def Query.All (I : Identifier → Prop) (V : Json → Prop) : Query → Prop
  | .allVertex | .allEdge | .specificVertex _ => True
  | .rangeVertex _ t _ => ∀ x, t = some x → I x
  | .specificEdge es => ∀ e ∈ es, I e.t
  | .vertexWithPropertyPresence n | .edgeWithPropertyPresence n => I n
  | .vertexWithPropertyValue n v | .edgeWithPropertyValue n v => I n ∧ V v
  | .pipe q _ _ t => q.All I V ∧ ∀ x, t = some x → I x
  | .pipeProperty q n => q.All I V ∧ ∀ x, n = some x → I x
  | .pipeWithPropertyPresence q n _ => q.All I V ∧ I n
  | .pipeWithPropertyValue q n v _ => q.All I V ∧ I n ∧ V v
  | .incl q | .count q => q.All I V

/-- The same for an output value. -/
def Output.All (I : Identifier → Prop) (V : Json → Prop) : Output → Prop
  | .vertices l => ∀ v ∈ l, I v.t
  | .edges l => ∀ e ∈ l, I e.t
  | .count _ => True
  | .vertexProperties l => ∀ p ∈ l, I p.vertex.t ∧ ∀ x ∈ p.props, I x.name ∧ V x.value
  | .edgeProperties l => ∀ p ∈ l, I p.edge.t ∧ ∀ x ∈ p.props, I x.name ∧ V x.value

/-- The same for a bulk item. -/
def BulkInsertItem.All (I : Identifier → Prop) (V : Json → Prop) : BulkInsertItem → Prop
  | .vertex v => I v.t
  | .edge e => I e.t
  | .vertexProperty _ n v => I n ∧ V v
  | .edgeProperty e n v => I e.t ∧ I n ∧ V v

/-- The optional field holds something for `b`, and is present. -/
def Field {α β : Type} (R : α → β → Prop) (a : Option α) (b : β) : Prop := ∃ x, a = some x ∧ R x b

/-- An optional field that may be absent. -/
inductive OptField {α β : Type} (R : α → β → Prop) : Option α → Option β → Prop
  | none : OptField R none none
  | some {a b} : R a b → OptField R (some a) (some b)

/-- A `repeated` field: item by item, in order. -/
inductive Repeated {α β : Type} (R : α → β → Prop) : List α → List β → Prop
  | nil : Repeated R [] []
  | cons {a b r s} : R a b → Repeated R r s → Repeated R (a :: r) (b :: s)

section
variable (letter : Char → Bool) (J : JsonText)

/-- Exactly 16 bytes, those of the id. -/
def PUuid.Means (m : PUuid) (u : Uuid) : Prop := m.value = u.bytes

/-- At most 255 bytes, of letters, digits, `-` and `_`. -/
def PIdentifier.Means (m : PIdentifier) (i : Identifier) : Prop :=
  strBytes m.value = i.bytes ∧ ∀ c ∈ m.value.toList, c = '-' ∨ c = '_' ∨ letter c = true

/-- JSON text that parses. -/
def PJson.Means (m : PJson) (v : Json) : Prop := J.parse m.value = some v

structure PEdge.Means (m : PEdge) (e : Edge) : Prop where
  outboundId : Field PUuid.Means m.outboundId e.outboundId
  t : Field (PIdentifier.Means letter) m.t e.t
  inboundId : Field PUuid.Means m.inboundId e.inboundId

structure PVertex.Means (m : PVertex) (v : Vertex) : Prop where
  id : Field PUuid.Means m.id v.id
  t : Field (PIdentifier.Means letter) m.t v.t

/-- Which query a message stands for. There is no case for a message without a variant, nor for one whose `inner`,
`name` or `value` is missing where it is needed. A direction other than 1 is taken as outbound. -/
inductive PQuery.Means : PQuery → Query → Prop
  | allVertex : Means .allVertex .allVertex
  | rangeVertex {limit t t' s s'} : OptField (PIdentifier.Means letter) t t' → OptField PUuid.Means s s' →
    Means (.rangeVertex limit t s) (.rangeVertex limit t' s')
  | specificVertex {l l'} : Repeated PUuid.Means l l' → Means (.specificVertex l) (.specificVertex l')
  | vertexWithPropertyPresence {n n'} : Field (PIdentifier.Means letter) n n' →
    Means (.vertexWithPropertyPresence n) (.vertexWithPropertyPresence n')
  | vertexWithPropertyValue {n n' v v'} : Field (PIdentifier.Means letter) n n' → Field (PJson.Means J) v v' →
    Means (.vertexWithPropertyValue n v) (.vertexWithPropertyValue n' v')
  | allEdge : Means .allEdge .allEdge
  | specificEdge {l l'} : Repeated (PEdge.Means letter) l l' → Means (.specificEdge l) (.specificEdge l')
  | edgeWithPropertyPresence {n n'} : Field (PIdentifier.Means letter) n n' →
    Means (.edgeWithPropertyPresence n) (.edgeWithPropertyPresence n')
  | edgeWithPropertyValue {n n' v v'} : Field (PIdentifier.Means letter) n n' → Field (PJson.Means J) v v' →
    Means (.edgeWithPropertyValue n v) (.edgeWithPropertyValue n' v')
  | pipe {i i' d limit t t'} : Means i i' → OptField (PIdentifier.Means letter) t t' →
    Means (.pipe (some i) d limit t) (.pipe i' (if d = 1 then .inbound else .outbound) limit t')
  | pipeProperty {i i' n n'} : Means i i' → OptField (PIdentifier.Means letter) n n' →
    Means (.pipeProperty (some i) n) (.pipeProperty i' n')
  | pipeWithPropertyPresence {i i' n n' ex} : Means i i' → Field (PIdentifier.Means letter) n n' →
    Means (.pipeWithPropertyPresence (some i) n ex) (.pipeWithPropertyPresence i' n' ex)
  | pipeWithPropertyValue {i i' n n' v v' eq} : Means i i' → Field (PIdentifier.Means letter) n n' →
    Field (PJson.Means J) v v' → Means (.pipeWithPropertyValue (some i) n v eq) (.pipeWithPropertyValue i' n' v' eq)
  | incl {i i'} : Means i i' → Means (.incl (some i)) (.incl i')
  | count {i i'} : Means i i' → Means (.count (some i)) (.count i')

structure PNamedProperty.Means (m : PNamedProperty) (p : NamedProperty) : Prop where
  name : Field (PIdentifier.Means letter) m.name p.name
  value : Field (PJson.Means J) m.value p.value

structure PVertexProperty.Means (m : PVertexProperty) (p : VertexProperty) : Prop where
  id : Field PUuid.Means m.id p.id
  value : Field (PJson.Means J) m.value p.value

structure PEdgeProperty.Means (m : PEdgeProperty) (p : EdgeProperty) : Prop where
  edge : Field (PEdge.Means letter) m.edge p.edge
  value : Field (PJson.Means J) m.value p.value

structure PVertexProperties.Means (m : PVertexProperties) (p : VertexProperties) : Prop where
  vertex : Field (PVertex.Means letter) m.vertex p.vertex
  props : Repeated (PNamedProperty.Means letter J) m.props p.props

structure PEdgeProperties.Means (m : PEdgeProperties) (p : EdgeProperties) : Prop where
  edge : Field (PEdge.Means letter) m.edge p.edge
  props : Repeated (PNamedProperty.Means letter J) m.props p.props

inductive POutput.Means : POutput → Output → Prop
  | vertices {l l'} : Repeated (PVertex.Means letter) l l' → Means (.vertices l) (.vertices l')
  | edges {l l'} : Repeated (PEdge.Means letter) l l' → Means (.edges l) (.edges l')
  | count {n} : Means (.count n) (.count n)
  | vertexProperties {l l'} : Repeated (PVertexProperties.Means letter J) l l' →
    Means (.vertexProperties l) (.vertexProperties l')
  | edgeProperties {l l'} : Repeated (PEdgeProperties.Means letter J) l l' →
    Means (.edgeProperties l) (.edgeProperties l')

inductive PBulkInsertItem.Means : PBulkInsertItem → BulkInsertItem → Prop
  | vertex {v v'} : PVertex.Means letter v v' → Means (.vertex v) (.vertex v')
  | edge {e e'} : PEdge.Means letter e e' → Means (.edge e) (.edge e')
  | vertexProperty {i i' n n' v v'} : Field PUuid.Means i i' → Field (PIdentifier.Means letter) n n' →
    Field (PJson.Means J) v v' → Means (.vertexProperty i n v) (.vertexProperty i' n' v')
  | edgeProperty {e e' n n' v v'} : Field (PEdge.Means letter) e e' → Field (PIdentifier.Means letter) n n' →
    Field (PJson.Means J) v v' → Means (.edgeProperty e n v) (.edgeProperty e' n' v')

structure PSetPropertiesRequest.Means (m : PSetPropertiesRequest) (r : Query × Identifier × Json) : Prop where
  q : Field (PQuery.Means letter J) m.q r.1
  name : Field (PIdentifier.Means letter) m.name r.2.1
  value : Field (PJson.Means J) m.value r.2.2

end

/-- The `inner` field of a query message. -/
def PQuery.inner : PQuery → Option PQuery
  | .pipe i _ _ _ => i
  | .pipeProperty i _ => i
  | .pipeWithPropertyPresence i _ _ => i
  | .pipeWithPropertyValue i _ _ _ => i
  | .incl i => i
  | .count i => i
  | _ => none

/-- `a` is a message somewhere inside `b` (or `b` itself). -/
inductive PQuery.Inside : PQuery → PQuery → Prop
  | refl {a} : Inside a a
  | step {a b c} : Inside a b → c.inner = some b → Inside a c

/-- A required field of the message itself (not of the messages inside it) is missing. -/
inductive PQuery.MissingField : PQuery → Prop
  | unset : MissingField .unset
  | presenceV : MissingField (.vertexWithPropertyPresence none)
  | presenceE : MissingField (.edgeWithPropertyPresence none)
  | valueVName {v} : MissingField (.vertexWithPropertyValue none v)
  | valueVValue {n} : MissingField (.vertexWithPropertyValue n none)
  | valueEName {v} : MissingField (.edgeWithPropertyValue none v)
  | valueEValue {n} : MissingField (.edgeWithPropertyValue n none)
  | pipe {d l t} : MissingField (.pipe none d l t)
  | pipeProperty {n} : MissingField (.pipeProperty none n)
  | pipePresenceInner {n ex} : MissingField (.pipeWithPropertyPresence none n ex)
  | pipePresenceName {i ex} : MissingField (.pipeWithPropertyPresence i none ex)
  | pipeValueInner {n v eq} : MissingField (.pipeWithPropertyValue none n v eq)
  | pipeValueName {i v eq} : MissingField (.pipeWithPropertyValue i none v eq)
  | pipeValueValue {i n eq} : MissingField (.pipeWithPropertyValue i n none eq)
  | incl : MissingField (.incl none)
  | count : MissingField (.count none)

end IndraDB
