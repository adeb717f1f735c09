import Verif.Model.Util
/-
Model of the messages of `proto/indradb.proto` (as the structs prost generates: a message field is an `Option`, a
`repeated` field a `Vec`, an enum field an `i32`) and of the conversions in `proto/src/converters.rs`. Names of the
messages are prefixed with `P`.
-/
namespace IndraDB

/-- `serde_json`'s `to_string` and `from_str`. No law is assumed: `from_str` refuses deeply nested values, and floats may
come back changed. Used in `proto/src/converters.rs` for `message Json` (`proto/indradb.proto:21-23`). -/
structure JsonText where
  print : Json → String
  parse : String → Option Json

/-- `ConversionError` (`proto/src/converters.rs:14-20`); the payloads of `Json` and `Uuid` are dropped. -/
inductive ConversionError where
  | json | uuid | validation (e : ValidationError) | noneField (name : String) | unexpectedResponseType
deriving DecidableEq

/-- Result of `try_into`. The conversions of `proto/src/converters.rs`. -/
abbrev ProtoRes (α : Type) := Except ConversionError α

/-- `VertexProperty` (`lib/src/models/properties.rs:7-13`). -/
structure VertexProperty where
  id : Uuid
  value : Json
deriving DecidableEq

/-- `EdgeProperty` (`lib/src/models/properties.rs:89`). -/
structure EdgeProperty where
  edge : Edge
  value : Json
deriving DecidableEq

/-! ### Messages -/

/-- `message Uuid` (`proto/indradb.proto:9-11`). -/
structure PUuid where
  value : Bytes
deriving DecidableEq

/-- `message Identifier` (proto/indradb.proto:16-18). -/
structure PIdentifier where
  value : String
deriving DecidableEq

/-- `message Json` (proto/indradb.proto:21-23). -/
structure PJson where
  value : String
deriving DecidableEq

/-- `message Edge` (proto/indradb.proto:30-37). -/
structure PEdge where
  outboundId : Option PUuid
  t : Option PIdentifier
  inboundId : Option PUuid
deriving DecidableEq

/-- `message Vertex` (proto/indradb.proto:43-48). -/
structure PVertex where
  id : Option PUuid
  t : Option PIdentifier
deriving DecidableEq

/-- `message Query` and its variants (proto/indradb.proto:51-196), with the variants' messages inlined. `unset`: no variant is set. -/
inductive PQuery where
  | unset
  | allVertex
  | rangeVertex (limit : UInt32) (t : Option PIdentifier) (startId : Option PUuid)
  | specificVertex (ids : List PUuid)
  | vertexWithPropertyPresence (name : Option PIdentifier)
  | vertexWithPropertyValue (name : Option PIdentifier) (value : Option PJson)
  | allEdge
  | specificEdge (edges : List PEdge)
  | edgeWithPropertyPresence (name : Option PIdentifier)
  | edgeWithPropertyValue (name : Option PIdentifier) (value : Option PJson)
  | pipe (inner : Option PQuery) (direction : Int32) (limit : UInt32) (t : Option PIdentifier)
  | pipeProperty (inner : Option PQuery) (name : Option PIdentifier)
  | pipeWithPropertyPresence (inner : Option PQuery) (name : Option PIdentifier) (exists_ : Bool)
  | pipeWithPropertyValue (inner : Option PQuery) (name : Option PIdentifier) (value : Option PJson) (equal : Bool)
  | incl (inner : Option PQuery)
  | count (inner : Option PQuery)

/-- `enum EdgeDirection` (proto/indradb.proto:233-236). -/
inductive PEdgeDirection where
  | outbound | inbound
deriving DecidableEq

/-- `message NamedProperty` (proto/indradb.proto:239-245). -/
structure PNamedProperty where
  name : Option PIdentifier
  value : Option PJson
deriving DecidableEq

/-- `message VertexProperty` (proto/indradb.proto:248-253). -/
structure PVertexProperty where
  id : Option PUuid
  value : Option PJson
deriving DecidableEq

/-- `message VertexProperties` (proto/indradb.proto:256-261). -/
structure PVertexProperties where
  vertex : Option PVertex
  props : List PNamedProperty
deriving DecidableEq

/-- `message EdgeProperty` (proto/indradb.proto:264-269). -/
structure PEdgeProperty where
  edge : Option PEdge
  value : Option PJson
deriving DecidableEq

/-- `message EdgeProperties` (proto/indradb.proto:272-277). -/
structure PEdgeProperties where
  edge : Option PEdge
  props : List PNamedProperty
deriving DecidableEq

/-- `message QueryOutputValue` (proto/indradb.proto:199-223), the `repeated` wrappers inlined. -/
inductive POutput where
  | unset
  | vertices (l : List PVertex)
  | edges (l : List PEdge)
  | count (n : Nat)
  | vertexProperties (l : List PVertexProperties)
  | edgeProperties (l : List PEdgeProperties)
deriving DecidableEq

/-- `message BulkInsertItem` (proto/indradb.proto:280-303). -/
inductive PBulkInsertItem where
  | unset
  | vertex (v : PVertex)
  | edge (e : PEdge)
  | vertexProperty (id : Option PUuid) (name : Option PIdentifier) (value : Option PJson)
  | edgeProperty (edge : Option PEdge) (name : Option PIdentifier) (value : Option PJson)
deriving DecidableEq

/-- `message IndexPropertyRequest` (proto/indradb.proto:306-308). -/
structure PIndexPropertyRequest where
  name : Option PIdentifier
deriving DecidableEq

/-- `message SetPropertiesRequest` (proto/indradb.proto:310-314). -/
structure PSetPropertiesRequest where
  q : Option PQuery
  name : Option PIdentifier
  value : Option PJson

/-- `message ExecutePluginRequest` (proto/indradb.proto:321-324). -/
structure PExecutePluginRequest where
  name : String
  arg : Option PJson
deriving DecidableEq

/-! ### To protobuf -/

/-- `Identifier`'s `to_string` (`lib/src/models/identifiers.rs`): the string with these bytes. The bytes of an identifier
are always UTF-8; the model's `Identifier` has others too, for which the result is meaningless. -/
def Identifier.toStr (i : Identifier) : String := (String.fromUTF8? ⟨i.bytes.toArray⟩).getD ""

section
variable (J : JsonText)

/-- `proto/src/converters.rs:70-76`. -/
def Uuid.toProto (u : Uuid) : PUuid := ⟨u.bytes⟩

/-- `proto/src/converters.rs:86-90`. -/
def Identifier.toProto (i : Identifier) : PIdentifier := ⟨i.toStr⟩

/-- `proto/src/converters.rs:100-106`. -/
def Json.toProto (v : Json) : PJson := ⟨J.print v⟩

/-- `proto/src/converters.rs:116-124`. -/
def Edge.toProto (e : Edge) : PEdge := ⟨some e.outboundId.toProto, some e.t.toProto, some e.inboundId.toProto⟩

/-- `proto/src/converters.rs:138-145`. -/
def Vertex.toProto (v : Vertex) : PVertex := ⟨some v.id.toProto, some v.t.toProto⟩

/-- `proto/src/converters.rs:423-430`. -/
def EdgeDirection.toProto : EdgeDirection → PEdgeDirection
  | .outbound => .outbound
  | .inbound => .inbound

/-- The enum's numbers (`proto/indradb.proto:233-236`), as written by prost's `set_direction`. -/
def PEdgeDirection.toI32 : PEdgeDirection → Int32
  | .outbound => 0
  | .inbound => 1

/-- prost's getter `direction()`: `EdgeDirection::try_from(n).unwrap_or_default()`.
Used in `proto/src/converters.rs` for `PipeQuery.direction` (`proto/indradb.proto`). -/
def PEdgeDirection.ofI32 (n : Int32) : PEdgeDirection := if n = 1 then .inbound else .outbound

/-- `proto/src/converters.rs:158-249`. -/
def Query.toProto : Query → PQuery
  | .allVertex => .allVertex
  | .rangeVertex limit t startId => .rangeVertex limit (t.map Identifier.toProto) (startId.map Uuid.toProto)
  | .specificVertex ids => .specificVertex (ids.map Uuid.toProto)
  | .vertexWithPropertyPresence name => .vertexWithPropertyPresence (some name.toProto)
  | .vertexWithPropertyValue name value => .vertexWithPropertyValue (some name.toProto) (some (value.toProto J))
  | .allEdge => .allEdge
  | .specificEdge edges => .specificEdge (edges.map Edge.toProto)
  | .edgeWithPropertyPresence name => .edgeWithPropertyPresence (some name.toProto)
  | .edgeWithPropertyValue name value => .edgeWithPropertyValue (some name.toProto) (some (value.toProto J))
  | .pipe inner d limit t => .pipe (some inner.toProto) d.toProto.toI32 limit (t.map Identifier.toProto)
  | .pipeProperty inner name => .pipeProperty (some inner.toProto) (name.map Identifier.toProto)
  | .pipeWithPropertyPresence inner name ex => .pipeWithPropertyPresence (some inner.toProto) (some name.toProto) ex
  | .pipeWithPropertyValue inner name value eq =>
    .pipeWithPropertyValue (some inner.toProto) (some name.toProto) (some (value.toProto J)) eq
  | .incl inner => .incl (some inner.toProto)
  | .count inner => .count (some inner.toProto)

/-- `proto/src/converters.rs:441-448`. -/
def NamedProperty.toProto (p : NamedProperty) : PNamedProperty := ⟨some p.name.toProto, some (p.value.toProto J)⟩

/-- `proto/src/converters.rs:461-468`. -/
def VertexProperty.toProto (p : VertexProperty) : PVertexProperty := ⟨some p.id.toProto, some (p.value.toProto J)⟩

/-- `proto/src/converters.rs:503-510`. -/
def EdgeProperty.toProto (p : EdgeProperty) : PEdgeProperty := ⟨some p.edge.toProto, some (p.value.toProto J)⟩

/-- `proto/src/converters.rs:481-488`. -/
def VertexProperties.toProto (p : VertexProperties) : PVertexProperties :=
  ⟨some p.vertex.toProto, p.props.map (NamedProperty.toProto J)⟩

/-- `proto/src/converters.rs:523-530`. -/
def EdgeProperties.toProto (p : EdgeProperties) : PEdgeProperties :=
  ⟨some p.edge.toProto, p.props.map (NamedProperty.toProto J)⟩

/-- `proto/src/converters.rs:359-385`. -/
def Output.toProto : Output → POutput
  | .vertices l => .vertices (l.map Vertex.toProto)
  | .edges l => .edges (l.map Edge.toProto)
  | .count n => .count n
  | .vertexProperties l => .vertexProperties (l.map (VertexProperties.toProto J))
  | .edgeProperties l => .edgeProperties (l.map (EdgeProperties.toProto J))

/-- `proto/src/converters.rs:545-569`. -/
def BulkInsertItem.toProto : BulkInsertItem → PBulkInsertItem
  | .vertex v => .vertex v.toProto
  | .edge e => .edge e.toProto
  | .vertexProperty id name value => .vertexProperty (some id.toProto) (some name.toProto) (some (value.toProto J))
  | .edgeProperty e name value => .edgeProperty (some e.toProto) (some name.toProto) (some (value.toProto J))

/-- `proto/src/converters.rs:611-619`, and the same struct built by hand in `proto/src/client.rs:182-186`. -/
def setPropertiesRequest (q : Query) (name : Identifier) (value : Json) : PSetPropertiesRequest :=
  ⟨some (q.toProto J), some name.toProto, some (value.toProto J)⟩

end

/-! ### From protobuf -/

/-- `required_field` (`proto/src/converters.rs:64-68`). -/
def requiredField {α : Type} (name : String) : Option α → ProtoRes α
  | some a => .ok a
  | none => .error (.noneField name)

/-- `iter.map(|x| x.try_into()).collect::<Result<Vec<_>, _>>()`. Used in `proto/src/converters.rs`. -/
def convList {α β : Type} (f : α → ProtoRes β) : List α → ProtoRes (List β)
  | [] => .ok []
  | a :: r => do
    let b ← f a
    let l ← convList f r
    return b :: l

/-- `option.map(|x| x.try_into()).transpose()`. Used in `proto/src/converters.rs`. -/
def convOpt {α β : Type} (f : α → ProtoRes β) : Option α → ProtoRes (Option β)
  | none => .ok none
  | some a => do
    let b ← f a
    return some b

section
variable (letter : Char → Bool) (J : JsonText)

/-- `proto/src/converters.rs:78-84`. -/
def PUuid.conv (u : PUuid) : ProtoRes Uuid :=
  match Uuid.ofBytes? u.value with
  | some u => .ok u
  | none => .error .uuid

/-- `proto/src/converters.rs:92-98`; `letter` is `char::is_alphanumeric`. -/
def PIdentifier.conv (i : PIdentifier) : ProtoRes Identifier :=
  match Identifier.new letter i.value with
  | .ok i => .ok i
  | .error e => .error (.validation e)

/-- `proto/src/converters.rs:108-114`. -/
def PJson.conv (v : PJson) : ProtoRes Json :=
  match J.parse v.value with
  | some v => .ok v
  | none => .error .json

/-- `proto/src/converters.rs:126-136`. -/
def PEdge.conv (e : PEdge) : ProtoRes Edge := do
  let outboundId ← (← requiredField "outbound_id" e.outboundId).conv
  let t ← (← requiredField "t" e.t).conv letter
  let inboundId ← (← requiredField "inbound_id" e.inboundId).conv
  return ⟨outboundId, t, inboundId⟩

/-- `proto/src/converters.rs:147-156`. -/
def PVertex.conv (v : PVertex) : ProtoRes Vertex := do
  let id ← (← requiredField "id" v.id).conv
  let t ← (← requiredField "t" v.t).conv letter
  return ⟨id, t⟩

/-- `proto/src/converters.rs:432-439`. -/
def PEdgeDirection.conv : PEdgeDirection → EdgeDirection
  | .outbound => .outbound
  | .inbound => .inbound

/-- `proto/src/converters.rs:251-357`, in the order in which the fields are looked at. -/
def PQuery.conv : PQuery → ProtoRes Query
  | .unset => .error (.noneField "query")
  | .allVertex => .ok .allVertex
  | .rangeVertex limit t startId => do
    let t ← convOpt (PIdentifier.conv letter) t
    let startId ← convOpt PUuid.conv startId
    return .rangeVertex limit t startId
  | .specificVertex ids => do
    let ids ← convList PUuid.conv ids
    return .specificVertex ids
  | .vertexWithPropertyPresence name => do
    let name ← requiredField "name" name
    return .vertexWithPropertyPresence (← name.conv letter)
  | .vertexWithPropertyValue name value => do
    let name ← requiredField "name" name
    let value ← requiredField "value" value
    return .vertexWithPropertyValue (← name.conv letter) (← value.conv J)
  | .allEdge => .ok .allEdge
  | .specificEdge edges => do
    let edges ← convList (PEdge.conv letter) edges
    return .specificEdge edges
  | .edgeWithPropertyPresence name => do
    let name ← requiredField "name" name
    return .edgeWithPropertyPresence (← name.conv letter)
  | .edgeWithPropertyValue name value => do
    let name ← requiredField "name" name
    let value ← requiredField "value" value
    return .edgeWithPropertyValue (← name.conv letter) (← value.conv J)
  | .pipe inner direction limit t => do
    let t ← convOpt (PIdentifier.conv letter) t
    match inner with
    | none => .error (.noneField "inner")
    | some inner => return .pipe (← inner.conv) (PEdgeDirection.ofI32 direction).conv limit t
  | .pipeProperty inner name => do
    match inner with
    | none => .error (.noneField "inner")
    | some inner => do
      let name ← convOpt (PIdentifier.conv letter) name
      return .pipeProperty (← inner.conv) name
  | .pipeWithPropertyPresence inner name ex => do
    match inner with
    | none => .error (.noneField "inner")
    | some inner => do
      let name ← requiredField "name" name
      let inner ← inner.conv
      return .pipeWithPropertyPresence inner (← name.conv letter) ex
  | .pipeWithPropertyValue inner name value eq => do
    match inner with
    | none => .error (.noneField "inner")
    | some inner => do
      let name ← requiredField "name" name
      let value ← requiredField "value" value
      let inner ← inner.conv
      return .pipeWithPropertyValue inner (← name.conv letter) (← value.conv J) eq
  | .incl inner => do
    match inner with
    | none => .error (.noneField "inner")
    | some inner => return .incl (← inner.conv)
  | .count inner => do
    match inner with
    | none => .error (.noneField "inner")
    | some inner => return .count (← inner.conv)

/-- `proto/src/converters.rs:450-459`. -/
def PNamedProperty.conv (p : PNamedProperty) : ProtoRes NamedProperty := do
  let name ← (← requiredField "name" p.name).conv letter
  let value ← (← requiredField "value" p.value).conv J
  return ⟨name, value⟩

/-- `proto/src/converters.rs:470-479`. -/
def PVertexProperty.conv (p : PVertexProperty) : ProtoRes VertexProperty := do
  let id ← (← requiredField "id" p.id).conv
  let value ← (← requiredField "value" p.value).conv J
  return ⟨id, value⟩

/-- `proto/src/converters.rs:512-521`. -/
def PEdgeProperty.conv (p : PEdgeProperty) : ProtoRes EdgeProperty := do
  let edge ← (← requiredField "edge" p.edge).conv letter
  let value ← (← requiredField "value" p.value).conv J
  return ⟨edge, value⟩

/-- `proto/src/converters.rs:490-501`: the properties are converted first, but a missing or bad vertex is reported first. -/
def PVertexProperties.conv (p : PVertexProperties) : ProtoRes VertexProperties := do
  let props := convList (PNamedProperty.conv letter J) p.props
  let vertex ← (← requiredField "vertex" p.vertex).conv letter
  return ⟨vertex, ← props⟩

/-- `proto/src/converters.rs:532-543`. -/
def PEdgeProperties.conv (p : PEdgeProperties) : ProtoRes EdgeProperties := do
  let props := convList (PNamedProperty.conv letter J) p.props
  let edge ← (← requiredField "edge" p.edge).conv letter
  return ⟨edge, ← props⟩

/-- `proto/src/converters.rs:387-421`. -/
def POutput.conv : POutput → ProtoRes Output
  | .unset => .error (.noneField "value")
  | .vertices l => do return .vertices (← convList (PVertex.conv letter) l)
  | .edges l => do return .edges (← convList (PEdge.conv letter) l)
  | .count n => .ok (.count n)
  | .vertexProperties l => do return .vertexProperties (← convList (PVertexProperties.conv letter J) l)
  | .edgeProperties l => do return .edgeProperties (← convList (PEdgeProperties.conv letter J) l)

/-- `proto/src/converters.rs:571-589`. -/
def PBulkInsertItem.conv : PBulkInsertItem → ProtoRes BulkInsertItem
  | .unset => .error (.noneField "item")
  | .vertex v => do return .vertex (← v.conv letter)
  | .edge e => do return .edge (← e.conv letter)
  | .vertexProperty id name value => do
    let id ← (← requiredField "id" id).conv
    let name ← (← requiredField "name" name).conv letter
    let value ← (← requiredField "value" value).conv J
    return .vertexProperty id name value
  | .edgeProperty e name value => do
    let e ← (← requiredField "edge" e).conv letter
    let name ← (← requiredField "name" name).conv letter
    let value ← (← requiredField "value" value).conv J
    return .edgeProperty e name value

/-- `proto/src/converters.rs:591-598`. -/
def PIndexPropertyRequest.conv (r : PIndexPropertyRequest) : ProtoRes Identifier := do
  (← requiredField "name" r.name).conv letter

/-- `proto/src/converters.rs:600-609`. -/
def PSetPropertiesRequest.conv (r : PSetPropertiesRequest) : ProtoRes (Query × Identifier × Json) := do
  let q ← (← requiredField "q" r.q).conv letter J
  let name ← (← requiredField "name" r.name).conv letter
  let value ← (← requiredField "value" r.value).conv J
  return (q, name, value)

end
end IndraDB
