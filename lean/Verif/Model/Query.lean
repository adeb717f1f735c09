import Verif.Model.Types
/-
Model of `lib/src/models/queries.rs`.
-/
namespace IndraDB

/-- `EdgeDirection` (`lib/src/models/queries.rs:36-41`). -/
inductive EdgeDirection where
  | outbound | inbound
deriving DecidableEq

/-- `FromStr for EdgeDirection` (`lib/src/models/queries.rs:43-53`). -/
def EdgeDirection.fromStr (s : String) : Except ValidationError EdgeDirection :=
  if s = "outbound" then .ok .outbound else if s = "inbound" then .ok .inbound else .error .invalidValue

/-- `From<EdgeDirection> for String` (`lib/src/models/queries.rs:55-62`). -/
def EdgeDirection.toStr : EdgeDirection → String
  | .outbound => "outbound"
  | .inbound => "inbound"

/-- `Query` (`lib/src/models/queries.rs:66-101`) with the query structs (244-694) inlined; their fields are public. -/
inductive Query where
  | allVertex
  | rangeVertex (limit : UInt32) (t : Option Identifier) (startId : Option Uuid)
  | specificVertex (ids : List Uuid)
  | vertexWithPropertyPresence (name : Identifier)
  | vertexWithPropertyValue (name : Identifier) (value : Json)
  | allEdge
  | specificEdge (edges : List Edge)
  | edgeWithPropertyPresence (name : Identifier)
  | edgeWithPropertyValue (name : Identifier) (value : Json)
  | pipe (inner : Query) (direction : EdgeDirection) (limit : UInt32) (t : Option Identifier)
  | pipeProperty (inner : Query) (name : Option Identifier)
  | pipeWithPropertyPresence (inner : Query) (name : Identifier) (exists_ : Bool)
  | pipeWithPropertyValue (inner : Query) (name : Identifier) (value : Json) (equal : Bool)
  | incl (inner : Query)
  | count (inner : Query)
deriving DecidableEq

/-- `QueryOutputValue` (`lib/src/models/queries.rs:717-728`). `Count(u64)`: a natural number (a length). -/
inductive Output where
  | vertices (l : List Vertex)
  | edges (l : List Edge)
  | count (n : Nat)
  | vertexProperties (l : List VertexProperties)
  | edgeProperties (l : List EdgeProperties)
deriving DecidableEq

/-- The variant of a `QueryOutputValue`. The variants at `lib/src/models/queries.rs:717-728`. -/
inductive Kind where
  | vertices | edges | count | vertexProperties | edgeProperties
deriving DecidableEq

/-- Which of the variants of `lib/src/models/queries.rs:717-728` an output value is. -/
def Output.kind : Output → Kind
  | .vertices _ => .vertices
  | .edges _ => .edges
  | .count _ => .count
  | .vertexProperties _ => .vertexProperties
  | .edgeProperties _ => .edgeProperties

namespace Query

/-- `Query::output_len` (`lib/src/models/queries.rs:107-125`). Only used as a capacity. -/
def outputLen : Query → Nat
  | .pipe i _ _ _ => i.outputLen
  | .pipeProperty i _ => i.outputLen
  | .pipeWithPropertyPresence i _ _ => i.outputLen
  | .pipeWithPropertyValue i _ _ _ => i.outputLen
  | .incl i => 1 + i.outputLen
  | _ => 1

/-- `Query::output_type` (`lib/src/models/queries.rs:130-152`); note that a pipe reports the type of its *inner* query. -/
def outputType : Query → Except ValidationError Kind
  | .allVertex | .rangeVertex .. | .specificVertex _ | .vertexWithPropertyPresence _ | .vertexWithPropertyValue .. =>
    .ok .vertices
  | .allEdge | .specificEdge _ | .edgeWithPropertyPresence _ | .edgeWithPropertyValue .. => .ok .edges
  | .count _ => .ok .count
  | .pipe i _ _ _ => i.outputType
  | .pipeProperty i _ => match i.outputType with
    | .ok .vertices => .ok .vertexProperties
    | .ok .edges => .ok .edgeProperties
    | .ok _ => .error .innerQuery
    | .error e => .error e
  | .pipeWithPropertyPresence i _ _ => i.outputType
  | .pipeWithPropertyValue i _ _ _ => i.outputType
  | .incl i => i.outputType

/-- The check shared by the pipe constructors (`lib/src/models/queries.rs:497-500, 555-558, 595-598, 636-639`). -/
def checkNestable (inner : Query) : Except ValidationError Unit :=
  match inner.outputType with
  | .ok .vertices | .ok .edges => .ok ()
  | .ok _ => .error .innerQuery
  | .error e => .error e

/-- `PipeQuery::new` (`lib/src/models/queries.rs:496-508`), also `outbound()`/`inbound()` (158-165). -/
def newPipe (inner : Query) (d : EdgeDirection) : Except ValidationError Query :=
  (checkNestable inner).map (fun _ => .pipe inner d 4294967295 none)

/-- `PipePropertyQuery::new` (`lib/src/models/queries.rs:554-560`), also `properties()` (210-212). -/
def newPipeProperty (inner : Query) : Except ValidationError Query :=
  (checkNestable inner).map (fun _ => .pipeProperty inner none)

/-- `PipeWithPropertyPresenceQuery::new` (`lib/src/models/queries.rs:594-604`). -/
def newPipeWithPropertyPresence (inner : Query) (name : Identifier) (ex : Bool) : Except ValidationError Query :=
  (checkNestable inner).map (fun _ => .pipeWithPropertyPresence inner name ex)

/-- `PipeWithPropertyValueQuery::new` (`lib/src/models/queries.rs:630-646`). -/
def newPipeWithPropertyValue (inner : Query) (name : Identifier) (value : Json) (eq : Bool) :
    Except ValidationError Query :=
  (checkNestable inner).map (fun _ => .pipeWithPropertyValue inner name value eq)

/-- `CountQuery::new` (`lib/src/models/queries.rs:703-712`). -/
def newCount (inner : Query) : Except ValidationError Query :=
  match inner.outputType with
  | .ok .count => .error .innerQuery
  | .ok _ => .ok (.count inner)
  | .error e => .error e

/-- `if let Query::Include(_) = *q.inner` (`lib/src/database.rs:484, 543, 612, 651, 685`). -/
def isInclude : Query → Bool
  | .incl _ => true
  | _ => false

end Query
end IndraDB
