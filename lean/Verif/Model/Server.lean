import Verif.Model.Proto
import Verif.Spec.Store
/-
Model of the gRPC server (`proto/src/server.rs`), the client (`proto/src/client.rs`) and of what lies between them: prost
encodes messages, and refuses to decode messages nested more than 100 levels deep; tonic refuses messages longer than 4
MiB (its defaults; the repository does not change them). A failing connection is not modelled, except that the stream of a
bulk insertion may break. The server works on any datastore, given as a `Store`.
-/
namespace IndraDB

/-! ### Message sizes and depths

prost's encoding: a field of a scalar type is left out if it has its default value; a field is a one byte tag (all field
numbers are below 16) followed by a varint, or by a varint length and the contents. -/

/-- Number of bytes of a varint: 7 bits per byte.
The encoding of the messages of `proto/indradb.proto`, done by prost. -/
def varintLen (n : Nat) : Nat := if n < 128 then 1 else 1 + varintLen (n / 128)
termination_by n
decreasing_by omega

/-- A length-delimited field with contents of `n` bytes.
The encoding of the messages of `proto/indradb.proto`, done by prost. -/
def lenField (n : Nat) : Nat := 1 + varintLen n + n

/-- A `string` or `bytes` field. The encoding of the messages of `proto/indradb.proto`, done by prost. -/
def bytesField (n : Nat) : Nat := if n = 0 then 0 else lenField n

/-- An integer field. The encoding of the messages of `proto/indradb.proto`, done by prost. -/
def intField (n : Nat) : Nat := if n = 0 then 0 else 1 + varintLen n

/-- A `bool` field. The encoding of the messages of `proto/indradb.proto`, done by prost. -/
def boolField (b : Bool) : Nat := if b then 2 else 0

/-- An optional message field. The encoding of the messages of `proto/indradb.proto`, done by prost. -/
def msgField {α : Type} (size : α → Nat) : Option α → Nat
  | none => 0
  | some a => lenField (size a)

/-- A repeated message field. The encoding of the messages of `proto/indradb.proto`, done by prost. -/
def repField {α : Type} (size : α → Nat) : List α → Nat
  | [] => 0
  | a :: r => lenField (size a) + repField size r

/-- Encoded length of `message Uuid` (`proto/indradb.proto:9-12`). -/
def PUuid.size (u : PUuid) : Nat := bytesField u.value.length
/-- Encoded length of `message Identifier` (`proto/indradb.proto:16-18`). -/
def PIdentifier.size (i : PIdentifier) : Nat := bytesField (strBytes i.value).length
/-- Encoded length of `message Json` (`proto/indradb.proto:21-23`). -/
def PJson.size (v : PJson) : Nat := bytesField (strBytes v.value).length
/-- Encoded length of `message Edge` (`proto/indradb.proto:30-37`). -/
def PEdge.size (e : PEdge) : Nat :=
  msgField PUuid.size e.outboundId + msgField PIdentifier.size e.t + msgField PUuid.size e.inboundId
/-- Encoded length of `message Vertex` (`proto/indradb.proto:43-48`). -/
def PVertex.size (v : PVertex) : Nat := msgField PUuid.size v.id + msgField PIdentifier.size v.t

/-- The varint of an `int32` or enum field: negative numbers are sign-extended to 64 bits.
The encoding of the messages of `proto/indradb.proto`, done by prost. -/
def i32Field (n : Int32) : Nat := intField (if n.toInt < 0 then (2^64 + n.toInt).toNat else n.toInt.toNat)

/-- `proto/indradb.proto:51-196`. -/
def PQuery.size : PQuery → Nat
  | .unset => 0
  | .allVertex | .allEdge => lenField 0
  | .rangeVertex limit t s => lenField (intField limit.toNat + msgField PIdentifier.size t + msgField PUuid.size s)
  | .specificVertex l => lenField (repField PUuid.size l)
  | .vertexWithPropertyPresence n | .edgeWithPropertyPresence n => lenField (msgField PIdentifier.size n)
  | .vertexWithPropertyValue n v | .edgeWithPropertyValue n v =>
    lenField (msgField PIdentifier.size n + msgField PJson.size v)
  | .specificEdge l => lenField (repField PEdge.size l)
  | .pipe i d limit t => lenField ((match i with | none => 0 | some i => lenField i.size) + i32Field d +
      intField limit.toNat + msgField PIdentifier.size t)
  | .pipeProperty i n => lenField ((match i with | none => 0 | some i => lenField i.size) + msgField PIdentifier.size n)
  | .pipeWithPropertyPresence i n ex =>
    lenField ((match i with | none => 0 | some i => lenField i.size) + msgField PIdentifier.size n + boolField ex)
  | .pipeWithPropertyValue i n v eq =>
    lenField ((match i with | none => 0 | some i => lenField i.size) + msgField PIdentifier.size n +
      msgField PJson.size v + boolField eq)
  | .incl i => lenField (match i with | none => 0 | some i => lenField i.size)
  | .count i => lenField (match i with | none => 0 | some i => lenField i.size)

/-- Levels of messages below this one. The message of a variant (`PipeQuery` etc., `Empty` for the queries without
arguments) is one level, and its fields are below it. `proto/indradb.proto:51-196`. -/
def PQuery.depth : PQuery → Nat
  | .unset => 0
  | .allVertex | .allEdge => 1
  | .rangeVertex _ t s => if t.isNone ∧ s.isNone then 1 else 2
  | .specificVertex l => if l.isEmpty then 1 else 2
  | .vertexWithPropertyPresence n | .edgeWithPropertyPresence n => if n.isNone then 1 else 2
  | .vertexWithPropertyValue n v | .edgeWithPropertyValue n v => if n.isNone ∧ v.isNone then 1 else 2
  | .specificEdge l => if l.isEmpty then 1 else
      if l.all (fun e => e.outboundId.isNone && e.t.isNone && e.inboundId.isNone) then 2 else 3
  | .pipe i _ _ t => 1 + max (match i with | none => 0 | some i => 1 + i.depth) (if t.isNone then 0 else 1)
  | .pipeProperty i n => 1 + max (match i with | none => 0 | some i => 1 + i.depth) (if n.isNone then 0 else 1)
  | .pipeWithPropertyPresence i n _ =>
    1 + max (match i with | none => 0 | some i => 1 + i.depth) (if n.isNone then 0 else 1)
  | .pipeWithPropertyValue i n v _ =>
    1 + max (match i with | none => 0 | some i => 1 + i.depth) (if n.isNone ∧ v.isNone then 0 else 1)
  | .incl i => 1 + (match i with | none => 0 | some i => 1 + i.depth)
  | .count i => 1 + (match i with | none => 0 | some i => 1 + i.depth)

/-- Encoded length of `message NamedProperty` (`proto/indradb.proto:239-245`). -/
def PNamedProperty.size (p : PNamedProperty) : Nat := msgField PIdentifier.size p.name + msgField PJson.size p.value
/-- Encoded length of `message VertexProperties` (`proto/indradb.proto:256-261`). -/
def PVertexProperties.size (p : PVertexProperties) : Nat :=
  msgField PVertex.size p.vertex + repField PNamedProperty.size p.props
/-- Encoded length of `message EdgeProperties` (`proto/indradb.proto:272-277`). -/
def PEdgeProperties.size (p : PEdgeProperties) : Nat :=
  msgField PEdge.size p.edge + repField PNamedProperty.size p.props

/-- `proto/indradb.proto:199-223`. -/
def POutput.size : POutput → Nat
  | .unset => 0
  | .vertices l => lenField (repField PVertex.size l)
  | .edges l => lenField (repField PEdge.size l)
  | .count n => 1 + varintLen n
  | .vertexProperties l => lenField (repField PVertexProperties.size l)
  | .edgeProperties l => lenField (repField PEdgeProperties.size l)

/-- `proto/indradb.proto:280-303`. -/
def PBulkInsertItem.size : PBulkInsertItem → Nat
  | .unset => 0
  | .vertex v => lenField v.size
  | .edge e => lenField e.size
  | .vertexProperty i n v => lenField (msgField PUuid.size i + msgField PIdentifier.size n + msgField PJson.size v)
  | .edgeProperty e n v => lenField (msgField PEdge.size e + msgField PIdentifier.size n + msgField PJson.size v)

/-- Encoded length of `message IndexPropertyRequest` (`proto/indradb.proto:306-308`). -/
def PIndexPropertyRequest.size (r : PIndexPropertyRequest) : Nat := msgField PIdentifier.size r.name
/-- Encoded length of `message SetPropertiesRequest` (`proto/indradb.proto:310-314`). -/
def PSetPropertiesRequest.size (r : PSetPropertiesRequest) : Nat :=
  msgField PQuery.size r.q + msgField PIdentifier.size r.name + msgField PJson.size r.value
/-- Levels of `message SetPropertiesRequest` (`proto/indradb.proto:310-314`). -/
def PSetPropertiesRequest.depth (r : PSetPropertiesRequest) : Nat :=
  match r.q with | none => 1 | some q => 1 + q.depth
/-- Encoded length of `message ExecutePluginRequest` (`proto/indradb.proto:321-324`). -/
def PExecutePluginRequest.size (r : PExecutePluginRequest) : Nat :=
  bytesField (strBytes r.name).length + msgField PJson.size r.arg

/-- The message gets through: tonic's limit of 4 MiB and prost's limit of 100 levels. Messages other than queries are at
most four levels deep.
Applies to the requests and responses of `proto/src/server.rs:195-313`, `proto/src/client.rs:83-250`. -/
def wireOk (size depth : Nat) : Bool := size ≤ 4194304 && depth ≤ 100

/-! ### The server -/

/-- gRPC statuses, with what their message is made from. `proto/src/server.rs:25-37, 304, 310`. -/
inductive Status where
  /-- `Status::invalid_argument(conversion error)` -/
  | invalidArgument (e : ConversionError)
  /-- `Status::internal`: an error of the library, or (`panic`) the `JoinError` of a task that panicked -/
  | internal (f : Fault)
  /-- `Status::internal`: an error of a plugin -/
  | plugin (e : String)
  /-- `Status::not_found("unknown plugin")` -/
  | notFound
  /-- the message could not be decoded or is too long -/
  | undecodable
  /-- any other status, such as that of a broken stream -/
  | other (code : Nat)
deriving DecidableEq

/-- `map_conversion_result` (`proto/src/server.rs:29-31`). -/
def mapConversionResult {α : Type} : ProtoRes α → Except Status α
  | .ok a => .ok a
  | .error e => .error (.invalidArgument e)

/-- `map_jh_indra_result` (`proto/src/server.rs:33-36`) and `map_indradb_result` (25-27): errors of the library and panics of the
blocking task become internal errors. -/
def mapJhIndraResult {α : Type} : Res α → Except Status α
  | .ok a => .ok a
  | .error f => .error (.internal f)

/-- The calls of the service (`proto/indradb.proto:331-375`) other than `Ping` and `ExecutePlugin`. The ids of
`CreateVertexFromType` are generated by the server. The items of a bulk insertion are a stream, which may break with a
status. -/
inductive Request where
  | sync
  | createVertex (m : PVertex)
  | createVertexFromType (generated : Uuid) (m : PIdentifier)
  | createEdge (m : PEdge)
  | get (m : PQuery)
  | delete (m : PQuery)
  | setProperties (m : PSetPropertiesRequest)
  | bulkInsert (stream : List (Except Status PBulkInsertItem))
  | indexProperty (m : PIndexPropertyRequest)

/-- Responses: empty, `CreateResponse`, `Uuid`, or a stream of output values. `proto/src/server.rs:195-313`. -/
inductive Response where
  | empty
  | created (b : Bool)
  | uuid (m : PUuid)
  | stream (l : List (Except Status POutput))

section
variable (S : Store) (letter : Char → Bool) (J : JsonText)

/-- Run a library call in a blocking task and map its outcome. `proto/src/server.rs:25-37, 200-285`. -/
def Store.serve (env : S.Env) (op : Op) (s : S.State) : S.State × Except Status Reply :=
  ((S.step env op s).1, mapJhIndraResult (S.step env op s).2)

/-- The stream of `get` (`proto/src/server.rs:235-246`): the outputs in order; or one error; or, if the task panics, the channel is
closed without anything being sent, and the stream is empty. -/
def getStream : Res Reply → List (Except Status POutput)
  | .ok (.outputs l) => l.map (fun o => .ok (o.toProto J))
  | .ok _ => []
  | .error (.err e) => [.error (.internal (.err e))]
  | .error .panic => []

/-- The loop of `bulk_insert` (`proto/src/server.rs:267-270`): the first bad item or broken stream ends it. -/
def readItems : List (Except Status PBulkInsertItem) → Except Status (List BulkInsertItem)
  | [] => .ok []
  | .error st :: _ => .error st
  | .ok m :: r => match mapConversionResult (m.conv letter J) with
    | .error st => .error st
    | .ok i => match readItems r with
      | .error st => .error st
      | .ok l => .ok (i :: l)

/-- The reply of a `()` call as a response. `proto/src/server.rs:203, 251, 258, 276, 284`. -/
def emptyResponse : Except Status Reply → Except Status Response
  | .ok _ => .ok .empty
  | .error st => .error st

/-- The handlers (`proto/src/server.rs:200-284`). -/
def Store.handle (env : S.Env) (req : Request) (s : S.State) : S.State × Except Status Response :=
  match req with
  | .sync => let r := S.serve env .sync s; (r.1, emptyResponse r.2)
  | .createVertex m => match mapConversionResult (m.conv letter) with
    | .error st => (s, .error st)
    | .ok v => match S.serve env (.createVertex v) s with
      | (s', .ok (.bool b)) => (s', .ok (.created b))
      | (s', .ok _) => (s', .ok .empty)
      | (s', .error st) => (s', .error st)
  | .createVertexFromType id m => match mapConversionResult (m.conv letter) with
    | .error st => (s, .error st)
    | .ok t => match S.serve env (.createVertexFromType id t) s with
      | (s', .ok (.uuid u)) => (s', .ok (.uuid u.toProto))
      | (s', .ok _) => (s', .ok .empty)
      | (s', .error st) => (s', .error st)
  | .createEdge m => match mapConversionResult (m.conv letter) with
    | .error st => (s, .error st)
    | .ok e => match S.serve env (.createEdge e) s with
      | (s', .ok (.bool b)) => (s', .ok (.created b))
      | (s', .ok _) => (s', .ok .empty)
      | (s', .error st) => (s', .error st)
  | .get m => match mapConversionResult (m.conv letter J) with
    | .error st => (s, .error st)
    | .ok q => ((S.step env (.get q) s).1, .ok (.stream (getStream J (S.step env (.get q) s).2)))
  | .delete m => match mapConversionResult (m.conv letter J) with
    | .error st => (s, .error st)
    | .ok q => let r := S.serve env (.delete q) s; (r.1, emptyResponse r.2)
  | .setProperties m => match mapConversionResult (m.conv letter J) with
    | .error st => (s, .error st)
    | .ok (q, n, v) => let r := S.serve env (.setProperties q n v) s; (r.1, emptyResponse r.2)
  | .bulkInsert stream => match readItems letter J stream with
    | .error st => (s, .error st)
    | .ok items => let r := S.serve env (.bulkInsert items) s; (r.1, emptyResponse r.2)
  | .indexProperty m => match mapConversionResult (m.conv letter) with
    | .error st => (s, .error st)
    | .ok n => let r := S.serve env (.indexProperty n) s; (r.1, emptyResponse r.2)

/-! ### The client -/

/-- `ClientError` (`proto/src/client.rs:19-28`). `badResponse` stands for a response that is not of the type the call expects; this
cannot happen over gRPC. -/
inductive ClientError where
  | conversion (e : ConversionError) | grpc (st : Status) | transport | channelClosed | badResponse
deriving DecidableEq

/-- The request a client call sends (`proto/src/client.rs:103-237`). The items of a bulk insertion that are too long break the
stream on the server's side. (The task that feeds the items can only fail if the server has stopped reading, and then the
call itself has failed; `last_err` is never reported: C80, `Model/BulkStream.lean`.) -/
def clientRequest : Op → Request
  | .sync => .sync
  | .createVertex v => .createVertex v.toProto
  | .createVertexFromType id t => .createVertexFromType id t.toProto
  | .createEdge e => .createEdge e.toProto
  | .get q => .get (q.toProto J)
  | .delete q => .delete (q.toProto J)
  | .setProperties q n v => .setProperties (setPropertiesRequest J q n v)
  | .bulkInsert items => .bulkInsert (items.map (fun i =>
      if wireOk (i.toProto J).size 4 then .ok (i.toProto J) else .error .undecodable))
  | .indexProperty n => .indexProperty ⟨some n.toProto⟩

/-- Does the request get through? (For a bulk insertion: item by item, see `clientRequest`.)
Applies to the requests made at `proto/src/client.rs:96-250`. -/
def Request.fits : Request → Bool
  | .sync | .bulkInsert _ => true
  | .createVertex m => wireOk m.size 4
  | .createVertexFromType _ m => wireOk m.size 4
  | .createEdge m => wireOk m.size 4
  | .get m | .delete m => wireOk m.size m.depth
  | .setProperties m => wireOk m.size m.depth
  | .indexProperty m => wireOk m.size 4

/-- The loop of `Client::get` (`proto/src/client.rs:153-156`). -/
def readOutputs : List (Except Status POutput) → Except ClientError (List Output)
  | [] => .ok []
  | .error st :: _ => .error (.grpc st)
  | .ok m :: r =>
    if wireOk m.size 4 then
      match m.conv letter J with
      | .error e => .error (.conversion e)
      | .ok o => match readOutputs r with
        | .error e => .error e
        | .ok l => .ok (o :: l)
    else .error (.grpc .undecodable)

/-- What the client makes of the response (`proto/src/client.rs:103-237`). -/
def clientReply (op : Op) : Response → Except ClientError Reply
  | .empty => match op with
    | .sync | .delete _ | .setProperties _ _ _ | .bulkInsert _ | .indexProperty _ => .ok .unit
    | _ => .error .badResponse
  | .created b => match op with
    | .createVertex _ | .createEdge _ => .ok (.bool b)
    | _ => .error .badResponse
  | .uuid m => match op with
    | .createVertexFromType _ _ => match m.conv with
      | .ok u => .ok (.uuid u)
      | .error e => .error (.conversion e)
    | _ => .error .badResponse
  | .stream l => match op with
    | .get _ => match readOutputs letter J l with
      | .ok l => .ok (.outputs l)
      | .error e => .error e
    | _ => .error .badResponse

/-- A call through client and server. `proto/src/client.rs:96-237`, `proto/src/server.rs:195-285`. -/
def Store.clientCall (env : S.Env) (op : Op) (s : S.State) : S.State × Except ClientError Reply :=
  if (clientRequest J op).fits then
    match S.handle letter J env (clientRequest J op) s with
    | (s', .error st) => (s', .error (.grpc st))
    | (s', .ok resp) => (s', clientReply letter J op resp)
  else (s, .error (.grpc .undecodable))

end
end IndraDB
