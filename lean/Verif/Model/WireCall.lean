import Verif.Model.Wire
import Verif.Model.Plugins
/-
Calls from the client to the server as bytes: the client's messages are encoded, the server decodes them, and the other way
round (`proto/src/client.rs:96-250`, `proto/src/server.rs:195-313`). gRPC itself (HTTP/2, the frames around the messages) is
not modelled: the called function, the messages in order and the status arrive. A status that replaces a response is modelled
as such. A stream that breaks for another reason than a message is not modelled here (see `Model/BulkStream.lean`,
`Model/GetStream.lean`).
-/
namespace IndraDB
open Wire

/-- The functions of the service (`proto/indradb.proto:331-375`), except `Ping` and `ExecutePlugin`. -/
inductive Rpc where
  | sync | createVertex | createVertexFromType | createEdge | get | delete | setProperties | bulkInsert | indexProperty
deriving DecidableEq

/-- A request: the function and its messages (one, except for `BulkInsert`). `proto/indradb.proto:331-375`. -/
structure WireRequest where
  rpc : Rpc
  messages : List Bytes

/-- A response: its messages (one, except for `Get`), each possibly replaced by a status that ends the stream.
`proto/indradb.proto:331-375`. -/
abbrev WireResponse := Except Status (List (Except Status Bytes))

section
variable (J : JsonText)

/-- What the client sends (`proto/src/client.rs:103-237`). -/
def wireRequest : Op → WireRequest
  | .sync => ⟨.sync, [[]]⟩
  | .createVertex v => ⟨.createVertex, [putFields v.toProto.fields]⟩
  | .createVertexFromType _ t => ⟨.createVertexFromType, [putFields t.toProto.fields]⟩
  | .createEdge e => ⟨.createEdge, [putFields e.toProto.fields]⟩
  | .get q => ⟨.get, [putFields (q.toProto J).fields]⟩
  | .delete q => ⟨.delete, [putFields (q.toProto J).fields]⟩
  | .setProperties q n v => ⟨.setProperties, [putFields (setPropertiesRequest J q n v).fields]⟩
  | .bulkInsert items => ⟨.bulkInsert, items.map (fun i => putFields (i.toProto J).fields)⟩
  | .indexProperty n => ⟨.indexProperty, [putFields (PIndexPropertyRequest.mk (some n.toProto)).fields]⟩
end

/-- A single message decoded, or the status tonic answers with. `proto/src/server.rs:195-313` (tonic). -/
def decodeOne {α : Type} (merge : Nat → α → Wire.Field → Option α) (empty : α) (b : Bytes) : Except Status α :=
  match transmit merge empty b with
  | some a => .ok a
  | none => .error .undecodable

/-- What the server's handlers get (`proto/src/server.rs:195-285`, the code tonic generates); `generated` is the id made by
`create_vertex_from_type`. -/
def WireRequest.decode (generated : Uuid) (w : WireRequest) : Except Status Request :=
  match w.rpc, w.messages with
  | .sync, [b] => (decodeOne mergeEmpty () b).map (fun _ => .sync)
  | .createVertex, [b] => (decodeOne PVertex.merge ⟨none, none⟩ b).map .createVertex
  | .createVertexFromType, [b] => (decodeOne PIdentifier.merge ⟨""⟩ b).map (.createVertexFromType generated)
  | .createEdge, [b] => (decodeOne PEdge.merge ⟨none, none, none⟩ b).map .createEdge
  | .get, [b] => (decodeOne PQuery.merge .unset b).map .get
  | .delete, [b] => (decodeOne PQuery.merge .unset b).map .delete
  | .setProperties, [b] => (decodeOne PSetPropertiesRequest.merge ⟨none, none, none⟩ b).map .setProperties
  | .bulkInsert, l => .ok (.bulkInsert (l.map (decodeOne PBulkInsertItem.merge .unset)))
  | .indexProperty, [b] => (decodeOne PIndexPropertyRequest.merge ⟨none⟩ b).map .indexProperty
  | _, _ => .error .undecodable

/-- The messages of a response (`proto/src/server.rs:195-285`). -/
def Response.encode : Response → List (Except Status Bytes)
  | .empty => [.ok []]
  | .created b => [.ok (putFields (createdFields b))]
  | .uuid m => [.ok (putFields m.fields)]
  | .stream l => l.map (fun o => o.map (fun m => putFields m.fields))

section
variable (S : Store) (letter : Char → Bool) (J : JsonText)

/-- The server (`proto/src/server.rs:195-285`). -/
def Store.wireServe (env : S.Env) (generated : Uuid) (w : WireRequest) (s : S.State) : S.State × WireResponse :=
  match w.decode generated with
  | .error st => (s, .error st)
  | .ok req => match S.handle letter J env req s with
    | (s', .error st) => (s', .error st)
    | (s', .ok resp) => (s', .ok resp.encode)

/-- The single message of a response, as the client decodes it. `proto/src/client.rs:103-237` (tonic). -/
def readOne {α : Type} (merge : Nat → α → Wire.Field → Option α) (empty : α) :
    List (Except Status Bytes) → Except ClientError α
  | .ok b :: _ => match transmit merge empty b with
    | some a => .ok a
    | none => .error (.grpc .undecodable)
  | .error st :: _ => .error (.grpc st)
  | [] => .error .badResponse

/-- The loop of `Client::get` (`proto/src/client.rs:153-156`) on the messages that arrive. -/
def readWire : List (Except Status Bytes) → Except ClientError (List Output)
  | [] => .ok []
  | .error st :: _ => .error (.grpc st)
  | .ok b :: r => match transmit POutput.merge .unset b with
    | none => .error (.grpc .undecodable)
    | some m => match m.conv letter J with
      | .error e => .error (.conversion e)
      | .ok o => match readWire r with
        | .error e => .error e
        | .ok l => .ok (o :: l)

/-- What the client makes of the response (`proto/src/client.rs:103-237`). -/
def wireReply (op : Op) (l : List (Except Status Bytes)) : Except ClientError Reply :=
  match op with
  | .sync | .delete _ | .setProperties _ _ _ | .bulkInsert _ | .indexProperty _ => (readOne mergeEmpty () l).map (fun _ => .unit)
  | .createVertex _ | .createEdge _ => (readOne mergeCreated false l).map .bool
  | .createVertexFromType _ _ => match readOne PUuid.merge ⟨[]⟩ l with
    | .error e => .error e
    | .ok m => match m.conv with
      | .ok u => .ok (.uuid u)
      | .error e => .error (.conversion e)
  | .get _ => (readWire letter J l).map .outputs

/-- The id generated by the server for a call (`proto/src/server.rs:213-219`). -/
def Op.generated : Op → Uuid
  | .createVertexFromType id _ => id
  | _ => Uuid.max

/-- A call through client and server, as bytes. `proto/src/client.rs:96-237`, `proto/src/server.rs:195-285`. -/
def Store.wireCall (env : S.Env) (op : Op) (s : S.State) : S.State × Except ClientError Reply :=
  match S.wireServe letter J env op.generated (wireRequest J op) s with
  | (s', .error st) => (s', .error (.grpc st))
  | (s', .ok l) => (s', wireReply letter J op l)

/-- A history of calls of `proto/src/client.rs:96-237`, one after another. -/
def Store.wireRun : List (S.Env × Op) → S.State → S.State × List (Except ClientError Reply)
  | [], s => (s, [])
  | (env, op) :: r, s =>
    let c := S.wireCall letter J env op s
    let rest := Store.wireRun r c.1
    (rest.1, c.2 :: rest.2)

/-- `ExecutePlugin` through client and server, as bytes (`proto/src/client.rs:239-249`, `proto/src/server.rs:287-312`). -/
def wireExecutePlugin {σ : Type} (describe : PluginError → String) (entries : Entries (PluginFn σ)) (name : String)
    (arg : Json) (s : σ) : σ × Except ClientError Json :=
  match transmit PExecutePluginRequest.merge ⟨"", none⟩
      (putFields (PExecutePluginRequest.mk name (some (arg.toProto J))).fields) with
  | none => (s, .error (.grpc .undecodable))
  | some req => match executePlugin J describe entries req s with
    | (s', .error st) => (s', .error (.grpc st))
    | (s', .ok resp) => match transmit mergePluginReply none (putFields (pluginReplyFields resp.value)) with
      | none => (s', .error (.grpc .undecodable))
      | some none => (s', .ok .null)
      | some (some v) => match v.conv J with
        | .ok v => (s', .ok v)
        | .error e => (s', .error (.conversion e))

end
end IndraDB
