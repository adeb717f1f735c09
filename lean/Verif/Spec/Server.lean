import Verif.Model.Server
import Verif.Spec.Proto
/-
Specification for the client/server layer.
-/
namespace IndraDB

/-- All identifiers of the call satisfy `I` and all its JSON values `V`. -/
def Op.All (I : Identifier → Prop) (V : Json → Prop) : Op → Prop
  | .sync => True
  | .createVertex v => I v.t
  | .createVertexFromType _ t => I t
  | .createEdge e => I e.t
  | .get q | .delete q => q.All I V
  | .setProperties q n v => q.All I V ∧ I n ∧ V v
  | .bulkInsert items => ∀ i ∈ items, i.All I V
  | .indexProperty n => I n

/-- All identifiers in the reply satisfy `I` and all its JSON values `V`. -/
def Reply.All (I : Identifier → Prop) (V : Json → Prop) : Reply → Prop
  | .outputs l => ∀ o ∈ l, o.All I V
  | _ => True

/-- The messages of the call are within the limits of gRPC and protobuf: 4 MiB and 100 levels. -/
def Op.Fits (J : JsonText) : Op → Prop
  | .sync => True
  | .createVertex v => v.toProto.size ≤ 4194304
  | .createVertexFromType _ t => t.toProto.size ≤ 4194304
  | .createEdge e => e.toProto.size ≤ 4194304
  | .get q | .delete q => (q.toProto J).size ≤ 4194304 ∧ (q.toProto J).depth ≤ 100
  | .setProperties q n v =>
    (setPropertiesRequest J q n v).size ≤ 4194304 ∧ (setPropertiesRequest J q n v).depth ≤ 100
  | .bulkInsert items => ∀ i ∈ items, (i.toProto J).size ≤ 4194304
  | .indexProperty n => (PIndexPropertyRequest.mk (some n.toProto)).size ≤ 4194304

/-- So are those of the reply: each output value is one message. -/
def Reply.Fits (J : JsonText) : Reply → Prop
  | .outputs l => ∀ o ∈ l, (o.toProto J).size ≤ 4194304
  | _ => True

/-- The reply has the type the call returns. -/
def Reply.IsFor : Reply → Op → Prop
  | .unit, .sync | .unit, .delete _ | .unit, .setProperties _ _ _ | .unit, .bulkInsert _ | .unit, .indexProperty _ => True
  | .bool _, .createVertex _ | .bool _, .createEdge _ => True
  | .uuid _, .createVertexFromType _ _ => True
  | .outputs _, .get _ => True
  | _, _ => False

/-- Calls return replies of their type. -/
def Store.Typed (S : Store) : Prop := ∀ env op s r, (S.step env op s).2 = .ok r → r.IsFor op

/-- A history of calls through client and server: final state and results. -/
def Store.clientRun (S : Store) (letter : Char → Bool) (J : JsonText) : List (S.Env × Op) → S.State →
    S.State × List (Except ClientError Reply)
  | [], s => (s, [])
  | (env, op) :: r, s =>
    let c := S.clientCall letter J env op s
    let rest := S.clientRun letter J r c.1
    (rest.1, c.2 :: rest.2)

/-- What the client reports for an outcome of the library. -/
def Res.seen : Res Reply → Except ClientError Reply
  | .ok r => .ok r
  | .error f => .error (.grpc (.internal f))

/-- C45: every history of calls (with valid identifiers and values that survive printing and parsing) gives through
client and server what it gives in the library. -/
def Store.ClientIsLibrary (S : Store) (letter : Char → Bool) (J : JsonText) : Prop :=
  ∀ hist, S.OkHist hist → (∀ p ∈ hist, p.2.All (·.Valid letter) J.Faithful) →
    S.clientRun letter J hist S.init = (S.run hist S.init, (S.replies hist S.init).map Res.seen)

/-- What the client really reports for an outcome of the library: a panic during `get` looks like an empty result, and a
reply that does not fit is an error. -/
noncomputable def Res.arrives (J : JsonText) (op : Op) (r : Res Reply) : Except ClientError Reply :=
  open Classical in
  match r with
  | .ok r => if r.Fits J then .ok r else .error (.grpc .undecodable)
  | .error .panic => if ∃ q, op = .get q then .ok (.outputs []) else .error (.grpc (.internal .panic))
  | .error f => .error (.grpc (.internal f))

/-- What really happens: calls that do not fit are refused without effect, the others reach the library. -/
noncomputable def Store.limitedRun (S : Store) (J : JsonText) : List (S.Env × Op) → S.State →
    S.State × List (Except ClientError Reply)
  | [], s => (s, [])
  | (env, op) :: r, s =>
    open Classical in
    if op.Fits J then
      let c := S.step env op s
      let rest := S.limitedRun J r c.1
      (rest.1, c.2.arrives J op :: rest.2)
    else
      let rest := S.limitedRun J r s
      (rest.1, .error (.grpc .undecodable) :: rest.2)

/-- A stream of bulk items is good if it does not break and every item stands for something. -/
inductive GoodStream (letter : Char → Bool) (J : JsonText) :
    List (Except Status PBulkInsertItem) → List BulkInsertItem → Prop
  | nil : GoodStream letter J [] []
  | cons {m i r l} : PBulkInsertItem.Means letter J m i → GoodStream letter J r l →
    GoodStream letter J (.ok m :: r) (i :: l)

end IndraDB
