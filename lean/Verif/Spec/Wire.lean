import Verif.Model.WireCall
import Verif.Spec.Server
/-
Specification for messages as bytes.
-/
namespace IndraDB

/-- Every message within the limit `ok` comes back from its bytes. -/
def MsgCodec.RoundTrips {α : Type} (C : MsgCodec α) (ok : α → Prop) : Prop := ∀ m, ok m → C.decode (C.encode m) = some m

/-- Different messages have different bytes. -/
def MsgCodec.Injective {α : Type} (C : MsgCodec α) (ok : α → Prop) : Prop :=
  ∀ m m', ok m → ok m' → C.encode m = C.encode m' → m = m'

/-- A field that can be written: its number has 29 bits, its contents are a number of 64 bits, bytes (a string, a message),
or 8 or 4 bytes (a floating point number, say). -/
def Proper : Wire.Field → Prop
  | (tag, .varint n) => 1 ≤ tag ∧ tag < 2 ^ 29 ∧ n < 2 ^ 64
  | (tag, .len b) => 1 ≤ tag ∧ tag < 2 ^ 29 ∧ b.length < 2 ^ 64
  | (tag, .fixed64 b) => 1 ≤ tag ∧ tag < 2 ^ 29 ∧ b.length = 8
  | (tag, .fixed32 b) => 1 ≤ tag ∧ tag < 2 ^ 29 ∧ b.length = 4
  | _ => False

/-- A field a program knowing a later version of the protocol might add: its number is none of those in use (they are below
16). -/
def Unknown (f : Wire.Field) : Prop := 16 ≤ f.1 ∧ Proper f

/-- Bytes with the fields of a message, in their order, and others in between, are read as that message. -/
def MsgCodec.SkipsUnknown {α : Type} (C : MsgCodec α) (fields : α → List Wire.Field) (ok : α → Prop) : Prop :=
  ∀ m l, ok m → (∀ f ∈ l, f.1 < 16 ∨ Unknown f) → l.filter (fun f => f.1 < 16) = fields m →
    C.decode (Wire.putFields l) = some m

/-- The messages of the protocol, those with the same messages in the same fields taken together. -/
inductive MsgKind where
  /-- No messages in it: `Uuid`, `Identifier`, `Json`, `Empty`. -/
  | leaf
  | edge | vertex | query | rangeVertex | specificVertex | specificEdge | propertyPresence | propertyValue | pipe | pipeProperty
  | pipePresence | pipeValue | incl | namedProperty | vertexProperties | edgeProperties | outputVertices
  | outputVertexProperties | outputEdgeProperties | output | vertexItem | edgeItem | bulkItem | setProperties | plugin
  | pluginReply

/-- Which message is in a field of a message, if one is (`proto/indradb.proto`). -/
def MsgKind.inside : MsgKind → Nat → Option MsgKind
  | .edge, 1 | .edge, 2 | .edge, 3 => some .leaf
  | .vertex, 1 | .vertex, 2 => some .leaf
  | .query, 1 | .query, 6 => some .leaf
  | .query, 2 => some .rangeVertex
  | .query, 3 => some .specificVertex
  | .query, 4 | .query, 8 => some .propertyPresence
  | .query, 5 | .query, 9 => some .propertyValue
  | .query, 7 => some .specificEdge
  | .query, 10 => some .pipe
  | .query, 11 => some .pipeProperty
  | .query, 12 => some .pipePresence
  | .query, 13 => some .pipeValue
  | .query, 14 | .query, 15 => some .incl
  | .rangeVertex, 2 | .rangeVertex, 3 => some .leaf
  | .specificVertex, 1 => some .leaf
  | .specificEdge, 1 => some .edge
  | .propertyPresence, 1 => some .leaf
  | .propertyValue, 1 | .propertyValue, 2 => some .leaf
  | .pipe, 1 | .pipeProperty, 1 | .pipePresence, 1 | .pipeValue, 1 | .incl, 1 => some .query
  | .pipe, 4 | .pipeProperty, 2 | .pipePresence, 2 | .pipeValue, 2 | .pipeValue, 3 => some .leaf
  | .namedProperty, 2 | .namedProperty, 3 => some .leaf
  | .vertexProperties, 1 => some .vertex
  | .edgeProperties, 1 => some .edge
  | .vertexProperties, 2 | .edgeProperties, 2 => some .namedProperty
  | .outputVertices, 1 => some .vertex
  | .outputVertexProperties, 1 => some .vertexProperties
  | .outputEdgeProperties, 1 => some .edgeProperties
  | .output, 1 => some .outputVertices
  | .output, 2 => some .specificEdge
  | .output, 4 => some .outputVertexProperties
  | .output, 5 => some .outputEdgeProperties
  | .vertexItem, 1 | .vertexItem, 3 | .vertexItem, 4 => some .leaf
  | .edgeItem, 1 => some .edge
  | .edgeItem, 3 | .edgeItem, 4 => some .leaf
  | .bulkItem, 1 => some .vertex
  | .bulkItem, 2 => some .edge
  | .bulkItem, 3 => some .vertexItem
  | .bulkItem, 4 => some .edgeItem
  | .setProperties, 1 => some .query
  | .setProperties, 2 | .setProperties, 3 => some .leaf
  | .plugin, 2 => some .leaf
  | .pluginReply, 1 => some .leaf
  | _, _ => none

/-- What a program knowing a later version of the protocol writes instead of these fields: the same with unknown fields
added, to the message itself and to those inside it, at any depth. -/
inductive Later : MsgKind → List Wire.Field → List Wire.Field → Prop where
  | done {k} : Later k [] []
  | same {k f l l'} : Proper f → Later k l l' → Later k (f :: l) (f :: l')
  | added {k f l l'} : Unknown f → Later k l l' → Later k l (f :: l')
  | within {k tag k' a a' l l'} : k.inside tag = some k' → Later k' a a' →
      Proper (tag, .len (Wire.putFields a)) → Proper (tag, .len (Wire.putFields a')) → Later k l l' →
      Later k ((tag, .len (Wire.putFields a)) :: l) ((tag, .len (Wire.putFields a')) :: l')

/-- Messages from programs knowing a later version are read as the messages without what was added. -/
def MsgCodec.ReadsLater {α : Type} (C : MsgCodec α) (k : MsgKind) (fields : α → List Wire.Field) (ok : α → Prop) : Prop :=
  ∀ m l, ok m → Later k (fields m) l → C.decode (Wire.putFields l) = some m

/-- Counts are 64 bit numbers. (They count things in the memory of a computer.) -/
def Reply.SmallCounts : Reply → Prop
  | .outputs l => ∀ n, .count n ∈ l → n < 2 ^ 64
  | _ => True

/-- So in the course of a history; calls whose messages do not fit have no effect. -/
def Store.SmallCounts (S : Store) (J : JsonText) : List (S.Env × Op) → S.State → Prop
  | [], _ => True
  | (env, op) :: r, s =>
    (∀ x, (S.step env op s).2 = .ok x → x.SmallCounts) ∧
    (op.Fits J → S.SmallCounts J r (S.step env op s).1) ∧ (¬ op.Fits J → S.SmallCounts J r s)

end IndraDB
