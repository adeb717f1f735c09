import Verif.Model.Server
/-
The bytes of the messages between client and server: the encoding prost 0.13.4 (`Cargo.lock:973-1020`) generates from
`proto/indradb.proto`, and its decoder, with unknown fields skipped, repeated appearances of a field merged and the limit of
100 levels. prost's source is not in the repository; the encoding is that of the published protobuf format, the decoder is
that of `prost::encoding`.

Simplifications. prost decodes in one pass over the buffer; here a message is first split into its fields and these are then
merged one after another, which gives the same value or, in the same cases, an error (which error is not modelled).
-/
namespace IndraDB
namespace Wire

/-! ### Fields -/

/-- `encode_varint` (prost), 7 bits per byte, lowest first. For the messages of `proto/indradb.proto`. -/
def putVarint (n : Nat) : Bytes :=
  if n < 128 then [UInt8.ofNat n] else UInt8.ofNat (n % 128 + 128) :: putVarint (n / 128)
termination_by n
decreasing_by omega

/-- `decode_varint` (prost), at most as many bytes as the first argument (10); the tenth byte must be 0 or 1. For the
messages of `proto/indradb.proto`. -/
def getVarint : Nat → Bytes → Option (Nat × Bytes)
  | 0, _ => none
  | _, [] => none
  | k + 1, b :: r =>
    if b.toNat < 128 then (if k = 0 ∧ 2 ≤ b.toNat then none else some (b.toNat, r))
    else match getVarint k r with
      | none => none
      | some (n, r') => some (b.toNat - 128 + 128 * n, r')

/-- The contents of a field, by wire type (prost's `WireType`). Of a group, which no message of `proto/indradb.proto` has,
only the levels in it are kept. -/
inductive Val where
  | varint (n : Nat)
  | fixed64 (b : Bytes)
  | len (b : Bytes)
  | group (levels : Nat)
  | fixed32 (b : Bytes)
deriving DecidableEq

/-- How many levels skipping the field takes (prost's `skip_field`). For fields not in `proto/indradb.proto`. -/
def Val.levels : Val → Nat
  | .group n => n
  | _ => 1

/-- A field: its number in `proto/indradb.proto`, and its contents. -/
abbrev Field := Nat × Val

/-- `encode_key` and the contents (prost). No message of `proto/indradb.proto` has fields of the other wire types. -/
def putField : Field → Bytes
  | (tag, .varint n) => putVarint (8 * tag) ++ putVarint n
  | (tag, .fixed64 b) => putVarint (8 * tag + 1) ++ b
  | (tag, .len b) => putVarint (8 * tag + 2) ++ putVarint b.length ++ b
  | (tag, .group _) => putVarint (8 * tag + 3) ++ putVarint (8 * tag + 4)
  | (tag, .fixed32 b) => putVarint (8 * tag + 5) ++ b

/-- A message: its fields one after another (prost). For the messages of `proto/indradb.proto`. -/
def putFields : List Field → Bytes
  | [] => []
  | f :: r => putField f ++ putFields r

/-- `decode_key` (prost): field number and wire type. For the messages of `proto/indradb.proto`. -/
def getKey (b : Bytes) : Option (Nat × Nat × Bytes) :=
  match getVarint 10 b with
  | none => none
  | some (k, r) => if k < 2 ^ 32 ∧ 8 ≤ k then some (k / 8, k % 8, r) else none

mutual
/-- Contents of a field of the given wire type (prost's `skip_field` and `merge`). The first argument bounds the recursion;
`2 * length + 2` is enough. For the messages of `proto/indradb.proto`. -/
def getVal : Nat → Nat → Nat → Bytes → Option (Val × Bytes)
  | 0, _, _, _ => none
  | f + 1, wt, tag, b =>
    if wt = 0 then (getVarint 10 b).map (fun (n, r) => (.varint n, r))
    else if wt = 1 then (if 8 ≤ b.length then some (.fixed64 (b.take 8), b.drop 8) else none)
    else if wt = 2 then match getVarint 10 b with
      | none => none
      | some (n, r) => if n ≤ r.length then some (.len (r.take n), r.drop n) else none
    else if wt = 3 then (getGroup f tag b).map (fun (n, r) => (.group (n + 1), r))
    else if wt = 5 then (if 4 ≤ b.length then some (.fixed32 (b.take 4), b.drop 4) else none)
    else none

/-- The rest of a group (prost's `skip_field`): the levels in it. For fields not in `proto/indradb.proto`. -/
def getGroup : Nat → Nat → Bytes → Option (Nat × Bytes)
  | 0, _, _ => none
  | f + 1, tag, b => match getKey b with
    | none => none
    | some (t, wt, r) =>
      if wt = 4 then (if t = tag then some (0, r) else none)
      else match getVal f wt t r with
        | none => none
        | some (v, r) => (getGroup f tag r).map (fun (n, r) => (max v.levels n, r))
end

/-- The fields of a message; the first argument, the length, bounds the recursion. For the messages of
`proto/indradb.proto`. -/
def getFieldsN : Nat → Bytes → Option (List Field)
  | _, [] => some []
  | 0, _ => none
  | f + 1, b => match getKey b with
    | none => none
    | some (tag, wt, r) => match getVal (2 * r.length + 2) wt tag r with
      | none => none
      | some (v, r) => (getFieldsN f r).map ((tag, v) :: ·)

/-- The fields of a message (prost's `merge_loop`). For the messages of `proto/indradb.proto`. -/
def getFields (b : Bytes) : Option (List Field) := getFieldsN b.length b

/-! ### Merging fields (prost's `merge_field`)

`d` counts how many more levels may be entered (`DecodeContext::recurse_count`). -/

/-- An unknown field: `skip_field` (prost); also fails if no levels are left. For fields not in `proto/indradb.proto`. -/
def skip {α : Type} (d : Nat) (v : Val) (a : α) : Option α := if v.levels ≤ d then some a else none

/-- Merge all fields. prost's `merge_loop`, for the messages of `proto/indradb.proto`. -/
def mergeAll {α : Type} (f : α → Field → Option α) : α → List Field → Option α
  | a, [] => some a
  | a, x :: r => match f a x with
    | none => none
    | some a => mergeAll f a r

/-- A message inside a message (`prost::encoding::message::merge`): one level down. For the messages of
`proto/indradb.proto`. -/
def sub {α : Type} (d : Nat) (f : Nat → α → Field → Option α) (init : α) : Val → Option α
  | .len b => match d with
    | 0 => none
    | d + 1 => match getFields b with
      | none => none
      | some l => mergeAll (f d) init l
  | _ => none

/-- An optional message field: merged into the one already there. prost, for the messages of `proto/indradb.proto`. -/
def subOpt {α : Type} (d : Nat) (f : Nat → α → Field → Option α) (empty : α) (o : Option α) (v : Val) : Option (Option α) :=
  (sub d f (o.getD empty) v).map some

/-- A repeated message field: appended. prost, for the messages of `proto/indradb.proto`. -/
def subRep {α : Type} (d : Nat) (f : Nat → α → Field → Option α) (empty : α) (l : List α) (v : Val) : Option (List α) :=
  (sub d f empty v).map (fun a => l ++ [a])

/-- A `bytes` field. prost, for the messages of `proto/indradb.proto`. -/
def asBytes : Val → Option Bytes
  | .len b => some b
  | _ => none

/-- A `string` field: must be UTF-8. prost, for the messages of `proto/indradb.proto`. -/
def asString : Val → Option String
  | .len b => String.fromUTF8? ⟨b.toArray⟩
  | _ => none

/-- A `uint32` field: `as u32`. prost, for the messages of `proto/indradb.proto`. -/
def asU32 : Val → Option UInt32
  | .varint n => some (UInt32.ofNat n)
  | _ => none

/-- An enum field: `as i32`. prost, for the messages of `proto/indradb.proto`. -/
def asI32 : Val → Option Int32
  | .varint n => some (Int32.ofInt n)
  | _ => none

/-- A `uint64` field. prost, for the messages of `proto/indradb.proto`. -/
def asU64 : Val → Option Nat
  | .varint n => some n
  | _ => none

/-- A `bool` field: `!= 0`. prost, for the messages of `proto/indradb.proto`. -/
def asBool : Val → Option Bool
  | .varint n => some (n != 0)
  | _ => none

/-! ### Fields of messages (prost's `encode_raw`: by ascending number) -/

/-- A `bytes` or `string` field, left out if empty. prost, for the messages of `proto/indradb.proto`. -/
def bytesF (tag : Nat) (b : Bytes) : List Field := if b = [] then [] else [(tag, .len b)]

/-- An integer field, left out if zero. prost, for the messages of `proto/indradb.proto`. -/
def intF (tag n : Nat) : List Field := if n = 0 then [] else [(tag, .varint n)]

/-- A `bool` field, left out if false. prost, for the messages of `proto/indradb.proto`. -/
def boolF (tag : Nat) (b : Bool) : List Field := if b then [(tag, .varint 1)] else []

/-- A message field. prost, for the messages of `proto/indradb.proto`. -/
def msgF (tag : Nat) (l : List Field) : Field := (tag, .len (putFields l))

/-- An optional message field. prost, for the messages of `proto/indradb.proto`. -/
def optF {α : Type} (tag : Nat) (f : α → List Field) : Option α → List Field
  | none => []
  | some a => [msgF tag (f a)]

/-- A repeated message field. prost, for the messages of `proto/indradb.proto`. -/
def repF {α : Type} (tag : Nat) (f : α → List Field) (l : List α) : List Field := l.map (fun a => msgF tag (f a))

/-- An enum field as an integer: sign-extended (`as u64`). prost, for the messages of `proto/indradb.proto`. -/
def i32Nat (n : Int32) : Nat := if n.toInt < 0 then (2^64 + n.toInt).toNat else n.toInt.toNat

end Wire

open Wire

/-- `message Uuid` (`proto/indradb.proto:9-11`). -/
def PUuid.fields (u : PUuid) : List Field := bytesF 1 u.value
/-- `message Identifier` (`proto/indradb.proto:16-18`). -/
def PIdentifier.fields (i : PIdentifier) : List Field := bytesF 1 (strBytes i.value)
/-- `message Json` (`proto/indradb.proto:21-23`). -/
def PJson.fields (v : PJson) : List Field := bytesF 1 (strBytes v.value)
/-- `message Edge` (`proto/indradb.proto:30-37`). -/
def PEdge.fields (e : PEdge) : List Field :=
  optF 1 PUuid.fields e.outboundId ++ optF 2 PIdentifier.fields e.t ++ optF 3 PUuid.fields e.inboundId
/-- `message Vertex` (`proto/indradb.proto:43-48`). -/
def PVertex.fields (v : PVertex) : List Field := optF 1 PUuid.fields v.id ++ optF 2 PIdentifier.fields v.t

/-- `message Query` and the messages of its variants (`proto/indradb.proto:51-196`). -/
def PQuery.fields : PQuery → List Field
  | .unset => []
  | .allVertex => [msgF 1 []]
  | .rangeVertex limit t s =>
    [msgF 2 (intF 1 limit.toNat ++ optF 2 PIdentifier.fields t ++ optF 3 PUuid.fields s)]
  | .specificVertex ids => [msgF 3 (repF 1 PUuid.fields ids)]
  | .vertexWithPropertyPresence n => [msgF 4 (optF 1 PIdentifier.fields n)]
  | .vertexWithPropertyValue n v => [msgF 5 (optF 1 PIdentifier.fields n ++ optF 2 PJson.fields v)]
  | .allEdge => [msgF 6 []]
  | .specificEdge edges => [msgF 7 (repF 1 PEdge.fields edges)]
  | .edgeWithPropertyPresence n => [msgF 8 (optF 1 PIdentifier.fields n)]
  | .edgeWithPropertyValue n v => [msgF 9 (optF 1 PIdentifier.fields n ++ optF 2 PJson.fields v)]
  | .pipe i d limit t =>
    [msgF 10 ((match i with | none => [] | some i => [msgF 1 i.fields]) ++ intF 2 (i32Nat d) ++ intF 3 limit.toNat ++
      optF 4 PIdentifier.fields t)]
  | .pipeProperty i n =>
    [msgF 11 ((match i with | none => [] | some i => [msgF 1 i.fields]) ++ optF 2 PIdentifier.fields n)]
  | .pipeWithPropertyPresence i n ex =>
    [msgF 12 ((match i with | none => [] | some i => [msgF 1 i.fields]) ++ optF 2 PIdentifier.fields n ++ boolF 3 ex)]
  | .pipeWithPropertyValue i n v eq =>
    [msgF 13 ((match i with | none => [] | some i => [msgF 1 i.fields]) ++ optF 2 PIdentifier.fields n ++
      optF 3 PJson.fields v ++ boolF 4 eq)]
  | .incl i => [msgF 14 (match i with | none => [] | some i => [msgF 1 i.fields])]
  | .count i => [msgF 15 (match i with | none => [] | some i => [msgF 1 i.fields])]

/-- `message NamedProperty` (`proto/indradb.proto:239-245`): the value, number 2, comes before the name, number 3. -/
def PNamedProperty.fields (p : PNamedProperty) : List Field :=
  optF 2 PJson.fields p.value ++ optF 3 PIdentifier.fields p.name
/-- `message VertexProperties` (`proto/indradb.proto:256-261`). -/
def PVertexProperties.fields (p : PVertexProperties) : List Field :=
  optF 1 PVertex.fields p.vertex ++ repF 2 PNamedProperty.fields p.props
/-- `message EdgeProperties` (`proto/indradb.proto:272-277`). -/
def PEdgeProperties.fields (p : PEdgeProperties) : List Field :=
  optF 1 PEdge.fields p.edge ++ repF 2 PNamedProperty.fields p.props

/-- `message QueryOutputValue` and the messages of its variants (`proto/indradb.proto:199-223`). A `oneof` is written even
if it has the default value. -/
def POutput.fields : POutput → List Field
  | .unset => []
  | .vertices l => [msgF 1 (repF 1 PVertex.fields l)]
  | .edges l => [msgF 2 (repF 1 PEdge.fields l)]
  | .count n => [(3, .varint n)]
  | .vertexProperties l => [msgF 4 (repF 1 PVertexProperties.fields l)]
  | .edgeProperties l => [msgF 5 (repF 1 PEdgeProperties.fields l)]

/-- `message BulkInsertItem` and the messages of its variants (`proto/indradb.proto:280-303`): in those, the value, number 3,
comes before the name, number 4. -/
def PBulkInsertItem.fields : PBulkInsertItem → List Field
  | .unset => []
  | .vertex v => [msgF 1 v.fields]
  | .edge e => [msgF 2 e.fields]
  | .vertexProperty i n v => [msgF 3 (optF 1 PUuid.fields i ++ optF 3 PJson.fields v ++ optF 4 PIdentifier.fields n)]
  | .edgeProperty e n v => [msgF 4 (optF 1 PEdge.fields e ++ optF 3 PJson.fields v ++ optF 4 PIdentifier.fields n)]

/-- `message IndexPropertyRequest` (`proto/indradb.proto:306-308`). -/
def PIndexPropertyRequest.fields (r : PIndexPropertyRequest) : List Field := optF 1 PIdentifier.fields r.name
/-- `message SetPropertiesRequest` (`proto/indradb.proto:310-314`). -/
def PSetPropertiesRequest.fields (r : PSetPropertiesRequest) : List Field :=
  optF 1 PQuery.fields r.q ++ optF 2 PIdentifier.fields r.name ++ optF 3 PJson.fields r.value
/-- `message CreateResponse` (`proto/indradb.proto:316-318`). -/
def createdFields (created : Bool) : List Field := boolF 1 created
/-- `message ExecutePluginRequest` (`proto/indradb.proto:321-324`). -/
def PExecutePluginRequest.fields (r : PExecutePluginRequest) : List Field :=
  bytesF 1 (strBytes r.name) ++ optF 2 PJson.fields r.arg
/-- `message ExecutePluginResponse` (`proto/indradb.proto:327-329`). -/
def pluginReplyFields (value : Option PJson) : List Field := optF 1 PJson.fields value

/-! ### Merging a field into a message -/

/-- `message Uuid` (`proto/indradb.proto:9-11`). -/
def PUuid.merge (d : Nat) (u : PUuid) : Field → Option PUuid
  | (1, v) => (asBytes v).map (⟨·⟩)
  | (_, v) => skip d v u
/-- `message Identifier` (`proto/indradb.proto:16-18`). -/
def PIdentifier.merge (d : Nat) (i : PIdentifier) : Field → Option PIdentifier
  | (1, v) => (asString v).map (⟨·⟩)
  | (_, v) => skip d v i
/-- `message Json` (`proto/indradb.proto:21-23`). -/
def PJson.merge (d : Nat) (j : PJson) : Field → Option PJson
  | (1, v) => (asString v).map (⟨·⟩)
  | (_, v) => skip d v j

/-- An optional `Uuid` field. prost, for the messages of `proto/indradb.proto`. -/
def uuidOpt (d : Nat) : Option PUuid → Val → Option (Option PUuid) := subOpt d PUuid.merge ⟨[]⟩
/-- An optional `Identifier` field. prost, for the messages of `proto/indradb.proto`. -/
def identOpt (d : Nat) : Option PIdentifier → Val → Option (Option PIdentifier) := subOpt d PIdentifier.merge ⟨""⟩
/-- An optional `Json` field. prost, for the messages of `proto/indradb.proto`. -/
def jsonOpt (d : Nat) : Option PJson → Val → Option (Option PJson) := subOpt d PJson.merge ⟨""⟩

/-- `message Edge` (`proto/indradb.proto:30-37`). -/
def PEdge.merge (d : Nat) (e : PEdge) : Field → Option PEdge
  | (1, v) => (uuidOpt d e.outboundId v).map ({ e with outboundId := · })
  | (2, v) => (identOpt d e.t v).map ({ e with t := · })
  | (3, v) => (uuidOpt d e.inboundId v).map ({ e with inboundId := · })
  | (_, v) => skip d v e
/-- `message Vertex` (`proto/indradb.proto:43-48`). -/
def PVertex.merge (d : Nat) (m : PVertex) : Field → Option PVertex
  | (1, v) => (uuidOpt d m.id v).map ({ m with id := · })
  | (2, v) => (identOpt d m.t v).map ({ m with t := · })
  | (_, v) => skip d v m
/-- `google.protobuf.Empty`, prost's `()`. Used in `proto/indradb.proto:54, 64`. -/
def mergeEmpty (d : Nat) (u : Unit) : Field → Option Unit
  | (_, v) => skip d v u
/-- `message RangeVertexQuery` (`proto/indradb.proto:93-100`). -/
def mergeRange (d : Nat) (m : UInt32 × Option PIdentifier × Option PUuid) :
    Field → Option (UInt32 × Option PIdentifier × Option PUuid)
  | (1, v) => (asU32 v).map ((·, m.2))
  | (2, v) => (identOpt d m.2.1 v).map ((m.1, ·, m.2.2))
  | (3, v) => (uuidOpt d m.2.2 v).map ((m.1, m.2.1, ·))
  | (_, v) => skip d v m
/-- `message SpecificVertexQuery` (`proto/indradb.proto:103-106`). -/
def mergeUuids (d : Nat) (l : List PUuid) : Field → Option (List PUuid)
  | (1, v) => subRep d PUuid.merge ⟨[]⟩ l v
  | (_, v) => skip d v l
/-- `message SpecificEdgeQuery` (`proto/indradb.proto:123-126`), `message QueryOutputEdges` (213-215). -/
def mergeEdges (d : Nat) (l : List PEdge) : Field → Option (List PEdge)
  | (1, v) => subRep d PEdge.merge ⟨none, none, none⟩ l v
  | (_, v) => skip d v l
/-- `message VertexWithPropertyPresenceQuery` (`proto/indradb.proto:109-112`), `EdgeWithPropertyPresenceQuery` (129-132),
`IndexPropertyRequest` (306-308). -/
def mergeName (d : Nat) (n : Option PIdentifier) : Field → Option (Option PIdentifier)
  | (1, v) => identOpt d n v
  | (_, v) => skip d v n
/-- `message VertexWithPropertyValueQuery` (`proto/indradb.proto:115-120`), `EdgeWithPropertyValueQuery` (135-140). -/
def mergeNameValue (d : Nat) (m : Option PIdentifier × Option PJson) : Field → Option (Option PIdentifier × Option PJson)
  | (1, v) => (identOpt d m.1 v).map ((·, m.2))
  | (2, v) => (jsonOpt d m.2 v).map ((m.1, ·))
  | (_, v) => skip d v m

section
/- How an inner query is merged. -/
variable (inner : Nat → Option PQuery → Val → Option (Option PQuery))

/-- `message PipeQuery` (`proto/indradb.proto:144-153`). -/
def mergePipe (d : Nat) (m : Option PQuery × Int32 × UInt32 × Option PIdentifier) :
    Field → Option (Option PQuery × Int32 × UInt32 × Option PIdentifier)
  | (1, v) => (inner d m.1 v).map ((·, m.2))
  | (2, v) => (asI32 v).map ((m.1, ·, m.2.2))
  | (3, v) => (asU32 v).map ((m.1, m.2.1, ·, m.2.2.2))
  | (4, v) => (identOpt d m.2.2.2 v).map ((m.1, m.2.1, m.2.2.1, ·))
  | (_, v) => skip d v m
/-- `message PipePropertyQuery` (`proto/indradb.proto:156-161`). -/
def mergePipeProperty (d : Nat) (m : Option PQuery × Option PIdentifier) : Field → Option (Option PQuery × Option PIdentifier)
  | (1, v) => (inner d m.1 v).map ((·, m.2))
  | (2, v) => (identOpt d m.2 v).map ((m.1, ·))
  | (_, v) => skip d v m
/-- `message PipeWithPropertyPresenceQuery` (`proto/indradb.proto:164-171`). -/
def mergePresence (d : Nat) (m : Option PQuery × Option PIdentifier × Bool) :
    Field → Option (Option PQuery × Option PIdentifier × Bool)
  | (1, v) => (inner d m.1 v).map ((·, m.2))
  | (2, v) => (identOpt d m.2.1 v).map ((m.1, ·, m.2.2))
  | (3, v) => (asBool v).map ((m.1, m.2.1, ·))
  | (_, v) => skip d v m
/-- `message PipeWithPropertyValueQuery` (`proto/indradb.proto:174-183`). -/
def mergeValue (d : Nat) (m : Option PQuery × Option PIdentifier × Option PJson × Bool) :
    Field → Option (Option PQuery × Option PIdentifier × Option PJson × Bool)
  | (1, v) => (inner d m.1 v).map ((·, m.2))
  | (2, v) => (identOpt d m.2.1 v).map ((m.1, ·, m.2.2))
  | (3, v) => (jsonOpt d m.2.2.1 v).map ((m.1, m.2.1, ·, m.2.2.2))
  | (4, v) => (asBool v).map ((m.1, m.2.1, m.2.2.1, ·))
  | (_, v) => skip d v m
/-- `message IncludeQuery` (`proto/indradb.proto:189-192`), `CountQuery` (195-198). -/
def mergeInner (d : Nat) (m : Option PQuery) : Field → Option (Option PQuery)
  | (1, v) => inner d m v
  | (_, v) => skip d v m

/-- `message Query` (`proto/indradb.proto:51-90`), a `oneof`: a field of the variant already there is merged into it, of
another variant replaces it. -/
def PQuery.mergeWith (d : Nat) (q : PQuery) : Field → Option PQuery
  | (1, v) => (sub d mergeEmpty () v).map (fun _ => .allVertex)
  | (2, v) => (sub d mergeRange (match q with | .rangeVertex a b c => (a, b, c) | _ => (0, none, none)) v).map
      (fun m => .rangeVertex m.1 m.2.1 m.2.2)
  | (3, v) => (sub d mergeUuids (match q with | .specificVertex l => l | _ => []) v).map .specificVertex
  | (4, v) => (sub d mergeName (match q with | .vertexWithPropertyPresence n => n | _ => none) v).map
      .vertexWithPropertyPresence
  | (5, v) => (sub d mergeNameValue (match q with | .vertexWithPropertyValue n j => (n, j) | _ => (none, none)) v).map
      (fun m => .vertexWithPropertyValue m.1 m.2)
  | (6, v) => (sub d mergeEmpty () v).map (fun _ => .allEdge)
  | (7, v) => (sub d mergeEdges (match q with | .specificEdge l => l | _ => []) v).map .specificEdge
  | (8, v) => (sub d mergeName (match q with | .edgeWithPropertyPresence n => n | _ => none) v).map
      .edgeWithPropertyPresence
  | (9, v) => (sub d mergeNameValue (match q with | .edgeWithPropertyValue n j => (n, j) | _ => (none, none)) v).map
      (fun m => .edgeWithPropertyValue m.1 m.2)
  | (10, v) => (sub d (mergePipe inner) (match q with | .pipe i a b t => (i, a, b, t) | _ => (none, 0, 0, none)) v).map
      (fun m => .pipe m.1 m.2.1 m.2.2.1 m.2.2.2)
  | (11, v) => (sub d (mergePipeProperty inner) (match q with | .pipeProperty i n => (i, n) | _ => (none, none)) v).map
      (fun m => .pipeProperty m.1 m.2)
  | (12, v) => (sub d (mergePresence inner) (match q with
        | .pipeWithPropertyPresence i n e => (i, n, e) | _ => (none, none, false)) v).map
      (fun m => .pipeWithPropertyPresence m.1 m.2.1 m.2.2)
  | (13, v) => (sub d (mergeValue inner) (match q with
        | .pipeWithPropertyValue i n j e => (i, n, j, e) | _ => (none, none, none, false)) v).map
      (fun m => .pipeWithPropertyValue m.1 m.2.1 m.2.2.1 m.2.2.2)
  | (14, v) => (sub d (mergeInner inner) (match q with | .incl i => i | _ => none) v).map .incl
  | (15, v) => (sub d (mergeInner inner) (match q with | .count i => i | _ => none) v).map .count
  | (_, v) => skip d v q
end

/-- The inner query of a query, with `n` levels left for it to enter: the first argument is at least that.
`proto/indradb.proto:51-198`. -/
def innerQuery : Nat → Nat → Option PQuery → Val → Option (Option PQuery)
  | 0, _, _, _ => none
  | n + 1, d, o, v => subOpt d (PQuery.mergeWith (innerQuery n)) .unset o v

/-- `message Query` (`proto/indradb.proto:51-90`). An inner query has two levels less than the one around it. -/
def PQuery.merge (d : Nat) : PQuery → Field → Option PQuery := PQuery.mergeWith (innerQuery d) d

/-- `message NamedProperty` (`proto/indradb.proto:239-245`). -/
def PNamedProperty.merge (d : Nat) (m : PNamedProperty) : Field → Option PNamedProperty
  | (2, v) => (jsonOpt d m.value v).map ({ m with value := · })
  | (3, v) => (identOpt d m.name v).map ({ m with name := · })
  | (_, v) => skip d v m
/-- `message VertexProperties` (`proto/indradb.proto:256-261`). -/
def PVertexProperties.merge (d : Nat) (m : PVertexProperties) : Field → Option PVertexProperties
  | (1, v) => (subOpt d PVertex.merge ⟨none, none⟩ m.vertex v).map ({ m with vertex := · })
  | (2, v) => (subRep d PNamedProperty.merge ⟨none, none⟩ m.props v).map ({ m with props := · })
  | (_, v) => skip d v m
/-- `message EdgeProperties` (`proto/indradb.proto:272-277`). -/
def PEdgeProperties.merge (d : Nat) (m : PEdgeProperties) : Field → Option PEdgeProperties
  | (1, v) => (subOpt d PEdge.merge ⟨none, none, none⟩ m.edge v).map ({ m with edge := · })
  | (2, v) => (subRep d PNamedProperty.merge ⟨none, none⟩ m.props v).map ({ m with props := · })
  | (_, v) => skip d v m
/-- `message QueryOutputVertices` (`proto/indradb.proto:209-211`). -/
def mergeVertices (d : Nat) (l : List PVertex) : Field → Option (List PVertex)
  | (1, v) => subRep d PVertex.merge ⟨none, none⟩ l v
  | (_, v) => skip d v l
/-- `message QueryOutputVertexProperties` (`proto/indradb.proto:217-219`). -/
def mergeVertexProperties (d : Nat) (l : List PVertexProperties) : Field → Option (List PVertexProperties)
  | (1, v) => subRep d PVertexProperties.merge ⟨none, []⟩ l v
  | (_, v) => skip d v l
/-- `message QueryOutputEdgeProperties` (`proto/indradb.proto:221-223`). -/
def mergeEdgeProperties (d : Nat) (l : List PEdgeProperties) : Field → Option (List PEdgeProperties)
  | (1, v) => subRep d PEdgeProperties.merge ⟨none, []⟩ l v
  | (_, v) => skip d v l
/-- `message QueryOutputValue` (`proto/indradb.proto:199-207`). -/
def POutput.merge (d : Nat) (m : POutput) : Field → Option POutput
  | (1, v) => (sub d mergeVertices (match m with | .vertices l => l | _ => []) v).map .vertices
  | (2, v) => (sub d mergeEdges (match m with | .edges l => l | _ => []) v).map .edges
  | (3, v) => (asU64 v).map .count
  | (4, v) => (sub d mergeVertexProperties (match m with | .vertexProperties l => l | _ => []) v).map .vertexProperties
  | (5, v) => (sub d mergeEdgeProperties (match m with | .edgeProperties l => l | _ => []) v).map .edgeProperties
  | (_, v) => skip d v m
/-- `message VertexPropertyBulkInsertItem` (`proto/indradb.proto:290-295`). -/
def mergeVertexItem (d : Nat) (m : Option PUuid × Option PIdentifier × Option PJson) :
    Field → Option (Option PUuid × Option PIdentifier × Option PJson)
  | (1, v) => (uuidOpt d m.1 v).map ((·, m.2))
  | (3, v) => (jsonOpt d m.2.2 v).map ((m.1, m.2.1, ·))
  | (4, v) => (identOpt d m.2.1 v).map ((m.1, ·, m.2.2))
  | (_, v) => skip d v m
/-- `message EdgePropertyBulkInsertItem` (`proto/indradb.proto:298-303`). -/
def mergeEdgeItem (d : Nat) (m : Option PEdge × Option PIdentifier × Option PJson) :
    Field → Option (Option PEdge × Option PIdentifier × Option PJson)
  | (1, v) => (subOpt d PEdge.merge ⟨none, none, none⟩ m.1 v).map ((·, m.2))
  | (3, v) => (jsonOpt d m.2.2 v).map ((m.1, m.2.1, ·))
  | (4, v) => (identOpt d m.2.1 v).map ((m.1, ·, m.2.2))
  | (_, v) => skip d v m
/-- `message BulkInsertItem` (`proto/indradb.proto:280-287`). -/
def PBulkInsertItem.merge (d : Nat) (m : PBulkInsertItem) : Field → Option PBulkInsertItem
  | (1, v) => (sub d PVertex.merge (match m with | .vertex x => x | _ => ⟨none, none⟩) v).map .vertex
  | (2, v) => (sub d PEdge.merge (match m with | .edge x => x | _ => ⟨none, none, none⟩) v).map .edge
  | (3, v) => (sub d mergeVertexItem (match m with | .vertexProperty i n j => (i, n, j) | _ => (none, none, none)) v).map
      (fun m => .vertexProperty m.1 m.2.1 m.2.2)
  | (4, v) => (sub d mergeEdgeItem (match m with | .edgeProperty e n j => (e, n, j) | _ => (none, none, none)) v).map
      (fun m => .edgeProperty m.1 m.2.1 m.2.2)
  | (_, v) => skip d v m
/-- `message IndexPropertyRequest` (`proto/indradb.proto:306-308`). -/
def PIndexPropertyRequest.merge (d : Nat) (m : PIndexPropertyRequest) (f : Field) : Option PIndexPropertyRequest :=
  (mergeName d m.name f).map (⟨·⟩)
/-- `message SetPropertiesRequest` (`proto/indradb.proto:310-314`). -/
def PSetPropertiesRequest.merge (d : Nat) (m : PSetPropertiesRequest) : Field → Option PSetPropertiesRequest
  | (1, v) => (subOpt d PQuery.merge .unset m.q v).map ({ m with q := · })
  | (2, v) => (identOpt d m.name v).map ({ m with name := · })
  | (3, v) => (jsonOpt d m.value v).map ({ m with value := · })
  | (_, v) => skip d v m
/-- `message CreateResponse` (`proto/indradb.proto:316-318`). -/
def mergeCreated (d : Nat) (b : Bool) : Field → Option Bool
  | (1, v) => asBool v
  | (_, v) => skip d v b
/-- `message ExecutePluginRequest` (`proto/indradb.proto:321-324`). -/
def PExecutePluginRequest.merge (d : Nat) (m : PExecutePluginRequest) : Field → Option PExecutePluginRequest
  | (1, v) => (asString v).map ({ m with name := · })
  | (2, v) => (jsonOpt d m.arg v).map ({ m with arg := · })
  | (_, v) => skip d v m
/-- `message ExecutePluginResponse` (`proto/indradb.proto:327-329`). -/
def mergePluginReply (d : Nat) (m : Option PJson) : Field → Option (Option PJson)
  | (1, v) => jsonOpt d m v
  | (_, v) => skip d v m

/-! ### Messages as bytes -/

/-- `Message::decode` (prost): merged into the empty message, with 100 levels. For the messages of `proto/indradb.proto`. -/
def decodeMsg {α : Type} (merge : Nat → α → Field → Option α) (empty : α) (b : Bytes) : Option α :=
  match getFields b with
  | none => none
  | some l => mergeAll (merge 100) empty l

/-- A message on its way: encoded by prost; tonic refuses what is longer than 4 MiB; decoded by prost.
`proto/src/server.rs:195-313`, `proto/src/client.rs:83-250`. -/
def transmit {α : Type} (merge : Nat → α → Field → Option α) (empty : α) (b : Bytes) : Option α :=
  if b.length ≤ 4194304 then decodeMsg merge empty b else none

/-- A message type's two directions: `encode_to_vec` and `Message::decode` (prost). For the messages of
`proto/indradb.proto`. -/
structure MsgCodec (α : Type) where
  encode : α → Bytes
  decode : Bytes → Option α

/-- `message Uuid` (`proto/indradb.proto:9-11`). -/
def PUuid.codec : MsgCodec PUuid := ⟨fun m => putFields m.fields, decodeMsg PUuid.merge ⟨[]⟩⟩
/-- `message Identifier` (`proto/indradb.proto:16-18`). -/
def PIdentifier.codec : MsgCodec PIdentifier := ⟨fun m => putFields m.fields, decodeMsg PIdentifier.merge ⟨""⟩⟩
/-- `message Edge` (`proto/indradb.proto:30-37`). -/
def PEdge.codec : MsgCodec PEdge := ⟨fun m => putFields m.fields, decodeMsg PEdge.merge ⟨none, none, none⟩⟩
/-- `message Vertex` (`proto/indradb.proto:43-48`). -/
def PVertex.codec : MsgCodec PVertex := ⟨fun m => putFields m.fields, decodeMsg PVertex.merge ⟨none, none⟩⟩
/-- `message Query` (`proto/indradb.proto:51-198`). -/
def PQuery.codec : MsgCodec PQuery := ⟨fun m => putFields m.fields, decodeMsg PQuery.merge .unset⟩
/-- `message QueryOutputValue` (`proto/indradb.proto:199-223`). -/
def POutput.codec : MsgCodec POutput := ⟨fun m => putFields m.fields, decodeMsg POutput.merge .unset⟩
/-- `message BulkInsertItem` (`proto/indradb.proto:280-303`). -/
def PBulkInsertItem.codec : MsgCodec PBulkInsertItem := ⟨fun m => putFields m.fields, decodeMsg PBulkInsertItem.merge .unset⟩
/-- `message IndexPropertyRequest` (`proto/indradb.proto:306-308`). -/
def PIndexPropertyRequest.codec : MsgCodec PIndexPropertyRequest :=
  ⟨fun m => putFields m.fields, decodeMsg PIndexPropertyRequest.merge ⟨none⟩⟩
/-- `message SetPropertiesRequest` (`proto/indradb.proto:310-314`). -/
def PSetPropertiesRequest.codec : MsgCodec PSetPropertiesRequest :=
  ⟨fun m => putFields m.fields, decodeMsg PSetPropertiesRequest.merge ⟨none, none, none⟩⟩
/-- `message CreateResponse` (`proto/indradb.proto:316-318`). -/
def createdCodec : MsgCodec Bool := ⟨fun b => putFields (createdFields b), decodeMsg mergeCreated false⟩
/-- `message ExecutePluginRequest` (`proto/indradb.proto:321-324`). -/
def PExecutePluginRequest.codec : MsgCodec PExecutePluginRequest :=
  ⟨fun m => putFields m.fields, decodeMsg PExecutePluginRequest.merge ⟨"", none⟩⟩
/-- `message ExecutePluginResponse` (`proto/indradb.proto:327-329`). -/
def pluginReplyCodec : MsgCodec (Option PJson) := ⟨fun m => putFields (pluginReplyFields m), decodeMsg mergePluginReply none⟩

end IndraDB
