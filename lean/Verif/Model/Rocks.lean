import Verif.Model.Prog
import Verif.Model.Util
import Verif.Model.Database
/-
Model of `lib/src/rdb/managers.rs` and of the transactions in `lib/src/rdb/datastore.rs`.
-/
namespace IndraDB

/-- `serde_json::to_vec` and `serde_json::from_slice` on JSON values. No law is assumed: `from_slice` refuses deeply
nested values (recursion limit 128), and floats may come back changed (the `float_roundtrip` feature is off).
Used at `lib/src/rdb/managers.rs:331, 338, 356, 442, 452, 470`. -/
structure Codec where
  enc : Json → Bytes
  dec : Bytes → Option Json

/-- What the code depends on: the hasher (`DefaultHasher` = SipHash-1-3 with zero keys, on the hash input of a value),
the JSON codec, and whether debug assertions are on.
`lib/src/rdb/managers.rs`, `lib/src/util.rs:27-63` (the hash of a value as a key component). -/
structure Cfg where
  H : Bytes → UInt64
  codec : Codec
  build : Build

/-- Iteration order of `HashSet<Identifier>`: an arbitrary permutation.
The set serialized at `lib/src/rdb/managers.rs:711`. -/
structure IdentOrder where
  order : List Identifier → List Identifier
  perm : ∀ l, (order l).Perm l

/-- The order that happens to be sorted.
One of the possible orders at `lib/src/rdb/managers.rs:711`; only used in examples. -/
def IdentOrder.sorted : IdentOrder := ⟨id, fun _ => .refl _⟩

/-! ### bincode (used for the set of indexed names) -/

/-- `bincode::serialize` of a set of strings: `u64` little endian count, then for each string its length and bytes.
`lib/src/rdb/managers.rs:711`. -/
def encodeIdents (l : List Identifier) : Bytes :=
  le64 l.length ++ l.flatMap (fun i => le64 i.bytes.length ++ i.bytes)

/-- Value of little endian bytes. Used by `bincode` at `lib/src/rdb/managers.rs:705`. -/
def leVal : Bytes → Nat
  | [] => 0
  | b :: r => b.toNat + 256 * leVal r

/-- A bincode failure (`lib/src/errors.rs:78-82`). -/
def bincodeError {α : Type} : Res α := .error (.err .datastore)

/-- Deserialize one string; `Identifier` is deserialized unchecked (`lib/src/models/identifiers.rs:93-102`). Names of more than 255
bytes cannot be represented (they are never written). -/
def decodeIdent (cur : Bytes) : Res (Identifier × Bytes) :=
  if cur.length < 8 then bincodeError
  else
    let n := leVal (cur.take 8)
    let cur := cur.drop 8
    if cur.length < n then bincodeError
    else if h : (cur.take n).length ≤ 255 then .ok (⟨cur.take n, h⟩, cur.drop n) else .error .panic

/-- Deserialize `n` strings. Part of `lib/src/rdb/managers.rs:705`. -/
def decodeIdentList : Nat → Bytes → Res (List Identifier)
  | 0, _ => .ok []
  | n + 1, cur => match decodeIdent cur with
    | .error f => .error f
    | .ok (i, cur) => match decodeIdentList n cur with
      | .error f => .error f
      | .ok l => .ok (i :: l)

/-- A set with the given elements. The `HashSet` collected at `lib/src/rdb/managers.rs:705`. -/
def identSet (l : List Identifier) : SSet Identifier := l.foldl SSet.add SMap.empty

/-- `bincode::deserialize::<HashSet<Identifier>>`; trailing bytes are accepted. `lib/src/rdb/managers.rs:705`. -/
def decodeIdents (b : Bytes) : Res (SSet Identifier) :=
  if b.length < 8 then bincodeError
  else (decodeIdentList (leVal (b.take 8)) (b.drop 8)).map identSet

/-! ### Keys -/
namespace Rocks
variable (X : Cfg)

/-- `VertexManager::key` (`lib/src/rdb/managers.rs:42-44`). -/
def vertexKey (id : Uuid) : Bytes := build X.H [.uuid id]

/-- `EdgeRangeManager::key` (lib/src/rdb/managers.rs:200-206). -/
def edgeKey (e : Edge) : Bytes := build X.H [.uuid e.outboundId, .identifier e.t, .uuid e.inboundId]

/-- `VertexPropertyManager::key` (lib/src/rdb/managers.rs:305-310). -/
def vpKey (id : Uuid) (n : Identifier) : Bytes := build X.H [.uuid id, .fixedLengthString n.bytes]

/-- `EdgePropertyManager::key` (lib/src/rdb/managers.rs:401-408). -/
def epKey (e : Edge) (n : Identifier) : Bytes :=
  build X.H [.uuid e.outboundId, .identifier e.t, .uuid e.inboundId, .fixedLengthString n.bytes]

/-- `VertexPropertyValueManager::key` (lib/src/rdb/managers.rs:515-521). -/
def vpvKey (n : Identifier) (v : Json) (id : Uuid) : Bytes := build X.H [.identifier n, .json v, .uuid id]

/-- `EdgePropertyValueManager::key` (lib/src/rdb/managers.rs:607-615). -/
def epvKey (n : Identifier) (v : Json) (e : Edge) : Bytes :=
  build X.H [.identifier n, .json v, .uuid e.outboundId, .identifier e.t, .uuid e.inboundId]

/-- The key `"indexed_properties"` (704, 712). `lib/src/rdb/managers.rs`. -/
def metaKey : Bytes := strBytes "indexed_properties"

/-- `take_with_prefix` (lib/src/rdb/managers.rs:19-27). -/
def takeWithPrefix (l : DynIter (Bytes × Bytes)) (prefix_ : Bytes) : DynIter (Bytes × Bytes) :=
  l.takeWhile (fun item => match item with
    | .ok e => prefix_.isPrefixOf e.1
    | .error _ => true)

/-- `iter.map(|item| { let e = item?; f(e) })`.
`lib/src/rdb/managers.rs:65-77, 212-219, 324-333, 425-445, 530-537, 624-633`. -/
def mapItems {β : Type} (f : Bytes × Bytes → Res β) (l : DynIter (Bytes × Bytes)) : DynIter β := l.map (fun item => item >>= f)

/-- `debug_assert!`. `lib/src/rdb/managers.rs:69, 111, 120, 328, 431, 434, 437`. -/
def debugAssert (p : Bool) : Res Unit := if X.build = .debug ∧ p = false then .error .panic else .ok ()

/-- `serde_json::from_slice(..)?`. `lib/src/rdb/managers.rs:331, 338, 442, 452`. -/
def fromSlice (b : Bytes) : Res Json := match X.codec.dec b with
  | some v => .ok v
  | none => .error (.err .datastore)

/-! ### `VertexManager` -/

/-- `exists` (lib/src/rdb/managers.rs:46-48). -/
def vertexExists (id : Uuid) : Prog Bool := do return (← Prog.getCf .vertices (vertexKey X id)).isSome

/-- `get` (lib/src/rdb/managers.rs:50-58). -/
def vertexGet (id : Uuid) : Prog (Option Identifier) := do
  match ← Prog.getCf .vertices (vertexKey X id) with
  | some b => do
    let (t, _) ← Prog.lift (readIdentifier b)
    return some t
  | none => return none

/-- The closure at lib/src/rdb/managers.rs:65-77. -/
def vertexItem (e : Bytes × Bytes) : Res Vertex := do
  debugAssert X (e.1.length = 16)
  let (id, _) ← readUuid e.1
  let (t, _) ← readIdentifier e.2
  return ⟨id, t⟩

/-- `iterate_for_range` (lib/src/rdb/managers.rs:60-78). -/
def vertexIterate (id : Uuid) : Prog (DynIter Vertex) := do
  return mapItems (vertexItem X) (← Prog.iteratorCf .vertices (build X.H [.uuid id]))

/-- `create` (lib/src/rdb/managers.rs:80-84). -/
def vertexCreate (v : Vertex) : Batch := [.put .vertices (vertexKey X v.id) (build X.H [.identifier v.t])]

/-! ### `EdgeRangeManager` for the column family `cf` (`edge_ranges` or `reversed_edge_ranges`) -/

/-- `contains` (lib/src/rdb/managers.rs:222-224). -/
def edgeContains (cf : CF) (e : Edge) : Prog Bool := do return (← Prog.getCf cf (edgeKey X e)).isSome

/-- The closure at lib/src/rdb/managers.rs:212-219. -/
def edgeItem (e : Bytes × Bytes) : Res Edge := do
  let (a, cur) ← readUuid e.1
  let (t, cur) ← readIdentifier cur
  let (b, _) ← readUuid cur
  return ⟨a, t, b⟩

/-- `iterate_for_root` (lib/src/rdb/managers.rs:226-251); only called with `t = None`. -/
def edgeIterateRoot (cf : CF) (id : Uuid) : Prog (DynIter Edge) := do
  let p := build X.H [.uuid id]
  return mapItems edgeItem (takeWithPrefix (← Prog.iteratorCf cf p) p)

/-- `iterate_for_range` (lib/src/rdb/managers.rs:253-268). -/
def edgeIterateRange (cf : CF) (lo : Edge) : Prog (DynIter Edge) := do
  return mapItems edgeItem (← Prog.iteratorCf cf (edgeKey X lo))

/-- `iterate_for_all` (lib/src/rdb/managers.rs:270-273). -/
def edgeIterateAll (cf : CF) : Prog (DynIter Edge) := do
  return mapItems edgeItem (← Prog.iteratorCf cf [])

/-- `set` (lib/src/rdb/managers.rs:275-279). -/
def edgeRangeSet (cf : CF) (e : Edge) : Batch := [.put cf (edgeKey X e) []]

/-- `delete` (lib/src/rdb/managers.rs:281-284). -/
def edgeRangeDelete (cf : CF) (e : Edge) : Batch := [.delete cf (edgeKey X e)]

/-! ### `VertexPropertyValueManager`, `EdgePropertyValueManager` -/

/-- `set` (lib/src/rdb/managers.rs:566-575). -/
def vpvSet (id : Uuid) (n : Identifier) (v : Json) : Batch := [.put .vertexPropertyValues (vpvKey X n v id) []]

/-- `delete` (lib/src/rdb/managers.rs:577-586). -/
def vpvDelete (id : Uuid) (n : Identifier) (v : Json) : Batch := [.delete .vertexPropertyValues (vpvKey X n v id)]

/-- The closure at lib/src/rdb/managers.rs:530-537. -/
def vpvItem (e : Bytes × Bytes) : Res Uuid := do
  let (_, cur) ← readIdentifier e.1
  let (_, cur) ← readU64 cur
  let (id, _) ← readUuid cur
  return id

/-- `iterate` (lib/src/rdb/managers.rs:523-538) for a prefix: `iterate_for_name` (540-549), `iterate_for_value` (551-564). The name and the
hash in the items are not used by the callers and are dropped. -/
def vpvIterate (p : List Component) : Prog (DynIter Uuid) := do
  let p := build X.H p
  return mapItems vpvItem (takeWithPrefix (← Prog.iteratorCf .vertexPropertyValues p) p)

/-- `set` (lib/src/rdb/managers.rs:662-671). -/
def epvSet (e : Edge) (n : Identifier) (v : Json) : Batch := [.put .edgePropertyValues (epvKey X n v e) []]

/-- `delete` (lib/src/rdb/managers.rs:673-682). -/
def epvDelete (e : Edge) (n : Identifier) (v : Json) : Batch := [.delete .edgePropertyValues (epvKey X n v e)]

/-- The closure at lib/src/rdb/managers.rs:624-633. -/
def epvItem (e : Bytes × Bytes) : Res Edge := do
  let (_, cur) ← readIdentifier e.1
  let (_, cur) ← readU64 cur
  let (a, cur) ← readUuid cur
  let (t, cur) ← readIdentifier cur
  let (b, _) ← readUuid cur
  return ⟨a, t, b⟩

/-- `iterate` (lib/src/rdb/managers.rs:617-634): `iterate_for_name` (636-645), `iterate_for_value` (647-660). -/
def epvIterate (p : List Component) : Prog (DynIter Edge) := do
  let p := build X.H p
  return mapItems epvItem (takeWithPrefix (← Prog.iteratorCf .edgePropertyValues p) p)

/-! ### `VertexPropertyManager` -/

/-- `get` (lib/src/rdb/managers.rs:336-341). -/
def vpGet (id : Uuid) (n : Identifier) : Prog (Option Json) := do
  match ← Prog.getCf .vertexProperties (vpKey X id n) with
  | some b => do
    let v ← Prog.lift (fromSlice X b)
    return some v
  | none => return none

/-- The closure at lib/src/rdb/managers.rs:324-333. -/
def vpItem (owner : Uuid) (e : Bytes × Bytes) : Res (Uuid × Identifier × Json) := do
  let (id, cur) ← readUuid e.1
  debugAssert X (owner = id)
  let n ← readRestIdentifier cur
  let v ← fromSlice X e.2
  return (id, n, v)

/-- `iterate_for_owner` (lib/src/rdb/managers.rs:312-334). -/
def vpIterate (owner : Uuid) : Prog (DynIter (Uuid × Identifier × Json)) := do
  let p := build X.H [.uuid owner]
  return mapItems (vpItem X owner) (takeWithPrefix (← Prog.iteratorCf .vertexProperties p) p)

/-- `delete` (lib/src/rdb/managers.rs:365-380). -/
def vpDelete (ix : SSet Identifier) (id : Uuid) (n : Identifier) : Prog Batch := do
  let b ← (if ix.contains n then do
      match ← vpGet X id n with
      | some v => return vpvDelete X id n v
      | none => return []
    else return [])
  return b ++ [.delete .vertexProperties (vpKey X id n)]

/-- `set` (lib/src/rdb/managers.rs:343-363). -/
def vpSet (ix : SSet Identifier) (id : Uuid) (n : Identifier) (v : Json) : Prog Batch := do
  let b ← (if ix.contains n then vpDelete X ix id n else return [])
  let b := b ++ [.put .vertexProperties (vpKey X id n) (X.codec.enc v)]
  return if ix.contains n then b ++ vpvSet X id n v else b

/-! ### `EdgePropertyManager` -/

/-- `get` (lib/src/rdb/managers.rs:450-455). -/
def epGet (e : Edge) (n : Identifier) : Prog (Option Json) := do
  match ← Prog.getCf .edgeProperties (epKey X e n) with
  | some b => do
    let v ← Prog.lift (fromSlice X b)
    return some v
  | none => return none

/-- The closure at lib/src/rdb/managers.rs:425-445. -/
def epItem (owner : Edge) (e : Bytes × Bytes) : Res (Edge × Identifier × Json) := do
  let (a, cur) ← readUuid e.1
  debugAssert X (a = owner.outboundId)
  let (t, cur) ← readIdentifier cur
  debugAssert X (t = owner.t)
  let (b, cur) ← readUuid cur
  debugAssert X (b = owner.inboundId)
  let n ← readRestIdentifier cur
  let v ← fromSlice X e.2
  return (⟨a, t, b⟩, n, v)

/-- `iterate_for_owner` (lib/src/rdb/managers.rs:410-448). -/
def epIterate (owner : Edge) : Prog (DynIter (Edge × Identifier × Json)) := do
  let p := build X.H [.uuid owner.outboundId, .identifier owner.t, .uuid owner.inboundId]
  return mapItems (epItem X owner) (takeWithPrefix (← Prog.iteratorCf .edgeProperties p) p)

/-- `delete` (lib/src/rdb/managers.rs:479-494). -/
def epDelete (ix : SSet Identifier) (e : Edge) (n : Identifier) : Prog Batch := do
  let b ← (if ix.contains n then do
      match ← epGet X e n with
      | some v => return epvDelete X e n v
      | none => return []
    else return [])
  return b ++ [.delete .edgeProperties (epKey X e n)]

/-- `set` (lib/src/rdb/managers.rs:457-477). -/
def epSet (ix : SSet Identifier) (e : Edge) (n : Identifier) (v : Json) : Prog Batch := do
  let b ← (if ix.contains n then epDelete X ix e n else return [])
  let b := b ++ [.put .edgeProperties (epKey X e n) (X.codec.enc v)]
  return if ix.contains n then b ++ epvSet X e n v else b

/-! ### `EdgeManager` -/

/-- `set` (lib/src/rdb/managers.rs:143-156). -/
def edgeSet (e : Edge) : Prog Batch := do
  let b := if (← edgeContains X .edgeRanges e) then
      edgeRangeDelete X .edgeRanges e ++ edgeRangeDelete X .reversedEdgeRanges e.reversed
    else []
  return b ++ edgeRangeSet X .edgeRanges e ++ edgeRangeSet X .reversedEdgeRanges e.reversed

/-- `delete` (lib/src/rdb/managers.rs:158-177). -/
def edgeDelete (ix : SSet Identifier) (e : Edge) : Prog Batch := do
  let b := edgeRangeDelete X .edgeRanges e ++ edgeRangeDelete X .reversedEdgeRanges e.reversed
  let b' ← Prog.forItems (fun p => epDelete X ix p.1 p.2.1) (← epIterate X e)
  return b ++ b'

/-- `VertexManager::delete` (lib/src/rdb/managers.rs:86-126). Note the last loop: the items of the reversed table are deleted as they are,
although they are reversed edges. -/
def vertexDelete (ix : SSet Identifier) (id : Uuid) : Prog Batch := do
  let b1 ← Prog.forItems (fun p => vpDelete X ix p.1 p.2.1) (← vpIterate X id)
  let b2 ← Prog.forItems (fun e => do
    Prog.lift (debugAssert X (e.outboundId = id))
    edgeDelete X ix e) (← edgeIterateRoot X .edgeRanges id)
  let b3 ← Prog.forItems (fun e => do
    Prog.lift (debugAssert X (e.outboundId = id))
    edgeDelete X ix e) (← edgeIterateRoot X .reversedEdgeRanges id)
  return [.delete .vertices (vertexKey X id)] ++ b1 ++ b2 ++ b3

/-! ### `MetadataManager` -/

/-- `get_indexed_properties` (lib/src/rdb/managers.rs:703-708). -/
def getIndexed : Prog (SSet Identifier) := do
  match ← Prog.getCf .metadata metaKey with
  | some b => Prog.lift (decodeIdents b)
  | none => return SMap.empty

/-- `set_indexed_properties` (lib/src/rdb/managers.rs:710-714). -/
def setIndexedBatch (O : IdentOrder) (ix : SSet Identifier) : Batch :=
  [.put .metadata metaKey (encodeIdents (O.order ix.elems))]

/-! ### `RocksdbTransaction`: reads (`lib/src/rdb/datastore.rs:38-191`) -/

/-- `vertex_ids_from_property_value_iterator` (lib/src/rdb/datastore.rs:38-50). -/
def existingIds (iter : DynIter Uuid) : Prog (DynIter Uuid) :=
  Prog.filterMapItems (fun id => do return if (← vertexExists X id) then some id else none) iter

/-- `if self.indexed_properties.read().unwrap().contains(&name) { Ok(Some(iter)) } else { Ok(None) }`; the guard is a
temporary of the condition and is dropped before the branch is entered. `lib/src/rdb/datastore.rs:80, 90, 136, 151`. -/
def ifIndexed {α : Type} (n : Identifier) (iter : Prog (DynIter α)) : Prog (Option (DynIter α)) :=
  .readLock false (fun ix => if ix.contains n then do return some (← iter) else return none)

/-- An iterator that only reads: its items.
As made by `lib/src/rdb/managers.rs` (see `mapItems`) and consumed in `lib/src/database.rs:380-690`. -/
def lookupItems {α β : Type} (f : α → Prog (Option β)) (l : List α) : Prog (DynIter β) :=
  Prog.filterMapItems f (l.map .ok)

/-- `iter.collect()` of property items followed by dropping the owner (lib/src/rdb/datastore.rs:166-171, 182-187). -/
def propItems {ω : Type} (p : Prog (DynIter (ω × Identifier × Json))) : Prog (DynIter (Identifier × Json)) := do
  let l ← Prog.lift (collect (← p))
  return l.map (fun x => .ok x.2)

/-- The read methods, evaluated in one state. `count()` of an iterator is the number of its items (a panicking item, in
debug builds, would panic; shown not to occur). `lib/src/rdb/datastore.rs:54-191`. -/
def reads (s : Rocks) : Reads where
  -- 54-57
  vertexCount := match (vertexIterate X Uuid.nil).eval s with
    | .ok l => l.length
    | .error _ => 0
  -- 59-62
  allVertices := (vertexIterate X Uuid.nil).eval s
  -- 64-67
  rangeVertices := fun id => (vertexIterate X id).eval s
  -- 69-77
  specificVertices := fun ids =>
    (lookupItems (fun id => do return (← vertexGet X id).map (fun t => (⟨id, t⟩ : Vertex))) ids).eval s
  -- 79-87
  vertexIdsWithProperty := fun n => (ifIndexed n (do existingIds X (← vpvIterate X [.identifier n]))).eval s
  -- 89-97
  vertexIdsWithPropertyValue := fun n v =>
    (ifIndexed n (do existingIds X (← vpvIterate X [.identifier n, .json v]))).eval s
  -- 99-102
  edgeCount := match (edgeIterateAll .edgeRanges).eval s with
    | .ok l => l.length
    | .error _ => 0
  -- 104-107
  allEdges := (edgeIterateAll .edgeRanges).eval s
  -- 109-114
  rangeEdges := fun lo => (edgeIterateRange X .edgeRanges lo).eval s
  -- 116-121
  rangeReversedEdges := fun lo => (edgeIterateRange X .reversedEdgeRanges lo).eval s
  -- 123-133
  specificEdges := fun es =>
    (lookupItems (fun e => do return if (← edgeContains X .edgeRanges e) then some e else none) es).eval s
  -- 135-148
  edgesWithProperty := fun n => (ifIndexed n (epvIterate X [.identifier n])).eval s
  -- 150-163
  edgesWithPropertyValue := fun n v => (ifIndexed n (epvIterate X [.identifier n, .json v])).eval s
  -- 165-170
  vertexProperty := fun v n => (vpGet X v.id n).eval s
  -- 172-177
  allVertexPropertiesForVertex := fun v => (propItems (vpIterate X v.id)).eval s
  -- 179-184
  edgeProperty := fun e n => (epGet X e n).eval s
  -- 186-191
  allEdgePropertiesForEdge := fun e => (propItems (epIterate X e)).eval s

/-! ### `RocksdbTransaction`: writes (`lib/src/rdb/datastore.rs:193-361`) -/

/-- The common shape: take the read lock, fill a batch, write it. `lib/src/rdb/datastore.rs:193-243, 282-307, 339-359`. -/
def locked (f : SSet Identifier → Prog Batch) : Prog Unit :=
  .readLock true (fun ix => do
    let b ← f ix
    Prog.writeBatch b)

/-- `delete_vertices` (lib/src/rdb/datastore.rs:193-203). -/
def deleteVertices (vs : List Vertex) : Prog Unit := locked (fun ix => Prog.forAll (fun v => vertexDelete X ix v.id) vs)

/-- `delete_edges` (lib/src/rdb/datastore.rs:205-217): an edge whose outbound vertex does not exist is skipped. -/
def deleteEdges (es : List Edge) : Prog Unit := locked (fun ix => Prog.forAll (fun e => do
  match ← vertexGet X e.outboundId with
  | some _ => edgeDelete X ix e
  | none => return []) es)

/-- `delete_vertex_properties` (lib/src/rdb/datastore.rs:219-230). -/
def deleteVertexProperties (ps : List (Uuid × Identifier)) : Prog Unit :=
  locked (fun ix => Prog.forAll (fun p => vpDelete X ix p.1 p.2) ps)

/-- `delete_edge_properties` (lib/src/rdb/datastore.rs:232-243). -/
def deleteEdgeProperties (ps : List (Edge × Identifier)) : Prog Unit :=
  locked (fun ix => Prog.forAll (fun p => epDelete X ix p.1 p.2) ps)

/-- `sync` (lib/src/rdb/datastore.rs:245-256): compaction and flush do not change the contents. -/
def sync : Prog Unit := pure ()

/-- `create_vertex` (lib/src/rdb/datastore.rs:258-267). -/
def createVertex (v : Vertex) : Prog Bool := do
  if ← vertexExists X v.id then return false
  else do
    Prog.writeBatch (vertexCreate X v)
    return true

/-- `create_edge` (lib/src/rdb/datastore.rs:269-278); `||` does not evaluate its right side if the left is true. -/
def createEdge (e : Edge) : Prog Bool := do
  if !(← vertexExists X e.outboundId) then return false
  else if !(← vertexExists X e.inboundId) then return false
  else do
    let b ← edgeSet X e
    Prog.writeBatch b
    return true

/-- One item of `bulk_insert` (lib/src/rdb/datastore.rs:287-302). -/
def bulkItem (ix : SSet Identifier) : BulkInsertItem → Prog Batch
  | .vertex v => return vertexCreate X v
  | .edge e => edgeSet X e
  | .vertexProperty id n v => vpSet X ix id n v
  | .edgeProperty e n v => epSet X ix e n v

/-- `bulk_insert` (lib/src/rdb/datastore.rs:282-307): nothing is checked, and all reads see the state before the batch. -/
def bulkInsert (items : List BulkInsertItem) : Prog Unit := locked (fun ix => Prog.forAll (bulkItem X ix) items)

/-- `index_property` (lib/src/rdb/datastore.rs:309-337). -/
def indexProperty (O : IdentOrder) (n : Identifier) : Prog Unit := .writeLock (fun ix =>
  if ix.contains n then return ()
  else .setIndexed (ix.add n) (fun _ => do
    let b := setIndexedBatch O (ix.add n)
    let b1 ← Prog.forItems (fun v : Vertex => do
      match ← vpGet X v.id n with
      | some x => return vpvSet X v.id n x
      | none => return []) (← vertexIterate X Uuid.nil)
    let b2 ← Prog.forItems (fun e : Edge => do
      match ← epGet X e n with
      | some x => return epvSet X e n x
      | none => return []) (← edgeIterateAll .edgeRanges)
    Prog.writeBatch (b ++ b1 ++ b2)))

/-- `set_vertex_properties` (lib/src/rdb/datastore.rs:339-348). -/
def setVertexProperties (ids : List Uuid) (n : Identifier) (v : Json) : Prog Unit :=
  locked (fun ix => Prog.forAll (fun id => vpSet X ix id n v) ids)

/-- `set_edge_properties` (lib/src/rdb/datastore.rs:350-359). -/
def setEdgeProperties (es : List Edge) (n : Identifier) (v : Json) : Prog Unit :=
  locked (fun ix => Prog.forAll (fun e => epSet X ix e n v) es)

/-- `impl Transaction for RocksdbTransaction` (lib/src/rdb/datastore.rs:53-361), each method run without interference. -/
def txn (O : IdentOrder) : Transaction Rocks where
  reads := reads X
  deleteVertices vs s := (deleteVertices X vs).run s
  deleteEdges es s := (deleteEdges X es).run s
  deleteVertexProperties ps s := (deleteVertexProperties X ps).run s
  deleteEdgeProperties ps s := (deleteEdgeProperties X ps).run s
  sync s := sync.run s
  createVertex v s := (createVertex X v).run s
  createEdge e s := (createEdge X e).run s
  bulkInsert items s := (bulkInsert X items).run s
  indexProperty n s := (indexProperty X O n).run s
  setVertexProperties ids n v s := (setVertexProperties X ids n v).run s
  setEdgeProperties es n v s := (setEdgeProperties X es n v).run s

/-- A new database (`new_db`, lib/src/rdb/datastore.rs:374-398, on an empty directory). -/
def init : Rocks := ⟨KV.empty, SMap.empty⟩

/-- One API call. A panic does not make the datastore unusable: no panic can occur while the write lock is held (shown),
and a read lock is not poisoned. A method of `lib/src/database.rs:232-377`. -/
def step (O : IdentOrder) (op : Op) (s : Rocks) : Rocks × Res Reply := dbStep (txn X O) op s

end Rocks
end IndraDB
