import Verif.Model.Util
import Verif.Model.Database
/-
Model of `lib/src/memory/datastore.rs`.
-/
namespace IndraDB

/-- `IndexedPropertyMember` (`lib/src/memory/datastore.rs:18-21`): `inl` = `Vertex`, `inr` = `Edge`. -/
abbrev Member := Uuid ⊕ Edge

/-- `HashMap<Json, HashSet<IndexedPropertyMember>>`, in insertion order. `lib/src/memory/datastore.rs:34`. -/
abbrev Container := List (Json × SSet Member)

/-- How `HashMap<Json, _>` finds a key: `at c v` is the position of the entry that looking up `v` in `c` finds. A hash
map only returns entries whose key is `==` to the key looked for (`sound`), and it finds one if there is an equal key with
the same hash input (`complete`). Nothing else is promised: for keys that are `==` but hash differently (`3` and `3.0`,
`lib/src/models/json.rs:59-113`) the outcome depends on the random hash seed, on the capacity of the table and on collisions of the
seven hash bits kept in it, and so may differ from one call to the next. -/
structure Finder where
  «at» : Container → Json → Option Nat
  sound : ∀ c v i, «at» c v = some i → ∃ e, c[i]? = some e ∧ Json.eq e.1 v = true
  complete : ∀ c v e, e ∈ c → e.1.stream = v.stream → Json.eq e.1 v = true → «at» c v ≠ none

/-- A hash map that always treats the same keys as equal: `same a b` says that looking up `b` finds an entry whose key is
`a`. For keys that are `==` but hash differently either outcome is allowed, as long as `same` is an equivalence.
The map is that of `lib/src/memory/datastore.rs:34`; `Hash` and `PartialEq` are those of `lib/src/models/json.rs:173-`. -/
structure HashEq where
  same : Json → Json → Bool
  refl : ∀ a, same a a = true
  symm : ∀ a b, same a b = true → same b a = true
  trans : ∀ a b c, same a b = true → same b c = true → same a c = true
  sound : ∀ a b, same a b = true → Json.eq a b = true
  complete : ∀ a b, a.stream = b.stream → Json.eq a b = true → same a b = true

/-- The lookups of such a map. As used at `lib/src/memory/datastore.rs:93, 153, 267, 282, 333, 341, 349, 372, 395`. -/
def HashEq.finder (K : HashEq) : Finder where
  «at» c v := List.findIdx? (fun e => K.same e.1 v) c
  sound c v i h := by
    rw [List.findIdx?_eq_some_iff_getElem] at h
    obtain ⟨hi, h, _⟩ := h
    exact ⟨c[i], List.getElem?_eq_getElem hi, K.sound _ _ h⟩
  complete c v e he h1 h2 h := by
    rw [List.findIdx?_eq_none_iff] at h
    have := h e he
    rw [K.complete _ _ h1 h2] at this
    exact absurd this (by simp)

/-- A map with fixed equality, used where lookups of the map of `lib/src/memory/datastore.rs:34` are asked for. -/
instance : Coe HashEq Finder := ⟨HashEq.finder⟩

/-- Iteration orders of hash sets, and of the hash map built by `index_property`: arbitrary permutations.
The sets at `lib/src/memory/datastore.rs:77, 94, 137, 154`, the map at 329 and 348. -/
structure HashOrder where
  uuids : List Uuid → List Uuid
  uuids_perm : ∀ l, (uuids l).Perm l
  edges : List Edge → List Edge
  edges_perm : ∀ l, (edges l).Perm l
  members : List Member → List Member
  members_perm : ∀ l, (members l).Perm l
  entries : Container → Container
  entries_perm : ∀ c, List.Perm (entries c) c

/-- The iteration order that happens to be sorted.
One of the possible orders of the sets at `lib/src/memory/datastore.rs:77, 94, 137, 154`; only used in examples. -/
def HashOrder.sorted : HashOrder :=
  ⟨id, fun _ => .refl _, id, fun _ => .refl _, id, fun _ => .refl _, id, fun _ => .refl _⟩

namespace Container
variable (F : Finder)

/-- `HashMap::get`. `lib/src/memory/datastore.rs:93, 153`. -/
def find (c : Container) (v : Json) : Option (SSet Member) :=
  (F.at c v).bind (fun i => (c[i]?).map (·.2))

/-- Modify the entry found by `HashMap::get_mut`. `lib/src/memory/datastore.rs:266-269, 281-284`. -/
def update (v : Json) (f : SSet Member → SSet Member) (c : Container) : Container :=
  match F.at c v with
  | some i => List.modify c i (fun e => (e.1, f e.2))
  | none => c

/-- `HashMap::entry(v).or_default()` followed by a modification of the set.
`lib/src/memory/datastore.rs:333-335, 341-343, 349-353, 372-375, 395-398`. -/
def upsert (v : Json) (f : SSet Member → SSet Member) (c : Container) : Container :=
  match F.at c v with
  | some i => List.modify c i (fun e => (e.1, f e.2))
  | none => c ++ [(v, f SMap.empty)]

end Container

/-- `InternalMemory` (`lib/src/memory/datastore.rs:28-35`). -/
structure Mem where
  vertices : SMap Uuid Identifier
  edges : SSet Edge
  reversedEdges : SSet Edge
  vertexProperties : SMap (Uuid × Identifier) Json
  edgeProperties : SMap (Edge × Identifier) Json
  propertyValues : SMap Identifier Container
deriving DecidableEq

namespace Mem

/-- `InternalMemory::default()` (lib/src/memory/datastore.rs:27). -/
def empty : Mem := ⟨.empty, .empty, .empty, .empty, .empty, .empty⟩

section reads
variable (F : Finder) (O : HashOrder) (m : Mem)

/-- lib/src/memory/datastore.rs:43-45 -/
def vertexCount : Nat := m.vertices.size

/-- lib/src/memory/datastore.rs:47-54 -/
def allVertices : Res (DynIter Vertex) :=
  .ok (m.vertices.toList.map (fun e => .ok ⟨e.1, e.2⟩))

/-- lib/src/memory/datastore.rs:56-63 -/
def rangeVertices (offset : Uuid) : Res (DynIter Vertex) :=
  .ok ((m.vertices.rangeFrom offset).map (fun e => .ok ⟨e.1, e.2⟩))

/-- lib/src/memory/datastore.rs:65-73 -/
def specificVertices (ids : List Uuid) : Res (DynIter Vertex) :=
  .ok (ids.filterMap (fun id => (m.vertices.get id).map (fun t => .ok ⟨id, t⟩)))

/-- The set built at lib/src/memory/datastore.rs:77-84: all vertex members of all sub-containers. -/
def containerIds (c : Container) : SSet Uuid :=
  c.foldl (fun acc e => e.2.elems.foldl (fun acc mem => match mem with
    | .inl id => acc.add id
    | .inr _ => acc) acc) SMap.empty

/-- lib/src/memory/datastore.rs:75-89 -/
def vertexIdsWithProperty (name : Identifier) : Res (Option (DynIter Uuid)) :=
  match m.propertyValues.get name with
  | some c => .ok (some ((O.uuids (containerIds c).elems).map .ok))
  | none => .ok none

/-- lib/src/memory/datastore.rs:91-106 -/
def vertexIdsWithPropertyValue (name : Identifier) (value : Json) : Res (Option (DynIter Uuid)) :=
  match m.propertyValues.get name with
  | some c => match c.find F value with
    | some sub => .ok (some ((O.members sub.elems).filterMap (fun mem => match mem with
        | .inl id => some (.ok id)
        | .inr _ => none)))
    | none => .ok (some [])
  | none => .ok none

/-- lib/src/memory/datastore.rs:108-110 -/
def edgeCount : Nat := m.edges.size

/-- lib/src/memory/datastore.rs:112-115 -/
def allEdges : Res (DynIter Edge) := .ok (m.edges.elems.map .ok)

/-- lib/src/memory/datastore.rs:117-120 -/
def rangeEdges (offset : Edge) : Res (DynIter Edge) := .ok ((m.edges.from' offset).map .ok)

/-- lib/src/memory/datastore.rs:122-125 -/
def rangeReversedEdges (offset : Edge) : Res (DynIter Edge) := .ok ((m.reversedEdges.from' offset).map .ok)

/-- lib/src/memory/datastore.rs:127-133 -/
def specificEdges (edges : List Edge) : Res (DynIter Edge) :=
  .ok ((edges.filter (fun e => m.edges.contains e)).map .ok)

/-- The set built at lib/src/memory/datastore.rs:137-144. -/
def containerEdges (c : Container) : SSet Edge :=
  c.foldl (fun acc e => e.2.elems.foldl (fun acc mem => match mem with
    | .inr e => acc.add e
    | .inl _ => acc) acc) SMap.empty

/-- lib/src/memory/datastore.rs:135-149 -/
def edgesWithProperty (name : Identifier) : Res (Option (DynIter Edge)) :=
  match m.propertyValues.get name with
  | some c => .ok (some ((O.edges (containerEdges c).elems).map .ok))
  | none => .ok none

/-- lib/src/memory/datastore.rs:151-166 -/
def edgesWithPropertyValue (name : Identifier) (value : Json) : Res (Option (DynIter Edge)) :=
  match m.propertyValues.get name with
  | some c => match c.find F value with
    | some sub => .ok (some ((O.members sub.elems).filterMap (fun mem => match mem with
        | .inr e => if m.edges.contains e then some (.ok e) else none
        | .inl _ => none)))
    | none => .ok (some [])
  | none => .ok none

/-- lib/src/memory/datastore.rs:168-174 -/
def vertexProperty (v : Vertex) (name : Identifier) : Res (Option Json) := .ok (m.vertexProperties.get (v.id, name))

/-- lib/src/memory/datastore.rs:176-184: `next_uuid(vertex.id).unwrap()` panics for the greatest id; `range(from..to)`. -/
def allVertexPropertiesForVertex (v : Vertex) : Res (DynIter (Identifier × Json)) :=
  match nextUuid v.id with
  | .error _ => .error .panic
  | .ok next =>
    .ok (((m.vertexProperties.rangeFrom (v.id, Identifier.empty)).filter
      (fun e => Order.lt e.1 (next, Identifier.empty))).map (fun e => .ok (e.1.2, e.2)))

/-- lib/src/memory/datastore.rs:186-192 -/
def edgeProperty (e : Edge) (name : Identifier) : Res (Option Json) := .ok (m.edgeProperties.get (e, name))

/-- lib/src/memory/datastore.rs:194-204 -/
def allEdgePropertiesForEdge (e : Edge) : Res (DynIter (Identifier × Json)) :=
  .ok (((m.edgeProperties.rangeFrom (e, Identifier.empty)).takeWhile (fun p => p.1.1 = e)).map
    (fun p => .ok (p.1.2, p.2)))

/-- The read methods of `MemoryTransaction` (lib/src/memory/datastore.rs:42-204). -/
def reads : Reads where
  vertexCount := m.vertexCount
  allVertices := m.allVertices
  rangeVertices := m.rangeVertices
  specificVertices := m.specificVertices
  vertexIdsWithProperty := m.vertexIdsWithProperty O
  vertexIdsWithPropertyValue := m.vertexIdsWithPropertyValue F O
  edgeCount := m.edgeCount
  allEdges := m.allEdges
  rangeEdges := m.rangeEdges
  rangeReversedEdges := m.rangeReversedEdges
  specificEdges := m.specificEdges
  edgesWithProperty := m.edgesWithProperty O
  edgesWithPropertyValue := m.edgesWithPropertyValue F O
  vertexProperty := m.vertexProperty
  allVertexPropertiesForVertex := m.allVertexPropertiesForVertex
  edgeProperty := m.edgeProperty
  allEdgePropertiesForEdge := m.allEdgePropertiesForEdge

end reads

section writes
variable (F : Finder) (b : Build)

/-- The body of `if let Some(property_container) = ..get_mut(&property_name)` (lib/src/memory/datastore.rs:265-270, 280-285). The whole removal is
the argument of `debug_assert!`: it is not even evaluated in release builds. In debug builds, `unwrap` panics if the
value has no entry, and the assertion panics if the member was not in the set. -/
def unindex (name : Identifier) (value : Json) (mem : Member) (m : Mem) : Upd Mem Unit :=
  match m.propertyValues.get name with
  | none => (m, .ok ())
  | some c => match b with
    | .release => (m, .ok ())
    | .debug => match c.find F value with
      | none => (m, .error .panic)
      | some sub =>
        let m' := { m with propertyValues := m.propertyValues.insert name (c.update F value (fun s => s.erase mem)) }
        if sub.contains mem then (m', .ok ()) else (m', .error .panic)

/-- One round of `delete_vertex_properties` (lib/src/memory/datastore.rs:262-272). -/
def deleteVertexProperty (p : Uuid × Identifier) (m : Mem) : Upd Mem Unit :=
  match m.vertexProperties.get p with
  | none => (m, .ok ())
  | some value => unindex F b p.2 value (.inl p.1) { m with vertexProperties := m.vertexProperties.erase p }

/-- `delete_vertex_properties` (lib/src/memory/datastore.rs:261-274) -/
def deleteVertexProperties (props : List (Uuid × Identifier)) (m : Mem) : Upd Mem Unit :=
  forEach (deleteVertexProperty F b) props m

/-- One round of `delete_edge_properties` (lib/src/memory/datastore.rs:277-287). -/
def deleteEdgeProperty (p : Edge × Identifier) (m : Mem) : Upd Mem Unit :=
  match m.edgeProperties.get p with
  | none => (m, .ok ())
  | some value => unindex F b p.2 value (.inr p.1) { m with edgeProperties := m.edgeProperties.erase p }

/-- `delete_edge_properties` (lib/src/memory/datastore.rs:276-289) -/
def deleteEdgeProperties (props : List (Edge × Identifier)) (m : Mem) : Upd Mem Unit :=
  forEach (deleteEdgeProperty F b) props m

/-- One round of `delete_edges` (lib/src/memory/datastore.rs:238-257). -/
def deleteEdge (e : Edge) (m : Mem) : Upd Mem Unit :=
  let m := { m with edges := m.edges.erase e, reversedEdges := m.reversedEdges.erase e.reversed }
  let keys := ((m.edgeProperties.rangeFrom (e, Identifier.empty)).map (·.1)).takeWhile (fun k => e = k.1)
  deleteEdgeProperties F b keys m

/-- `delete_edges` (lib/src/memory/datastore.rs:237-259) -/
def deleteEdges (edges : List Edge) (m : Mem) : Upd Mem Unit := forEach (deleteEdge F b) edges m

/-- One round of `delete_vertices` (lib/src/memory/datastore.rs:207-233). -/
def deleteVertex (v : Vertex) (m : Mem) : Upd Mem Unit :=
  let m := { m with vertices := m.vertices.erase v.id }
  let keys := ((m.vertexProperties.rangeFrom (v.id, Identifier.empty)).map (·.1)).takeWhile (fun k => v.id = k.1)
  match deleteVertexProperties F b keys m with
  | (m, .error f) => (m, .error f)
  | (m, .ok _) =>
    deleteEdges F b (m.edges.elems.filter (fun e => e.outboundId = v.id || e.inboundId = v.id)) m

/-- `delete_vertices` (lib/src/memory/datastore.rs:206-235) -/
def deleteVertices (vs : List Vertex) (m : Mem) : Upd Mem Unit := forEach (deleteVertex F b) vs m

/-- `create_vertex` (lib/src/memory/datastore.rs:305-314) -/
def createVertex (v : Vertex) (m : Mem) : Upd Mem Bool :=
  match m.vertices.get v.id with
  | some _ => (m, .ok false)
  | none => ({ m with vertices := m.vertices.insert v.id v.t }, .ok true)

/-- `create_edge` (lib/src/memory/datastore.rs:316-326) -/
def createEdge (e : Edge) (m : Mem) : Upd Mem Bool :=
  if !m.vertices.contains e.outboundId || !m.vertices.contains e.inboundId then (m, .ok false)
  else ({ m with edges := m.edges.add e, reversedEdges := m.reversedEdges.add e.reversed }, .ok true)

/-- lib/src/memory/datastore.rs:329-337: index entries of the existing vertices. -/
def vertexIndexEntries (name : Identifier) (m : Mem) (c : Container) : Container :=
  m.vertices.toList.foldl (fun c e => match m.vertexProperties.get (e.1, name) with
    | some value => c.upsert F value (fun s => s.add (.inl e.1))
    | none => c) c

/-- lib/src/memory/datastore.rs:338-345: index entries of the existing edges. -/
def edgeIndexEntries (name : Identifier) (m : Mem) (c : Container) : Container :=
  m.edges.elems.foldl (fun c e => match m.edgeProperties.get (e, name) with
    | some value => c.upsert F value (fun s => s.add (.inr e))
    | none => c) c

/-- lib/src/memory/datastore.rs:349-354: merge the entries of the new container, in the order in which they are iterated over, into the existing one.
(The order in which the members of one entry are added has no effect.) -/
def mergeContainer (new existing : Container) : Container :=
  new.foldl (fun c e => c.upsert F e.1 (fun s => e.2.elems.foldl (fun s mem => s.add mem) s)) existing

/-- `index_property` (lib/src/memory/datastore.rs:328-356) -/
def indexProperty (O : HashOrder) (name : Identifier) (m : Mem) : Upd Mem Unit :=
  let new := edgeIndexEntries F name m (vertexIndexEntries F name m [])
  let existing := (m.propertyValues.get name).getD []
  ({ m with propertyValues := m.propertyValues.insert name (mergeContainer F (O.entries new) existing) }, .ok ())

/-- lib/src/memory/datastore.rs:371-376 / 394-399: add members to the entry of `value` if the name is indexed. -/
def indexMembers (name : Identifier) (value : Json) (mems : List Member) (m : Mem) : Mem :=
  match m.propertyValues.get name with
  | none => m
  | some c =>
    let c := c.upsert F value (fun s => mems.foldl (fun s mem => s.add mem) s)
    { m with propertyValues := m.propertyValues.insert name c }

/-- `set_vertex_properties` (lib/src/memory/datastore.rs:358-379) -/
def setVertexProperties (ids : List Uuid) (name : Identifier) (value : Json) (m : Mem) : Upd Mem Unit :=
  match deleteVertexProperties F b (ids.map (fun id => (id, name))) m with
  | (m, .error f) => (m, .error f)
  | (m, .ok _) =>
    let m := { m with vertexProperties := ids.foldl (fun p id => p.insert (id, name) value) m.vertexProperties }
    (indexMembers F name value (ids.map .inl) m, .ok ())

/-- `set_edge_properties` (lib/src/memory/datastore.rs:381-402) -/
def setEdgeProperties (edges : List Edge) (name : Identifier) (value : Json) (m : Mem) : Upd Mem Unit :=
  match deleteEdgeProperties F b (edges.map (fun e => (e, name))) m with
  | (m, .error f) => (m, .error f)
  | (m, .ok _) =>
    let m := { m with edgeProperties := edges.foldl (fun p e => p.insert (e, name) value) m.edgeProperties }
    (indexMembers F name value (edges.map .inr) m, .ok ())

/-- The default `bulk_insert` (`lib/src/database.rs:154-173`): the memory datastore does not override it. -/
def bulkInsert (items : List BulkInsertItem) (m : Mem) : Upd Mem Unit :=
  forEach (defaultBulkItem createVertex createEdge (setVertexProperties F b) (setEdgeProperties F b)) items m

end writes

/-- `Transaction for MemoryTransaction` (lib/src/memory/datastore.rs:42-403). `sync` (291-303) does not change the in-memory state; its effect on
the file is modelled in `Model/MemorySync.lean`. -/
def txn (F : Finder) (O : HashOrder) (b : Build) : Transaction Mem where
  reads := Mem.reads F O
  deleteVertices := deleteVertices F b
  deleteEdges := deleteEdges F b
  deleteVertexProperties := deleteVertexProperties F b
  deleteEdgeProperties := deleteEdgeProperties F b
  sync := fun m => (m, .ok ())
  createVertex := createVertex
  createEdge := createEdge
  bulkInsert := bulkInsert F b
  indexProperty := indexProperty F O
  setVertexProperties := setVertexProperties F b
  setEdgeProperties := setEdgeProperties F b

end Mem

/-- A memory database: `Arc<Mutex<InternalMemory>>` (lib/src/memory/datastore.rs:408). A panic while the guard is held poisons the mutex. -/
structure MemDb where
  mem : Mem
  poisoned : Bool
deriving DecidableEq

namespace MemDb

/-- `MemoryDatastore::new_db` (lib/src/memory/datastore.rs:414-419). -/
def new : MemDb := ⟨Mem.empty, false⟩

/-- One API call: `lock().unwrap()` (lib/src/memory/datastore.rs:453-458) panics if poisoned; a panic inside the call poisons. Every call may see
different hash iteration orders. -/
def step (F : Finder) (b : Build) (O : HashOrder) (op : Op) (d : MemDb) : MemDb × Res Reply :=
  if d.poisoned then (d, .error .panic)
  else
    match dbStep (Mem.txn F O b) op d.mem with
    | (m, .error .panic) => (⟨m, true⟩, .error .panic)
    | (m, r) => (⟨m, false⟩, r)

/-- A history of calls. Not code: a client making calls of `lib/src/database.rs:232-377` one after the other. -/
def run (F : Finder) (b : Build) : List (HashOrder × Op) → MemDb → MemDb
  | [], d => d
  | (O, op) :: r, d => run F b r (step F b O op d).1

end MemDb
end IndraDB
