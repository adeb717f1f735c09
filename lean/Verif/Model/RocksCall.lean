import Verif.Model.Rocks
/-
API calls on the RocksDB datastore as programs: `lib/src/database.rs` on top of `lib/src/rdb/datastore.rs`, every access to the database
being a separate step. `Model/Database.lean` evaluates a query in one state; here each read of the query is made at its
own time, so that other calls can happen in between. `callProg_run` (`Proofs/RocksCall.lean`) shows that without
interference the two agree.

Simplification: iterators that look up each item (`specific_vertices`, `specific_edges`, the existence check of the
index readers) look up all of their items, although the code stops when `take(limit)` is exhausted; the additional
lookups have no effect.
-/
namespace IndraDB
namespace Rocks
variable (X : Cfg)

/-! ### The read methods (`lib/src/rdb/datastore.rs:54-191`) as programs -/

/-- `vertex_count` (lib/src/rdb/datastore.rs:54-57). -/
def vertexCountP : Prog Nat := do return (← vertexIterate X Uuid.nil).length

/-- `edge_count` (lib/src/rdb/datastore.rs:99-102). -/
def edgeCountP : Prog Nat := do return (← edgeIterateAll .edgeRanges).length

/-- `specific_vertices` (lib/src/rdb/datastore.rs:69-77). -/
def specificVerticesP (ids : List Uuid) : Prog (DynIter Vertex) :=
  lookupItems (fun id => do return (← vertexGet X id).map (fun t => (⟨id, t⟩ : Vertex))) ids

/-- `specific_edges` (lib/src/rdb/datastore.rs:123-133). -/
def specificEdgesP (es : List Edge) : Prog (DynIter Edge) :=
  lookupItems (fun e => do return if (← edgeContains X .edgeRanges e) then some e else none) es

/-- `vertex_ids_with_property` (lib/src/rdb/datastore.rs:79-87). -/
def vertexIdsWithPropertyP (n : Identifier) : Prog (Option (DynIter Uuid)) :=
  ifIndexed n (do existingIds X (← vpvIterate X [.identifier n]))

/-- `vertex_ids_with_property_value` (lib/src/rdb/datastore.rs:89-97). -/
def vertexIdsWithPropertyValueP (n : Identifier) (v : Json) : Prog (Option (DynIter Uuid)) :=
  ifIndexed n (do existingIds X (← vpvIterate X [.identifier n, .json v]))

/-- `edges_with_property` (lib/src/rdb/datastore.rs:135-148). -/
def edgesWithPropertyP (n : Identifier) : Prog (Option (DynIter Edge)) := ifIndexed n (epvIterate X [.identifier n])

/-- `edges_with_property_value` (lib/src/rdb/datastore.rs:150-163). -/
def edgesWithPropertyValueP (n : Identifier) (v : Json) : Prog (Option (DynIter Edge)) :=
  ifIndexed n (epvIterate X [.identifier n, .json v])

/-! ### The query evaluator (`lib/src/database.rs:380-698`) -/

/-- The `Edges` arm of `Query::Pipe` (`lib/src/database.rs:416-434`). -/
def pipeEdgesP (d : EdgeDirection) (limit : UInt32) (t : Option Identifier) (edges : List Edge) : Prog Output := do
  let ids := match d with
    | .outbound => edges.map (·.outboundId)
    | .inbound => edges.map (·.inboundId)
  let iter ← specificVerticesP X ids
  let l ← Prog.lift (collect ((filterT (·.t) t iter).take limit.toNat))
  return .vertices l

/-- The iterator for one vertex (`lib/src/database.rs:439-464`). -/
def pipeVertexIterP (d : EdgeDirection) (t : Option Identifier) (v : Vertex) : Prog (DynIter Edge) := do
  let iter ← match d with
    | .outbound => edgeIterateRange X .edgeRanges (pipeBound t v)
    | .inbound => edgeIterateRange X .reversedEdgeRanges (pipeBound t v)
  let iter := takeWhileIter (fun e : Edge => e.outboundId = v.id) iter
  let iter := filterT (·.t) t iter
  return match d with
    | .outbound => iter
    | .inbound => reverseIter iter

/-- The loop of the `Vertices` arm (`lib/src/database.rs:438-475`). -/
def pipeVerticesP (d : EdgeDirection) (limit : UInt32) (t : Option Identifier) : List Vertex → List Edge → Prog (List Edge)
  | [], edges => pure edges
  | v :: vs, edges => do
    let iter ← pipeVertexIterP X d t v
    let edges ← Prog.lift (do
      if limit.toNat < edges.length then throw Fault.panic
      let new ← collect (iter.take (limit.toNat - edges.length))
      return edges ++ new)
    if edges.length ≥ limit.toNat then return edges
    else pipeVerticesP d limit t vs edges

/-- The properties of one owner (`lib/src/database.rs:498-513, 519-534`). -/
def ownerPropsP (one : Identifier → Prog (Option Json)) (all : Prog (DynIter (Identifier × Json)))
    (name : Option Identifier) : Prog (List NamedProperty) :=
  match name with
  | some n => do
    match ← one n with
    | some v => return [⟨n, v⟩]
    | none => return []
  | none => do
    let iter ← all
    let l ← Prog.lift (collect iter)
    return l.map (fun p => ⟨p.1, p.2⟩)

/-- `lib/src/database.rs:498-513`. -/
def pipeEdgePropsP (name : Option Identifier) : List Edge → Prog (List EdgeProperties)
  | [] => pure []
  | e :: es => do
    let props ← ownerPropsP (epGet X e) (propItems (epIterate X e)) name
    let rest ← pipeEdgePropsP name es
    return if props.isEmpty then rest else ⟨e, props⟩ :: rest

/-- `lib/src/database.rs:519-534`. -/
def pipeVertexPropsP (name : Option Identifier) : List Vertex → Prog (List VertexProperties)
  | [] => pure []
  | v :: vs => do
    let props ← ownerPropsP (vpGet X v.id) (propItems (vpIterate X v.id)) name
    let rest ← pipeVertexPropsP name vs
    return if props.isEmpty then rest else ⟨v, props⟩ :: rest

/-- `lib/src/database.rs:586-589` etc. -/
def indexedP {α : Type} (r : Prog (Option (DynIter α))) : Prog (List α) := do
  let o ← r
  Prog.lift (IndraDB.indexed (.ok o))

/-- Stage `Query::Pipe` (`lib/src/database.rs:415-482`). -/
def stagePipeP (d : EdgeDirection) (limit : UInt32) (t : Option Identifier) : Output → Prog Output
  | .edges es => pipeEdgesP X d limit t es
  | .vertices vs => do return .edges (← pipeVerticesP X d limit t vs [])
  | _ => Prog.lift (.error (.err .operationOnQuery))

/-- Stage `Query::PipeProperty` (`lib/src/database.rs:495-541`). -/
def stagePropertyP (name : Option Identifier) : Output → Prog Output
  | .edges es => do return .edgeProperties (← pipeEdgePropsP X name es)
  | .vertices vs => do return .vertexProperties (← pipeVertexPropsP X name vs)
  | _ => Prog.lift (.error (.err .operationOnQuery))

/-- Stages `PipeWithPropertyPresence`, `PipeWithPropertyValue` (`lib/src/database.rs:584-610, 623-649`). -/
def stageFilterP (es : Prog (Option (DynIter Edge))) (vs : Prog (Option (DynIter Uuid))) (keep : Bool) : Output → Prog Output
  | .edges piped => do
    let set ← indexedP es
    return .edges (piped.filter (fun e => keepIf keep (set.contains e)))
  | .vertices piped => do
    let set ← indexedP vs
    return .vertices (piped.filter (fun v => keepIf keep (set.contains v.id)))
  | _ => Prog.lift (.error (.err .operationOnQuery))

/-- Common shape of the stages (`lib/src/database.rs:412-413, 484-489, 696`). -/
def runStageP (inner : Query) (r : Prog (List Output)) (stage : Output → Prog Output) : Prog (List Output) := do
  let output ← r
  match vecPop output with
  | none => Prog.lift (.error .panic)
  | some (output, piped) => do
    let value ← stage piped
    let output := if inner.isInclude then output ++ [piped] else output
    return output ++ [value]

/-- `query` (`lib/src/database.rs:380-698`). -/
def queryP : Query → List Output → Prog (List Output)
  | .allVertex, out => do
    let iter ← vertexIterate X Uuid.nil
    return out ++ [.vertices (← Prog.lift (collect iter))]
  | .rangeVertex limit t startId, out => do
    let iter ← match startId with
      | some id => vertexIterate X id
      | none => vertexIterate X Uuid.nil
    return out ++ [.vertices (← Prog.lift (collect ((filterT (·.t) t iter).take limit.toNat)))]
  | .specificVertex ids, out => do
    let iter ← specificVerticesP X ids
    return out ++ [.vertices (← Prog.lift (collect iter))]
  | .pipe inner d limit t, out => runStageP inner (queryP inner out) (stagePipeP X d limit t)
  | .pipeProperty inner name, out => runStageP inner (queryP inner out) (stagePropertyP X name)
  | .vertexWithPropertyPresence name, out => do
    let ids ← indexedP (vertexIdsWithPropertyP X name)
    let iter ← specificVerticesP X ids
    return out ++ [.vertices (← Prog.lift (collect iter))]
  | .vertexWithPropertyValue name value, out => do
    let ids ← indexedP (vertexIdsWithPropertyValueP X name value)
    let iter ← specificVerticesP X ids
    return out ++ [.vertices (← Prog.lift (collect iter))]
  | .edgeWithPropertyPresence name, out => do
    return out ++ [.edges (← indexedP (edgesWithPropertyP X name))]
  | .edgeWithPropertyValue name value, out => do
    return out ++ [.edges (← indexedP (edgesWithPropertyValueP X name value))]
  | .pipeWithPropertyPresence inner name ex, out =>
    runStageP inner (queryP inner out) (stageFilterP (edgesWithPropertyP X name) (vertexIdsWithPropertyP X name) ex)
  | .pipeWithPropertyValue inner name value eq, out =>
    runStageP inner (queryP inner out)
      (stageFilterP (edgesWithPropertyValueP X name value) (vertexIdsWithPropertyValueP X name value) eq)
  | .allEdge, out => do
    let iter ← edgeIterateAll .edgeRanges
    return out ++ [.edges (← Prog.lift (collect iter))]
  | .specificEdge edges, out => do
    let iter ← specificEdgesP X edges
    return out ++ [.edges (← Prog.lift (collect iter))]
  | .incl inner, out => do
    let output ← queryP inner out
    match vecPop output with
    | none => Prog.lift (.error .panic)
    | some (output, v) => return output ++ [v]
  | .count .allVertex, out => do return out ++ [.count (← vertexCountP X)]
  | .count .allEdge, out => do return out ++ [.count (← edgeCountP)]
  | .count inner, out => runStageP inner (queryP inner out) (fun v => Prog.lift (do return .count (← countOf v)))

/-! ### The calls (`lib/src/database.rs:232-377`) -/

/-- `output.pop().unwrap()` after the query (`lib/src/database.rs:294-300, 341-348`). -/
def lastOutputP (q : Query) : Prog Output := do
  let output ← queryP X q []
  match vecPop output with
  | none => Prog.lift (.error .panic)
  | some (_, v) => return v

/-- `Database::delete` (`lib/src/database.rs:293-332`). -/
def deleteP (q : Query) : Prog Unit := do
  match ← lastOutputP X q with
  | .vertices vs => deleteVertices X vs
  | .edges es => deleteEdges X es
  | .vertexProperties l => deleteVertexProperties X (vertexPropertyKeys l)
  | .edgeProperties l => deleteEdgeProperties X (edgePropertyKeys l)
  | .count _ => Prog.lift (.error (.err .operationOnQuery))

/-- `Database::set_properties` (`lib/src/database.rs:340-358`). -/
def setPropertiesP (q : Query) (name : Identifier) (value : Json) : Prog Unit := do
  match ← lastOutputP X q with
  | .vertices vs => setVertexProperties X (vs.map (·.id)) name value
  | .edges es => setEdgeProperties X es name value
  | _ => Prog.lift (.error (.err .operationOnQuery))

/-- `Database::create_vertex_from_type` (`lib/src/database.rs:254-262`) for the generated id. -/
def createVertexFromTypeP (id : Uuid) (t : Identifier) : Prog Uuid := do
  if ← createVertex X ⟨id, t⟩ then return id else Prog.lift (.error (.err .uuidTaken))

/-- One API call. `lib/src/database.rs:232-377` over `lib/src/rdb/datastore.rs:53-361`. -/
def callProg (O : IdentOrder) : Op → Prog Reply
  | .sync => do sync; return .unit
  | .createVertex v => do return .bool (← createVertex X v)
  | .createVertexFromType id t => do return .uuid (← createVertexFromTypeP X id t)
  | .createEdge e => do return .bool (← createEdge X e)
  | .get q => do return .outputs (← queryP X q [])
  | .delete q => do deleteP X q; return .unit
  | .setProperties q n v => do setPropertiesP X q n v; return .unit
  | .bulkInsert items => do bulkInsert X items; return .unit
  | .indexProperty n => do indexProperty X O n; return .unit

end Rocks
end IndraDB
