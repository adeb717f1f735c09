import Verif.Model.Query
/-
Model of `lib/src/database.rs`: the trait `Transaction` as a dictionary, the query evaluator, and the `Database` methods.
-/
namespace IndraDB

/-- The read half of `trait Transaction` (`lib/src/database.rs:24-104`), for one transaction state. -/
structure Reads where
  vertexCount : Nat
  allVertices : Res (DynIter Vertex)
  rangeVertices : Uuid → Res (DynIter Vertex)
  specificVertices : List Uuid → Res (DynIter Vertex)
  vertexIdsWithProperty : Identifier → Res (Option (DynIter Uuid))
  vertexIdsWithPropertyValue : Identifier → Json → Res (Option (DynIter Uuid))
  edgeCount : Nat
  allEdges : Res (DynIter Edge)
  rangeEdges : Edge → Res (DynIter Edge)
  rangeReversedEdges : Edge → Res (DynIter Edge)
  specificEdges : List Edge → Res (DynIter Edge)
  edgesWithProperty : Identifier → Res (Option (DynIter Edge))
  edgesWithPropertyValue : Identifier → Json → Res (Option (DynIter Edge))
  vertexProperty : Vertex → Identifier → Res (Option Json)
  allVertexPropertiesForVertex : Vertex → Res (DynIter (Identifier × Json))
  edgeProperty : Edge → Identifier → Res (Option Json)
  allEdgePropertiesForEdge : Edge → Res (DynIter (Identifier × Json))

/-- Result of a mutating method: the new state (also after an error or a panic) and the outcome.
The `Result<..>` of the `&mut self` methods of `Transaction` (`lib/src/database.rs:24-197`). -/
abbrev Upd (σ α : Type) := σ × Res α

/-- `trait Transaction` (`lib/src/database.rs:24-196`) for a datastore with states `σ`. -/
structure Transaction (σ : Type) where
  reads : σ → Reads
  deleteVertices : List Vertex → σ → Upd σ Unit
  deleteEdges : List Edge → σ → Upd σ Unit
  deleteVertexProperties : List (Uuid × Identifier) → σ → Upd σ Unit
  deleteEdgeProperties : List (Edge × Identifier) → σ → Upd σ Unit
  sync : σ → Upd σ Unit
  createVertex : Vertex → σ → Upd σ Bool
  createEdge : Edge → σ → Upd σ Bool
  bulkInsert : List BulkInsertItem → σ → Upd σ Unit
  indexProperty : Identifier → σ → Upd σ Unit
  setVertexProperties : List Uuid → Identifier → Json → σ → Upd σ Unit
  setEdgeProperties : List Edge → Identifier → Json → σ → Upd σ Unit

/-- `for x in xs { f(x)?; }` on a mutable state.
The loop at `lib/src/database.rs:155-170` and those of the transactions (e.g. `lib/src/memory/datastore.rs:206-289`). -/
def forEach {σ α β : Type} (f : α → σ → Upd σ β) : List α → σ → Upd σ Unit
  | [], s => (s, .ok ())
  | a :: r, s => match f a s with
    | (s', .ok _) => forEach f r s'
    | (s', .error e) => (s', .error e)

/-- The default `bulk_insert` (`lib/src/database.rs:154-173`), used by the memory datastore: one item. -/
def defaultBulkItem {σ : Type}
    (createVertex : Vertex → σ → Upd σ Bool) (createEdge : Edge → σ → Upd σ Bool)
    (setV : List Uuid → Identifier → Json → σ → Upd σ Unit)
    (setE : List Edge → Identifier → Json → σ → Upd σ Unit) : BulkInsertItem → σ → Upd σ Unit
  | .vertex v, s => match createVertex v s with
    | (s', .ok _) => (s', .ok ())
    | (s', .error e) => (s', .error e)
  | .edge e, s => match createEdge e s with
    | (s', .ok _) => (s', .ok ())
    | (s', .error e) => (s', .error e)
  | .vertexProperty id n v, s => setV [id] n v s
  | .edgeProperty e n v, s => setE [e] n v s

/-! ### The query evaluator -/

/-- `Vec::pop`. Used at `lib/src/database.rs:300, 348, 413, 493, 582, 621, 668, 677`. -/
def vecPop {α : Type} (l : List α) : Option (List α × α) :=
  match l.getLast? with
  | none => none
  | some a => some (l.dropLast, a)

/-- `iter.filter(|r| match r { Ok(v) => p v, Err(_) => true })` (`lib/src/database.rs:398-401, 425-428, 456-459`). -/
def filterIter {α : Type} (p : α → Bool) (l : DynIter α) : DynIter α :=
  l.filter (fun r => match r with | .ok v => p v | .error _ => true)

/-- `iter.take_while(|r| match r { Ok(v) => p v, Err(_) => true })` (`lib/src/database.rs:450-453`). -/
def takeWhileIter {α : Type} (p : α → Bool) (l : DynIter α) : DynIter α :=
  l.takeWhile (fun r => match r with | .ok v => p v | .error _ => true)

/-- `if let Some(ref t) = q.t { iter.filter(..) }`. `lib/src/database.rs:424-428, 455-459`. -/
def filterT {α : Type} (ty : α → Identifier) (t : Option Identifier) (l : DynIter α) : DynIter α :=
  match t with
  | none => l
  | some t => filterIter (fun v => ty v = t) l

/-- `iter.map(|r| Ok(r?.reversed()))` (`lib/src/database.rs:463`). -/
def reverseIter (l : DynIter Edge) : DynIter Edge :=
  l.map (fun r => match r with | .ok e => .ok e.reversed | .error f => .error f)

/-- The `Edges` arm of `Query::Pipe` (`lib/src/database.rs:416-434`). -/
def pipeEdges (R : Reads) (d : EdgeDirection) (limit : UInt32) (t : Option Identifier) (edges : List Edge) :
    Res Output := do
  let ids := match d with
    | .outbound => edges.map (·.outboundId)
    | .inbound => edges.map (·.inboundId)
  let iter ← R.specificVertices ids
  let l ← collect ((filterT (·.t) t iter).take limit.toNat)
  return .vertices l

/-- The lower bound of the scan (`lib/src/database.rs:440-443`): `(v, t, nil)`, with the empty identifier if there is no filter. -/
def pipeBound (t : Option Identifier) (v : Vertex) : Edge :=
  match t with
  | some t => ⟨v.id, t, Uuid.nil⟩
  | none => ⟨v.id, Identifier.empty, Uuid.nil⟩

/-- The iterator built for one vertex in the `Vertices` arm of `Query::Pipe` (`lib/src/database.rs:439-464`). -/
def pipeVertexIter (R : Reads) (d : EdgeDirection) (t : Option Identifier) (v : Vertex) : Res (DynIter Edge) := do
  let iter ← match d with
    | .outbound => R.rangeEdges (pipeBound t v)
    | .inbound => R.rangeReversedEdges (pipeBound t v)
  let iter := takeWhileIter (fun e : Edge => e.outboundId = v.id) iter
  let iter := filterT (·.t) t iter
  return match d with
    | .outbound => iter
    | .inbound => reverseIter iter

/-- The loop of the `Vertices` arm (`lib/src/database.rs:438-475`). `(q.limit as usize) - edges.len()` panics on underflow in
debug builds (it would wrap in release builds); it is shown never to underflow. -/
def pipeVertices (R : Reads) (d : EdgeDirection) (limit : UInt32) (t : Option Identifier) :
    List Vertex → List Edge → Res (List Edge)
  | [], edges => .ok edges
  | v :: vs, edges => do
    let iter ← pipeVertexIter R d t v
    if limit.toNat < edges.length then throw Fault.panic
    let new ← collect (iter.take (limit.toNat - edges.length))
    let edges := edges ++ new
    if edges.length ≥ limit.toNat then return edges
    pipeVertices R d limit t vs edges

/-- One round of the loops at `lib/src/database.rs:498-513` / `519-534`: the properties of one owner. -/
def ownerProps (one : Identifier → Res (Option Json)) (all : Res (DynIter (Identifier × Json)))
    (name : Option Identifier) : Res (List NamedProperty) :=
  match name with
  | some n => do
    match ← one n with
    | some v => return [⟨n, v⟩]
    | none => return []
  | none => do
    let iter ← all
    let l ← collect iter
    return l.map (fun p => ⟨p.1, p.2⟩)

/-- `lib/src/database.rs:498-513`. -/
def pipeEdgeProps (R : Reads) (name : Option Identifier) : List Edge → Res (List EdgeProperties)
  | [] => .ok []
  | e :: es => do
    let props ← ownerProps (R.edgeProperty e) (R.allEdgePropertiesForEdge e) name
    let rest ← pipeEdgeProps R name es
    return if props.isEmpty then rest else ⟨e, props⟩ :: rest

/-- `lib/src/database.rs:519-534`. -/
def pipeVertexProps (R : Reads) (name : Option Identifier) : List Vertex → Res (List VertexProperties)
  | [] => .ok []
  | v :: vs => do
    let props ← ownerProps (R.vertexProperty v) (R.allVertexPropertiesForVertex v) name
    let rest ← pipeVertexProps R name vs
    return if props.isEmpty then rest else ⟨v, props⟩ :: rest

/-- `Some(iter) => iter.collect()?`, `None => return Err(NotIndexed)` (`lib/src/database.rs:586-589` etc.). -/
def indexed {α : Type} (r : Res (Option (DynIter α))) : Res (List α) := do
  match ← r with
  | some iter => collect iter
  | none => throw (.err .notIndexed)

/-- `(keep && contains) || (!keep && !contains)` (`lib/src/database.rs:592, 603, 631, 642`). -/
def keepIf (keep contains : Bool) : Bool := (keep && contains) || (!keep && !contains)

/-- Stage `Query::Pipe` on a popped value (`lib/src/database.rs:415-482`). -/
def stagePipe (R : Reads) (d : EdgeDirection) (limit : UInt32) (t : Option Identifier) : Output → Res Output
  | .edges es => pipeEdges R d limit t es
  | .vertices vs => do return .edges (← pipeVertices R d limit t vs [])
  | _ => throw (.err .operationOnQuery)

/-- Stage `Query::PipeProperty` (`lib/src/database.rs:495-541`). -/
def stageProperty (R : Reads) (name : Option Identifier) : Output → Res Output
  | .edges es => do return .edgeProperties (← pipeEdgeProps R name es)
  | .vertices vs => do return .vertexProperties (← pipeVertexProps R name vs)
  | _ => throw (.err .operationOnQuery)

/-- Stages `Query::PipeWithPropertyPresence` (`lib/src/database.rs:584-610`) and `Query::PipeWithPropertyValue` (623-649); they
differ only in the index read. `HashSet` membership is list membership. -/
def stageFilter (es : Res (Option (DynIter Edge))) (vs : Res (Option (DynIter Uuid))) (keep : Bool) :
    Output → Res Output
  | .edges piped => do
    let set ← indexed es
    return .edges (piped.filter (fun e => keepIf keep (set.contains e)))
  | .vertices piped => do
    let set ← indexed vs
    return .vertices (piped.filter (fun v => keepIf keep (set.contains v.id)))
  | _ => throw (.err .operationOnQuery)

/-- `Query::Count` on a popped value (`lib/src/database.rs:678-684`). -/
def countOf : Output → Res Nat
  | .vertices v => .ok v.length
  | .edges e => .ok e.length
  | .vertexProperties p => .ok p.length
  | .edgeProperties p => .ok p.length
  | .count _ => .error (.err .operationOnQuery)

/-- Common shape of all pipe stages: run the inner query, pop its value, compute the stage, push the popped value back
if the inner query is an `Include`, push the result (`lib/src/database.rs:412-413, 484-489, 696`). -/
def runStage (inner : Query) (r : Res (List Output)) (stage : Output → Res Output) : Res (List Output) := do
  let output ← r
  match vecPop output with
  | none => throw Fault.panic
  | some (output, piped) => do
    let value ← stage piped
    let output := if inner.isInclude then output ++ [piped] else output
    return output ++ [value]

/-- `query` (`lib/src/database.rs:380-698`): evaluates `q`, pushing onto the output vector. -/
def query (R : Reads) : Query → List Output → Res (List Output)
  | .allVertex, out => do
    let iter ← R.allVertices
    return out ++ [.vertices (← collect iter)]
  | .rangeVertex limit t startId, out => do
    let iter ← match startId with
      | some id => R.rangeVertices id
      | none => R.allVertices
    return out ++ [.vertices (← collect ((filterT (·.t) t iter).take limit.toNat))]
  | .specificVertex ids, out => do
    let iter ← R.specificVertices ids
    return out ++ [.vertices (← collect iter)]
  | .pipe inner d limit t, out => runStage inner (query R inner out) (stagePipe R d limit t)
  | .pipeProperty inner name, out => runStage inner (query R inner out) (stageProperty R name)
  | .vertexWithPropertyPresence name, out => do
    let ids ← indexed (R.vertexIdsWithProperty name)
    let iter ← R.specificVertices ids
    return out ++ [.vertices (← collect iter)]
  | .vertexWithPropertyValue name value, out => do
    let ids ← indexed (R.vertexIdsWithPropertyValue name value)
    let iter ← R.specificVertices ids
    return out ++ [.vertices (← collect iter)]
  | .edgeWithPropertyPresence name, out => do
    return out ++ [.edges (← indexed (R.edgesWithProperty name))]
  | .edgeWithPropertyValue name value, out => do
    return out ++ [.edges (← indexed (R.edgesWithPropertyValue name value))]
  | .pipeWithPropertyPresence inner name ex, out =>
    runStage inner (query R inner out) (stageFilter (R.edgesWithProperty name) (R.vertexIdsWithProperty name) ex)
  | .pipeWithPropertyValue inner name value eq, out =>
    runStage inner (query R inner out)
      (stageFilter (R.edgesWithPropertyValue name value) (R.vertexIdsWithPropertyValue name value) eq)
  | .allEdge, out => do
    let iter ← R.allEdges
    return out ++ [.edges (← collect iter)]
  | .specificEdge edges, out => do
    let iter ← R.specificEdges edges
    return out ++ [.edges (← collect iter)]
  | .incl inner, out => do
    let output ← query R inner out
    match vecPop output with
    | none => throw Fault.panic
    | some (output, v) => return output ++ [v]
  | .count .allVertex, out => return out ++ [.count R.vertexCount]
  | .count .allEdge, out => return out ++ [.count R.edgeCount]
  | .count inner, out =>
    runStage inner (query R inner out) (fun v => do return .count (← countOf v))

/-- `Database::get` (`lib/src/database.rs:279-287`). -/
def getQuery (R : Reads) (q : Query) : Res (List Output) := query R q []

/-! ### `Database` methods -/

/-- The public API calls (`lib/src/database.rs:232-377`). `createVertexFromType` carries the generated id. -/
inductive Op where
  | sync
  | createVertex (v : Vertex)
  | createVertexFromType (generated : Uuid) (t : Identifier)
  | createEdge (e : Edge)
  | get (q : Query)
  | delete (q : Query)
  | setProperties (q : Query) (name : Identifier) (value : Json)
  | bulkInsert (items : List BulkInsertItem)
  | indexProperty (name : Identifier)
deriving DecidableEq

/-- What a call returns. The results of the methods at `lib/src/database.rs:232-377`. -/
inductive Reply where
  | unit
  | bool (b : Bool)
  | uuid (u : Uuid)
  | outputs (l : List Output)
deriving DecidableEq

/-- What can be seen of a concurrent execution: calls being made and calls returning. Every call has its own number. (A
thread that makes several calls makes each after the previous one has returned.)
The methods are those at `lib/src/database.rs:232-377`. -/
inductive Ev where
  | call (c : Nat) (op : Op)
  | ret (c : Nat) (r : Res Reply)

/-- Maps the value of an outcome.
Not code: it names what the methods at `lib/src/database.rs:232-377` do with the outcome of the transaction's method. -/
def Upd.map {σ α β : Type} (f : α → β) (u : Upd σ α) : Upd σ β := (u.1, u.2.map f)

/-- `flat_map` at `lib/src/database.rs:309-315`. -/
def vertexPropertyKeys (l : List VertexProperties) : List (Uuid × Identifier) :=
  l.flatMap (fun vps => vps.props.map (fun vp => (vps.vertex.id, vp.name)))

/-- `flat_map` at `lib/src/database.rs:320-326`. -/
def edgePropertyKeys (l : List EdgeProperties) : List (Edge × Identifier) :=
  l.flatMap (fun eps => eps.props.map (fun ep => (eps.edge, ep.name)))

section
variable {σ : Type} (T : Transaction σ)

/-- `output.pop().unwrap()` after running the query (`lib/src/database.rs:294-300, 341-348`). -/
def lastOutput (R : Reads) (q : Query) : Res Output := do
  let output ← query R q []
  match vecPop output with
  | none => throw Fault.panic
  | some (_, v) => return v

/-- `Database::delete` (`lib/src/database.rs:293-332`). -/
def dbDelete (q : Query) (s : σ) : Upd σ Unit :=
  match lastOutput (T.reads s) q with
  | .error f => (s, .error f)
  | .ok (.vertices vs) => T.deleteVertices vs s
  | .ok (.edges es) => T.deleteEdges es s
  | .ok (.vertexProperties l) => T.deleteVertexProperties (vertexPropertyKeys l) s
  | .ok (.edgeProperties l) => T.deleteEdgeProperties (edgePropertyKeys l) s
  | .ok (.count _) => (s, .error (.err .operationOnQuery))

/-- `Database::set_properties` (`lib/src/database.rs:340-358`). -/
def dbSetProperties (q : Query) (name : Identifier) (value : Json) (s : σ) : Upd σ Unit :=
  match lastOutput (T.reads s) q with
  | .error f => (s, .error f)
  | .ok (.vertices vs) => T.setVertexProperties (vs.map (·.id)) name value s
  | .ok (.edges es) => T.setEdgeProperties es name value s
  | .ok _ => (s, .error (.err .operationOnQuery))

/-- `Database::create_vertex_from_type` (`lib/src/database.rs:254-262`) for the generated id. -/
def dbCreateVertexFromType (id : Uuid) (t : Identifier) (s : σ) : Upd σ Uuid :=
  match T.createVertex ⟨id, t⟩ s with
  | (s', .error f) => (s', .error f)
  | (s', .ok false) => (s', .error (.err .uuidTaken))
  | (s', .ok true) => (s', .ok id)

/-- One API call on a transaction (`lib/src/database.rs:232-377`). -/
def dbStep (op : Op) (s : σ) : Upd σ Reply :=
  match op with
  | .sync => Upd.map (fun _ => .unit) (T.sync s)
  | .createVertex v => Upd.map .bool (T.createVertex v s)
  | .createVertexFromType id t => Upd.map .uuid (dbCreateVertexFromType T id t s)
  | .createEdge e => Upd.map .bool (T.createEdge e s)
  | .get q => (s, (getQuery (T.reads s) q).map .outputs)
  | .delete q => Upd.map (fun _ => .unit) (dbDelete T q s)
  | .setProperties q n v => Upd.map (fun _ => .unit) (dbSetProperties T q n v s)
  | .bulkInsert items => Upd.map (fun _ => .unit) (T.bulkInsert items s)
  | .indexProperty n => Upd.map (fun _ => .unit) (T.indexProperty n s)

end
end IndraDB
