import Verif.Spec.Unread
import Verif.Proofs.RocksStore
/-
Specification for C78: a RocksDB datastore some of whose stored values cannot be read does exactly what it should, except
that calls that would have to read such a value are refused.
-/
namespace IndraDB
open Rocks

/-- The RocksDB datastore, starting in state `u`, for histories that write any values. Its contents are observed with the reader `d`: a
property whose value the datastore cannot read is there nevertheless. -/
def rocksStoreAny (X : Cfg) (d : Bytes → Option Json) (u : Rocks) : Store :=
  { rocksStoreFrom (X.reading d) (fun _ => True) u with step := fun O op s => Rocks.step X O op s }

/-- The call fails with an error of the datastore, and changes nothing. -/
def Store.Refuses (S : Store) (env : S.Env) (op : Op) (s : S.State) : Prop :=
  S.step env op s = (s, .error (.err .datastore))

/-- The call succeeds, and the contents are then `g`. -/
def Store.Does (S : Store) (env : S.Env) (op : Op) (s : S.State) (g : Graph) : Prop :=
  (S.step env op s).2 = .ok .unit ∧ S.graph (S.step env op s).1 = g

/-- C78, calls that read stored values: each is refused exactly if a value it needs cannot be read, and else exact. -/
structure RefusedExactly (X : Cfg) (d : Bytes → Option Json) (s : Rocks) (O : IdentOrder) : Prop where
  /-- asking for properties of vertices -/
  vertexProperties : ∀ q vs name, (rocksStoreAny X d s).value O q s = .ok (.vertices vs) →
    ((∃ v ∈ vs, HidesV X s v.id name) →
      (rocksStoreAny X d s).value O (.pipeProperty q name) s = .error (.err .datastore)) ∧
    ((¬ ∃ v ∈ vs, HidesV X s v.id name) → ∃ props : Uuid → List NamedProperty,
      (∀ v ∈ vs, PropList ((graph (X.reading d) s).vprop v.id) name (props v.id)) ∧
      (rocksStoreAny X d s).value O (.pipeProperty q name) s =
        .ok (.vertexProperties (vs.filterMap (fun v => if props v.id = [] then none else some ⟨v, props v.id⟩))))
  /-- asking for properties of edges -/
  edgeProperties : ∀ q es name, (rocksStoreAny X d s).value O q s = .ok (.edges es) →
    ((∃ e ∈ es, HidesE X s e name) →
      (rocksStoreAny X d s).value O (.pipeProperty q name) s = .error (.err .datastore)) ∧
    ((¬ ∃ e ∈ es, HidesE X s e name) → ∃ props : Edge → List NamedProperty,
      (∀ e, PropList ((graph (X.reading d) s).eprop e) name (props e)) ∧
      (rocksStoreAny X d s).value O (.pipeProperty q name) s =
        .ok (.edgeProperties (es.filterMap (fun e => if props e = [] then none else some ⟨e, props e⟩))))
  /-- setting a property of vertices: the old value is needed if the name is indexed -/
  setVertices : ∀ q vs n x, (rocksStoreAny X d s).value O q s = .ok (.vertices vs) →
    ((s.indexed.contains n = true ∧ ∃ v ∈ vs, HiddenV X s v.id n) → (rocksStoreAny X d s).Refuses O (.setProperties q n x) s) ∧
    (¬ (s.indexed.contains n = true ∧ ∃ v ∈ vs, HiddenV X s v.id n) →
      (rocksStoreAny X d s).Does O (.setProperties q n x) s
        ((graph (X.reading d) s).putVProps (vs.map (·.id)) n ((X.reading d).stored x)))
  /-- setting a property of edges -/
  setEdges : ∀ q es n x, (rocksStoreAny X d s).value O q s = .ok (.edges es) →
    ((s.indexed.contains n = true ∧ ∃ e ∈ es, HiddenE X s e n) → (rocksStoreAny X d s).Refuses O (.setProperties q n x) s) ∧
    (¬ (s.indexed.contains n = true ∧ ∃ e ∈ es, HiddenE X s e n) →
      (rocksStoreAny X d s).Does O (.setProperties q n x) s
        ((graph (X.reading d) s).putEProps es n ((X.reading d).stored x)))
  /-- deleting vertices: all their properties, and those of their edges, are needed -/
  deleteVertices : ∀ q vs, (rocksStoreAny X d s).value O q s = .ok (.vertices vs) →
    ((∃ v ∈ vs, HiddenAround X s v.id) → (rocksStoreAny X d s).Refuses O (.delete q) s) ∧
    ((¬ ∃ v ∈ vs, HiddenAround X s v.id) →
      (rocksStoreAny X d s).Does O (.delete q) s ((graph (X.reading d) s).rocksDropVertices (vs.map (·.id))))
  /-- deleting edges: all their properties are needed -/
  deleteEdges : ∀ q es, (rocksStoreAny X d s).value O q s = .ok (.edges es) →
    ((∃ e ∈ es, (graph X s).vertex e.outboundId ≠ none ∧ ∃ n, HiddenE X s e n) → (rocksStoreAny X d s).Refuses O (.delete q) s) ∧
    ((¬ ∃ e ∈ es, (graph X s).vertex e.outboundId ≠ none ∧ ∃ n, HiddenE X s e n) →
      (rocksStoreAny X d s).Does O (.delete q) s ((graph (X.reading d) s).rocksDropEdges es))
  /-- bulk insertion: old values of indexed properties are needed -/
  bulkInsert : ∀ items,
    ((∃ i ∈ items, i.Blocked X s) → (rocksStoreAny X d s).Refuses O (.bulkInsert items) s) ∧
    ((¬ ∃ i ∈ items, i.Blocked X s) → (rocksStoreAny X d s).Does O (.bulkInsert items) s
      (items.foldl (Graph.rocksBulkItem (X.reading d).stored) (graph (X.reading d) s)))
  /-- indexing: the values of the name are needed. If it is refused, the name counts as indexed nevertheless (a violation of
  C24), without its entries. -/
  indexProperty : ∀ n,
    ((s.indexed.contains n = false ∧ HiddenOwner X s n) →
      (rocksStoreAny X d s).step O (.indexProperty n) s = ({ s with indexed := s.indexed.add n }, .error (.err .datastore))) ∧
    (¬ (s.indexed.contains n = false ∧ HiddenOwner X s n) →
      (rocksStoreAny X d s).Does O (.indexProperty n) s ((graph (X.reading d) s).addIndex n))

/-- The query asks for properties somewhere. -/
def Query.AsksProperties : Query → Prop
  | .pipeProperty _ _ => True
  | .pipe i _ _ _ | .pipeWithPropertyPresence i _ _ | .pipeWithPropertyValue i _ _ _ | .count i | .incl i => i.AsksProperties
  | _ => False

/-- C78, all of it, for a database in state `u`: whatever calls are made. -/
structure AnyValues (X : Cfg) (d : Bytes → Option Json) (u : Rocks) : Prop where
  /-- calls that read stored values -/
  refused : ∀ s, (rocksStoreAny X d u).Reach s → ∀ O, RefusedExactly X d s O
  /-- a call that fails, for whatever reason, changes nothing; only a failing `index_property` changes which names count as indexed -/
  errorsPure : ∀ s O op f, ((rocksStoreAny X d u).step O op s).2 = .error f →
    ((rocksStoreAny X d u).step O op s).1.kv = s.kv ∧ ((∀ n, op ≠ .indexProperty n) → ((rocksStoreAny X d u).step O op s).1 = s)
  /-- queries that ask for no properties are never refused: they work, or fail because a name is not indexed or because the query itself
  makes no sense -/
  plain : ∀ s, (rocksStoreAny X d u).Reach s → ∀ O q, ¬ q.AsksProperties → ∀ f,
    (rocksStoreAny X d u).ask O q s = .error f → f = .err .notIndexed ∨ f = .err .operationOnQuery
  /-- a vertex property with an unreadable value and an indexed name is there for ever, with the vertex: whatever calls are made, the value
  cannot be read, replaced or deleted, nor can the vertex be deleted -/
  stuck : ∀ s, (rocksStoreAny X d u).Reach s → ∀ id n, s.indexed.contains n = true → HiddenV X s id n → ∀ hist,
    HiddenV X ((rocksStoreAny X d u).run hist s) id n ∧
    ((graph X s).vertex id ≠ none → (graph X ((rocksStoreAny X d u).run hist s)).vertex id ≠ none)
  /-- the same for edges -/
  stuckEdge : ∀ s, (rocksStoreAny X d u).Reach s → ∀ e n, s.indexed.contains n = true → HiddenE X s e n → ∀ hist,
    HiddenE X ((rocksStoreAny X d u).run hist s) e n
  /-- index queries say that a name is not indexed exactly if it is not -/
  names : ∀ s, (rocksStoreAny X d u).Reach s → ∀ O n v q,
    q ∈ [Query.vertexWithPropertyPresence n, .vertexWithPropertyValue n v, .edgeWithPropertyPresence n, .edgeWithPropertyValue n v] →
    ((rocksStoreAny X d u).ask O q s = .error (.err .notIndexed) ↔ s.indexed.contains n = false)
  /-- names stay indexed, and only `index_property` adds any -/
  indexed : ∀ s, (rocksStoreAny X d u).Reach s → ∀ hist n, ((rocksStoreAny X d u).run hist s).indexed.contains n = true ↔
    s.indexed.contains n = true ∨ ∃ p ∈ hist, p.2 = .indexProperty n
  /-- everything else -/
  createVertex : (rocksStoreAny X d u).CreateVertexExact
  createVertexFromType : (rocksStoreAny X d u).CreateVertexFromTypeExact
  createEdge : (rocksStoreAny X d u).CreateEdgeExact
  deleteProperties : (rocksStoreAny X d u).DeletePropertiesExact
  wrongValues : (rocksStoreAny X d u).WrongValuesRejected
  vertexQueries : (rocksStoreAny X d u).VertexQueriesExact
  edgeQueries : (rocksStoreAny X d u).EdgeQueriesExact rocksEdgeLt
  pipeVertices : (rocksStoreAny X d u).PipeVerticesExact (fun d a b => match d with
    | .outbound => rocksEdgeLt a b
    | .inbound => rocksEdgeLt a.reversed b.reversed)
  pipeEdges : (rocksStoreAny X d u).PipeEdgesExact
  filters : (rocksStoreAny X d u).FiltersPartition
  count : (rocksStoreAny X d u).CountExact
  includes : (rocksStoreAny X d u).IncludeExact
  built : (rocksStoreAny X d u).BuiltQueriesWork
  limits : (rocksStoreAny X d u).LimitsMonotone
  traversal : (rocksStoreAny X d u).TraversalSymmetric
  paging : (rocksStoreAny X d u).PagingExact (fun u => (nextUuid u).toOption)
  readsPure : (rocksStoreAny X d u).ReadsPure

/-- Every `index_property` in the history succeeds. -/
def Store.IndexingWorks (S : Store) : List (S.Env × Op) → S.State → Prop
  | [], _ => True
  | (env, op) :: r, s => ((∃ n, op = .indexProperty n) → (S.step env op s).2 = .ok .unit) ∧ S.IndexingWorks r (S.step env op s).1

end IndraDB
