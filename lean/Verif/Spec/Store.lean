import Verif.Spec.Step
/-
A database as a black box, and the properties (`properties.jsonl`) as predicates on such boxes. The theorems in
`Verif/Props` say that the models of the two datastores satisfy them.
-/
namespace IndraDB

/-- All values a bulk item writes satisfy `V`. -/
def BulkInsertItem.Values (V : Json → Prop) : BulkInsertItem → Prop
  | .vertexProperty _ _ v => V v
  | .edgeProperty _ _ v => V v
  | _ => True

/-- All values the call writes satisfy `V`. -/
def Op.ValuesOk (V : Json → Prop) : Op → Prop
  | .setProperties _ _ x => V x
  | .bulkInsert items => ∀ i ∈ items, i.Values V
  | _ => True

/-- A database: API calls (`step`; `Env` stands for the choices the environment makes during one call, such as hash
iteration orders), and its contents as an abstract graph. `graph` is an observation function, and not an independent
truth: `VertexQueriesExact`, `EdgeQueriesExact` and
`PipePropertiesExact` below say that the query API reports exactly this graph, and `NotIndexedExact` the same about its
set of indexed names. -/
structure Store where
  State : Type
  Env : Type
  init : State
  step : Env → Op → State → State × Res Reply
  graph : State → Graph
  /-- what the property index reports to queries (for the environment of the query) -/
  index : Env → State → IndexView
  /-- the database can still be used (the memory datastore cannot after a panic) -/
  alive : State → Bool
  /-- the values that may be written in the histories considered: all for the memory datastore; those that can be read
  back for the RocksDB datastore -/
  okValue : Json → Prop

/-- The index reports the same about all edges and all vertices but `id`. -/
structure IndexView.SameExcept (id : Uuid) (I J : IndexView) : Prop where
  vPresent : ∀ n i, i ≠ id → J.vPresent n i = I.vPresent n i
  vValue : ∀ n x i, i ≠ id → J.vValue n x i = I.vValue n x i
  ePresent : ∀ n e, J.ePresent n e = I.ePresent n e
  eValue : ∀ n x e, J.eValue n x e = I.eValue n x e

namespace Store
variable (S : Store)

/-- State after a history of calls. -/
def run : List (S.Env × Op) → S.State → S.State
  | [], s => s
  | (env, op) :: r, s => run r (S.step env op s).1

/-- What the calls of a history return. -/
def replies : List (S.Env × Op) → S.State → List (Res Reply)
  | [], _ => []
  | (env, op) :: r, s => (S.step env op s).2 :: replies r (S.step env op s).1

/-- All values written in the history are `okValue`. -/
def OkHist (hist : List (S.Env × Op)) : Prop := ∀ p ∈ hist, p.2.ValuesOk S.okValue

/-- Usable states that some history leads to. -/
def Reach (s : S.State) : Prop := ∃ hist, s = S.run hist S.init ∧ S.alive s = true ∧ S.OkHist hist

/-- The outcome of `get`. -/
def ask (env : S.Env) (q : Query) (s : S.State) : Res (List Output) :=
  match (S.step env (.get q) s).2 with
  | .ok (.outputs l) => .ok l
  | .ok _ => .error .panic
  | .error f => .error f

/-- The last value `get` returns, which is the value of the outermost query. -/
def value (env : S.Env) (q : Query) (s : S.State) : Res Output :=
  match S.ask env q s with
  | .ok l => match l.getLast? with
    | some v => .ok v
    | none => .error .panic
  | .error f => .error f

/-! ### Reading (C16-C23, C50) -/

/-- C16 -/
def VertexQueriesExact : Prop := ∀ s, S.Reach s → ∀ env,
  (∃ l, Enumerates vertexLt l (fun v => (S.graph s).vertex v.id = some v.t) ∧
    S.ask env .allVertex s = .ok [.vertices l]) ∧
  (∀ limit t start, ∃ l,
    Enumerates vertexLt l (fun v => (S.graph s).vertex v.id = some v.t ∧ (∀ x, t = some x → v.t = x) ∧
      (∀ x, start = some x → Order.lt v.id x = false)) ∧
    S.ask env (.rangeVertex limit t start) s = .ok [.vertices (l.take limit.toNat)]) ∧
  (∀ ids, S.ask env (.specificVertex ids) s = .ok [.vertices ((S.graph s).lookup ids)])

/-- Direct edge queries (part of C16/C17): all edges in storage order; the existing ones of given edges. -/
def EdgeQueriesExact (edgeLt : Edge → Edge → Bool) : Prop := ∀ s, S.Reach s → ∀ env,
  (∃ l, Enumerates edgeLt l (fun e => (S.graph s).edge e = true) ∧ S.ask env .allEdge s = .ok [.edges l]) ∧
  (∀ es, S.ask env (.specificEdge es) s = .ok [.edges (es.filter (S.graph s).edge)])

/-- C17: vertices to edges. `listing d a b`: `a` comes before `b` among the edges at one vertex. -/
def PipeVerticesExact (listing : EdgeDirection → Edge → Edge → Bool) : Prop := ∀ s, S.Reach s → ∀ env inner vs,
  S.value env inner s = .ok (.vertices vs) → ∀ d (limit : UInt32) t,
  ∃ edgesAt : Uuid → List Edge,
    (∀ id, Enumerates (listing d) (edgesAt id)
      (fun e => (S.graph s).edge e = true ∧ d.endpoint e = id ∧ (∀ x, t = some x → e.t = x))) ∧
    S.value env (.pipe inner d limit t) s = .ok (.edges ((vs.flatMap (fun v => edgesAt v.id)).take limit.toNat))

/-- C18: edges to vertices. -/
def PipeEdgesExact : Prop := ∀ s, S.Reach s → ∀ env inner es,
  S.value env inner s = .ok (.edges es) → ∀ d (limit : UInt32) t,
  S.value env (.pipe inner d limit t) s = .ok (.vertices
    ((((S.graph s).lookup (es.map d.endpoint)).filter
      (fun v => match t with | none => true | some x => v.t = x)).take limit.toNat))

/-- C19: properties. `bad` vertices make the database panic when all their properties are listed. -/
def PipePropertiesExact (bad : Uuid → Prop) : Prop := ∀ s, S.Reach s → ∀ env inner,
  (∀ vs, S.value env inner s = .ok (.vertices vs) →
    (∀ n, S.value env (.pipeProperty inner (some n)) s = .ok (.vertexProperties (vs.filterMap (fun v =>
      ((S.graph s).vprop v.id n).map (fun x => ⟨v, [⟨n, x⟩]⟩))))) ∧
    ((∀ v ∈ vs, ¬ bad v.id) → ∃ props : Vertex → List NamedProperty,
      (∀ v ∈ vs, Enumerates (fun a b : NamedProperty => Order.lt a.name b.name) (props v)
        (fun p => (S.graph s).vprop v.id p.name = some p.value)) ∧
      S.value env (.pipeProperty inner none) s = .ok (.vertexProperties
        ((vs.filter (fun v => props v ≠ [])).map (fun v => ⟨v, props v⟩))))) ∧
  (∀ es, S.value env inner s = .ok (.edges es) →
    (∀ n, S.value env (.pipeProperty inner (some n)) s = .ok (.edgeProperties (es.filterMap (fun e =>
      ((S.graph s).eprop e n).map (fun x => ⟨e, [⟨n, x⟩]⟩))))) ∧
    (∃ props : Edge → List NamedProperty,
      (∀ e ∈ es, Enumerates (fun a b : NamedProperty => Order.lt a.name b.name) (props e)
        (fun p => (S.graph s).eprop e p.name = some p.value)) ∧
      S.value env (.pipeProperty inner none) s = .ok (.edgeProperties
        ((es.filter (fun e => props e ≠ [])).map (fun e => ⟨e, props e⟩)))))

/-- C20: for an indexed name, `with` and `without` split the input in two, in order; what `with` keeps is what the
direct index query lists. `filt keep` is the piped filter, `direct` the direct query (one for vertices, one for edges). -/
def PartitionedBy (env : S.Env) (s : S.State) (inner : Query) (filt : Bool → Query) (directV directE : Query) : Prop :=
  (∀ vs, S.value env inner s = .ok (.vertices vs) → ∃ (p : Vertex → Bool) (l : List Vertex),
    S.value env directV s = .ok (.vertices l) ∧ (∀ v ∈ vs, p v = true ↔ v ∈ l) ∧
    S.value env (filt true) s = .ok (.vertices (vs.filter p)) ∧
    S.value env (filt false) s = .ok (.vertices (vs.filter (fun v => !p v)))) ∧
  (∀ es, S.value env inner s = .ok (.edges es) → ∃ (p : Edge → Bool) (l : List Edge),
    S.value env directE s = .ok (.edges l) ∧ (∀ e ∈ es, p e = true ↔ e ∈ l) ∧
    S.value env (filt true) s = .ok (.edges (es.filter p)) ∧
    S.value env (filt false) s = .ok (.edges (es.filter (fun e => !p e))))

/-- C20 -/
def FiltersPartition : Prop := ∀ s, S.Reach s → ∀ env inner n, (S.graph s).indexed n = true →
  S.PartitionedBy env s inner (fun keep => .pipeWithPropertyPresence inner n keep)
    (.vertexWithPropertyPresence n) (.edgeWithPropertyPresence n) ∧
  (∀ v, S.PartitionedBy env s inner (fun keep => .pipeWithPropertyValue inner n v keep)
    (.vertexWithPropertyValue n v) (.edgeWithPropertyValue n v))

/-- C21 -/
def CountExact : Prop := ∀ s, S.Reach s → ∀ env inner v, S.value env inner s = .ok v →
  S.value env (.count inner) s = match v with
    | .vertices l => .ok (.count l.length)
    | .edges l => .ok (.count l.length)
    | .vertexProperties l => .ok (.count l.length)
    | .edgeProperties l => .ok (.count l.length)
    | .count _ => .error (.err .operationOnQuery)

end Store

/-- The includes that contribute to the output: those directly below another stage, innermost first. -/
def Query.includes : Query → List Query
  | .pipe i _ _ _ | .pipeProperty i _ | .pipeWithPropertyPresence i _ _ | .pipeWithPropertyValue i _ _ _ | .count i =>
    i.includes ++ (if i.isInclude then [i] else [])
  | .incl i => i.includes
  | _ => []

namespace Store
variable (S : Store)

/-- Position by position, `outs` are the values of the queries `qs`. -/
def ValuesOf (env : S.Env) (s : S.State) : List Query → List Output → Prop
  | [], [] => True
  | q :: qs, o :: os => S.value env q s = .ok o ∧ ValuesOf env s qs os
  | _, _ => False

/-- C22 -/
def IncludeExact : Prop := ∀ s, S.Reach s → ∀ env q outs, S.ask env q s = .ok outs →
  S.ValuesOf env s (q.includes ++ [q]) outs

/-- C50: a larger limit extends the result. -/
def LimitsMonotone : Prop := ∀ s, S.Reach s → ∀ env (k k' : UInt32), k ≤ k' →
  (∀ t start l, S.ask env (.rangeVertex k' t start) s = .ok [.vertices l] →
    S.ask env (.rangeVertex k t start) s = .ok [.vertices (l.take k.toNat)]) ∧
  (∀ inner d t, (∀ l, S.value env (.pipe inner d k' t) s = .ok (.edges l) →
      S.value env (.pipe inner d k t) s = .ok (.edges (l.take k.toNat))) ∧
    (∀ l, S.value env (.pipe inner d k' t) s = .ok (.vertices l) →
      S.value env (.pipe inner d k t) s = .ok (.vertices (l.take k.toNat))))

/-- C25: reads leave the state alone (a panic, see C35, is the only exception). -/
def ReadsPure : Prop := ∀ s, S.Reach s → ∀ env q, (S.step env (.get q) s).2 ≠ .error .panic →
  (S.step env (.get q) s).1 = s

/-- C24: a call that returns an error leaves the state alone. -/
def ErrorsPure : Prop := ∀ s, S.Reach s → ∀ env op e, (S.step env op s).2 = .error (.err e) →
  (S.step env op s).1 = s

end Store

/-- Queries built with the validating constructors; `limit`, `t` and `name` can be set freely afterwards. -/
inductive Query.Built : Query → Prop
  | allVertex : Built .allVertex
  | rangeVertex {l t s} : Built (.rangeVertex l t s)
  | specificVertex {ids} : Built (.specificVertex ids)
  | vertexWithPropertyPresence {n} : Built (.vertexWithPropertyPresence n)
  | vertexWithPropertyValue {n v} : Built (.vertexWithPropertyValue n v)
  | allEdge : Built .allEdge
  | specificEdge {es} : Built (.specificEdge es)
  | edgeWithPropertyPresence {n} : Built (.edgeWithPropertyPresence n)
  | edgeWithPropertyValue {n v} : Built (.edgeWithPropertyValue n v)
  | pipe {i d l t} : Built i → (∃ q, Query.newPipe i d = .ok q) → Built (.pipe i d l t)
  | pipeProperty {i n} : Built i → (∃ q, Query.newPipeProperty i = .ok q) → Built (.pipeProperty i n)
  | pipeWithPropertyPresence {i n k} : Built i → (∃ q, Query.newPipeWithPropertyPresence i n k = .ok q) →
      Built (.pipeWithPropertyPresence i n k)
  | pipeWithPropertyValue {i n v k} : Built i → (∃ q, Query.newPipeWithPropertyValue i n v k = .ok q) →
      Built (.pipeWithPropertyValue i n v k)
  | count {i} : Built i → (∃ q, Query.newCount i = .ok q) → Built (.count i)
  | incl {i} : Built i → Built (.incl i)

/-- The stage is nested on a count or on properties. -/
def Query.OnNonElements : Query → Prop
  | .pipe i _ _ _ | .pipeProperty i _ | .pipeWithPropertyPresence i _ _ | .pipeWithPropertyValue i _ _ _ =>
    (∃ j, i = .count j) ∨ (∃ j n, i = .pipeProperty j n)
  | .count i => ∃ j, i = .count j
  | _ => False

namespace Store
variable (S : Store)

/-- C23 -/
def BuiltQueriesWork : Prop := ∀ s, S.Reach s → ∀ env,
  (∀ q : Query, q.Built → S.ask env q s ≠ .error (.err .operationOnQuery)) ∧
  (∀ q : Query, q.OnNonElements → ∀ outs, S.ask env q s ≠ .ok outs)

/-! ### Writing (C01, C02, C05, C07-C09, C14, C15) -/

/-- C01 -/
def CreateVertexExact : Prop := ∀ s, S.Reach s → ∀ env v,
  ((S.step env (.createVertex v) s).2 = .ok (.bool true) ↔ (S.graph s).vertex v.id = none) ∧
  ((S.step env (.createVertex v) s).2 = .ok (.bool false) ↔ (S.graph s).vertex v.id ≠ none) ∧
  S.graph (S.step env (.createVertex v) s).1 =
    (if (S.graph s).vertex v.id = none then (S.graph s).putVertex v.id v.t else S.graph s) ∧
  ((S.graph s).vertex v.id ≠ none → (S.step env (.createVertex v) s).1 = s) ∧
  ∀ env', (S.index env' s).SameExcept v.id (S.index env' (S.step env (.createVertex v) s).1)

/-- C01 / C48 for generated ids. -/
def CreateVertexFromTypeExact : Prop := ∀ s, S.Reach s → ∀ env id t,
  ((S.graph s).vertex id = none →
    (S.step env (.createVertexFromType id t) s).2 = .ok (.uuid id) ∧
    S.graph (S.step env (.createVertexFromType id t) s).1 = (S.graph s).putVertex id t) ∧
  ((S.graph s).vertex id ≠ none →
    (S.step env (.createVertexFromType id t) s).2 = .error (.err .uuidTaken) ∧
    S.graph (S.step env (.createVertexFromType id t) s).1 = S.graph s)

/-- C02 -/
def CreateEdgeExact : Prop := ∀ s, S.Reach s → ∀ env e,
  ((S.step env (.createEdge e) s).2 = .ok (.bool true) ↔
    ((S.graph s).vertex e.outboundId ≠ none ∧ (S.graph s).vertex e.inboundId ≠ none)) ∧
  ((S.step env (.createEdge e) s).2 = .ok (.bool false) ↔
    ¬ ((S.graph s).vertex e.outboundId ≠ none ∧ (S.graph s).vertex e.inboundId ≠ none)) ∧
  S.graph (S.step env (.createEdge e) s).1 =
    (if (S.graph s).vertex e.outboundId ≠ none ∧ (S.graph s).vertex e.inboundId ≠ none then (S.graph s).putEdge e
     else S.graph s)

/-- Deleting the vertices a query returns changes the graph by `drop`. -/
def DeleteVerticesIs (drop : Graph → List Uuid → Graph) : Prop := ∀ s, S.Reach s → ∀ env q vs,
  S.value env q s = .ok (.vertices vs) → (S.step env (.delete q) s).2 ≠ .error .panic →
  (S.step env (.delete q) s).2 = .ok .unit ∧
  S.graph (S.step env (.delete q) s).1 = drop (S.graph s) (vs.map (·.id))

/-- Deleting the edges a query returns changes the graph by `drop`. -/
def DeleteEdgesIs (drop : Graph → List Edge → Graph) : Prop := ∀ s, S.Reach s → ∀ env q es,
  S.value env q s = .ok (.edges es) → (S.step env (.delete q) s).2 ≠ .error .panic →
  (S.step env (.delete q) s).2 = .ok .unit ∧
  S.graph (S.step env (.delete q) s).1 = drop (S.graph s) es

/-- C08 -/
def DeletePropertiesExact : Prop := ∀ s, S.Reach s → ∀ env q, (S.step env (.delete q) s).2 ≠ .error .panic →
  (∀ l, S.value env q s = .ok (.vertexProperties l) →
    (S.step env (.delete q) s).2 = .ok .unit ∧
    S.graph (S.step env (.delete q) s).1 = (S.graph s).dropVProps
      (l.flatMap (fun p => p.props.map (fun x => (p.vertex.id, x.name))))) ∧
  (∀ l, S.value env q s = .ok (.edgeProperties l) →
    (S.step env (.delete q) s).2 = .ok .unit ∧
    S.graph (S.step env (.delete q) s).1 = (S.graph s).dropEProps
      (l.flatMap (fun p => p.props.map (fun x => (p.edge, x.name)))))

/-- C07; `stored v` is what reading gives after writing `v`. -/
def SetPropertiesExact (stored : Json → Json) : Prop := ∀ s, S.Reach s → ∀ env q n x, S.okValue x →
  (S.step env (.setProperties q n x) s).2 ≠ .error .panic →
  (∀ vs, S.value env q s = .ok (.vertices vs) →
    (S.step env (.setProperties q n x) s).2 = .ok .unit ∧
    S.graph (S.step env (.setProperties q n x) s).1 = (S.graph s).putVProps (vs.map (·.id)) n (stored x)) ∧
  (∀ es, S.value env q s = .ok (.edges es) →
    (S.step env (.setProperties q n x) s).2 = .ok .unit ∧
    S.graph (S.step env (.setProperties q n x) s).1 = (S.graph s).putEProps es n (stored x))

/-- Deleting or setting properties on values of the wrong kind fails with `OperationOnQuery`, and a failing query makes
the call fail with the error of the query. -/
def WrongValuesRejected : Prop := ∀ s, S.Reach s → ∀ env q,
  (∀ k, S.value env q s = .ok (.count k) → (S.step env (.delete q) s).2 = .error (.err .operationOnQuery)) ∧
  (∀ v n x, S.value env q s = .ok v → v.kind ≠ .vertices → v.kind ≠ .edges →
    (S.step env (.setProperties q n x) s).2 = .error (.err .operationOnQuery)) ∧
  (∀ f, S.value env q s = .error f →
    (S.step env (.delete q) s).2 = .error f ∧ ∀ n x, (S.step env (.setProperties q n x) s).2 = .error f)

/-- C14: a name is reported as not indexed exactly if it was never indexed. -/
def NotIndexedExact : Prop := ∀ hist, S.OkHist hist → S.alive (S.run hist S.init) = true → ∀ env n v q,
  q ∈ [Query.vertexWithPropertyPresence n, .vertexWithPropertyValue n v, .edgeWithPropertyPresence n,
    .edgeWithPropertyValue n v] →
  (S.ask env q (S.run hist S.init) = .error (.err .notIndexed) ↔ ∀ p ∈ hist, p.2 ≠ .indexProperty n)

/-- C14, piped filters. -/
def NotIndexedPipedExact : Prop := ∀ hist, S.OkHist hist → S.alive (S.run hist S.init) = true → ∀ env n v inner keep o,
  S.value env inner (S.run hist S.init) = .ok o → (o.kind = .vertices ∨ o.kind = .edges) →
  ∀ q, q ∈ [Query.pipeWithPropertyPresence inner n keep, .pipeWithPropertyValue inner n v keep] →
  (S.ask env q (S.run hist S.init) = .error (.err .notIndexed) ↔ ∀ p ∈ hist, p.2 ≠ .indexProperty n)

/-- C15: indexing a property changes no data, and doing it twice is the same as doing it once. -/
def IndexPropertyExact : Prop := ∀ s, S.Reach s → ∀ env n,
  (S.step env (.indexProperty n) s).2 = .ok .unit ∧
  S.graph (S.step env (.indexProperty n) s).1 = (S.graph s).addIndex n ∧
  ∀ env', let s' := (S.step env (.indexProperty n) s).1
    S.graph (S.step env' (.indexProperty n) s').1 = S.graph s' ∧
    ∀ env'', S.index env'' (S.step env' (.indexProperty n) s').1 = S.index env'' s'

/-- C04: with limits that do not cut anything off, an edge is found from its outbound vertex iff it is found from its
inbound vertex iff it is found directly. -/
def TraversalSymmetric : Prop := ∀ s, S.Reach s → ∀ env (e : Edge) (k : UInt32) out inb,
  (S.graph s).vertex e.outboundId ≠ none → (S.graph s).vertex e.inboundId ≠ none →
  S.value env (.pipe (.specificVertex [e.outboundId]) .outbound k none) s = .ok (.edges out) → out.length < k.toNat →
  S.value env (.pipe (.specificVertex [e.inboundId]) .inbound k none) s = .ok (.edges inb) → inb.length < k.toNat →
  (e ∈ out ↔ e ∈ inb) ∧ (e ∈ out ↔ S.value env (.specificEdge [e]) s = .ok (.edges [e]))

/-- C03: all edges in all values of the answer have both endpoints. -/
def NoDanglingAnswers (P : Query → Prop) : Prop := ∀ s, S.Reach s → ∀ env q, P q → ∀ es, S.value env q s = .ok (.edges es) →
  ∀ e ∈ es, (S.graph s).vertex e.outboundId ≠ none ∧ (S.graph s).vertex e.inboundId ≠ none

/-! ### Indexes (C10-C13) -/

/-- Index queries in state `s` list exactly the owners that have the property (with a value for which `eq` holds), each
once if `once`. -/
def IndexExactAt (eq : Json → Json → Bool) (once : Prop) (s : S.State) : Prop := ∀ env n,
  (S.graph s).indexed n = true →
  (∃ l, S.value env (.vertexWithPropertyPresence n) s = .ok (.vertices l) ∧ (once → l.Nodup) ∧
    ∀ v, v ∈ l ↔ (S.graph s).vertex v.id = some v.t ∧ (S.graph s).vprop v.id n ≠ none) ∧
  (∃ l, S.value env (.edgeWithPropertyPresence n) s = .ok (.edges l) ∧ (once → l.Nodup) ∧
    ∀ e, e ∈ l ↔ (S.graph s).edge e = true ∧ (S.graph s).eprop e n ≠ none) ∧
  (∀ x, ∃ l, S.value env (.vertexWithPropertyValue n x) s = .ok (.vertices l) ∧ (once → l.Nodup) ∧
    ∀ v, v ∈ l ↔ (S.graph s).vertex v.id = some v.t ∧ ∃ w, (S.graph s).vprop v.id n = some w ∧ eq w x = true) ∧
  (∀ x, ∃ l, S.value env (.edgeWithPropertyValue n x) s = .ok (.edges l) ∧ (once → l.Nodup) ∧
    ∀ e, e ∈ l ↔ (S.graph s).edge e = true ∧ ∃ w, (S.graph s).eprop e n = some w ∧ eq w x = true)

/-- The complete half: index queries list at least those. -/
def IndexCompleteAt (eq : Json → Json → Bool) (s : S.State) : Prop := ∀ env n, (S.graph s).indexed n = true →
  (∃ l, S.value env (.vertexWithPropertyPresence n) s = .ok (.vertices l) ∧
    ∀ v, (S.graph s).vertex v.id = some v.t ∧ (S.graph s).vprop v.id n ≠ none → v ∈ l) ∧
  (∃ l, S.value env (.edgeWithPropertyPresence n) s = .ok (.edges l) ∧
    ∀ e, (S.graph s).edge e = true ∧ (S.graph s).eprop e n ≠ none → e ∈ l) ∧
  (∀ x, ∃ l, S.value env (.vertexWithPropertyValue n x) s = .ok (.vertices l) ∧
    ∀ v, (S.graph s).vertex v.id = some v.t ∧ (∃ w, (S.graph s).vprop v.id n = some w ∧ eq w x = true) → v ∈ l) ∧
  (∀ x, ∃ l, S.value env (.edgeWithPropertyValue n x) s = .ok (.edges l) ∧
    ∀ e, (S.graph s).edge e = true ∧ (∃ w, (S.graph s).eprop e n = some w ∧ eq w x = true) → e ∈ l)

/-! ### Paging (C38) -/

/-- A client paging through the vertices of type `t` with page size `k`, starting at `start`, at most `fuel` pages: stop
at an empty page or when the last id has no successor, else continue at the successor (`next`) of the last id. -/
def pages (next : Uuid → Option Uuid) (env : Nat → S.Env) (k : UInt32) (t : Option Identifier) (s : S.State) :
    Nat → Uuid → List Vertex
  | 0, _ => []
  | fuel + 1, start =>
    match S.ask (env fuel) (.rangeVertex k t (some start)) s with
    | .ok [.vertices page] =>
      match page.getLast? with
      | none => []
      | some v => page ++ (match next v.id with
        | some u => pages next env k t s fuel u
        | none => [])
    | _ => []

/-- C38: paging from the smallest id yields exactly the vertices (of type `t`), in order, once each, if the number of
pages is not cut short. -/
def PagingExact (next : Uuid → Option Uuid) : Prop := ∀ s, S.Reach s → ∀ env (k : UInt32) t, 0 < k →
  ∃ all, Enumerates vertexLt all (fun v => (S.graph s).vertex v.id = some v.t ∧ (∀ x, t = some x → v.t = x)) ∧
    ∀ fuel, all.length < fuel → S.pages next env k t s fuel Uuid.nil = all

end Store
end IndraDB
