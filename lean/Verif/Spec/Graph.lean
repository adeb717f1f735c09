import Verif.Model.Query
/-
The specification: an abstract property graph, its updates, and what a query may answer. Nothing here refers to the
model of the code except for the vocabulary types (ids, edges, JSON values, queries, outputs).
-/
namespace IndraDB

/-- An abstract database: who exists, who has which property, which names are indexed. Properties of owners that do not
exist ("orphans") are part of the state, because creating the owner later makes them visible. -/
structure Graph where
  vertex : Uuid → Option Identifier
  edge : Edge → Bool
  vprop : Uuid → Identifier → Option Json
  eprop : Edge → Identifier → Option Json
  indexed : Identifier → Bool

namespace Graph

@[ext] theorem ext {g h : Graph} (h1 : g.vertex = h.vertex) (h2 : g.edge = h.edge) (h3 : g.vprop = h.vprop)
    (h4 : g.eprop = h.eprop) (h5 : g.indexed = h.indexed) : g = h := by
  cases g; cases h; simp_all

/-- The empty database. -/
def empty : Graph := ⟨fun _ => none, fun _ => false, fun _ _ => none, fun _ _ => none, fun _ => false⟩

/-- Give vertex `id` the type `t`. -/
def putVertex (g : Graph) (id : Uuid) (t : Identifier) : Graph :=
  { g with vertex := fun i => if i = id then some t else g.vertex i }

/-- Add an edge. -/
def putEdge (g : Graph) (e : Edge) : Graph :=
  { g with edge := fun x => decide (x = e) || g.edge x }

/-- Set one property of the given vertices. -/
def putVProps (g : Graph) (ids : List Uuid) (n : Identifier) (v : Json) : Graph :=
  { g with vprop := fun i m => if i ∈ ids ∧ m = n then some v else g.vprop i m }

/-- Set one property of the given edges. -/
def putEProps (g : Graph) (es : List Edge) (n : Identifier) (v : Json) : Graph :=
  { g with eprop := fun e m => if e ∈ es ∧ m = n then some v else g.eprop e m }

/-- Remove the listed vertex properties. -/
def dropVProps (g : Graph) (ps : List (Uuid × Identifier)) : Graph :=
  { g with vprop := fun i n => if (i, n) ∈ ps then none else g.vprop i n }

/-- Remove the listed edge properties. -/
def dropEProps (g : Graph) (ps : List (Edge × Identifier)) : Graph :=
  { g with eprop := fun e n => if (e, n) ∈ ps then none else g.eprop e n }

/-- Remove the listed edges with all their properties. -/
def dropEdges (g : Graph) (es : List Edge) : Graph :=
  { g with
    edge := fun e => if e ∈ es then false else g.edge e
    eprop := fun e n => if e ∈ es then none else g.eprop e n }

/-- Does the edge touch one of the vertices? -/
def touches (ids : List Uuid) (e : Edge) : Prop := e.outboundId ∈ ids ∨ e.inboundId ∈ ids

instance (ids : List Uuid) (e : Edge) : Decidable (touches ids e) := inferInstanceAs (Decidable (_ ∨ _))

/-- Remove the listed vertices with their properties, all existing edges that touch them, and the properties of these
edges. -/
def dropVertices (g : Graph) (ids : List Uuid) : Graph :=
  { g with
    vertex := fun i => if i ∈ ids then none else g.vertex i
    vprop := fun i n => if i ∈ ids then none else g.vprop i n
    edge := fun e => if touches ids e then false else g.edge e
    eprop := fun e n => if touches ids e ∧ g.edge e then none else g.eprop e n }

/-- Mark a name as indexed. -/
def addIndex (g : Graph) (n : Identifier) : Graph :=
  { g with indexed := fun m => decide (m = n) || g.indexed m }

/-- Both endpoints of the edge exist. -/
def hasEndpoints (g : Graph) (e : Edge) : Bool := (g.vertex e.outboundId).isSome && (g.vertex e.inboundId).isSome

/-- Every property belongs to an existing owner. -/
def NoOrphans (g : Graph) : Prop :=
  (∀ i n, g.vprop i n ≠ none → g.vertex i ≠ none) ∧ (∀ e n, g.eprop e n ≠ none → g.edge e = true)

/-- Every edge has both endpoints. -/
def NoDangling (g : Graph) : Prop := ∀ e, g.edge e = true → g.hasEndpoints e = true

end Graph

/-- `l` lists exactly the elements satisfying `P`, each once, in the order `lt`. At most one list does. -/
structure Enumerates {α : Type} (lt : α → α → Bool) (l : List α) (P : α → Prop) : Prop where
  sorted : l.Pairwise (fun a b => lt a b = true)
  mem : ∀ x, x ∈ l ↔ P x

/-- Conventions in which the datastores are allowed to differ. -/
structure Conv where
  /-- order in which edges are stored -/
  edgeLt : Edge → Edge → Bool
  edge_irrefl : ∀ a, edgeLt a a = false
  edge_trans : ∀ a b c, edgeLt a b = true → edgeLt b c = true → edgeLt a c = true
  /-- edges are grouped by outbound vertex -/
  out_lt : ∀ a b, Order.lt a.outboundId b.outboundId = true → edgeLt a b = true
  /-- `(id, t, nil)` and `(id, "", nil)` are lower bounds of the edges leaving `id` (of type `t`) -/
  bound_t : ∀ e, edgeLt e ⟨e.outboundId, e.t, Uuid.nil⟩ = false
  bound : ∀ e, edgeLt e ⟨e.outboundId, Identifier.empty, Uuid.nil⟩ = false
  /-- does the stored value (first) match the asked value (second)? -/
  valueMatch : Json → Json → Bool
  /-- does listing all properties of this vertex panic? -/
  propsPanic : Uuid → Bool

/-- What the property index reports. -/
structure IndexView where
  vPresent : Identifier → Uuid → Bool
  vValue : Identifier → Json → Uuid → Bool
  ePresent : Identifier → Edge → Bool
  eValue : Identifier → Json → Edge → Bool
  /-- listings have no repetitions -/
  nodup : Prop

/-- The exact index of a graph. -/
def Graph.exactIndex (g : Graph) (C : Conv) : IndexView where
  vPresent n i := (g.vertex i).isSome && (g.vprop i n).isSome
  vValue n v i := (g.vertex i).isSome && match g.vprop i n with | some w => C.valueMatch w v | none => false
  ePresent n e := g.edge e && (g.eprop e n).isSome
  eValue n v e := g.edge e && match g.eprop e n with | some w => C.valueMatch w v | none => false
  nodup := True

/-! ### Answers -/

/-- `x` passes the optional type filter. -/
def TypeOk (t : Option Identifier) (x : Identifier) : Prop := ∀ t', t = some t' → x = t'

/-- Increasing vertex ids. -/
def vertexLt (a b : Vertex) : Bool := Order.lt a.id b.id

/-- The existing vertices among `ids`, in the same order, repetitions kept. -/
def Graph.lookup (g : Graph) (ids : List Uuid) : List Vertex :=
  ids.filterMap (fun id => (g.vertex id).map (fun t => ⟨id, t⟩))

/-- The endpoint of an edge a traversal in direction `d` starts from. -/
def EdgeDirection.endpoint : EdgeDirection → Edge → Uuid
  | .outbound, e => e.outboundId
  | .inbound, e => e.inboundId

/-- The order in which the edges at one vertex are listed. -/
def Conv.dirLt (C : Conv) : EdgeDirection → Edge → Edge → Bool
  | .outbound, a, b => C.edgeLt a b
  | .inbound, a, b => C.edgeLt a.reversed b.reversed

/-- A listing of an index lookup: exactly the members, in any order. -/
def Lists {α : Type} (I : IndexView) (l : List α) (P : α → Bool) : Prop :=
  (∀ x, x ∈ l ↔ P x = true) ∧ (I.nodup → l.Nodup)

section
variable (g : Graph) (I : IndexView) (C : Conv)

/-- Acceptable outcomes of pipe stages applied to the value `v` of the inner query. -/
def PipeStage (d : EdgeDirection) (limit : Nat) (t : Option Identifier) (v : Output) (r : Res Output) : Prop :=
  match v with
  | .edges es => ∃ l : List Vertex,
      l = (g.lookup (es.map d.endpoint)).filter (fun v => decide (∀ t', t = some t' → v.t = t')) ∧
      r = .ok (.vertices (l.take limit))
  | .vertices vs => ∃ per : Uuid → List Edge,
      (∀ id, Enumerates (C.dirLt d) (per id) (fun e => g.edge e = true ∧ d.endpoint e = id ∧ TypeOk t e.t)) ∧
      r = .ok (.edges ((vs.flatMap (fun v => per v.id)).take limit))
  | _ => r = .error (.err .operationOnQuery)

/-- `l` is the list of all properties `get : name ↦ value`, in increasing name order; or just the named one. -/
def PropList (get : Identifier → Option Json) (name : Option Identifier) (l : List NamedProperty) : Prop :=
  match name with
  | none => Enumerates (fun a b : NamedProperty => Order.lt a.name b.name) l (fun p => get p.name = some p.value)
  | some n => l = (get n).toList.map (fun v => ⟨n, v⟩)

/-- Acceptable outcomes of the property stage. -/
def PropertyStage (name : Option Identifier) (v : Output) (r : Res Output) : Prop :=
  match v with
  | .vertices vs =>
    if name = none ∧ ∃ x ∈ vs, C.propsPanic x.id = true then r = .error .panic
    else ∃ props : Uuid → List NamedProperty,
      (∀ x ∈ vs, PropList (g.vprop x.id) name (props x.id)) ∧
      r = .ok (.vertexProperties
        (vs.filterMap (fun x => if props x.id = [] then none else some ⟨x, props x.id⟩)))
  | .edges es =>
    ∃ props : Edge → List NamedProperty,
      (∀ e, PropList (g.eprop e) name (props e)) ∧
      r = .ok (.edgeProperties (es.filterMap (fun e => if props e = [] then none else some ⟨e, props e⟩)))
  | _ => r = .error (.err .operationOnQuery)

/-- Acceptable outcomes of the with/without stages: keep the elements on which the index says `keep`. -/
def FilterStage (n : Identifier) (vin : Uuid → Bool) (ein : Edge → Bool) (keep : Bool) (v : Output)
    (r : Res Output) : Prop :=
  match v with
  | .vertices vs =>
    if g.indexed n then r = .ok (.vertices (vs.filter (fun x => vin x.id == keep))) else r = .error (.err .notIndexed)
  | .edges es =>
    if g.indexed n then r = .ok (.edges (es.filter (fun x => ein x == keep))) else r = .error (.err .notIndexed)
  | _ => r = .error (.err .operationOnQuery)

/-- Number of items in a value; counts cannot be counted. -/
def Output.size? : Output → Option Nat
  | .vertices l => some l.length
  | .edges l => some l.length
  | .vertexProperties l => some l.length
  | .edgeProperties l => some l.length
  | .count _ => none

/-- Acceptable outcomes of counting. -/
def CountStage (v : Output) (r : Res Output) : Prop :=
  match v.size? with
  | some n => r = .ok (.count n)
  | none => r = .error (.err .operationOnQuery)

/-- A stage on top of query `i` with outcome `ri` (the values of inner includes, and the value of `i`): errors pass
through; the value of `i` is kept in the output iff `i` is an include. -/
def Next (i : Query) (S : Output → Res Output → Prop) (ri r : Res (List Output × Output)) : Prop :=
  match ri with
  | .error f => r = .error f
  | .ok (inc, v) => ∃ rv, S v rv ∧ r = rv.map (fun w => (inc ++ (if i.isInclude then [v] else []), w))

/-- `Answers g I C q r`: in the database `g` with index contents `I`, query `q` may have outcome `r`, where `r` is an
error, or the values of the intermediate includes together with the value of `q`. -/
def Answers : Query → Res (List Output × Output) → Prop
  | .allVertex, r => ∃ l, Enumerates vertexLt l (fun v => g.vertex v.id = some v.t) ∧ r = .ok ([], .vertices l)
  | .rangeVertex limit t start, r => ∃ l,
      Enumerates vertexLt l (fun v => g.vertex v.id = some v.t ∧ TypeOk t v.t ∧
        ∀ s, start = some s → Order.lt v.id s = false) ∧
      r = .ok ([], .vertices (l.take limit.toNat))
  | .specificVertex ids, r => r = .ok ([], .vertices (g.lookup ids))
  | .vertexWithPropertyPresence n, r =>
      if g.indexed n then ∃ l, Lists I l (I.vPresent n) ∧ r = .ok ([], .vertices (g.lookup l))
      else r = .error (.err .notIndexed)
  | .vertexWithPropertyValue n v, r =>
      if g.indexed n then ∃ l, Lists I l (I.vValue n v) ∧ r = .ok ([], .vertices (g.lookup l))
      else r = .error (.err .notIndexed)
  | .allEdge, r => ∃ l, Enumerates C.edgeLt l (fun e => g.edge e = true) ∧ r = .ok ([], .edges l)
  | .specificEdge es, r => r = .ok ([], .edges (es.filter g.edge))
  | .edgeWithPropertyPresence n, r =>
      if g.indexed n then ∃ l, Lists I l (I.ePresent n) ∧ r = .ok ([], .edges l)
      else r = .error (.err .notIndexed)
  | .edgeWithPropertyValue n v, r =>
      if g.indexed n then ∃ l, Lists I l (I.eValue n v) ∧ r = .ok ([], .edges l)
      else r = .error (.err .notIndexed)
  | .pipe i d limit t, r => ∃ ri, Answers i ri ∧ Next i (PipeStage g C d limit.toNat t) ri r
  | .pipeProperty i n, r => ∃ ri, Answers i ri ∧ Next i (PropertyStage g C n) ri r
  | .pipeWithPropertyPresence i n keep, r =>
      ∃ ri, Answers i ri ∧ Next i (FilterStage g n (I.vPresent n) (I.ePresent n) keep) ri r
  | .pipeWithPropertyValue i n v keep, r =>
      ∃ ri, Answers i ri ∧ Next i (FilterStage g n (I.vValue n v) (I.eValue n v) keep) ri r
  | .incl i, r => Answers i r
  | .count i, r => ∃ ri, Answers i ri ∧ Next i CountStage ri r

end
end IndraDB
