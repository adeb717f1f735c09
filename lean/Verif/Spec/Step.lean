import Verif.Spec.Graph
import Verif.Model.Database
/-
The specification of every API call as a transition of the abstract graph. Uses only the vocabulary of calls and
replies (`Op`, `Reply`) from `Model/Database.lean`.
-/
namespace IndraDB

/-- What creating a vertex / an edge does: nothing if the id is taken / an endpoint is missing. -/
def Graph.createVertex (g : Graph) (v : Vertex) : Graph := if g.vertex v.id = none then g.putVertex v.id v.t else g
def Graph.createEdge (g : Graph) (e : Edge) : Graph := if g.hasEndpoints e then g.putEdge e else g

/-- One bulk item, as the corresponding single call. -/
def Graph.bulkItem (g : Graph) : BulkInsertItem → Graph
  | .vertex v => g.createVertex v
  | .edge e => g.createEdge e
  | .vertexProperty id n v => g.putVProps [id] n v
  | .edgeProperty e n v => g.putEProps [e] n v

/-- Where the datastores differ in the meaning of writes. -/
structure Sem where
  /-- deleting vertices -/
  dropVertices : Graph → List Uuid → Graph
  /-- deleting edges -/
  dropEdges : Graph → List Edge → Graph
  /-- one bulk item -/
  bulkItem : Graph → BulkInsertItem → Graph
  /-- the value read back after writing a value -/
  stored : Json → Json

/-- The intended meaning. -/
def Sem.intended : Sem := ⟨Graph.dropVertices, Graph.dropEdges, Graph.bulkItem, id⟩

/-- What deleting the value of a query does. -/
def DeleteValue (S : Sem) (g : Graph) (v : Output) (g' : Graph) (r : Res Reply) : Prop :=
  match v with
  | .vertices vs => g' = S.dropVertices g (vs.map (·.id)) ∧ r = .ok .unit
  | .edges es => g' = S.dropEdges g es ∧ r = .ok .unit
  | .vertexProperties l =>
      g' = g.dropVProps (l.flatMap (fun p => p.props.map (fun q => (p.vertex.id, q.name)))) ∧ r = .ok .unit
  | .edgeProperties l =>
      g' = g.dropEProps (l.flatMap (fun p => p.props.map (fun q => (p.edge, q.name)))) ∧ r = .ok .unit
  | .count _ => g' = g ∧ r = .error (.err .operationOnQuery)

/-- What setting a property on the value of a query does. -/
def SetValue (S : Sem) (g : Graph) (n : Identifier) (x : Json) (v : Output) (g' : Graph) (r : Res Reply) : Prop :=
  match v with
  | .vertices vs => g' = g.putVProps (vs.map (·.id)) n (S.stored x) ∧ r = .ok .unit
  | .edges es => g' = g.putEProps es n (S.stored x) ∧ r = .ok .unit
  | _ => g' = g ∧ r = .error (.err .operationOnQuery)

/-- `StepWith S g ans op g' r`: in database `g`, where queries have the outcomes `ans` (an error, or the values of the
intermediate includes and the value of the query), call `op` leads to database `g'` with reply `r`. -/
def StepWith (S : Sem) (g : Graph) (ans : Query → Res (List Output × Output)) (op : Op) (g' : Graph) (r : Res Reply) :
    Prop :=
  match op with
  | .sync => g' = g ∧ r = .ok .unit
  | .createVertex v => g' = g.createVertex v ∧ r = .ok (.bool (g.vertex v.id == none))
  | .createVertexFromType id t =>
      g' = g.createVertex ⟨id, t⟩ ∧ r = if g.vertex id = none then .ok (.uuid id) else .error (.err .uuidTaken)
  | .createEdge e => g' = g.createEdge e ∧ r = .ok (.bool (g.hasEndpoints e))
  | .get q => g' = g ∧ r = (ans q).map (fun p => .outputs (p.1 ++ [p.2]))
  | .delete q =>
      match ans q with
      | .error f => g' = g ∧ r = .error f
      | .ok (_, v) => DeleteValue S g v g' r
  | .setProperties q n x =>
      match ans q with
      | .error f => g' = g ∧ r = .error f
      | .ok (_, v) => SetValue S g n x v g' r
  | .bulkInsert items => g' = items.foldl S.bulkItem g ∧ r = .ok .unit
  | .indexProperty n => g' = g.addIndex n ∧ r = .ok .unit

/-- `Step S C I g op g' r`: in database `g` with index contents `I`, call `op` may lead to database `g'` with reply `r`. -/
def Step (S : Sem) (C : Conv) (I : IndexView) (g : Graph) (op : Op) (g' : Graph) (r : Res Reply) : Prop :=
  ∃ ans, (∀ q, Answers g I C q (ans q)) ∧ StepWith S g ans op g' r

end IndraDB
