import Verif.Spec.Linear
import Verif.Spec.Faults
import Verif.Model.RocksConc
import Verif.Model.RocksOpen
/-
Notions used in the statements about concurrent calls and crashes on the RocksDB datastore.
-/
namespace IndraDB

/-- The call is not a query. -/
def Op.isWrite : Op → Bool
  | .get _ => false
  | _ => true

/-- The call is a query that reads the database once: all vertices, a range of vertices, all edges, or the number of
vertices or edges. -/
def Op.oneRead : Op → Bool
  | .get .allVertex => true
  | .get (.rangeVertex ..) => true
  | .get .allEdge => true
  | .get (.count .allVertex) => true
  | .get (.count .allEdge) => true
  | _ => false

/-- The calls that may write, and queries that read once. -/
def Counts (op : Op) : Prop := op.isWrite = true ∨ op.oneRead = true

/-- Calls other than queries do not overlap: when one is made, all earlier ones have returned. -/
def SeqWrites (h : List Ev) : Prop := ∀ a b c op, h = a ++ .call c op :: b → op.isWrite = true →
  ∀ c' op', .call c' op' ∈ a → op'.isWrite = true → ∃ r, Ev.ret c' r ∈ a

/-- What a call may look at or change: the presence and type of a vertex, the presence of an edge, a property. -/
inductive Thing where
  | vertex (id : Uuid)
  | edge (e : Edge)
  | vertexProperty (id : Uuid) (name : Identifier)
  | edgeProperty (e : Edge) (name : Identifier)
deriving DecidableEq

/-- What a query for given vertices or edges, or for one property of given vertices or edges, looks at. `none`: the query
may look at anything. -/
def Query.looksAt : Query → Option (List Thing)
  | .specificVertex ids => some (ids.map .vertex)
  | .specificEdge es => some (es.map .edge)
  | .pipeProperty (.specificVertex ids) (some n) => some (ids.map .vertex ++ ids.map (.vertexProperty · n))
  | .pipeProperty (.specificEdge es) (some n) => some (es.map .edge ++ es.map (.edgeProperty · n))
  | _ => none

/-- The property an item of a bulk insertion sets. -/
def BulkInsertItem.property : BulkInsertItem → List Thing
  | .vertex _ => []
  | .edge _ => []
  | .vertexProperty id n _ => [.vertexProperty id n]
  | .edgeProperty e n _ => [.edgeProperty e n]

/-- What an item of a bulk insertion changes. -/
def BulkInsertItem.changed : BulkInsertItem → Thing
  | .vertex v => .vertex v.id
  | .edge e => .edge e
  | .vertexProperty id n _ => .vertexProperty id n
  | .edgeProperty e n _ => .edgeProperty e n

/-- What a call looks at, and what it changes. `none`: it may look at or change anything. (Setting a property looks at its old
value, for the index.) -/
def Op.touches : Op → Option (List Thing × List Thing)
  | .sync => some ([], [])
  | .createVertex v => some ([.vertex v.id], [.vertex v.id])
  | .createVertexFromType id _ => some ([.vertex id], [.vertex id])
  | .createEdge e => some ([.vertex e.outboundId, .vertex e.inboundId], [.edge e])
  | .get q => q.looksAt.map (fun l => (l, []))
  | .setProperties (.specificVertex ids) n _ =>
    some (ids.map .vertex ++ ids.map (.vertexProperty · n), ids.map (.vertexProperty · n))
  | .setProperties (.specificEdge es) n _ =>
    some (es.map .edge ++ es.map (.edgeProperty · n), es.map (.edgeProperty · n))
  | .delete (.pipeProperty (.specificVertex ids) (some n)) =>
    some (ids.map .vertex ++ ids.map (.vertexProperty · n), ids.map (.vertexProperty · n))
  | .delete (.pipeProperty (.specificEdge es) (some n)) =>
    some (es.map .edge ++ es.map (.edgeProperty · n), es.map (.edgeProperty · n))
  | .bulkInsert items => some (items.flatMap (·.property), items.map (·.changed))
  | _ => none

/-- Neither call changes anything the other looks at; or one of them is a query that reads the database once; or both are
queries. (They may change the same things.) -/
def Independent (a b : Op) : Prop :=
  a.oneRead = true ∨ b.oneRead = true ∨ (a.isWrite = false ∧ b.isWrite = false) ∨
  ∃ la ca lb cb, a.touches = some (la, ca) ∧ b.touches = some (lb, cb) ∧ (∀ x ∈ ca, x ∉ lb) ∧ (∀ x ∈ cb, x ∉ la)

/-- Calls that overlap are independent, as far as calls satisfying `P` are concerned. -/
def Apart (P : Op → Prop) (h : List Ev) : Prop := ∀ a b c op, h = a ++ .call c op :: b → P op →
  ∀ c' op', .call c' op' ∈ a → P op' → (∃ r, Ev.ret c' r ∈ a) ∨ Independent op' op

/-- What is in the database after the batches of the log have been written. -/
def Rocks.replay (kv : KV) (log : List (Nat × Batch)) : KV := log.foldl (fun kv e => kv.write e.2) kv

end IndraDB
