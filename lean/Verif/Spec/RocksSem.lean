import Verif.Spec.Checked
import Verif.Model.Rocks
/-
The meaning of writes on the RocksDB datastore, where it differs from the intended one (`Sem.intended`).
-/
namespace IndraDB

/-- What reading gives after writing `v`; `null` if the bytes written cannot be decoded (then no claim is made). -/
def Cfg.stored (X : Cfg) (v : Json) : Json := (X.codec.dec (X.codec.enc v)).getD .null

/-- The value can be read back after writing it, perhaps changed. With the real `serde_json` this fails for values nested
more than 127 levels deep. -/
def Rocks.CanRead (X : Cfg) (v : Json) : Prop := ∃ w, X.codec.dec (X.codec.enc v) = some w

/-- The hash of the value is that of the value read back; in particular if it is read back unchanged. -/
def Rocks.SameHash (X : Cfg) (v : Json) : Prop := X.H (X.stored v).stream = X.H v.stream

/-- The property a bulk item sets: owner and name. -/
def BulkInsertItem.target : BulkInsertItem → Option ((Uuid ⊕ Edge) × Identifier)
  | .vertexProperty id n _ => some (.inl id, n)
  | .edgeProperty e n _ => some (.inr e, n)
  | _ => none

/-- Deleting vertices removes the vertices, their properties and their outbound edges, but not their inbound edges. The
properties removed are those of the edges leaving the vertices, for which the edge or its reversal exists. -/
def Graph.rocksDropVertices (g : Graph) (ids : List Uuid) : Graph :=
  { g with
    vertex := fun i => if i ∈ ids then none else g.vertex i
    vprop := fun i n => if i ∈ ids then none else g.vprop i n
    edge := fun e => if e.outboundId ∈ ids then false else g.edge e
    eprop := fun e n => if e.outboundId ∈ ids ∧ (g.edge e = true ∨ g.edge e.reversed = true) then none else g.eprop e n }

/-- Deleting edges skips those whose outbound vertex does not exist. -/
def Graph.rocksDropEdges (g : Graph) (es : List Edge) : Graph :=
  g.dropEdges (es.filter (fun e => (g.vertex e.outboundId).isSome))

/-- A bulk item is written without any check: a vertex overwrites the type of an existing one, and edges need no
endpoints. -/
def Graph.rocksBulkItem (stored : Json → Json) (g : Graph) : BulkInsertItem → Graph
  | .vertex v => g.putVertex v.id v.t
  | .edge e => g.putEdge e
  | .vertexProperty id n v => g.putVProps [id] n (stored v)
  | .edgeProperty e n v => g.putEProps [e] n (stored v)

/-- The semantics of the RocksDB datastore. -/
def Sem.rocks (X : Cfg) : Sem :=
  ⟨Graph.rocksDropVertices, Graph.rocksDropEdges, Graph.rocksBulkItem X.stored, X.stored⟩

/-- The order of edges in the RocksDB datastore: by outbound id, then length of the type, then type, then inbound id. -/
def rocksEdgeLt (a b : Edge) : Bool :=
  Order.lt a.outboundId b.outboundId || (a.outboundId == b.outboundId &&
    (decide (a.t.bytes.length < b.t.bytes.length) || (a.t.bytes.length == b.t.bytes.length &&
      (lexLt a.t.bytes b.t.bytes || (a.t == b.t && Order.lt a.inboundId b.inboundId)))))

/-- The call keeps the property index exact: the values it writes keep their hash when read back, and one bulk insertion
writes properties only to existing owners and does not write the same property twice. -/
def Op.IndexSafe (X : Cfg) (g : Graph) : Op → Prop
  | .setProperties _ _ x => Rocks.SameHash X x
  | .bulkInsert items => (∀ i ∈ items, i.Values (Rocks.SameHash X)) ∧ (items.filterMap BulkInsertItem.target).Nodup ∧
      ItemsChecked (Graph.rocksBulkItem X.stored) g items
  | _ => True

/-- All calls of the history satisfy `P` in the state they are made in. -/
def Store.Along (S : Store) (P : Graph → Op → Prop) : List (S.Env × Op) → S.State → Prop
  | [], _ => True
  | (env, op) :: r, s => P (S.graph s) op ∧ Store.Along S P r (S.step env op s).1

end IndraDB
