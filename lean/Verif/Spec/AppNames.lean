import Verif.Spec.RocksApp
import Verif.Spec.Errors
import Verif.Spec.IndexKept
/-
Notions for statements about indexes in processes that use a RocksDB datastore through transactions and library calls.
-/
namespace IndraDB

/-- The call is `index_property(n)`, of the database or of a transaction. -/
def Access.Indexes : Access → Identifier → Prop
  | .lib op, n => op = .indexProperty n
  | .write w, n => w = .indexProperty n
  | _, _ => False

/-- The properties the call looks up in an index. -/
def Access.lookups : Access → List Identifier
  | .lib op => op.lookups
  | .vertexIdsWithProperty n | .vertexIdsWithPropertyValue n _ | .edgesWithProperty n | .edgesWithPropertyValue n _ => [n]
  | _ => []

/-- The method of a transaction may create the vertex or edge. -/
def TxnCall.Creates : TxnCall → Owner → Prop
  | .createVertex v, .vertex i => v.id = i
  | .createEdge e, .edge f => e = f
  | .bulkInsert items, .vertex i => ∃ t, .vertex ⟨i, t⟩ ∈ items
  | .bulkInsert items, .edge e => .edge e ∈ items
  | _, _ => False

/-- The call may create the vertex or edge. -/
def Access.Creates : Access → Owner → Prop
  | .lib op, o => op.Creates o
  | .write w, o => w.Creates o
  | _, _ => False

/-- The call reports that a property is not indexed: methods of a transaction return `None`, library calls fail. -/
def Res.NotIndexed : Res Answer → Prop
  | .ok (.ids none) => True
  | .ok (.indexedEdges none) => True
  | .error (.err .notIndexed) => True
  | _ => False

namespace Rocks

/-- An `index_property(n)` has returned success. -/
def IndexedBy (h : List AppEv) (n : Identifier) : Prop := ∃ c a x, AppEv.leave c a (.ok x) ∈ h ∧ a.Indexes n

namespace App

/-- `From X io A h S`: from `A` on, steps with history `h` lead to `S`. -/
inductive From (X : Cfg) (io : Bool) (A : App) : List AppEv → App → Prop
  | nil : From X io A [] A
  | snoc {h e : List AppEv} {S S' : App} : From X io A h S → Step X io S e S' → From X io A (h ++ e) S'

/-- Task `c` is not inside a call. -/
def Outside (S : App) (c : Nat) : Prop := ∀ a p k, S.tasks c ≠ .inside a p k

end App
end Rocks
end IndraDB
