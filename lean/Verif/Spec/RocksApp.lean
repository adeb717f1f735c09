import Verif.Model.RocksApp
import Verif.Spec.Plugins
import Verif.Spec.Progress
/-
Notions used in the statements about processes that use a RocksDB datastore through transactions and library calls.
-/
namespace IndraDB

/-- All values the call writes satisfy `V`. -/
def Access.ValuesOk (V : Json → Prop) : Access → Prop
  | .lib op => op.ValuesOk V
  | .write w => w.ValuesOk V
  | _ => True

/-- A call on the `Database`, not a method of a transaction. -/
def Access.isLib : Access → Bool
  | .lib _ => true
  | _ => false

/-- The errors and panics among the items of an iterator. -/
def faultsIn {α : Type} (l : DynIter α) : List Fault := l.filterMap (fun i => match i with
  | .ok _ => none
  | .error f => some f)

/-- The errors and panics a call shows: it fails, or items of the iterator it returns do. -/
def faultsOf : Res Answer → List Fault
  | .error f => [f]
  | .ok (.vertices l) => faultsIn l
  | .ok (.ids (some l)) => faultsIn l
  | .ok (.edges l) => faultsIn l
  | .ok (.indexedEdges (some l)) => faultsIn l
  | .ok (.props l) => faultsIn l
  | .ok _ => []

/-- What a call does and returns if nothing else happens during it, in terms of the sequential transaction. -/
def Transaction.access {σ : Type} (T : Transaction σ) : Access → σ → Upd σ Answer
  | .lib op, s => Upd.map .reply (dbStep T op s)
  | .vertexCount, s => (s, .ok (.count (T.reads s).vertexCount))
  | .allVertices, s => (s, (T.reads s).allVertices.map .vertices)
  | .rangeVertices o, s => (s, ((T.reads s).rangeVertices o).map .vertices)
  | .specificVertices ids, s => (s, ((T.reads s).specificVertices ids).map .vertices)
  | .vertexIdsWithProperty n, s => (s, ((T.reads s).vertexIdsWithProperty n).map .ids)
  | .vertexIdsWithPropertyValue n v, s => (s, ((T.reads s).vertexIdsWithPropertyValue n v).map .ids)
  | .edgeCount, s => (s, .ok (.count (T.reads s).edgeCount))
  | .allEdges, s => (s, (T.reads s).allEdges.map .edges)
  | .rangeEdges o, s => (s, ((T.reads s).rangeEdges o).map .edges)
  | .rangeReversedEdges o, s => (s, ((T.reads s).rangeReversedEdges o).map .edges)
  | .specificEdges es, s => (s, ((T.reads s).specificEdges es).map .edges)
  | .edgesWithProperty n, s => (s, ((T.reads s).edgesWithProperty n).map .indexedEdges)
  | .edgesWithPropertyValue n v, s => (s, ((T.reads s).edgesWithPropertyValue n v).map .indexedEdges)
  | .vertexProperty v n, s => (s, ((T.reads s).vertexProperty v n).map .value)
  | .vertexProperties v, s => (s, ((T.reads s).allVertexPropertiesForVertex v).map .props)
  | .edgeProperty e n, s => (s, ((T.reads s).edgeProperty e n).map .value)
  | .edgeProperties e, s => (s, ((T.reads s).allEdgePropertiesForEdge e).map .props)
  | .write w, s => Upd.map .txn (T.call w s)

namespace Rocks

/-- All calls made satisfy `ok`. -/
def OkEnters (ok : Access → Prop) (h : List AppEv) : Prop := ∀ c a, AppEv.enter c a ∈ h → ok a

namespace App

/-- A task waits for the write lock. -/
def WriterWaits (S : App) : Prop := ∃ c a n k, S.tasks c = .inside a (.writeLock n) k

/-- In the step from `S` to `S'` a task gets the read lock. -/
def GetsRead (S S' : App) : Prop := ∃ c a held n k, S.tasks c = .inside a (.readLock held n) k ∧
  S'.tasks = setAt S.tasks c (.inside a (n S.db.indexed) k)

/-- A step of the calls that have been made already (or the end of a task). If `polite`, nobody gets the read lock while someone waits
for the write lock. -/
def Moves (X : Cfg) (polite : Bool) (S S' : App) : Prop :=
  ∃ e, Step X true S e S' ∧ (∀ c t, AppEv.start c t ∉ e) ∧ (∀ c a, AppEv.enter c a ∉ e) ∧ (polite = true → GetsRead S S' → ¬ WriterWaits S)

/-- No task is inside a call. -/
def AllOutside (S : App) : Prop := ∀ c a p k, S.tasks c ≠ .inside a p k

end App

/-- `AppSessions X s hs t`: as `AppLife`, starting from the database in state `s`. The record of the indexed names has less than 2^64
bytes (RocksDB itself refuses values of 4 GiB). -/
inductive AppSessions (X : Cfg) (s : Rocks) : List (List AppEv) → Rocks → Prop
  | none : AppSessions X s [] s
  | again {hs : List (List AppEv)} {t u : Rocks} {h : List AppEv} {S : App} (k : Nat) : AppSessions X s hs t →
      App.Exec X true t h S →
      (∀ b, ((S.log.take k).foldl (fun kv x => kv.write x.2) t.kv .metadata).get metaKey = some b → b.length < 2 ^ 64) →
      (newDb (Dir.full ((S.log.take k).foldl (fun kv x => kv.write x.2) t.kv))).2 = .ok u →
      AppSessions X s (hs ++ [h]) u

end Rocks
end IndraDB
