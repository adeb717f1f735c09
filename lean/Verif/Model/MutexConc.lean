import Verif.Model.Memory
/-
Concurrent calls on the memory datastore: every call holds the mutex from `lock()` (`lib/src/memory/datastore.rs:453-458`, called
once at the beginning of every method of `Database`, `lib/src/database.rs:232-377`) until the transaction is dropped at its end.
-/
namespace IndraDB

/-- Sequential code working on the guarded data in small steps: each replaces the data and continues depending on what it
saw. The code after `self.datastore.transaction()` in `lib/src/database.rs:232-377`. -/
inductive Body (σ α : Type) where
  | done (a : α)
  | act (f : σ → σ) (next : σ → Body σ α)

/-- Runs without interference.
Not code: what the steps of a method of `lib/src/database.rs:232-377` do while the mutex is held. -/
def Body.run {σ α : Type} : Body σ α → σ → σ × α
  | .done a, s => (s, a)
  | .act f n, s => (n s).run (f s)

/-- Where a call is. Not code: control state of a caller of `lib/src/database.rs:232-377`. -/
inductive LockCall (σ : Type) where
  | unused
  | waiting (p : Body σ (Res Reply))
  | inside (p : Body σ (Res Reply))
  | leaving (r : Res Reply)
  | finished

/-- The guarded data, who holds the mutex, and where every call is. The mutex is that of `lib/src/memory/datastore.rs:408`. -/
structure LockConc (σ : Type) where
  db : σ
  owner : Option Nat
  calls : Nat → LockCall σ

/-- Sets one entry. Not code: used for the control state of the callers of `lib/src/database.rs:232-377`. -/
def setAt {α : Type} (f : Nat → α) (c : Nat) (a : α) : Nat → α := fun i => if i = c then a else f i

namespace Mem

/-- A method of the transaction on the guarded data; a panic poisons the mutex.
The transaction holds the guard (`lib/src/memory/datastore.rs:38-41, 453-458`). -/
def guarded {α : Type} (upd : Mem → Upd Mem α) (reply : α → Reply) : Body MemDb (Res Reply) :=
  .act (fun d => match upd d.mem with
      | (m, .error .panic) => ⟨m, true⟩
      | (m, _) => ⟨m, false⟩)
    (fun d => .done ((upd d.mem).2.map reply))

/-- A failure after reading. The `?` and the error branches of `lib/src/database.rs:279-357`. -/
def failing (f : Fault) : Body MemDb (Res Reply) :=
  .act (fun d => match f with | .panic => ⟨d.mem, true⟩ | _ => ⟨d.mem, false⟩) (fun _ => .done (.error f))

/-- The loop of `bulk_insert`, item by item. `lib/src/database.rs:154-171`. -/
def bulkBody (F : Finder) (b : Build) : List BulkInsertItem → Body MemDb (Res Reply)
  | [] => .done (.ok .unit)
  | i :: r =>
    let item := defaultBulkItem createVertex createEdge (setVertexProperties F b) (setEdgeProperties F b) i
    .act (fun d => match item d.mem with
        | (m, .error .panic) => ⟨m, true⟩
        | (m, _) => ⟨m, false⟩)
      (fun d => match (item d.mem).2 with
        | .ok _ => bulkBody F b r
        | .error f => .done (.error f))

/-- A call after `lock()` succeeded. `lib/src/database.rs:232-377`. -/
def callBody (F : Finder) (b : Build) (O : HashOrder) : Op → Body MemDb (Res Reply)
  | .sync => guarded (fun m => (m, .ok ())) (fun _ => .unit)
  | .createVertex v => guarded (createVertex v) .bool
  | .createVertexFromType id t => guarded (dbCreateVertexFromType (txn F O b) id t) .uuid
  | .createEdge e => guarded (createEdge e) .bool
  | .get q => .act (fun d => d) (fun d => match getQuery (reads F O d.mem) q with
    | .ok l => .done (.ok (.outputs l))
    | .error f => failing f)
  | .delete q => .act (fun d => d) (fun d => match lastOutput (reads F O d.mem) q with
    | .error f => failing f
    | .ok (.vertices vs) => guarded (deleteVertices F b vs) (fun _ => .unit)
    | .ok (.edges es) => guarded (deleteEdges F b es) (fun _ => .unit)
    | .ok (.vertexProperties l) => guarded (deleteVertexProperties F b (vertexPropertyKeys l)) (fun _ => .unit)
    | .ok (.edgeProperties l) => guarded (deleteEdgeProperties F b (edgePropertyKeys l)) (fun _ => .unit)
    | .ok (.count _) => .done (.error (.err .operationOnQuery)))
  | .setProperties q n v => .act (fun d => d) (fun d => match lastOutput (reads F O d.mem) q with
    | .error f => failing f
    | .ok (.vertices vs) => guarded (setVertexProperties F b (vs.map (·.id)) n v) (fun _ => .unit)
    | .ok (.edges es) => guarded (setEdgeProperties F b es n v) (fun _ => .unit)
    | .ok _ => .done (.error (.err .operationOnQuery)))
  | .bulkInsert items => bulkBody F b items
  | .indexProperty n => guarded (indexProperty F O n) (fun _ => .unit)

/-- A call in small steps: `lock().unwrap()` panics if the mutex is poisoned; then the query is evaluated; then the
writing method is called (`bulk_insert` goes item by item). The theorems hold for every other division into steps, too.
`lib/src/memory/datastore.rs:453-458`, `lib/src/database.rs:232-377`. -/
def body (F : Finder) (b : Build) (O : HashOrder) (op : Op) : Body MemDb (Res Reply) :=
  .act (fun d => d) (fun d => if d.poisoned then .done (.error .panic) else callBody F b O op)

end Mem

namespace LockConc
variable {σ Env : Type}

/-- Nothing has been called. A new `MemoryDatastore` (`lib/src/memory/datastore.rs:414-419`). -/
def init (s : σ) : LockConc σ := ⟨s, none, fun _ => .unused⟩

/-- One step of a concurrent execution, with what is seen of it. `body env op`: the code of a call.
Threads calling the methods of `lib/src/database.rs:232-377`; the mutex of `lib/src/memory/datastore.rs:408`. -/
inductive Step (body : Env → Op → Body σ (Res Reply)) : LockConc σ → List Ev → LockConc σ → Prop
  /-- a call is made -/
  | call (S : LockConc σ) (c : Nat) (env : Env) (op : Op) : S.calls c = .unused →
      Step body S [.call c op] { S with calls := setAt S.calls c (.waiting (body env op)) }
  /-- `lock()` succeeds: nobody else holds the mutex -/
  | lock (S : LockConc σ) (c : Nat) (p : Body σ (Res Reply)) : S.calls c = .waiting p → S.owner = none →
      Step body S [] { S with owner := some c, calls := setAt S.calls c (.inside p) }
  /-- a step of the code of the call -/
  | work (S : LockConc σ) (c : Nat) (f : σ → σ) (n : σ → Body σ (Res Reply)) : S.calls c = .inside (.act f n) →
      Step body S [] { S with db := f S.db, calls := setAt S.calls c (.inside (n S.db)) }
  /-- the transaction is dropped and the mutex released -/
  | unlock (S : LockConc σ) (c : Nat) (r : Res Reply) : S.calls c = .inside (.done r) →
      Step body S [] { S with owner := none, calls := setAt S.calls c (.leaving r) }
  /-- the call returns -/
  | ret (S : LockConc σ) (c : Nat) (r : Res Reply) : S.calls c = .leaving r →
      Step body S [.ret c r] { S with calls := setAt S.calls c .finished }

/-- Concurrent executions from `s`, with their history.
Not code: all interleavings of the calls (`lib/src/database.rs:232-377`). -/
inductive Exec (body : Env → Op → Body σ (Res Reply)) (s : σ) : List Ev → LockConc σ → Prop
  | nil : Exec body s [] (init s)
  | snoc {h : List Ev} {S S' : LockConc σ} {e : List Ev} : Exec body s h S → Step body S e S' → Exec body s (h ++ e) S'

end LockConc
end IndraDB
