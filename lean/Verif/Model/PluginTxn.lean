import Verif.Model.Plugins
import Verif.Model.Memory
import Verif.Model.Rocks
/-
Plugins working on a datastore: a plugin is given `&mut dyn Transaction` (`plugins/host/src/decl.rs:44-55`,
`proto/src/server.rs:298-305`), that is, it may call every method of the trait `Transaction` (`lib/src/database.rs:24-196`)
with any arguments, as often as it likes and depending on what it has seen.
-/
namespace IndraDB

/-- The methods of `Transaction` that write (`lib/src/database.rs:106-196`), with their arguments. -/
inductive TxnCall where
  | deleteVertices (vs : List Vertex)
  | deleteEdges (es : List Edge)
  | deleteVertexProperties (ps : List (Uuid × Identifier))
  | deleteEdgeProperties (ps : List (Edge × Identifier))
  | sync
  | createVertex (v : Vertex)
  | createEdge (e : Edge)
  | bulkInsert (items : List BulkInsertItem)
  | indexProperty (name : Identifier)
  | setVertexProperties (ids : List Uuid) (name : Identifier) (value : Json)
  | setEdgeProperties (es : List Edge) (name : Identifier) (value : Json)

/-- What they return. The results of the methods of `lib/src/database.rs:24-197`. -/
inductive TxnReply where
  | unit | bool (b : Bool)
deriving DecidableEq

/-- Calls the method (`lib/src/database.rs:106-196`). -/
def Transaction.call {σ : Type} (T : Transaction σ) : TxnCall → σ → Upd σ TxnReply
  | .deleteVertices vs, s => Upd.map (fun _ => .unit) (T.deleteVertices vs s)
  | .deleteEdges es, s => Upd.map (fun _ => .unit) (T.deleteEdges es s)
  | .deleteVertexProperties ps, s => Upd.map (fun _ => .unit) (T.deleteVertexProperties ps s)
  | .deleteEdgeProperties ps, s => Upd.map (fun _ => .unit) (T.deleteEdgeProperties ps s)
  | .sync, s => Upd.map (fun _ => .unit) (T.sync s)
  | .createVertex v, s => Upd.map .bool (T.createVertex v s)
  | .createEdge e, s => Upd.map .bool (T.createEdge e s)
  | .bulkInsert items, s => Upd.map (fun _ => .unit) (T.bulkInsert items s)
  | .indexProperty n, s => Upd.map (fun _ => .unit) (T.indexProperty n s)
  | .setVertexProperties ids n v, s => Upd.map (fun _ => .unit) (T.setVertexProperties ids n v s)
  | .setEdgeProperties es n v, s => Upd.map (fun _ => .unit) (T.setEdgeProperties es n v s)

/-- The code of a plugin (`fn call`, `plugins/host/src/decl.rs:51-55`), as far as the database is concerned: it returns, panics, reads (at one
moment; it may use everything that can be read), or calls a writing method and goes on depending on what it returns. Rust
code can do nothing else with a `&mut dyn Transaction`; code that catches panics of the datastore and goes on is not
modelled. -/
inductive PluginProg where
  | ret (r : Except PluginError Json)
  | panic
  | read (k : Reads → PluginProg)
  | write (c : TxnCall) (k : Except Error TxnReply → PluginProg)

/-- Runs a plugin without interference (`proto/src/server.rs:300-305`). The method calls may each see other hash orders, so each has
its own transaction of `T`. A panic inside a method is a panic of the plugin. -/
def PluginProg.run {σ : Type} : PluginProg → (Nat → Transaction σ) → σ → Upd σ (Except PluginError Json)
  | .ret r, _, s => (s, .ok r)
  | .panic, _, s => (s, .error .panic)
  | .read k, T, s => (k ((T 0).reads s)).run (fun i => T (i + 1)) s
  | .write c k, T, s => match (T 0).call c s with
    | (s', .ok a) => (k (.ok a)).run (fun i => T (i + 1)) s'
    | (s', .error (.err e)) => (k (.error e)).run (fun i => T (i + 1)) s'
    | (s', .error .panic) => (s', .error .panic)

/-- A plugin on the memory datastore: the transaction is the locked guard (`lib/src/memory/datastore.rs:453-458`), so that a panic
poisons the mutex, and locking a poisoned one panics. -/
def MemDb.plugin (b : Build) (env : Nat → Finder × HashOrder) (p : PluginProg) (d : MemDb) :
    MemDb × Res (Except PluginError Json) :=
  if d.poisoned then (d, .error .panic)
  else match p.run (fun i => Mem.txn (env i).1 (env i).2 b) d.mem with
    | (m, .error .panic) => (⟨m, true⟩, .error .panic)
    | (m, r) => (⟨m, false⟩, r)

/-- A plugin on the RocksDB datastore, while nobody else uses it: the transaction only refers to the database
(`lib/src/rdb/datastore.rs:476-490`). -/
def Rocks.plugin (X : Cfg) (env : Nat → IdentOrder) (p : PluginProg) (s : Rocks) :
    Rocks × Res (Except PluginError Json) := p.run (fun i => Rocks.txn X (env i)) s

/-- Plugins running at the same time on the RocksDB datastore (the server runs each in the task of its request, `proto/src/server.rs:298-305`,
and nothing excludes others): one of them, `c`, makes its next method call. Simplification: method calls do not overlap here, although
the code lets them (`Model/RocksApp.lean` has no such restriction). -/
inductive Rocks.PluginsStep (X : Cfg) : Rocks × (Nat → PluginProg) → Rocks × (Nat → PluginProg) → Prop
  | read (s : Rocks) (P : Nat → PluginProg) (c : Nat) (O : IdentOrder) (k : Reads → PluginProg) : P c = .read k →
      PluginsStep X (s, P) (s, fun i => if i = c then k ((Rocks.txn X O).reads s) else P i)
  | write (s : Rocks) (P : Nat → PluginProg) (c : Nat) (O : IdentOrder) (w : TxnCall) (k : Except Error TxnReply → PluginProg) :
      P c = .write w k →
      PluginsStep X (s, P) (((Rocks.txn X O).call w s).1, fun i => if i = c then (match ((Rocks.txn X O).call w s).2 with
        | .ok a => k (.ok a)
        | .error (.err e) => k (.error e)
        | .error .panic => .panic) else P i)

/-- Any number of such steps. Not code: several plugins being run (`proto/src/server.rs:287-312`). -/
inductive Rocks.PluginsRun (X : Cfg) : Rocks × (Nat → PluginProg) → Rocks × (Nat → PluginProg) → Prop
  | refl (a : Rocks × (Nat → PluginProg)) : PluginsRun X a a
  | step {a b c : Rocks × (Nat → PluginProg)} : PluginsRun X a b → Rocks.PluginsStep X b c → PluginsRun X a c

end IndraDB
