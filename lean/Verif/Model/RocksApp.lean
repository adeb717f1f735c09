import Verif.Model.RocksFaults
import Verif.Model.PluginTxn
/-
A process that uses a RocksDB datastore through the `Database` and through transactions at the same time: the gRPC server runs
library calls and plugins concurrently (`proto/src/server.rs:148-306`; `execute_plugin` hands a plugin a transaction, 298-305), and
an application that embeds the library may do the same (`Datastore::transaction`, `lib/src/database.rs:200-207`). All accesses to the
database of all of them interleave.
-/
namespace IndraDB

/-- What code can call: a method of `Database` (`lib`, `lib/src/database.rs:232-377`) or of `Transaction` (the others, `lib/src/database.rs:24-196`). -/
inductive Access where
  | lib (op : Op)
  | vertexCount
  | allVertices
  | rangeVertices (offset : Uuid)
  | specificVertices (ids : List Uuid)
  | vertexIdsWithProperty (name : Identifier)
  | vertexIdsWithPropertyValue (name : Identifier) (value : Json)
  | edgeCount
  | allEdges
  | rangeEdges (offset : Edge)
  | rangeReversedEdges (offset : Edge)
  | specificEdges (es : List Edge)
  | edgesWithProperty (name : Identifier)
  | edgesWithPropertyValue (name : Identifier) (value : Json)
  | vertexProperty (v : Vertex) (name : Identifier)
  | vertexProperties (v : Vertex)
  | edgeProperty (e : Edge) (name : Identifier)
  | edgeProperties (e : Edge)
  | write (w : TxnCall)

/-- What they return (if they return `Ok`). Iterators are the list of their items.
The results of the methods of `lib/src/database.rs:24-197, 232-377`. -/
inductive Answer where
  | reply (r : Reply)
  | count (n : Nat)
  | vertices (l : DynIter Vertex)
  | ids (o : Option (DynIter Uuid))
  | edges (l : DynIter Edge)
  | indexedEdges (o : Option (DynIter Edge))
  | value (o : Option Json)
  | props (l : DynIter (Identifier × Json))
  | txn (r : TxnReply)

namespace Rocks

/-- The writing methods (`lib/src/rdb/datastore.rs:193-361`) as programs. -/
def txnProg (X : Cfg) (O : IdentOrder) : TxnCall → Prog TxnReply
  | .deleteVertices vs => do deleteVertices X vs; return .unit
  | .deleteEdges es => do deleteEdges X es; return .unit
  | .deleteVertexProperties ps => do deleteVertexProperties X ps; return .unit
  | .deleteEdgeProperties ps => do deleteEdgeProperties X ps; return .unit
  | .sync => do sync; return .unit
  | .createVertex v => do return .bool (← createVertex X v)
  | .createEdge e => do return .bool (← createEdge X e)
  | .bulkInsert items => do bulkInsert X items; return .unit
  | .indexProperty n => do indexProperty X O n; return .unit
  | .setVertexProperties ids n v => do setVertexProperties X ids n v; return .unit
  | .setEdgeProperties es n v => do setEdgeProperties X es n v; return .unit

/-- The calls as programs (`lib/src/rdb/datastore.rs:53-361`). Simplification: the lookups of a lazy iterator (`specific_vertices`,
`specific_edges`, the ids with a property) are made during the call, although they are made when the items are taken; code that takes
only some items, or later, can be thought of as making several such calls. An I/O error of a lookup ends the call, although it is
an item of the iterator. -/
def accessProg (X : Cfg) (O : IdentOrder) : Access → Prog Answer
  | .lib op => do return .reply (← callProg X O op)
  | .vertexCount => do return .count (← vertexCountP X)
  | .allVertices => do return .vertices (← vertexIterate X Uuid.nil)
  | .rangeVertices o => do return .vertices (← vertexIterate X o)
  | .specificVertices ids => do return .vertices (← specificVerticesP X ids)
  | .vertexIdsWithProperty n => do return .ids (← vertexIdsWithPropertyP X n)
  | .vertexIdsWithPropertyValue n v => do return .ids (← vertexIdsWithPropertyValueP X n v)
  | .edgeCount => do return .count (← edgeCountP)
  | .allEdges => do return .edges (← edgeIterateAll .edgeRanges)
  | .rangeEdges o => do return .edges (← edgeIterateRange X .edgeRanges o)
  | .rangeReversedEdges o => do return .edges (← edgeIterateRange X .reversedEdgeRanges o)
  | .specificEdges es => do return .edges (← specificEdgesP X es)
  | .edgesWithProperty n => do return .indexedEdges (← edgesWithPropertyP X n)
  | .edgesWithPropertyValue n v => do return .indexedEdges (← edgesWithPropertyValueP X n v)
  | .vertexProperty v n => do return .value (← vpGet X v.id n)
  | .vertexProperties v => do return .props (← propItems (vpIterate X v.id))
  | .edgeProperty e n => do return .value (← epGet X e n)
  | .edgeProperties e => do return .props (← propItems (epIterate X e))
  | .write w => do return .txn (← txnProg X O w)

/-- The code of a task (a request handler, a plugin, a thread of an application): it ends, panics, or makes a call and goes on
depending on what it returns.
Not code of the repository: the users of `Datastore::transaction` (`lib/src/database.rs:200-214`) and of `Database` (217-377), such as `proto/src/server.rs:287-312`. -/
inductive Task where
  | ret
  | panic
  | call (a : Access) (k : Except Error Answer → Task)

/-- Where a task is: not started; running its own code; inside a call, of which `p` remains; or finished.
Not code: control state of a user of `lib/src/database.rs:24-377`. -/
inductive TaskAt where
  | unused
  | between (t : Task)
  | inside (a : Access) (p : Prog Answer) (k : Except Error Answer → Task)
  | finished

/-- What is seen of an execution. Calls of the methods of `lib/src/database.rs:24-377`. -/
inductive AppEv where
  | start (c : Nat) (t : Task)
  | enter (c : Nat) (a : Access)
  | leave (c : Nat) (a : Access) (r : Res Answer)
  | stop (c : Nat)

/-- The process: the datastore, who holds the lock on the set of indexed names, the tasks, and the batches written so far.
The datastore is `lib/src/rdb/datastore.rs:363-366`. -/
structure App where
  db : Rocks
  writer : Option Nat
  readers : List Nat
  tasks : Nat → TaskAt
  log : List (Nat × Batch)

namespace App

/-- No task has been started. The datastore as opened by `lib/src/rdb/datastore.rs:374-398`. -/
def init (s : Rocks) : App := ⟨s, none, [], fun _ => .unused, []⟩

/-- Where a task is after its call returned `r`. A panic ends the task (`tokio` catches it).
Not code: control state (panics: `proto/src/server.rs:33-36`). -/
def after (k : Except Error Answer → Task) : Res Answer → TaskAt
  | .ok x => .between (k (.ok x))
  | .error (.err e) => .between (k (.error e))
  | .error .panic => .finished

/-- One step. I/O errors occur only if `io`. The accesses are as in `Model/RocksConc.lean` and `Model/RocksFaults.lean`.
The calls run the methods of `lib/src/rdb/datastore.rs:53-361`. -/
inductive Step (X : Cfg) (io : Bool) : App → List AppEv → App → Prop
  /-- a task is started -/
  | start (S : App) (c : Nat) (t : Task) : S.tasks c = .unused →
      Step X io S [.start c t] { S with tasks := setAt S.tasks c (.between t) }
  /-- it makes a call -/
  | enter (S : App) (c : Nat) (O : IdentOrder) (a : Access) (k : Except Error Answer → Task) : S.tasks c = .between (.call a k) →
      Step X io S [.enter c a] { S with tasks := setAt S.tasks c (.inside a (accessProg X O a) k) }
  /-- it ends or panics; it holds no guard -/
  | stop (S : App) (c : Nat) (t : Task) : S.tasks c = .between t → (t = .ret ∨ t = .panic) →
      Step X io S [.stop c] { S with tasks := setAt S.tasks c .finished }
  | get (S : App) (c : Nat) (a : Access) (k : Except Error Answer → Task) (cf : CF) (b : Bytes) (n : Option Bytes → Prog Answer) :
      S.tasks c = .inside a (.get cf b n) k →
      Step X io S [] { S with tasks := setAt S.tasks c (.inside a (n ((S.db.kv cf).get b)) k) }
  | getFails (S : App) (c : Nat) (a : Access) (k : Except Error Answer → Task) (cf : CF) (b : Bytes) (n : Option Bytes → Prog Answer) :
      io = true → S.tasks c = .inside a (.get cf b n) k →
      Step X io S [] { S with tasks := setAt S.tasks c (.inside a (.done (.error ioFault)) k) }
  | scan (S : App) (c : Nat) (a : Access) (k : Except Error Answer → Task) (cf : CF) (lo : Bytes)
      (n : DynIter (Bytes × Bytes) → Prog Answer) : S.tasks c = .inside a (.scan cf lo n) k →
      Step X io S [] { S with tasks := setAt S.tasks c (.inside a (n (((S.db.kv cf).rangeFrom lo).map .ok)) k) }
  /-- the iterator fails after `i` entries -/
  | scanFails (S : App) (c i : Nat) (a : Access) (k : Except Error Answer → Task) (cf : CF) (lo : Bytes)
      (n : DynIter (Bytes × Bytes) → Prog Answer) : io = true → S.tasks c = .inside a (.scan cf lo n) k →
      Step X io S []
        { S with tasks := setAt S.tasks c (.inside a (n ((((S.db.kv cf).rangeFrom lo).take i).map .ok ++ [.error ioFault])) k) }
  | write (S : App) (c : Nat) (a : Access) (k : Except Error Answer → Task) (b : Batch) (n : Unit → Prog Answer) :
      S.tasks c = .inside a (.write b n) k →
      Step X io S [] { S with db := { S.db with kv := S.db.kv.write b }, log := S.log ++ [(c, b)],
                              tasks := setAt S.tasks c (.inside a (n ()) k) }
  | writeFails (S : App) (c : Nat) (a : Access) (k : Except Error Answer → Task) (b : Batch) (n : Unit → Prog Answer) :
      io = true → S.tasks c = .inside a (.write b n) k →
      Step X io S [] { S with tasks := setAt S.tasks c (.inside a (.done (.error ioFault)) k) }
  /-- `flush` fails (`lib/src/rdb/datastore.rs:254`) -/
  | flushFails (S : App) (c : Nat) (a : Access) (k : Except Error Answer → Task) : io = true → S.tasks c = .between (.call a k) →
      (a = .lib .sync ∨ a = .write .sync) →
      Step X io S [.enter c a] { S with tasks := setAt S.tasks c (.inside a (.done (.error ioFault)) k) }
  | readLock (S : App) (c : Nat) (a : Access) (k : Except Error Answer → Task) (held : Bool) (n : SSet Identifier → Prog Answer) :
      S.tasks c = .inside a (.readLock held n) k → S.writer = none →
      Step X io S [] { S with readers := if held then c :: S.readers else S.readers,
                              tasks := setAt S.tasks c (.inside a (n S.db.indexed) k) }
  | writeLock (S : App) (c : Nat) (a : Access) (k : Except Error Answer → Task) (n : SSet Identifier → Prog Answer) :
      S.tasks c = .inside a (.writeLock n) k → S.writer = none → S.readers = [] →
      Step X io S [] { S with writer := some c, tasks := setAt S.tasks c (.inside a (n S.db.indexed) k) }
  | setIndexed (S : App) (c : Nat) (a : Access) (k : Except Error Answer → Task) (ix : SSet Identifier) (n : Unit → Prog Answer) :
      S.tasks c = .inside a (.setIndexed ix n) k →
      Step X io S [] { S with db := { S.db with indexed := ix }, tasks := setAt S.tasks c (.inside a (n ()) k) }
  /-- the guards are dropped at the end of the call -/
  | unlock (S : App) (c : Nat) (a : Access) (k : Except Error Answer → Task) (r : Res Answer) :
      S.tasks c = .inside a (.done r) k → S.writer = some c → Step X io S [] { S with writer := none }
  | unlockRead (S : App) (c : Nat) (a : Access) (k : Except Error Answer → Task) (r : Res Answer) :
      S.tasks c = .inside a (.done r) k → c ∈ S.readers →
      Step X io S [] { S with readers := S.readers.filter (· ≠ c) }
  /-- the call returns -/
  | leave (S : App) (c : Nat) (a : Access) (k : Except Error Answer → Task) (r : Res Answer) :
      S.tasks c = .inside a (.done r) k → S.writer ≠ some c → c ∉ S.readers →
      Step X io S [.leave c a r] { S with tasks := setAt S.tasks c (after k r) }

/-- Executions from `s`, with their history.
Not code: all interleavings of the methods of `lib/src/rdb/datastore.rs:53-361`. -/
inductive Exec (X : Cfg) (io : Bool) (s : Rocks) : List AppEv → App → Prop
  | nil : Exec X io s [] (.init s)
  | snoc {h e : List AppEv} {S S' : App} : Exec X io s h S → Step X io S e S' → Exec X io s (h ++ e) S'

end App

/-- `AppLife X hs s`: starting without a database, after sessions with the histories `hs`, each ended by the death of the process or
of the machine at any moment, opening gives `s`. Of the batches written in a session, the first `k` survive.
Opened again by `lib/src/rdb/datastore.rs:374-398`. -/
inductive AppLife (X : Cfg) : List (List AppEv) → Rocks → Prop
  | new {s : Rocks} : (newDb none).2 = .ok s → AppLife X [] s
  | again {hs : List (List AppEv)} {s t : Rocks} {h : List AppEv} {S : App} (k : Nat) : AppLife X hs s → App.Exec X true s h S →
      (newDb (Dir.full ((S.log.take k).foldl (fun kv x => kv.write x.2) s.kv))).2 = .ok t → AppLife X (hs ++ [h]) t

end Rocks
end IndraDB
