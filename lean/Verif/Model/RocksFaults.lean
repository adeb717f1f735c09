import Verif.Model.RocksConc
import Verif.Model.RocksOpen
/-
Calls on the RocksDB datastore while the database may report I/O errors. Assumed about RocksDB: a `get_cf` or `write` that
fails has no effect; an iterator that fails yields the entries before the failure, then the error, then nothing
(`DBIterator::next`).
-/
namespace IndraDB

/-- `Error::from(rocksdb::Error)` (`lib/src/errors.rs:97-101`). -/
def ioFault : Fault := .err .datastore

/-- `p.Runs s s' r`: run from `s` without interference, with any number of I/O errors, the program can end in `s'` with
outcome `r`. `get_cf` and `write` are always followed by `?` (`lib/src/rdb/managers.rs`, `lib/src/rdb/datastore.rs`), so their errors end the call;
where the code makes a failed lookup an item of an iterator (`lib/src/rdb/datastore.rs:42-50, 70-74, 126-130`) the items are collected
with `?` or the item is beyond a limit, and then the lookup is not made at all. -/
inductive Prog.Runs {α : Type} : Prog α → Rocks → Rocks → Res α → Prop
  | done (r : Res α) (s : Rocks) : Runs (.done r) s s r
  | get {cf : CF} {k : Bytes} {n : Option Bytes → Prog α} {s s' : Rocks} {r : Res α} :
      Runs (n ((s.kv cf).get k)) s s' r → Runs (.get cf k n) s s' r
  | getFails (cf : CF) (k : Bytes) (n : Option Bytes → Prog α) (s : Rocks) : Runs (.get cf k n) s s (.error ioFault)
  | scan {cf : CF} {lo : Bytes} {n : DynIter (Bytes × Bytes) → Prog α} {s s' : Rocks} {r : Res α} :
      Runs (n (((s.kv cf).rangeFrom lo).map .ok)) s s' r → Runs (.scan cf lo n) s s' r
  /-- the iterator fails after `i` entries -/
  | scanFails (i : Nat) {cf : CF} {lo : Bytes} {n : DynIter (Bytes × Bytes) → Prog α} {s s' : Rocks} {r : Res α} :
      Runs (n ((((s.kv cf).rangeFrom lo).take i).map .ok ++ [.error ioFault])) s s' r → Runs (.scan cf lo n) s s' r
  | write {b : Batch} {n : Unit → Prog α} {s s' : Rocks} {r : Res α} :
      Runs (n ()) { s with kv := s.kv.write b } s' r → Runs (.write b n) s s' r
  | writeFails (b : Batch) (n : Unit → Prog α) (s : Rocks) : Runs (.write b n) s s (.error ioFault)
  | readLock {held : Bool} {n : SSet Identifier → Prog α} {s s' : Rocks} {r : Res α} :
      Runs (n s.indexed) s s' r → Runs (.readLock held n) s s' r
  | writeLock {n : SSet Identifier → Prog α} {s s' : Rocks} {r : Res α} : Runs (n s.indexed) s s' r → Runs (.writeLock n) s s' r
  | setIndexed {ix : SSet Identifier} {n : Unit → Prog α} {s s' : Rocks} {r : Res α} :
      Runs (n ()) { s with indexed := ix } s' r → Runs (.setIndexed ix n) s s' r

namespace Rocks

/-- A call that may meet I/O errors. `flush` (`lib/src/rdb/datastore.rs:254`), which `callProg` leaves out, can fail, too. -/
def FaultyCall (X : Cfg) (O : IdentOrder) (op : Op) (s s' : Rocks) (r : Res Reply) : Prop :=
  (callProg X O op).Runs s s' r ∨ (op = .sync ∧ s' = s ∧ r = .error ioFault)

/-- A history of calls that may meet I/O errors, with what they return.
Not code: calls of `lib/src/database.rs:232-377`, one after the other. -/
inductive FaultyHistory (X : Cfg) : Rocks → List (IdentOrder × Op × Res Reply) → Rocks → Prop
  | nil (s : Rocks) : FaultyHistory X s [] s
  | cons {O : IdentOrder} {op : Op} {r : Res Reply} {s s' t : Rocks} {L : List (IdentOrder × Op × Res Reply)} :
      FaultyCall X O op s s' r → FaultyHistory X s' L t → FaultyHistory X s ((O, op, r) :: L) t

/-- One step of a concurrent execution during which I/O errors may occur: an error of `get_cf`, `write` or `flush` ends the
call (it still has to release its locks), an iterator may end early with an error.
Steps of the methods of `lib/src/rdb/datastore.rs:53-361`, whose `?` return the errors of RocksDB. -/
inductive Conc.FaultyStep (X : Cfg) : Conc → List Ev → Conc → Prop
  | fine {S : Conc} {e : List Ev} {S' : Conc} : Conc.Step X S e S' → FaultyStep X S e S'
  | getFails (S : Conc) (c : Nat) (cf : CF) (k : Bytes) (n : Option Bytes → Prog Reply) : S.calls c = .running (.get cf k n) →
      FaultyStep X S [] { S with calls := setAt S.calls c (.running (.done (.error ioFault))) }
  /-- the iterator fails after `i` entries -/
  | scanFails (S : Conc) (c i : Nat) (cf : CF) (lo : Bytes) (n : DynIter (Bytes × Bytes) → Prog Reply) :
      S.calls c = .running (.scan cf lo n) →
      FaultyStep X S []
        { S with calls := setAt S.calls c (.running (n ((((S.db.kv cf).rangeFrom lo).take i).map .ok ++ [.error ioFault]))) }
  | writeFails (S : Conc) (c : Nat) (b : Batch) (n : Unit → Prog Reply) : S.calls c = .running (.write b n) →
      FaultyStep X S [] { S with calls := setAt S.calls c (.running (.done (.error ioFault))) }
  /-- `flush` fails (`lib/src/rdb/datastore.rs:254`) -/
  | flushFails (S : Conc) (c : Nat) : S.calls c = .unused →
      FaultyStep X S [.call c .sync] { S with calls := setAt S.calls c (.running (.done (.error ioFault))) }

/-- Concurrent executions from `s` with I/O errors, with their history.
Not code: all interleavings of calls of `lib/src/database.rs:232-377`. -/
inductive Conc.FaultyExec (X : Cfg) (s : Rocks) : List Ev → Conc → Prop
  | nil : FaultyExec X s [] (.init s)
  | snoc {h : List Ev} {S S' : Conc} {e : List Ev} : FaultyExec X s h S → Conc.FaultyStep X S e S' → FaultyExec X s (h ++ e) S'

/-- `FaultyLife X hs s`: starting without a database, after sessions of overlapping calls with the histories `hs`, each
ended by the death of the process or of the machine at any moment, opening gives `s`. Of the batches written in a session, the first `k`
survive. Opened again by `lib/src/rdb/datastore.rs:374-398`. -/
inductive FaultyLife (X : Cfg) : List (List Ev) → Rocks → Prop
  | new {s : Rocks} : (newDb none).2 = .ok s → FaultyLife X [] s
  | again {hs : List (List Ev)} {s t : Rocks} {h : List Ev} {S : Conc} (k : Nat) : FaultyLife X hs s → Conc.FaultyExec X s h S →
      (newDb (Dir.full ((S.log.take k).foldl (fun kv x => kv.write x.2) s.kv))).2 = .ok t → FaultyLife X (hs ++ [h]) t

end Rocks
end IndraDB
