import Verif.Model.RocksCall
import Verif.Model.MutexConc
/-
Concurrent calls on the RocksDB datastore: the database accesses of different calls interleave; only the lock on the set
of indexed names (`RwLock`, `lib/src/rdb/datastore.rs:365`) restricts this. A reader waits while a writer holds the lock;
whether it also waits for waiting writers is up to the implementation of `RwLock` (here it need not, see `Spec/Progress`).
-/
namespace IndraDB
namespace Rocks

/-- Where a call is. Not code: control state of a caller of `lib/src/database.rs:232-377`. -/
inductive RCall where
  | unused
  | running (p : Prog Reply)
  | finished

/-- The datastore; who holds the write lock on the set of indexed names and who holds read locks; where every call is; and the batches written so
far, oldest first, with the call that wrote them (RocksDB's write-ahead log).
The datastore is `lib/src/rdb/datastore.rs:363-366`. -/
structure Conc where
  db : Rocks
  writer : Option Nat
  readers : List Nat
  calls : Nat → RCall
  log : List (Nat × Batch)

namespace Conc

/-- Nothing has been called; the contents of the database at the beginning are not in the log.
The datastore as opened by `lib/src/rdb/datastore.rs:374-398`. -/
def init (s : Rocks) : Conc := ⟨s, none, [], fun _ => .unused, []⟩

/-- One step of a concurrent execution, with what is seen of it.
Steps of the methods of `lib/src/rdb/datastore.rs:53-361`; the lock is that of `lib/src/rdb/datastore.rs:365`. -/
inductive Step (X : Cfg) : Conc → List Ev → Conc → Prop
  /-- a call is made -/
  | call (S : Conc) (c : Nat) (O : IdentOrder) (op : Op) : S.calls c = .unused →
      Step X S [.call c op] { S with calls := setAt S.calls c (.running (callProg X O op)) }
  /-- `get_cf` -/
  | get (S : Conc) (c : Nat) (cf : CF) (k : Bytes) (n : Option Bytes → Prog Reply) : S.calls c = .running (.get cf k n) →
      Step X S [] { S with calls := setAt S.calls c (.running (n ((S.db.kv cf).get k))) }
  /-- `iterator_cf`: reads the entries there are at this time -/
  | scan (S : Conc) (c : Nat) (cf : CF) (lo : Bytes) (n : DynIter (Bytes × Bytes) → Prog Reply) :
      S.calls c = .running (.scan cf lo n) →
      Step X S [] { S with calls := setAt S.calls c (.running (n (((S.db.kv cf).rangeFrom lo).map .ok))) }
  /-- `DB::write` -/
  | write (S : Conc) (c : Nat) (b : Batch) (n : Unit → Prog Reply) : S.calls c = .running (.write b n) →
      Step X S [] { S with db := { S.db with kv := S.db.kv.write b }, log := S.log ++ [(c, b)],
                           calls := setAt S.calls c (.running (n ())) }
  /-- `indexed_properties.read()` -/
  | readLock (S : Conc) (c : Nat) (held : Bool) (n : SSet Identifier → Prog Reply) :
      S.calls c = .running (.readLock held n) → S.writer = none →
      Step X S [] { S with readers := if held then c :: S.readers else S.readers,
                           calls := setAt S.calls c (.running (n S.db.indexed)) }
  /-- `indexed_properties.write()` -/
  | writeLock (S : Conc) (c : Nat) (n : SSet Identifier → Prog Reply) : S.calls c = .running (.writeLock n) →
      S.writer = none → S.readers = [] →
      Step X S [] { S with writer := some c, calls := setAt S.calls c (.running (n S.db.indexed)) }
  /-- `indexed_properties.insert(..)` -/
  | setIndexed (S : Conc) (c : Nat) (ix : SSet Identifier) (n : Unit → Prog Reply) :
      S.calls c = .running (.setIndexed ix n) →
      Step X S [] { S with db := { S.db with indexed := ix }, calls := setAt S.calls c (.running (n ())) }
  /-- the write guard is dropped at the end of the call -/
  | unlock (S : Conc) (c : Nat) (r : Res Reply) : S.calls c = .running (.done r) → S.writer = some c →
      Step X S [] { S with writer := none }
  /-- a read guard is dropped at the end of the call -/
  | unlockRead (S : Conc) (c : Nat) (r : Res Reply) : S.calls c = .running (.done r) → c ∈ S.readers →
      Step X S [] { S with readers := S.readers.filter (· ≠ c) }
  /-- the call returns -/
  | ret (S : Conc) (c : Nat) (r : Res Reply) : S.calls c = .running (.done r) → S.writer ≠ some c → c ∉ S.readers →
      Step X S [.ret c r] { S with calls := setAt S.calls c .finished }

/-- Concurrent executions from `s`, with their history.
Not code: all interleavings of calls of `lib/src/database.rs:232-377`. -/
inductive Exec (X : Cfg) (s : Rocks) : List Ev → Conc → Prop
  | nil : Exec X s [] (init s)
  | snoc {h : List Ev} {S S' : Conc} {e : List Ev} : Exec X s h S → Step X S e S' → Exec X s (h ++ e) S'

end Conc
end Rocks
end IndraDB
