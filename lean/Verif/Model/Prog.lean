import Verif.Model.Types
/-
Programs against a RocksDB database: what the code in `lib/src/rdb` can do to the database handle and to the shared set
of indexed names. A program is run atomically by `run` (sequential use), and step by step in `Model/RocksConc.lean`
(concurrent calls and crashes).
-/
namespace IndraDB

/-- The column families `CF_NAMES` (`lib/src/rdb/datastore.rs:12-21`), in order. -/
inductive CF where
  | vertices | edgeRanges | reversedEdgeRanges | vertexProperties | edgeProperties | vertexPropertyValues
  | edgePropertyValues | metadata
deriving DecidableEq

/-- Contents of the column families: each is a map from byte strings to byte strings ordered bytewise (RocksDB's default
comparator). The column families of `lib/src/rdb/datastore.rs:12-21`. -/
abbrev KV := CF → SMap Bytes Bytes

/-- Entries of a `WriteBatch`: `put_cf`, `delete_cf`.
Used in `lib/src/rdb/managers.rs:80-126, 143-177, 275-284, 343-380, 457-494, 566-586, 662-682, 710-714`. -/
inductive WriteOp where
  | put (cf : CF) (k v : Bytes)
  | delete (cf : CF) (k : Bytes)
deriving DecidableEq

/-- A `WriteBatch`. `lib/src/rdb/datastore.rs:193-359`. -/
abbrev Batch := List WriteOp

/-- No data. The column families of `lib/src/rdb/datastore.rs:12-21` when they have been created. -/
def KV.empty : KV := fun _ => SMap.empty

/-- Replace one column family. Not code: the column families are those of `lib/src/rdb/datastore.rs:12-21`. -/
def KV.set (kv : KV) (cf : CF) (m : SMap Bytes Bytes) : KV := fun c => if c = cf then m else kv c

/-- One entry of a batch. Those made in `lib/src/rdb/managers.rs` (see `WriteOp`). -/
def KV.apply (kv : KV) : WriteOp → KV
  | .put cf k v => kv.set cf ((kv cf).insert k v)
  | .delete cf k => kv.set cf ((kv cf).erase k)

/-- `DB::write`: the entries of a batch in order. That this is atomic is RocksDB's contract.
Called at the end of every writing method, `lib/src/rdb/datastore.rs:193-359`. -/
def KV.write (kv : KV) (b : Batch) : KV := b.foldl KV.apply kv

/-- `RocksdbDatastore` (`lib/src/rdb/datastore.rs:363-366`): the database, and the in-memory set of indexed names. -/
structure Rocks where
  kv : KV
  indexed : SSet Identifier

/-- Programs. `get` is `get_cf`; `scan` is `iterator_cf` in forward direction from a key (a RocksDB iterator reads from
the snapshot taken when it is created, so it is the list of all later entries, or of those before an I/O error, and that
error); `write` is `DB::write`; `readLock` and
`writeLock` acquire the lock on the set of indexed names, `readLock false` for the time of a look at it, the others until
the end of the program; `setIndexed` replaces the set. `run` is the outcome if there are no I/O errors; those are in
`Model/RocksFaults.lean`.
What `lib/src/rdb/managers.rs` and `lib/src/rdb/datastore.rs` do with the database handle and with the lock (`lib/src/rdb/datastore.rs:365`). -/
inductive Prog (α : Type) where
  | done (r : Res α)
  | get (cf : CF) (k : Bytes) (next : Option Bytes → Prog α)
  | scan (cf : CF) (lo : Bytes) (next : DynIter (Bytes × Bytes) → Prog α)
  | write (b : Batch) (next : Unit → Prog α)
  | readLock (held : Bool) (next : SSet Identifier → Prog α)
  | writeLock (next : SSet Identifier → Prog α)
  | setIndexed (ix : SSet Identifier) (next : Unit → Prog α)

namespace Prog

/-- Sequencing; errors (`?`) and panics end the program.
Not code: the sequencing of Rust, with `?`, as in `lib/src/rdb/managers.rs` and `lib/src/rdb/datastore.rs`. -/
def bind {α β : Type} : Prog α → (α → Prog β) → Prog β
  | .done (.ok a), f => f a
  | .done (.error e), _ => .done (.error e)
  | .get cf k n, f => .get cf k (fun r => (n r).bind f)
  | .scan cf lo n, f => .scan cf lo (fun r => (n r).bind f)
  | .write b n, f => .write b (fun r => (n r).bind f)
  | .readLock h n, f => .readLock h (fun r => (n r).bind f)
  | .writeLock n, f => .writeLock (fun r => (n r).bind f)
  | .setIndexed ix n, f => .setIndexed ix (fun r => (n r).bind f)

/-- Notation for the sequencing of the code of `lib/src/rdb/managers.rs` and `lib/src/rdb/datastore.rs`. -/
instance : Monad Prog where
  pure a := .done (.ok a)
  bind := bind

/-- Lifts a `Result`. `?` on a `Result` in `lib/src/rdb/managers.rs` and `lib/src/rdb/datastore.rs`. -/
def lift {α : Type} (r : Res α) : Prog α := .done r

/-- `db.get_cf`. Called in `lib/src/rdb/managers.rs:46-58, 222-224, 336-341, 450-455, 703-708`. -/
def getCf (cf : CF) (k : Bytes) : Prog (Option Bytes) := .get cf k (fun r => .done (.ok r))

/-- `db.iterator_cf(cf, IteratorMode::From(lo, Forward))`; `IteratorMode::Start` is `lo = []`.
Called in `lib/src/rdb/managers.rs:60-78, 226-273, 312-334, 410-448, 523-564, 617-660`. -/
def iteratorCf (cf : CF) (lo : Bytes) : Prog (DynIter (Bytes × Bytes)) := .scan cf lo (fun r => .done (.ok r))

/-- `db.write`. Called in `lib/src/rdb/datastore.rs:193-359`. -/
def writeBatch (b : Batch) : Prog Unit := .write b (fun _ => .done (.ok ()))

/-- Runs a program without interference. Not code: a method of `lib/src/rdb/datastore.rs:53-361` running alone. -/
def run {α : Type} : Prog α → Rocks → Rocks × Res α
  | .done r, s => (s, r)
  | .get cf k n, s => (n ((s.kv cf).get k)).run s
  | .scan cf lo n, s => (n (((s.kv cf).rangeFrom lo).map .ok)).run s
  | .write b n, s => (n ()).run { s with kv := s.kv.write b }
  | .readLock _ n, s => (n s.indexed).run s
  | .writeLock n, s => (n s.indexed).run s
  | .setIndexed ix n, s => (n ()).run { s with indexed := ix }

/-- The outcome of a program. Not code: what a method of `lib/src/rdb/datastore.rs:53-361` returns if it runs alone. -/
def eval {α : Type} (p : Prog α) (s : Rocks) : Res α := (p.run s).2

/-- `for item in iter { .. }` appending to a batch: an error item ends the loop (`item?`).
The loops at `lib/src/rdb/managers.rs:95-124, 170-174` and `lib/src/rdb/datastore.rs:319-333`. -/
def forItems {α : Type} (f : α → Prog Batch) : DynIter α → Prog Batch
  | [] => pure []
  | .ok a :: r => do
    let b ← f a
    let b' ← forItems f r
    return b ++ b'
  | .error e :: _ => lift (.error e)

/-- `for a in list { .. }` appending to a batch. The loops at `lib/src/rdb/datastore.rs:193-243, 287-302, 339-359`. -/
def forAll {α : Type} (f : α → Prog Batch) : List α → Prog Batch
  | [] => pure []
  | a :: r => do
    let b ← f a
    let b' ← forAll f r
    return b ++ b'

/-- `filter_map(|item| match item { Ok(x) => match f(x) {..}, Err(e) => Some(Err(e)) })` with a database lookup `f`.
Simplification: if `f` fails, the model ends here with that failure, while the code makes it an item; all users collect
the items with `?`, so the outcome is the same. `lib/src/rdb/datastore.rs:38-50`. -/
def filterMapItems {α β : Type} (f : α → Prog (Option β)) : DynIter α → Prog (DynIter β)
  | [] => pure []
  | .error e :: r => do return .error e :: (← filterMapItems f r)
  | .ok a :: r => do
    let b ← f a
    let l ← filterMapItems f r
    return match b with
      | some b => .ok b :: l
      | none => l

end Prog
end IndraDB
