import Verif.Model.Rocks
/-
Opening and creating a RocksDB database: `new_db` and `new_db_with_options` (`lib/src/rdb/datastore.rs:374-428`), which differ
only in the options. `get_options` (446-469) sets `create_if_missing` and leaves `create_missing_column_families` off.
-/
namespace IndraDB
namespace Rocks

/-- A directory: no database, or a database with the column families (beside `default`) created so far and their data.
What `lib/src/rdb/datastore.rs:374-428` works on. -/
abbrev Dir := Option (List CF × KV)

/-- `CF_NAMES` (lib/src/rdb/datastore.rs:12-21). -/
def cfNames : List CF := [.vertices, .edgeRanges, .reversedEdgeRanges, .vertexProperties, .edgeProperties,
  .vertexPropertyValues, .edgePropertyValues, .metadata]

/-- `DB::open_cf(opts, path, CF_NAMES)`, RocksDB's contract: it succeeds if the database exists and has exactly these
column families (and `default`). If there is no database, an empty one without column families is created before the
missing column families make it fail. Called at `lib/src/rdb/datastore.rs:374-428`. -/
def openCf : Dir → Dir × Bool
  | none => (some ([], KV.empty), false)
  | some (cfs, kv) => (some (cfs, kv), cfNames.all (fun c => cfs.contains c) && cfs.all (fun c => cfNames.contains c))

/-- `DB::open(opts, path)`: RocksDB refuses to open a database without naming all of its column families.
Called at `lib/src/rdb/datastore.rs:374-428`. -/
def openDefault : Dir → Dir × Bool
  | none => (some ([], KV.empty), true)
  | some (cfs, kv) => (some (cfs, kv), cfs.isEmpty)

/-- `db.create_cf(name)`: durable when it returns; an error if the column family exists.
Called at `lib/src/rdb/datastore.rs:384`. -/
def createCf (c : CF) : Dir → Dir × Bool
  | none => (none, false)
  | some (cfs, kv) => if cfs.contains c then (some (cfs, kv), false) else (some (cfs ++ [c], kv), true)

/-- `for cf_name in &CF_NAMES { db.create_cf(cf_name, &opts)?; }` (lib/src/rdb/datastore.rs:383-385): the directory after each round, and whether
it succeeded. -/
def createCfs : List CF → Dir → List Dir × Bool
  | [], _ => ([], true)
  | c :: r, d => match createCf c d with
    | (d, true) => (d :: (createCfs r d).1, (createCfs r d).2)
    | (d, false) => ([d], false)

/-- `metadata_manager.get_indexed_properties()?` and the new datastore (lib/src/rdb/datastore.rs:391-397). -/
def load : Dir → Res Rocks
  | none => .error (.err .datastore)
  | some (_, kv) => match (getIndexed.run ⟨kv, SMap.empty⟩).2 with
    | .ok ix => .ok ⟨kv, ix⟩
    | .error f => .error f

/-- `new_db` (lib/src/rdb/datastore.rs:374-398): the directory after each step that may change it, in order, and the outcome. If the process dies
in between, the directory is one of these. -/
def newDb (d : Dir) : List Dir × Res Rocks :=
  match openCf d with
  | (d, true) => ([d], load d)
  | (d, false) => match openDefault d with
    | (d', false) => ([d, d'], .error (.err .datastore))
    | (d', true) =>
      let c := createCfs cfNames d'
      (d :: d' :: c.1, if c.2 then load (c.1.getLast?.getD d') else .error (.err .datastore))

/-- The directory in the end. Not code: what `lib/src/rdb/datastore.rs:374-428` leaves behind. -/
def Dir.after (d : Dir) : Dir := ((newDb d).1.getLast?).getD d

/-- The directory of a database with contents `kv`. What `lib/src/rdb/datastore.rs:374-428` leaves behind if it succeeds. -/
def Dir.full (kv : KV) : Dir := some (cfNames, kv)

end Rocks
end IndraDB
