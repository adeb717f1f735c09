import Verif.Model.ServerMain
import Verif.Model.RocksOpen
import Verif.Model.Plugins
/-
Starting `indradb-server`: `main` and `run_server` (`server/src/main.rs:15-73`), `run` and `run_with_plugins`
(`proto/src/server.rs:324-375`), for both datastores, up to the moment when requests are served, with everything that can go
wrong on the way.
-/
namespace IndraDB
open Rocks

/-- The datastore asked for (`CliDatastoreArgs`, `server/src/cli.rs:10-19`). (The number of open files only tunes RocksDB.) -/
inductive StoreArgs where
  | memory (path : Option Path)
  | rocksdb (repair : Bool)

/-- The command line (`CliArgs`, `server/src/cli.rs:4-8`), and what the operating system, RocksDB and the plugin libraries say
during the start. Used at `server/src/main.rs:38-73`, `proto/src/server.rs:156-190, 353-375`. -/
structure StartEnv (P : Type) where
  /-- `args.addr.to_socket_addrs()`: `none` is an error -/
  addrs : Option (List Nat)
  /-- `TcpListener::bind` -/
  bind : Nat → Bool
  /-- `listener.local_addr()` -/
  localAddr : Bool
  /-- the persist path can be looked at. If not (no permission, a dangling link, an error of the file system), `Path::exists` says
  that there is no file. -/
  visible : Bool
  /-- `DB::open_cf` fails, for a reason other than the column families (such as the lock of another process) -/
  cfFails : Bool
  /-- and so does `DB::open` -/
  openFails : Bool
  /-- `DB::repair` -/
  repair : Dir → Dir × Bool
  /-- `--plugins` -/
  pattern : Option String
  /-- `glob::glob`: `none` if the pattern is bad; else the matching paths, `none` standing for a path that cannot be read -/
  glob : String → Option (List (Option String))
  /-- the version of the server -/
  me : VersionInfo
  /-- the plugin libraries -/
  libs : String → PluginFile P

/-- How a start fails. `server/src/main.rs:23, 41-42, 67`, `InitError` (`proto/src/server.rs:38-56`). -/
inductive StartError where
  | address | bind | localAddr | image | pattern | glob | plugins (e : InitError)
deriving DecidableEq

/-- The database of the server. `server/src/main.rs:57-70`. -/
inductive StartedDb where
  | memory (h : MemHandle)
  | rocksdb (s : Rocks)

/-- How the start ends: serving requests, repaired (the process exits), an error returned by `main`, or a panic.
`server/src/main.rs:38-73`. -/
inductive StartResult (P : Type) where
  | serving (db : StartedDb) (plugins : Entries P)
  | repaired
  | failed (e : StartError)
  | panicked

/-- What is on the disk: the files, and the directory of the RocksDB database. `server/src/main.rs:44-72`. -/
structure Disk where
  fs : Fs
  dir : Dir

/-- The paths of `glob`, up to the first that cannot be read (`proto/src/server.rs:361-364`). -/
def globPaths : List (Option String) → Except StartError (List String)
  | [] => .ok []
  | none :: _ => .error .glob
  | some p :: r => match globPaths r with
    | .error e => .error e
    | .ok l => .ok (p :: l)

/-- The plugins of the server: none without `--plugins` (`server/src/main.rs:26-32`, `proto/src/server.rs:324-335`), else those
of the libraries that match (`proto/src/server.rs:353-366`). -/
def startPlugins {P : Type} (E : StartEnv P) : Except StartError (Entries P) :=
  match E.pattern with
  | none => .ok (fun _ => none)
  | some pat => match E.glob pat with
    | none => .error .pattern
    | some l => match globPaths l with
      | .error e => .error e
      | .ok paths => match newWithPlugins E.me E.libs paths with
        | .error e => .error (.plugins e)
        | .ok m => .ok m

/-- `run_server` (`server/src/main.rs:15-35`). -/
def runServer {P : Type} (E : StartEnv P) (db : StartedDb) : StartResult P :=
  if E.localAddr then
    match startPlugins E with
    | .ok m => .serving db m
    | .error e => .failed e
  else .failed .localAddr

/-- `new_db_with_options` (`lib/src/rdb/datastore.rs:405-428`) where opening may fail for other reasons: `Rocks.newDb`, else. -/
def openRocks (cfFails openFails : Bool) (d : Dir) : List Dir × Res Rocks :=
  match (if cfFails then (d, false) else openCf d) with
  | (d, true) => ([d], load d)
  | (d, false) => match (if openFails then (d, false) else openDefault d) with
    | (d', false) => ([d, d'], .error (.err .datastore))
    | (d', true) =>
      let c := createCfs cfNames d'
      (d :: d' :: c.1, if c.2 then load (c.1.getLast?.getD d') else .error (.err .datastore))

/-- The datastore of a memory server (`server/src/main.rs:64-71`), if the path may not be visible. -/
def openMemory (F : Finder) (C : ImageCodec) (visible : Bool) (fs : Fs) : Option Path → Res MemHandle
  | none => .ok .newDb
  | some p => if visible && (fs p).isSome then MemHandle.readMsgpack F C fs p else .ok (.createMsgpack p)

/-- `main` (`server/src/main.rs:38-73`): the disk after each step that may change it, in order, and how it ends. -/
def serverMain {P : Type} (F : Finder) (C : ImageCodec) (E : StartEnv P) (args : StoreArgs) (D : Disk) :
    List Disk × StartResult P :=
  match E.addrs with
  | none => ([], .failed .address)
  | some [] => ([], .panicked)
  | some (a :: _) =>
    if E.bind a then
      match args with
      | .rocksdb true => ([⟨D.fs, (E.repair D.dir).1⟩], if (E.repair D.dir).2 then .repaired else .panicked)
      | .rocksdb false =>
        ((openRocks E.cfFails E.openFails D.dir).1.map (fun d => ⟨D.fs, d⟩),
          match (openRocks E.cfFails E.openFails D.dir).2 with
          | .ok s => runServer E (.rocksdb s)
          | .error _ => .panicked)
      | .memory path => ([], match openMemory F C E.visible D.fs path with
          | .ok h => runServer E (.memory h)
          | .error _ => .failed .image)
    else ([], .failed .bind)

/-- The disk in the end. Not code: what `server/src/main.rs:38-73` leaves behind. -/
def startLeaves {P : Type} (F : Finder) (C : ImageCodec) (E : StartEnv P) (args : StoreArgs) (D : Disk) : Disk :=
  ((serverMain F C E args D).1.getLast?).getD D

end IndraDB
