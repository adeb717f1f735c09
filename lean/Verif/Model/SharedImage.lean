import Verif.Model.ServerMain
/-
Several processes `indradb-server memory --persist-path PATH` with the same path (`server/src/main.rs:64-71`,
`lib/src/memory/datastore.rs:291-303, 426-448`), down to the interleaving of their system calls. Nothing in the code keeps a
second process from using the path. (Each listens on an address of its own.)
-/
namespace IndraDB

/-- A server process: it has looked whether the file exists (`server/src/main.rs:67`); it is running; or a `sync` is under way
(with the mutex locked, so other calls of the process wait), with the system calls that are left and its result. -/
inductive ServerProc where
  | starting (found : Bool)
  | running (h : MemHandle)
  | syncing (h : MemHandle) (ops : List FsOp) (r : Res Unit)

/-- The file system and the processes. `server/src/main.rs:38-73`. -/
structure SharedWorld where
  fs : Fs
  procs : Nat → Option ServerProc

/-- What can happen. `server/src/main.rs:64-71`, `proto/src/server.rs:195-313`. -/
inductive SharedEv where
  /-- process `i` is started and looks whether the file exists -/
  | look (i : Nat)
  /-- it has its database and serves -/
  | started (i : Nat)
  /-- it cannot read the file and exits -/
  | refused (i : Nat)
  /-- a call other than `sync`, and its reply -/
  | call (i : Nat) (O : HashOrder) (op : Op) (r : Res Reply)
  /-- a `sync` begins -/
  | sync (i : Nat) (Q : ImageOrder) (io : SyncIo)
  /-- a `sync` panics because an earlier call has panicked -/
  | syncPanics (i : Nat)
  /-- one of the system calls of a `sync` -/
  | sys (i : Nat)
  /-- a `sync` returns -/
  | synced (i : Nat) (r : Res Unit)
  /-- the process is killed -/
  | kill (i : Nat)
  /-- the process is killed in the middle of a write, of which `cut` bytes have arrived -/
  | killWriting (i : Nat) (cut : Nat)

/-- The process in slot `i` changes. Not code: bookkeeping for the processes running `server/src/main.rs`. -/
def SharedWorld.set (w : SharedWorld) (i : Nat) (x : Option ServerProc) : SharedWorld :=
  { w with procs := fun j => if j = i then x else w.procs j }

/-- One event. `server/src/main.rs:64-71`; `lib/src/memory/datastore.rs:291-303, 426-448`. An open file keeps its contents
when the name is given to another one (`rename`), so reading it is one step. `NamedTempFile::new` only takes a name that no
file has. -/
inductive SharedWorld.Step (F : Finder) (b : Build) (C : ImageCodec) (p : Path) : SharedWorld → SharedEv → SharedWorld → Prop
  | look (w : SharedWorld) (i : Nat) : w.procs i = none →
      Step F b C p w (.look i) (w.set i (some (.starting (w.fs p).isSome)))
  | read (w : SharedWorld) (i : Nat) (h : MemHandle) : w.procs i = some (.starting true) →
      MemHandle.readMsgpack F C w.fs p = .ok h → Step F b C p w (.started i) (w.set i (some (.running h)))
  | refused (w : SharedWorld) (i : Nat) (f : Fault) : w.procs i = some (.starting true) →
      MemHandle.readMsgpack F C w.fs p = .error f → Step F b C p w (.refused i) (w.set i none)
  | create (w : SharedWorld) (i : Nat) : w.procs i = some (.starting false) →
      Step F b C p w (.started i) (w.set i (some (.running (.createMsgpack p))))
  | call (w : SharedWorld) (i : Nat) (h : MemHandle) (O : HashOrder) (op : Op) : w.procs i = some (.running h) → op ≠ .sync →
      Step F b C p w (.call i O op (MemDb.step F b O op h.db).2)
        (w.set i (some (.running { h with db := (MemDb.step F b O op h.db).1 })))
  | sync (w : SharedWorld) (i : Nat) (h : MemHandle) (Q : ImageOrder) (io : SyncIo) : w.procs i = some (.running h) →
      h.db.poisoned = false → io.Writes (C.enc (h.db.mem.image Q)) →
      Step F b C p w (.sync i Q io) (w.set i (some (.syncing h (syncOps h.path io).1 (syncOps h.path io).2)))
  | syncPanics (w : SharedWorld) (i : Nat) (h : MemHandle) : w.procs i = some (.running h) → h.db.poisoned = true →
      Step F b C p w (.syncPanics i) w
  | sys (w : SharedWorld) (i : Nat) (h : MemHandle) (o : FsOp) (ops : List FsOp) (r : Res Unit) :
      w.procs i = some (.syncing h (o :: ops) r) → (∀ t, o = .create t → w.fs t = none) →
      Step F b C p w (.sys i) ({ w with fs := o.apply w.fs }.set i (some (.syncing h ops r)))
  | synced (w : SharedWorld) (i : Nat) (h : MemHandle) (r : Res Unit) : w.procs i = some (.syncing h [] r) →
      Step F b C p w (.synced i r) (w.set i (some (.running h)))
  | kill (w : SharedWorld) (i : Nat) (x : ServerProc) : w.procs i = some x → Step F b C p w (.kill i) (w.set i none)
  | killWriting (w : SharedWorld) (i : Nat) (h : MemHandle) (t : Path) (c : Bytes) (ops : List FsOp) (r : Res Unit) (cut : Nat) :
      w.procs i = some (.syncing h (.append t c :: ops) r) →
      Step F b C p w (.killWriting i cut) ({ w with fs := (FsOp.append t (c.take cut)).apply w.fs }.set i none)

end IndraDB
