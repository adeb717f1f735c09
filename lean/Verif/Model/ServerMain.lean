import Verif.Model.MemorySync
/-
Model of the life of `indradb-server memory [--persist-path PATH]` (`server/src/main.rs:64-71`): starting, calls (as they
arrive at the datastore), and being killed at any moment, also in the middle of a `sync`.
-/
namespace IndraDB

/-- The datastore the server starts with (`server/src/main.rs:64-71`): empty without a path; with a path, the file if it
exists, else a new database that will be saved there. -/
def startMemory (F : Finder) (C : ImageCodec) (fs : Fs) : Option Path → Res MemHandle
  | none => .ok .newDb
  | some p => if (fs p).isSome then MemHandle.readMsgpack F C fs p else .ok (.createMsgpack p)

/-- What can happen to the server. `server/src/main.rs`, and requests (`proto/src/server.rs:195-313`). -/
inductive ServerEv where
  /-- the server is started -/
  | start
  /-- a call arrives; `Q` and `io` are used by `sync` only -/
  | call (O : HashOrder) (op : Op) (Q : ImageOrder) (io : SyncIo)
  /-- the process is killed between two calls -/
  | kill
  /-- the process is killed during a `sync`, after `k` system calls and `cut` bytes of the next write -/
  | killInSync (Q : ImageOrder) (io : SyncIo) (k cut : Nat)

/-- What is seen from outside. Of `server/src/main.rs` and `proto/src/server.rs:195-313`. -/
inductive ServerSeen where
  | started
  | refused
  | reply (r : Res Reply)
  | died
  /-- the event cannot happen in this situation (a call while no server is running, …) -/
  | impossible

/-- The file system and the datastore of the server process, if one is running. `server/src/main.rs:38-73`. -/
structure World where
  fs : Fs
  proc : Option MemHandle

/-- `sync` of the running server (`lib/src/memory/datastore.rs:291-303`, called with the mutex locked, 450-458: a poisoned mutex
makes `unwrap` panic). -/
def MemHandle.sync (h : MemHandle) (io : SyncIo) (fs : Fs) : Fs × Res Reply :=
  if h.db.poisoned then (fs, .error .panic)
  else (Fs.run (syncOps h.path io).1 fs, (syncOps h.path io).2.map (fun _ => .unit))

/-- One event. `server/src/main.rs:38-73`, `proto/src/server.rs:195-313`. -/
def World.step (F : Finder) (b : Build) (C : ImageCodec) (path : Option Path) (w : World) : ServerEv → World × ServerSeen
  | .start => match w.proc with
    | some _ => (w, .impossible)
    | none => match startMemory F C w.fs path with
      | .ok h => (⟨w.fs, some h⟩, .started)
      | .error _ => (w, .refused)
  | .call O op _ io => match w.proc with
    | none => (w, .impossible)
    | some h =>
      if op = .sync then (⟨(h.sync io w.fs).1, some h⟩, .reply (h.sync io w.fs).2)
      else (⟨w.fs, some { h with db := (MemDb.step F b O op h.db).1 }⟩, .reply (MemDb.step F b O op h.db).2)
  | .kill => match w.proc with
    | none => (w, .impossible)
    | some _ => (⟨w.fs, none⟩, .died)
  | .killInSync _ io k cut => match w.proc with
    | none => (w, .impossible)
    | some h =>
      if h.db.poisoned then (w, .impossible)
      else (⟨Fs.run (crashOps (syncOps h.path io).1 k cut) w.fs, none⟩, .died)

/-- A sequence of events. Not code: the events of `World.step` (`server/src/main.rs`) one after the other. -/
def World.run (F : Finder) (b : Build) (C : ImageCodec) (path : Option Path) : List ServerEv → World → List ServerSeen
  | [], _ => []
  | e :: r, w => (w.step F b C path e).2 :: World.run F b C path r (w.step F b C path e).1

/-- The situation after a sequence of events. Not code: what `server/src/main.rs` leaves after such events. -/
def World.final (F : Finder) (b : Build) (C : ImageCodec) (path : Option Path) (evs : List ServerEv) (w : World) : World :=
  evs.foldl (fun w e => (w.step F b C path e).1) w

end IndraDB
