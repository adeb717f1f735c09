import Verif.Model.RocksApp
import Verif.Model.ServerConc
/-
The gRPC server (`proto/src/server.rs:195-314`) on the RocksDB datastore, serving many requests at once. As in `Model/ServerConc`,
handlers convert the message (or fail), and then run one library call in a blocking task, or a plugin; but nothing keeps them from
working at the same time (`RocksdbDatastore::transaction`, `lib/src/rdb/datastore.rs:476-490`, hands out references), so that all their
accesses to the database interleave as in `Model/RocksApp`.
-/
namespace IndraDB

/-- The code of a plugin (`Plugin::call`, `plugins/host/src/decl.rs:43-55`): it returns, panics, or calls a method of its transaction and
goes on depending on what it returns. (The argument has been filled in.) -/
inductive PluginTask where
  | ret (r : Except PluginError Json)
  | panic
  | call (a : Access) (k : Except Error Answer → PluginTask)

/-- What a handler does after the conversion: it has its response, or makes a call and goes on depending on what it returns; `crash` is
the response if the call panics. The handlers at `proto/src/server.rs:195-313`. -/
inductive Handler where
  | ret (r : ServerResponse)
  | call (a : Access) (k : Except Error Answer → Handler) (crash : ServerResponse)

/-- The handler as a task of the process. `tokio::task::spawn_blocking` at `proto/src/server.rs:202-310`. -/
def Handler.task : Handler → Rocks.Task
  | .ret _ => .ret
  | .call a k _ => .call a (fun r => (k r).task)

/-- What a library call has returned. (It returns no answer but `reply`.)
Used by the handlers at `proto/src/server.rs:195-313`. -/
def libResult : Except Error Answer → Res Reply
  | .ok (.reply x) => .ok x
  | .ok _ => .error .panic
  | .error e => .error (.err e)

section
variable (letter : Char → Bool) (J : JsonText) (describe : PluginError → String) (reset : Nat)

/-- The handlers of library requests (`proto/src/server.rs:200-284`) after the conversion: one library call in a blocking task. -/
def libHandler (req : Request) (op : Op) : Handler :=
  .call (.lib op) (fun r => .ret (.lib (req.respond J (libResult r)))) (.lib (req.respond J (.error .panic)))

/-- `execute_plugin` (`proto/src/server.rs:298-308`) after the conversion: the plugin runs in the task that serves the request; if it panics, or a
method it calls does, the client sees its stream reset. -/
def pluginHandler : PluginTask → Handler
  | .ret r => .ret (.plugin (pluginResponse J describe reset (.ok r)))
  | .panic => .ret (.plugin (pluginResponse J describe reset (.error .panic)))
  | .call a k => .call a (fun r => pluginHandler (k r)) (.plugin (pluginResponse J describe reset (.error .panic)))

/-- What the handlers do: answer at once, or run. `entries` are the plugins of the server.
`proto/src/server.rs:195-313`. -/
def rocksPrep (entries : Entries (Json → PluginTask)) : ServerRequest → ServerResponse ⊕ Handler
  | .ping => .inl .pong
  | .lib req => match req.op letter J with
    | .error st => .inl (.lib (.error st))
    | .ok op => .inr (libHandler J req op)
  | .plugin m => match pluginToRun J entries m with
    | .error st => .inl (.plugin (.error st))
    | .ok p => .inr (pluginHandler J describe reset p)

end

namespace Rocks

/-- What can be seen of the server: requests arriving and responses leaving.
The requests of `proto/indradb.proto:331-` as handled at `proto/src/server.rs:195-313`. -/
inductive SrvEv where
  | call (c : Nat) (req : ServerRequest)
  | ret (c : Nat) (r : ServerResponse)

/-- Where a request is. Not code: control state of a handler of `proto/src/server.rs:195-313`. -/
inductive Serving where
  | unused
  /-- waiting for its task to run -/
  | waiting (t : Handler)
  /-- its task runs; what remains to be done -/
  | running (t : Handler)
  /-- has its response -/
  | leaving (r : ServerResponse)
  | finished

/-- The server: the process with the tasks of the handlers, and where every request is.
`proto/src/server.rs:127-131`. -/
structure Srv where
  app : App
  reqs : Nat → Serving

namespace Srv

/-- The server has been started on the database `s`; nothing has been requested.
`proto/src/server.rs:137-143, 156-190`. -/
def init (s : Rocks) : Srv := ⟨.init s, fun _ => .unused⟩

/-- Where a request is after a call of its handler returned.
Not code: control state of a handler of `proto/src/server.rs:195-313`. -/
def next (k : Except Error Answer → Handler) (crash : ServerResponse) : Res Answer → Serving
  | .ok x => .running (k (.ok x))
  | .error (.err e) => .running (k (.error e))
  | .error .panic => .leaving crash

/-- One step, with what is seen of it. I/O errors occur only if `io`. `prep` is `rocksPrep` of the server's plugins.
The handlers at `proto/src/server.rs:195-313`, run by `tokio` and `tonic`. -/
inductive Step (X : Cfg) (io : Bool) (prep : ServerRequest → ServerResponse ⊕ Handler) : Srv → List SrvEv → Srv → Prop
  /-- a request arrives and is answered without touching the database, such as one that cannot be converted -/
  | reject (S : Srv) (c : Nat) (req : ServerRequest) (r : ServerResponse) : S.reqs c = .unused → prep req = .inl r →
      Step X io prep S [.call c req] { S with reqs := setAt S.reqs c (.leaving r) }
  /-- a request arrives, and its task is queued -/
  | accept (S : Srv) (c : Nat) (req : ServerRequest) (t : Handler) : S.reqs c = .unused → prep req = .inr t →
      Step X io prep S [.call c req] { S with reqs := setAt S.reqs c (.waiting t) }
  /-- its task starts -/
  | begins (S : Srv) (c : Nat) (t : Handler) (A : App) : S.reqs c = .waiting t → App.Step X io S.app [.start c t.task] A →
      Step X io prep S [] ⟨A, setAt S.reqs c (.running t)⟩
  /-- a task makes a call -/
  | enters (S : Srv) (c : Nat) (a : Access) (A : App) : App.Step X io S.app [.enter c a] A →
      Step X io prep S [] { S with app := A }
  /-- an access to the database or to the lock -/
  | works (S : Srv) (A : App) : App.Step X io S.app [] A → Step X io prep S [] { S with app := A }
  /-- a call returns -/
  | returns (S : Srv) (c : Nat) (a : Access) (k : Except Error Answer → Handler) (crash : ServerResponse) (r : Res Answer) (A : App) :
      S.reqs c = .running (.call a k crash) → App.Step X io S.app [.leave c a r] A →
      Step X io prep S [] ⟨A, setAt S.reqs c (next k crash r)⟩
  /-- a task ends with its response -/
  | ends (S : Srv) (c : Nat) (r : ServerResponse) (A : App) : S.reqs c = .running (.ret r) → App.Step X io S.app [.stop c] A →
      Step X io prep S [] ⟨A, setAt S.reqs c (.leaving r)⟩
  /-- the response is sent -/
  | respond (S : Srv) (c : Nat) (r : ServerResponse) : S.reqs c = .leaving r →
      Step X io prep S [.ret c r] { S with reqs := setAt S.reqs c .finished }
  /-- the client has gone away before the task began: the request is dropped -/
  | dropWaiting (S : Srv) (c : Nat) (t : Handler) : S.reqs c = .waiting t →
      Step X io prep S [] { S with reqs := setAt S.reqs c .finished }
  /-- the client has gone away: the response is dropped -/
  | dropLeaving (S : Srv) (c : Nat) (r : ServerResponse) : S.reqs c = .leaving r →
      Step X io prep S [] { S with reqs := setAt S.reqs c .finished }

/-- Executions of a server started on the database `s`, with their history.
Not code: all interleavings of the handlers of `proto/src/server.rs:195-313`. -/
inductive Exec (X : Cfg) (io : Bool) (prep : ServerRequest → ServerResponse ⊕ Handler) (s : Rocks) : List SrvEv → Srv → Prop
  | nil : Exec X io prep s [] (.init s)
  | snoc {h e : List SrvEv} {S S' : Srv} : Exec X io prep s h S → Step X io prep S e S' → Exec X io prep s (h ++ e) S'

end Srv

/-- `SrvLife X hs s`: starting without a database, after runs of servers with the histories `hs`, each ended by the death of the
process or of the machine at any moment, opening gives `s`. Of the batches written in a run, the first `k` survive. Each run may have
its own plugins (`prep`). Opened again by `lib/src/rdb/datastore.rs:374-398`. -/
inductive SrvLife (X : Cfg) : List ((ServerRequest → ServerResponse ⊕ Handler) × List SrvEv) → Rocks → Prop
  | new {s : Rocks} : (newDb none).2 = .ok s → SrvLife X [] s
  | again {hs : List ((ServerRequest → ServerResponse ⊕ Handler) × List SrvEv)} {s t : Rocks}
      {prep : ServerRequest → ServerResponse ⊕ Handler} {h : List SrvEv} {S : Srv} (k : Nat) : SrvLife X hs s →
      Srv.Exec X true prep s h S →
      (newDb (Dir.full ((S.app.log.take k).foldl (fun kv x => kv.write x.2) s.kv))).2 = .ok t → SrvLife X (hs ++ [(prep, h)]) t

end Rocks
end IndraDB
