import Verif.Model.PluginTxn
import Verif.Model.MutexConc
/-
The gRPC server (`proto/src/server.rs:195-314`) on the memory datastore, serving many requests at once. Handlers convert the
message (or fail), then run one library call in a blocking task (`spawn_blocking`), or, for `execute_plugin`, the plugin itself,
while holding the mutex. If the client goes away, tonic drops the handler: a request whose call has not begun may then be lost,
while a call that has begun goes on to its end (blocking tasks are not cancelled, and `execute_plugin` awaits nothing).
-/
namespace IndraDB

/-- A service: what it does for one request when nothing else happens.
Not code: a handler of `proto/src/server.rs:195-313` that runs alone. -/
structure Service where
  State : Type
  Env : Type
  Req : Type
  Resp : Type
  init : State
  step : Env → Req → State → State × Resp

namespace Service
variable (S : Service)

/-- What can be seen: requests arriving and responses leaving.
The requests handled at `proto/src/server.rs:195-313`. -/
inductive SEv where
  | call (c : Nat) (req : S.Req)
  | ret (c : Nat) (r : S.Resp)

/-- Where a request is. Not code: control state of a handler of `proto/src/server.rs:195-313`. -/
inductive Phase where
  | unused
  /-- waiting for its task to run and for the mutex -/
  | waiting (p : Body S.State S.Resp)
  /-- holding the mutex -/
  | inside (p : Body S.State S.Resp)
  /-- has its response -/
  | leaving (r : S.Resp)
  | finished

/-- The guarded data, who holds the mutex, and where every request is.
The mutex is that of `lib/src/memory/datastore.rs:408`. -/
structure Conc where
  db : S.State
  owner : Option Nat
  calls : Nat → S.Phase

/-- Nothing has been requested. `proto/src/server.rs:137-143, 156-190`. -/
def Conc.start : S.Conc := ⟨S.init, none, fun _ => .unused⟩

/-- One step of a concurrent execution, with what is seen of it. `prep env req`: the response the handler gives without touching the
database, or the code it runs with the mutex locked.
The handlers at `proto/src/server.rs:195-313`; the mutex of `lib/src/memory/datastore.rs:408`. -/
inductive Conc.Step {S : Service} (prep : S.Env → S.Req → S.Resp ⊕ Body S.State S.Resp) : S.Conc → List S.SEv → S.Conc → Prop
  /-- a request arrives and is answered without touching the database, such as one that cannot be converted -/
  | reject (C : S.Conc) (c : Nat) (env : S.Env) (req : S.Req) (r : S.Resp) : C.calls c = .unused → prep env req = .inl r →
      Step prep C [.call c req] { C with calls := setAt C.calls c (.leaving r) }
  /-- a request arrives, and its task is queued -/
  | accept (C : S.Conc) (c : Nat) (env : S.Env) (req : S.Req) (p : Body S.State S.Resp) : C.calls c = .unused →
      prep env req = .inr p → Step prep C [.call c req] { C with calls := setAt C.calls c (.waiting p) }
  /-- `lock()` succeeds: nobody else holds the mutex -/
  | lock (C : S.Conc) (c : Nat) (p : Body S.State S.Resp) : C.calls c = .waiting p → C.owner = none →
      Step prep C [] { C with owner := some c, calls := setAt C.calls c (.inside p) }
  /-- a step of the code -/
  | work (C : S.Conc) (c : Nat) (f : S.State → S.State) (n : S.State → Body S.State S.Resp) : C.calls c = .inside (.act f n) →
      Step prep C [] { C with db := f C.db, calls := setAt C.calls c (.inside (n C.db)) }
  /-- the transaction is dropped and the mutex released -/
  | unlock (C : S.Conc) (c : Nat) (r : S.Resp) : C.calls c = .inside (.done r) →
      Step prep C [] { C with owner := none, calls := setAt C.calls c (.leaving r) }
  /-- the response is sent -/
  | respond (C : S.Conc) (c : Nat) (r : S.Resp) : C.calls c = .leaving r →
      Step prep C [.ret c r] { C with calls := setAt C.calls c .finished }
  /-- the client has gone away before the call began: the request is dropped -/
  | dropWaiting (C : S.Conc) (c : Nat) (p : Body S.State S.Resp) : C.calls c = .waiting p →
      Step prep C [] { C with calls := setAt C.calls c .finished }
  /-- the client has gone away: the response is dropped -/
  | dropLeaving (C : S.Conc) (c : Nat) (r : S.Resp) : C.calls c = .leaving r →
      Step prep C [] { C with calls := setAt C.calls c .finished }

/-- Concurrent executions, with their history.
Not code: all interleavings of the handlers of `proto/src/server.rs:195-313`. -/
inductive Conc.Exec {S : Service} (prep : S.Env → S.Req → S.Resp ⊕ Body S.State S.Resp) : List S.SEv → S.Conc → Prop
  | nil : Exec prep [] (Conc.start S)
  | snoc {h e : List S.SEv} {C C' : S.Conc} : Exec prep h C → Conc.Step prep C e C' → Exec prep (h ++ e) C'

end Service

/-! ### The server's requests -/

/-- Requests to the server (`proto/indradb.proto:331-375`). -/
inductive ServerRequest where
  | ping
  | lib (req : Request)
  | plugin (m : PExecutePluginRequest)

/-- Its responses. `proto/src/server.rs:195-313`. -/
inductive ServerResponse where
  | pong
  | lib (r : Except Status Response)
  | plugin (r : Except Status PExecutePluginResponse)

section
variable (letter : Char → Bool) (J : JsonText)

/-- The first part of a handler: converting the request to a library call (`proto/src/server.rs:200-284`). -/
def Request.op : Request → Except Status Op
  | .sync => .ok .sync
  | .createVertex m => (mapConversionResult (m.conv letter)).map .createVertex
  | .createVertexFromType id m => (mapConversionResult (m.conv letter)).map (.createVertexFromType id)
  | .createEdge m => (mapConversionResult (m.conv letter)).map .createEdge
  | .get m => (mapConversionResult (m.conv letter J)).map .get
  | .delete m => (mapConversionResult (m.conv letter J)).map .delete
  | .setProperties m => (mapConversionResult (m.conv letter J)).map (fun p => .setProperties p.1 p.2.1 p.2.2)
  | .bulkInsert stream => (readItems letter J stream).map .bulkInsert
  | .indexProperty m => (mapConversionResult (m.conv letter)).map .indexProperty

/-- The last part: the response made from the outcome of the library call. `proto/src/server.rs:25-37, 195-285`. -/
def Request.respond : Request → Res Reply → Except Status Response
  | .get _, r => .ok (.stream (getStream J r))
  | .createVertex _, .ok (.bool b) => .ok (.created b)
  | .createEdge _, .ok (.bool b) => .ok (.created b)
  | .createVertexFromType _ _, .ok (.uuid u) => .ok (.uuid u.toProto)
  | _, .ok _ => .ok .empty
  | _, .error f => .error (.internal f)

/-- The argument of a plugin call, or why it fails before the plugin is run (`proto/src/server.rs:291-297, 309-311`). -/
def pluginToRun {ρ : Type} (entries : Entries (Json → ρ)) (m : PExecutePluginRequest) : Except Status ρ :=
  match (match m.arg with | some a => mapConversionResult (a.conv J) | none => .ok .null) with
  | .error st => .error st
  | .ok arg => match entries m.name with
    | none => .error .notFound
    | some plugin => .ok (plugin arg)

/-- The response to a plugin call (`proto/src/server.rs:300-308`). A panic of the plugin ends the task that serves the request; the client sees
its stream reset, for which tonic has a status `reset`. -/
def pluginResponse (describe : PluginError → String) (reset : Nat) : Res (Except PluginError Json) →
    Except Status PExecutePluginResponse
  | .ok (.ok v) => .ok ⟨some (v.toProto J)⟩
  | .ok (.error e) => .error (.plugin (describe e))
  | .error _ => .error (.other reset)

/-- A plugin in small steps. Run at `proto/src/server.rs:287-312`. -/
def pluginBody (b : Build) : PluginProg → (Nat → Finder × HashOrder) → Body MemDb (Res (Except PluginError Json))
  | .ret r, _ => .done (.ok r)
  | .panic, _ => .act (fun d => ⟨d.mem, true⟩) (fun _ => .done (.error .panic))
  | .read k, env => .act (fun d => d) (fun d => pluginBody b (k (Mem.reads (env 0).1 (env 0).2 d.mem)) (fun i => env (i + 1)))
  | .write c k, env => .act (fun d => match (Mem.txn (env 0).1 (env 0).2 b).call c d.mem with
        | (m, .error .panic) => ⟨m, true⟩
        | (m, _) => ⟨m, false⟩)
      (fun d => match ((Mem.txn (env 0).1 (env 0).2 b).call c d.mem).2 with
        | .ok a => pluginBody b (k (.ok a)) (fun i => env (i + 1))
        | .error (.err e) => pluginBody b (k (.error e)) (fun i => env (i + 1))
        | .error .panic => .done (.error .panic))

/-- Applies a function to the result. Not code: used for the handlers of `proto/src/server.rs:195-313`. -/
def Body.map {σ α β : Type} (f : α → β) : Body σ α → Body σ β
  | .done a => .done (f a)
  | .act g n => .act g (fun s => (n s).map f)

/-- What the handlers of the server on the memory datastore do before, and while, holding the mutex. `entries` are its plugins. The small steps of library calls are those of `Mem.body`.
`proto/src/server.rs:195-313`. -/
def memPrep (b : Build) (describe : PluginError → String) (reset : Nat) (entries : Entries (Json → PluginProg))
    (env : Nat → Finder × HashOrder) : ServerRequest → ServerResponse ⊕ Body MemDb ServerResponse
  | .ping => .inl .pong
  | .lib req => match req.op letter J with
    | .error st => .inl (.lib (.error st))
    | .ok op => .inr ((Mem.body (env 0).1 b (env 0).2 op).map (fun r => .lib (req.respond J r)))
  | .plugin m => match pluginToRun J entries m with
    | .error st => .inl (.plugin (.error st))
    | .ok p => .inr (.act (fun d => d) (fun d => if d.poisoned then .done (.plugin (pluginResponse J describe reset (.error .panic)))
        else (pluginBody b p env).map (fun r => .plugin (pluginResponse J describe reset r))))

end
end IndraDB
