import Verif.Model.Types
import Verif.Model.Json
/-
Model of `plugins/host/src/util.rs`: running a mapper over all vertices on a thread pool, and of the plugin
`plugins/naive_vertex_count/src/lib.rs`. A transition system: the calling thread and the workers interleave arbitrarily.
-/
namespace IndraDB

/-- `Error` of the plugin host (`plugins/host/src/errors.rs:10-21`); payloads that are opaque there are strings. -/
inductive PluginError where
  | json (msg : String) | indraDB (e : Error) | invalidArgument (msg : String) | other (msg : String)
deriving DecidableEq

namespace PluginMap

/-- How one call of `mapper.map` ends. The mapper is arbitrary code. `plugins/host/src/util.rs:17`. -/
inductive Outcome where
  | ok | err (e : PluginError) | panic
deriving DecidableEq

/-- A job a worker has taken from the queue: the mapper is running, or it has returned an error that is not yet recorded
in `first_err`. The closure given to the pool, `plugins/host/src/util.rs:36-48`. -/
inductive Job where
  | mapping (v : Vertex) | failed (v : Vertex) (e : PluginError)
deriving DecidableEq

/-- Where the calling thread is. `map`, `plugins/host/src/util.rs:25-70`. -/
inductive Phase where
  /-- at the head of the loop, line 32 -/
  | loop
  /-- has an item, before `pool.execute` or before recording its error (39-58) -/
  | holding (item : Except Error Vertex)
  /-- in `pool.join()`, line 62 -/
  | joining
  /-- has returned -/
  | returned (r : Except PluginError Unit)

/-- State: what the iterator still yields, the counter `i`, the queue of the pool, the jobs of the workers, `first_err`,
the phase of the caller, and (ghost) a log of all mapper calls that have ended.
The variables of `map`, `plugins/host/src/util.rs:25-70`. -/
structure St where
  todo : List (Except Error Vertex)
  i : Nat
  queue : List Vertex
  running : List Job
  firstErr : Option PluginError
  phase : Phase
  log : List (Vertex × Outcome)

/-- Start of the loop (`plugins/host/src/util.rs:26-32`). -/
def St.init (items : List (Except Error Vertex)) : St := ⟨items, 0, [], [], none, .loop, []⟩

/-- `if first_err.is_none() { *first_err = Some(err); }` (plugins/host/src/util.rs:44-46, 54-56). -/
def record (o : Option PluginError) (e : PluginError) : Option PluginError :=
  match o with
  | none => some e
  | some x => some x

/-- The steps. `n` is the number of workers. `plugins/host/src/util.rs:25-70`. -/
inductive Step (n : Nat) : St → St → Prop
  /-- lines 32-34: take the next item; every 1000th time look at `first_err`, under its lock -/
  | next {s x rest} : s.phase = .loop → s.todo = x :: rest → ¬ ((s.i + 1) % 1000 = 0 ∧ s.firstErr.isSome = true) →
      Step n s { s with todo := rest, i := s.i + 1, phase := .holding x }
  /-- line 37 -/
  | brk {s x rest} : s.phase = .loop → s.todo = x :: rest → (s.i + 1) % 1000 = 0 → s.firstErr.isSome = true →
      Step n s { s with todo := rest, i := s.i + 1, phase := .joining }
  /-- the iterator is exhausted -/
  | done {s} : s.phase = .loop → s.todo = [] → Step n s { s with phase := .joining }
  /-- line 44: `pool.execute` puts the job into the queue -/
  | push {s v} : s.phase = .holding (.ok v) → Step n s { s with queue := s.queue ++ [v], phase := .loop }
  /-- lines 53-58 -/
  | itemError {s e} : s.phase = .holding (.error e) →
      Step n s { s with firstErr := record s.firstErr (.indraDB e), phase := .loop }
  /-- an idle worker takes the next job from the queue -/
  | start {s v rest} : s.queue = v :: rest → s.running.length < n →
      Step n s { s with queue := rest, running := s.running ++ [.mapping v] }
  /-- the mapper returns `Ok` (line 45) -/
  | ok {s v a b} : s.running = a ++ .mapping v :: b →
      Step n s { s with running := a ++ b, log := s.log ++ [(v, .ok)] }
  /-- the mapper returns an error -/
  | err {s v e a b} : s.running = a ++ .mapping v :: b →
      Step n s { s with running := a ++ .failed v e :: b, log := s.log ++ [(v, .err e)] }
  /-- the worker records it under the lock (46-49) and is done -/
  | recordErr {s v e a b} : s.running = a ++ .failed v e :: b →
      Step n s { s with running := a ++ b, firstErr := record s.firstErr e }
  /-- the mapper panics: `threadpool` (1.8.1) replaces the worker; nothing is recorded -/
  | panic {s v a b} : s.running = a ++ .mapping v :: b →
      Step n s { s with running := a ++ b, log := s.log ++ [(v, .panic)] }
  /-- lines 62-69: `join` returns when the queue is empty and no worker is busy -/
  | join {s} : s.phase = .joining → s.queue = [] → s.running = [] →
      Step n s { s with phase := .returned (match s.firstErr with | some e => .error e | none => .ok ()) }

/-- Executions. Not code: several steps of `plugins/host/src/util.rs:25-70`. -/
inductive Steps (n : Nat) : St → St → Prop
  | refl {s} : Steps n s s
  | tail {s s' s''} : Steps n s s' → Step n s' s'' → Steps n s s''

/-- A complete call `map(txn, mapper)` with `numThreads` as the mapper reports it: `all` is what `all_vertices` gives, `log`
the mapper calls made, `r` the result. Lines plugins/host/src/util.rs:26-69. -/
inductive MapCall (numThreads : Nat) : Except Error (List (Except Error Vertex)) → List (Vertex × Outcome) →
    Except PluginError Unit → Prop
  | noIterator {e} : MapCall numThreads (.error e) [] (.error (.indraDB e))
  | ran {items s r} : Steps (max numThreads 1) (St.init items) s → s.phase = .returned r →
      MapCall numThreads (.ok items) s.log r

/-- `naive_vertex_count` (`plugins/naive_vertex_count/src/lib.rs:18-38`): the mapper adds one and returns `Ok`; the plugin returns the number of mapper
calls (an `AtomicU64`, which wraps around). -/
inductive NaiveCount : Except Error (List (Except Error Vertex)) → Except PluginError Json → Prop
  | ok {all log} : MapCall 8 all log (.ok ()) → (∀ p ∈ log, p.2 = .ok) →
      NaiveCount all (.ok (.num (.posInt (Fin.ofNat _ log.length))))
  | err {all log e} : MapCall 8 all log (.error e) → (∀ p ∈ log, p.2 = .ok) → NaiveCount all (.error e)

end PluginMap
end IndraDB
