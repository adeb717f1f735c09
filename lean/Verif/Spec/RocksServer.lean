import Verif.Model.RocksServer
import Verif.Spec.AppMoments
import Verif.Spec.AppNames
import Verif.Spec.RocksApp
import Verif.Proofs.RocksStore
/-
Notions used in the statements about the server on the RocksDB datastore.
-/
namespace IndraDB

/-- All calls the handler can make satisfy `ok`. -/
def Handler.Within (ok : Access → Prop) : Handler → Prop
  | .ret _ => True
  | .call a k _ => ok a ∧ ∀ r, (k r).Within ok

namespace Rocks

/-- All calls that the handlers of the requests can make satisfy `ok`. -/
def OkRequests (ok : Access → Prop) (prep : ServerRequest → ServerResponse ⊕ Handler) (h : List SrvEv) : Prop :=
  ∀ c req t, SrvEv.call c req ∈ h → prep req = .inr t → t.Within ok

/-- All calls that the handlers of the requests of `h ++ e` that have not been answered in `h` can make satisfy `ok`. -/
def OkOpen (ok : Access → Prop) (prep : ServerRequest → ServerResponse ⊕ Handler) (h e : List SrvEv) : Prop :=
  ∀ c req t, SrvEv.call c req ∈ h ++ e → (∀ r, SrvEv.ret c r ∉ h) → prep req = .inr t → t.Within ok

namespace Srv

/-- From `A` on, steps with history `h` lead to `S`. -/
inductive From (X : Cfg) (io : Bool) (prep : ServerRequest → ServerResponse ⊕ Handler) (A : Srv) : List SrvEv → Srv → Prop
  | nil : From X io prep A [] A
  | snoc {h e : List SrvEv} {S S' : Srv} : From X io prep A h S → Step X io prep S e S' → From X io prep A (h ++ e) S'

/-- The same; the states of the database at `A` and after each step are `l`. -/
inductive Through (X : Cfg) (io : Bool) (prep : ServerRequest → ServerResponse ⊕ Handler) (A : Srv) : List SrvEv → List Rocks → Srv → Prop
  | nil : Through X io prep A [] [A.app.db] A
  | snoc {h e : List SrvEv} {l : List Rocks} {S S' : Srv} : Through X io prep A h l S → Step X io prep S e S' →
      Through X io prep A (h ++ e) (l ++ [S'.app.db]) S'

/-- The same, but nobody except request `c` changes the database: it changes only in steps of the task of `c`. -/
inductive Undisturbed (X : Cfg) (io : Bool) (prep : ServerRequest → ServerResponse ⊕ Handler) (c : Nat) (A : Srv) : List SrvEv → Srv → Prop
  | nil : Undisturbed X io prep c A [] A
  | snoc {h e : List SrvEv} {S S' : Srv} : Undisturbed X io prep c A h S → Step X io prep S e S' →
      (S'.app.tasks c = S.app.tasks c → S'.app.db = S.app.db) → Undisturbed X io prep c A (h ++ e) S'

/-- What is seen of the server so far, and its state. -/
abbrev View := List SrvEv × Srv

/-- A step of the requests that have arrived already, in which no request of a client that `stays` is dropped. I/O errors may occur. If
`polite`, nobody gets the read lock on the set of indexed names while someone waits for the write lock. -/
def Moves (X : Cfg) (polite : Bool) (prep : ServerRequest → ServerResponse ⊕ Handler) (stays : Nat → Prop) (v v' : View) : Prop :=
  ∃ e, Step X true prep v.2 e v'.2 ∧ v'.1 = v.1 ++ e ∧ (∀ c req, SrvEv.call c req ∉ e) ∧
    (∀ c, stays c → v.2.reqs c ≠ .finished → v'.2.reqs c = .finished → ∃ r, SrvEv.ret c r ∈ e) ∧
    (polite = true → App.GetsRead v.2.app v'.2.app → ¬ App.WriterWaits v.2.app)

end Srv

/-- An `index_property(n)` request has been answered with success. -/
def IndexedFor (letter : Char → Bool) (h : List SrvEv) (n : Identifier) : Prop :=
  ∃ c m, SrvEv.call c (.lib (.indexProperty m)) ∈ h ∧ m.conv letter = .ok n ∧ SrvEv.ret c (.lib (.ok .empty)) ∈ h

end Rocks

/-- The library errors (or panics) a response reports. -/
def Response.faults : Except Status Response → List Fault
  | .error (.internal f) => [f]
  | .ok (.stream l) => l.filterMap (fun i => match i with | .error (.internal f) => some f | _ => none)
  | _ => []

/-- A plugin alone on a RocksDB database: its calls do one after the other what the sequential model says. -/
def PluginTask.run (X : Cfg) : PluginTask → (Nat → IdentOrder) → Rocks → Rocks × Res (Except PluginError Json)
  | .ret r, _, s => (s, .ok r)
  | .panic, _, s => (s, .error .panic)
  | .call a k, O, s => match (Rocks.txn X (O 0)).access a s with
    | (s', .ok x) => (k (.ok x)).run X (fun i => O (i + 1)) s'
    | (s', .error (.err e)) => (k (.error e)).run X (fun i => O (i + 1)) s'
    | (s', .error .panic) => (s', .error .panic)

/-- The plugin returns `x` (or panics) if what its calls return is as `L` says. -/
inductive PluginTask.Got (L : Access → Except Error Answer → Prop) : PluginTask → Res (Except PluginError Json) → Prop
  | ret (r) : Got L (.ret r) (.ok r)
  | panic : Got L .panic (.error .panic)
  | call {a k r x} : L a r → Got L (k r) x → Got L (.call a k) x

/-- The server on a RocksDB database, one request at a time: library calls are handled as in `Model/Server`. -/
def rocksServed (X : Cfg) (letter : Char → Bool) (J : JsonText) (describe : PluginError → String) (reset : Nat)
    (entries : Entries (Json → PluginTask)) (O : Nat → IdentOrder) (req : ServerRequest) (s : Rocks) : Rocks × ServerResponse :=
  match req with
  | .ping => (s, .pong)
  | .lib req => (((rocksStore X).handle letter J (O 0) req s).1, .lib ((rocksStore X).handle letter J (O 0) req s).2)
  | .plugin m => match pluginToRun J entries m with
    | .error st => (s, .plugin (.error st))
    | .ok p => ((p.run X O s).1, .plugin (pluginResponse J describe reset (p.run X O s).2))

end IndraDB
