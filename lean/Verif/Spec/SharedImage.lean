import Verif.Model.SharedImage
import Verif.Spec.ServerMain
/-
What several servers that share an image file may do, in terms of histories of calls: that of each server, and the one saved.
-/
namespace IndraDB

/-- A server, as seen from outside: looking whether there is a file (and whether it saw one); serving, with the calls that made
its database; or in a `sync`, with those calls and whether they are saved already. -/
inductive SharerState where
  | looking (found : Bool)
  | serving (c : List (HashOrder × Op))
  | saving (c : List (HashOrder × Op)) (done : Bool)

/-- The calls saved in the file (`none`: there is no file yet), and the servers. -/
structure Sharers where
  saved : Option (List (HashOrder × Op))
  server : Nat → Option SharerState

/-- Server `i` changes. -/
def Sharers.set (s : Sharers) (i : Nat) (x : Option SharerState) : Sharers :=
  { s with server := fun j => if j = i then x else s.server j }

/-- What may be seen, and how histories evolve. A server starts with what is saved at some moment of its start (with nothing, if
there was no file when it looked); none is ever refused. Its calls are answered as by a database on which exactly the calls of
its history were made. At one moment of a `sync` that returns `Ok`, and at no moment of one that does not, exactly the calls of
its server are saved, in place of whatever was saved before by whichever server. Being killed changes nothing that is saved. -/
inductive Sharers.Step (ans : List (HashOrder × Op) → HashOrder → Op → Res Reply) : Sharers → SharedEv → Sharers → Prop
  | look (s i) : s.server i = none → Step ans s (.look i) (s.set i (some (.looking s.saved.isSome)))
  | startSaved (s : Sharers) (i c) : s.server i = some (.looking true) → s.saved = some c →
      Step ans s (.started i) (s.set i (some (.serving c)))
  | startNew (s i) : s.server i = some (.looking false) → Step ans s (.started i) (s.set i (some (.serving [])))
  | call (s i c O op) : s.server i = some (.serving c) → Step ans s (.call i O op (ans c O op)) (s.set i (some (.serving (c ++ [(O, op)]))))
  | sync (s i c Q io) : s.server i = some (.serving c) → ¬ Panicked ans c →
      Step ans s (.sync i Q io) (s.set i (some (.saving c false)))
  | syncPanics (s i c) : s.server i = some (.serving c) → Panicked ans c → Step ans s (.syncPanics i) s
  | silent (s i c d) : s.server i = some (.saving c d) → Step ans s (.sys i) s
  | save (s i c) : s.server i = some (.saving c false) →
      Step ans s (.sys i) ({ s with saved := some c }.set i (some (.saving c true)))
  | synced (s i c) : s.server i = some (.saving c true) → Step ans s (.synced i (.ok ())) (s.set i (some (.serving c)))
  | notSynced (s i c f) : s.server i = some (.saving c false) → Step ans s (.synced i (.error f)) (s.set i (some (.serving c)))
  | kill (s i x) : s.server i = some x → Step ans s (.kill i) (s.set i none)
  | killWriting (s i x cut) : s.server i = some x → Step ans s (.killWriting i cut) (s.set i none)

/-- A sequence of events. -/
inductive Sharers.Run (ans : List (HashOrder × Op) → HashOrder → Op → Res Reply) : Sharers → List SharedEv → Sharers → Prop
  | nil (s) : Run ans s [] s
  | snoc {s s' s'' evs e} : Run ans s evs s' → Step ans s' e s'' → Run ans s (evs ++ [e]) s''

/-- Executions of the processes, with an environment in which the temporary file of a `sync` is not the target, no write of its
final flush fails, and the image can be read back (`SyncSane`). -/
inductive SharedWorld.Run (F : Finder) (b : Build) (C : ImageCodec) (p : Path) :
    SharedWorld → List SharedEv → SharedWorld → Prop
  | nil (w : SharedWorld) : Run F b C p w [] w
  | snoc {w w' w'' : SharedWorld} {evs : List SharedEv} {e : SharedEv} : Run F b C p w evs w' → Step F b C p w' e w'' →
      (∀ i Q io h, e = .sync i Q io → w'.procs i = some (.running h) → SyncSane C p h Q io) → Run F b C p w (evs ++ [e]) w''

end IndraDB
