import Verif.Model.ServerMain
/-
What the life of a persistent server should look like: a saved history of calls and the history of the running server.
-/
namespace IndraDB

/-- The environment of a life: the `sync`s write the image of the database, the temporary file is not the target, no
write of the final flush fails, and the image can be read back. -/
def SyncSane (C : ImageCodec) (p : Path) (h : MemHandle) (Q : ImageOrder) (io : SyncIo) : Prop :=
  io.temp ≠ p ∧ io.tailFail = none ∧ io.Writes (C.enc (h.db.mem.image Q)) ∧
    C.dec (C.enc (h.db.mem.image Q)) = some (h.db.mem.image Q)

/-- Events that can happen, with a sane environment. -/
def World.Sane (K : HashEq) (b : Build) (C : ImageCodec) (p : Path) : List ServerEv → World → Prop
  | [], _ => True
  | e :: r, w =>
    (match e, w.proc with
      | .start, none => True
      | .call _ op Q io, some h => op = .sync → SyncSane C p h Q io
      | .kill, some _ => True
      | .killInSync Q io _ _, some h => h.db.poisoned = false ∧ SyncSane C p h Q io
      | _, _ => False) ∧
    World.Sane K b C p r (w.step K b C (some p) e).1

/-- The calls saved in the file, and the calls that made the database of the running server (if there is one). -/
structure Durable where
  saved : List (HashOrder × Op)
  running : Option (List (HashOrder × Op))

/-- Some call of the history panicked. -/
def Panicked (ans : List (HashOrder × Op) → HashOrder → Op → Res Reply) (c : List (HashOrder × Op)) : Prop :=
  ∃ before O op after, c = before ++ (O, op) :: after ∧ ans before O op = .error .panic

/-- An I/O error is reported to the program: the temporary file cannot be created or written, or not renamed. -/
def SyncIo.Fails (io : SyncIo) : Prop := io.createOk = false ∨ io.headFail ≠ none ∨ io.renameOk = false

/-- What may be seen, and how histories evolve. `ans c O op`: the reply to `op` of a database on which exactly the calls
`c` were made. A server starts with what is saved; calls are answered as by a database on which exactly the calls of its
history were made; `sync` saves the history if it succeeds and only then, and it succeeds unless there is an I/O error or
a call has panicked; being killed loses what is not saved; being killed during a `sync` saves all or nothing. -/
inductive Durable.Step (ans : List (HashOrder × Op) → HashOrder → Op → Res Reply) :
    Durable → ServerEv → ServerSeen → Durable → Prop
  | start (s) : Step ans ⟨s, none⟩ .start .started ⟨s, some s⟩
  | call (s c O op Q io) (h : op ≠ .sync) :
      Step ans ⟨s, some c⟩ (.call O op Q io) (.reply (ans c O op)) ⟨s, some (c ++ [(O, op)])⟩
  | saved (s c O Q io) (h : ¬ io.Fails) (hp : ¬ Panicked ans c) :
      Step ans ⟨s, some c⟩ (.call O .sync Q io) (.reply (.ok .unit)) ⟨c, some c⟩
  | notSaved (s c O Q io f) (h : io.Fails ∨ Panicked ans c) :
      Step ans ⟨s, some c⟩ (.call O .sync Q io) (.reply (.error f)) ⟨s, some c⟩
  | kill (s c) : Step ans ⟨s, some c⟩ .kill .died ⟨s, none⟩
  | killedOld (s c Q io k cut) : Step ans ⟨s, some c⟩ (.killInSync Q io k cut) .died ⟨s, none⟩
  | killedNew (s c Q io k cut) : Step ans ⟨s, some c⟩ (.killInSync Q io k cut) .died ⟨c, none⟩

/-- A sequence of events and what is seen. -/
inductive Durable.Run (ans : List (HashOrder × Op) → HashOrder → Op → Res Reply) :
    Durable → List ServerEv → List ServerSeen → Durable → Prop
  | nil (d) : Run ans d [] [] d
  | cons {d e o d' r s d''} (h : Step ans d e o d') (hr : Run ans d' r s d'') : Run ans d (e :: r) (o :: s) d''

end IndraDB
