import Verif.Spec.ServerMain
import Verif.Spec.Msgpack
import Verif.Spec.Server
/-
What the life of a persistent server looks like if anything can go wrong with its file, in terms of the bytes written.
-/
namespace IndraDB

/-- The calls saved in the file (`none`: the file is damaged), and those that made the database of the running server. -/
structure Kept where
  saved : Option (List (HashOrder × Op))
  running : Option (List (HashOrder × Op))

/-- What may be seen, and how histories evolve. As `Durable.Step`, but the last bytes of the image may get lost without
anybody noticing (`io.tailFail`). The file is damaged then, and the server does not start again. It never starts with
anything but a history that was saved. -/
inductive Kept.Step (ans : List (HashOrder × Op) → HashOrder → Op → Res Reply) : Kept → ServerEv → ServerSeen → Kept → Prop
  | start (s) : Step ans ⟨some s, none⟩ .start .started ⟨some s, some s⟩
  | refused : Step ans ⟨none, none⟩ .start .refused ⟨none, none⟩
  | call (s c O op Q io) (h : op ≠ .sync) :
      Step ans ⟨s, some c⟩ (.call O op Q io) (.reply (ans c O op)) ⟨s, some (c ++ [(O, op)])⟩
  | saved (s c O Q io) (h : ¬ io.Fails) (hp : ¬ Panicked ans c) :
      Step ans ⟨s, some c⟩ (.call O .sync Q io) (.reply (.ok .unit)) ⟨some c, some c⟩
  | torn (s c O Q io) (h : ¬ io.Fails) (hp : ¬ Panicked ans c) (ht : io.tailFail ≠ none) :
      Step ans ⟨s, some c⟩ (.call O .sync Q io) (.reply (.ok .unit)) ⟨none, some c⟩
  | notSaved (s c O Q io f) (h : io.Fails ∨ Panicked ans c) :
      Step ans ⟨s, some c⟩ (.call O .sync Q io) (.reply (.error f)) ⟨s, some c⟩
  | kill (s c) : Step ans ⟨s, some c⟩ .kill .died ⟨s, none⟩
  | killedOld (s c Q io k cut) : Step ans ⟨s, some c⟩ (.killInSync Q io k cut) .died ⟨s, none⟩
  | killedNew (s c Q io k cut) : Step ans ⟨s, some c⟩ (.killInSync Q io k cut) .died ⟨some c, none⟩
  | killedTorn (s c Q io k cut) (ht : io.tailFail ≠ none) : Step ans ⟨s, some c⟩ (.killInSync Q io k cut) .died ⟨none, none⟩

/-- A sequence of events and what is seen. -/
inductive Kept.Run (ans : List (HashOrder × Op) → HashOrder → Op → Res Reply) :
    Kept → List ServerEv → List ServerSeen → Kept → Prop
  | nil (d) : Run ans d [] [] d
  | cons {d e o d' r s d''} (h : Step ans d e o d') (hr : Run ans d' r s d'') : Run ans d (e :: r) (o :: s) d''

/-- The bytes given to the writer are those of the image, which has less than 4 GiB; the temporary file is not the target. -/
def SyncBytes (C : ImageCodec) (p : Path) (h : MemHandle) (Q : ImageOrder) (io : SyncIo) : Prop :=
  io.temp ≠ p ∧ io.Writes (C.enc (h.db.mem.image Q)) ∧ (C.enc (h.db.mem.image Q)).length < 4294967296

/-- Events that can happen, calls with identifiers satisfying `I` and values satisfying `V`. -/
def World.Clean (I : Identifier → Prop) (V : Json → Prop) (K : HashEq) (b : Build) (C : ImageCodec) (p : Path) :
    List ServerEv → World → Prop
  | [], _ => True
  | e :: r, w =>
    (match e, w.proc with
      | .start, none => True
      | .call _ op Q io, some h => op.All I V ∧ (op = .sync → SyncBytes C p h Q io)
      | .kill, some _ => True
      | .killInSync Q io _ _, some h => h.db.poisoned = false ∧ SyncBytes C p h Q io
      | _, _ => False) ∧
    World.Clean I V K b C p r (w.step K b C (some p) e).1

end IndraDB
