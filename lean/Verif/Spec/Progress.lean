import Verif.Model.RocksFaults
/-
Progress of concurrent calls.
-/
namespace IndraDB

/-- Any number of steps of `r`. -/
inductive Star {α : Type} (r : α → α → Prop) : α → α → Prop
  | refl (a) : Star r a a
  | tail {a b c} : Star r a b → r b c → Star r a c

/-- Starting from `a`, steps of `r` lead to a situation with `done`, whatever steps are chosen: there is no endless sequence
of steps, and where no step is possible, `done` holds. -/
def Inevitably {α : Type} (r : α → α → Prop) (a : α) (done : α → Prop) : Prop :=
  (¬ ∃ f : Nat → α, f 0 = a ∧ ∀ i, r (f i) (f (i + 1))) ∧
  ∀ b, Star r a b → (∀ c, ¬ r b c) → done b

/-- A step of the calls on the memory datastore that have been made already. -/
def LockConc.Moves {σ Env : Type} (body : Env → Op → Body σ (Res Reply)) (S S' : LockConc σ) : Prop :=
  ∃ e, LockConc.Step body S e S' ∧ ∀ c op, Ev.call c op ∉ e

/-- No call is under way: each was not made or has returned. -/
def LockConc.AllReturned {σ : Type} (S : LockConc σ) : Prop := ∀ c, S.calls c = .unused ∨ S.calls c = .finished

namespace Rocks.Conc

/-- A call is waiting for the write lock. -/
def WriterWaits (S : Conc) : Prop := ∃ c n, S.calls c = .running (.writeLock n)

/-- In the step from `S` to `S'` a call gets the read lock. -/
def GetsRead (S S' : Conc) : Prop := ∃ c held n, S.calls c = .running (.readLock held n) ∧
  S'.calls = setAt S.calls c (.running (n S.db.indexed))

/-- A step of the calls on the RocksDB datastore that have been made already. If `polite`, nobody gets the read lock while
someone waits for the write lock (implementations of `RwLock` differ in this). -/
def Moves (X : Cfg) (polite : Bool) (S S' : Conc) : Prop :=
  ∃ e, Step X S e S' ∧ (∀ c op, Ev.call c op ∉ e) ∧ (polite = true → GetsRead S S' → ¬ WriterWaits S)

/-- The same if I/O errors may occur. -/
def FaultyMoves (X : Cfg) (polite : Bool) (S S' : Conc) : Prop :=
  ∃ e, FaultyStep X S e S' ∧ (∀ c op, Ev.call c op ∉ e) ∧ (polite = true → GetsRead S S' → ¬ WriterWaits S)

/-- No call is under way. -/
def AllReturned (S : Conc) : Prop := ∀ c, S.calls c = .unused ∨ S.calls c = .finished

end Rocks.Conc
end IndraDB
