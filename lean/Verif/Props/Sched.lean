import Verif.Model.RocksConc
import Verif.Props.Witness
/-
For examples: running a concurrent execution by its schedule.
-/
namespace IndraDB
deriving instance DecidableEq for Ev

namespace Rocks.Conc
open LockConc

/-- What happens next: a call is made, or a call makes a step. -/
inductive Act where
  | call (c : Nat) (op : Op)
  | step (c : Nat)

/-- One step. -/
def act (X : Cfg) (S : Conc) : Act → Option (List Ev × Conc)
  | .call c op => match S.calls c with
    | .unused => some ([.call c op], { S with calls := setAt S.calls c (.running (callProg X .sorted op)) })
    | _ => none
  | .step c => match S.calls c with
    | .running (.get cf k n) => some ([], { S with calls := setAt S.calls c (.running (n ((S.db.kv cf).get k))) })
    | .running (.scan cf lo n) =>
      some ([], { S with calls := setAt S.calls c (.running (n (((S.db.kv cf).rangeFrom lo).map .ok))) })
    | .running (.write b n) =>
      some ([], { S with db := { S.db with kv := S.db.kv.write b }, log := S.log ++ [(c, b)],
                         calls := setAt S.calls c (.running (n ())) })
    | .running (.readLock held n) => if S.writer = none then
        some ([], { S with readers := if held then c :: S.readers else S.readers,
                           calls := setAt S.calls c (.running (n S.db.indexed)) })
      else none
    | .running (.writeLock n) => if S.writer = none ∧ S.readers = [] then
        some ([], { S with writer := some c, calls := setAt S.calls c (.running (n S.db.indexed)) })
      else none
    | .running (.setIndexed ix n) =>
      some ([], { S with db := { S.db with indexed := ix }, calls := setAt S.calls c (.running (n ())) })
    | .running (.done r) =>
      if S.writer = some c then some ([], { S with writer := none })
      else if c ∈ S.readers then some ([], { S with readers := S.readers.filter (· ≠ c) })
      else some ([.ret c r], { S with calls := setAt S.calls c .finished })
    | _ => none

/-- A schedule. -/
def acts (X : Cfg) : List Act → Conc → Option (List Ev × Conc)
  | [], S => some ([], S)
  | a :: l, S => match act X S a with
    | none => none
    | some (e, S') => (acts X l S').map (fun r => (e ++ r.1, r.2))

variable {X : Cfg}

theorem act_step {S S' : Conc} {a : Act} {e : List Ev} (h : act X S a = some (e, S')) : Step X S e S' := by
  cases a with
  | call c op =>
    simp only [act] at h
    split at h
    · next hc => cases h; exact .call S c .sorted op hc
    · cases h
  | step c =>
    simp only [act] at h
    split at h
    · next hc => cases h; exact .get S c _ _ _ hc
    · next hc => cases h; exact .scan S c _ _ _ hc
    · next hc => cases h; exact .write S c _ _ hc
    · next hc =>
      split at h
      · next hw => cases h; exact .readLock S c _ _ hc hw
      · cases h
    · next hc =>
      split at h
      · next hw => cases h; exact .writeLock S c _ hc hw.1 hw.2
      · cases h
    · next hc => cases h; exact .setIndexed S c _ _ hc
    · next hc =>
      split at h
      · next hw => cases h; exact .unlock S c _ hc hw
      · next hw =>
        split at h
        · next hr => cases h; exact .unlockRead S c _ hc hr
        · next hr => cases h; exact .ret S c _ hc hw hr
    · cases h

theorem acts_exec {s : Rocks} : ∀ (l : List Act) {h h' : List Ev} {S S' : Conc}, Exec X s h S → acts X l S = some (h', S') →
    Exec X s (h ++ h') S' := by
  intro l
  induction l with
  | nil => intro h h' S S' e ha; cases ha; rw [List.append_nil]; exact e
  | cons a l ih =>
    intro h h' S S' e ha
    simp only [acts] at ha
    split at ha
    · cases ha
    · next ev S1 h1 =>
      obtain ⟨⟨h2, S2⟩, h3, h4⟩ := Option.map_eq_some_iff.1 ha
      cases h4
      rw [← List.append_assoc]
      exact ih (e.snoc (act_step h1)) h3

/-- The schedule gives an execution with this history. -/
theorem Exec.scheduled {s : Rocks} (l : List Act) (h : List Ev) (P : Conc → Bool)
    (hd : (acts X l (.init s)).map (fun r => (decide (r.1 = h), P r.2)) = some (true, true)) :
    ∃ S, Exec X s h S ∧ P S = true := by
  obtain ⟨⟨h', S⟩, h1, h2⟩ := Option.map_eq_some_iff.1 hd
  simp only [Prod.mk.injEq, decide_eq_true_eq] at h2
  obtain ⟨rfl, hp⟩ := h2
  exact ⟨S, by simpa using acts_exec l (.nil (X := X) (s := s)) h1, hp⟩

end Rocks.Conc
end IndraDB
