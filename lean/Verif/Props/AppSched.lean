import Verif.Proofs.RocksApp
import Verif.Props.Rocks
/-
For examples: running an execution of a process that uses a RocksDB datastore by its schedule.
-/
namespace IndraDB
namespace Rocks.App

/-- What happens next: a task is started; a task makes a step (if `fail = some i`, and it accesses the database, with an I/O error,
for an iterator after `i` entries). -/
inductive Act where
  | start (c : Nat) (t : Task)
  | step (c : Nat) (fail : Option Nat := none)

/-- One step. -/
def act (X : Cfg) (S : App) : Act → Option (List AppEv × App)
  | .start c t => match S.tasks c with
    | .unused => some ([.start c t], { S with tasks := setAt S.tasks c (.between t) })
    | _ => none
  | .step c fail => match S.tasks c with
    | .between .ret => some ([.stop c], { S with tasks := setAt S.tasks c .finished })
    | .between .panic => some ([.stop c], { S with tasks := setAt S.tasks c .finished })
    | .between (.call a k) => some ([.enter c a], { S with tasks := setAt S.tasks c (.inside a (accessProg X .sorted a) k) })
    | .inside a (.get cf b n) k => match fail with
      | none => some ([], { S with tasks := setAt S.tasks c (.inside a (n ((S.db.kv cf).get b)) k) })
      | some _ => some ([], { S with tasks := setAt S.tasks c (.inside a (.done (.error ioFault)) k) })
    | .inside a (.scan cf lo n) k => match fail with
      | none => some ([], { S with tasks := setAt S.tasks c (.inside a (n (((S.db.kv cf).rangeFrom lo).map .ok)) k) })
      | some i => some ([],
          { S with tasks := setAt S.tasks c (.inside a (n ((((S.db.kv cf).rangeFrom lo).take i).map .ok ++ [.error ioFault])) k) })
    | .inside a (.write b n) k => match fail with
      | none => some ([], { S with db := { S.db with kv := S.db.kv.write b }, log := S.log ++ [(c, b)],
                                   tasks := setAt S.tasks c (.inside a (n ()) k) })
      | some _ => some ([], { S with tasks := setAt S.tasks c (.inside a (.done (.error ioFault)) k) })
    | .inside a (.readLock held n) k => if S.writer = none then
        some ([], { S with readers := if held then c :: S.readers else S.readers,
                           tasks := setAt S.tasks c (.inside a (n S.db.indexed) k) })
      else none
    | .inside a (.writeLock n) k => if S.writer = none ∧ S.readers = [] then
        some ([], { S with writer := some c, tasks := setAt S.tasks c (.inside a (n S.db.indexed) k) })
      else none
    | .inside a (.setIndexed ix n) k =>
      some ([], { S with db := { S.db with indexed := ix }, tasks := setAt S.tasks c (.inside a (n ()) k) })
    | .inside a (.done r) k =>
      if S.writer = some c then some ([], { S with writer := none })
      else if c ∈ S.readers then some ([], { S with readers := S.readers.filter (· ≠ c) })
      else some ([.leave c a r], { S with tasks := setAt S.tasks c (after k r) })
    | _ => none

/-- A schedule. -/
def acts (X : Cfg) : List Act → App → Option (List AppEv × App)
  | [], S => some ([], S)
  | a :: l, S => match act X S a with
    | none => none
    | some (e, S') => (acts X l S').map (fun r => (e ++ r.1, r.2))

variable {X : Cfg}

/-- No I/O error. -/
def Act.calm : Act → Bool
  | .start _ _ => true
  | .step _ fail => fail.isNone

theorem act_step {io : Bool} {S S' : App} {a : Act} {e : List AppEv} (h : act X S a = some (e, S')) (hio : io = true ∨ a.calm = true) :
    Step X io S e S' := by
  cases a with
  | start c t =>
    simp only [act] at h
    split at h
    · next hc => cases h; exact .start S c t hc
    · cases h
  | step c fail =>
    simp only [act] at h
    split at h
    · next hc => cases h; exact .stop S c _ hc (.inl rfl)
    · next hc => cases h; exact .stop S c _ hc (.inr rfl)
    · next hc => cases h; exact .enter S c .sorted _ _ hc
    · next hc =>
      split at h
      · cases h; exact .get S c _ _ _ _ _ hc
      · cases h; exact .getFails S c _ _ _ _ _ (hio.resolve_right (by simp [Act.calm])) hc
    · next hc =>
      split at h
      · cases h; exact .scan S c _ _ _ _ _ hc
      · cases h; exact .scanFails S c _ _ _ _ _ _ (hio.resolve_right (by simp [Act.calm])) hc
    · next hc =>
      split at h
      · cases h; exact .write S c _ _ _ _ hc
      · cases h; exact .writeFails S c _ _ _ _ (hio.resolve_right (by simp [Act.calm])) hc
    · next hc =>
      split at h
      · next hw => cases h; exact .readLock S c _ _ _ _ hc hw
      · cases h
    · next hc =>
      split at h
      · next hw => cases h; exact .writeLock S c _ _ _ hc hw.1 hw.2
      · cases h
    · next hc => cases h; exact .setIndexed S c _ _ _ _ hc
    · next hc =>
      split at h
      · next hw => cases h; exact .unlock S c _ _ _ hc hw
      · next hw =>
        split at h
        · next hr => cases h; exact .unlockRead S c _ _ _ hc hr
        · next hr => cases h; exact .leave S c _ _ _ hc hw hr
    · cases h

theorem acts_exec {io : Bool} {s : Rocks} : ∀ (l : List Act) {h h' : List AppEv} {S S' : App}, Exec X io s h S → acts X l S = some (h', S') →
    (io = true ∨ l.all Act.calm = true) → Exec X io s (h ++ h') S' := by
  intro l
  induction l with
  | nil => intro h h' S S' e ha _; cases ha; rw [List.append_nil]; exact e
  | cons a l ih =>
    intro h h' S S' e ha hio
    simp only [acts] at ha
    split at ha
    · cases ha
    · next ev S1 h1 =>
      obtain ⟨⟨h2, S2⟩, h3, h4⟩ := Option.map_eq_some_iff.1 ha
      cases h4
      rw [← List.append_assoc]
      have hio' : io = true ∨ (a.calm = true ∧ l.all Act.calm = true) := by
        rcases hio with h | h
        · exact .inl h
        · simp only [List.all_cons, Bool.and_eq_true] at h; exact .inr h
      exact ih (e.snoc (act_step h1 (hio'.imp_right And.left))) h3 (hio'.imp_right And.right)

/-- The schedule gives an execution satisfying `P`. -/
theorem Exec.scheduled {s : Rocks} (l : List Act) (P : List AppEv → App → Bool)
    (hd : (acts X l (.init s)).map (fun r => P r.1 r.2) = some true) : ∃ h S, Exec X true s h S ∧ P h S = true := by
  obtain ⟨⟨h', S⟩, h1, h2⟩ := Option.map_eq_some_iff.1 hd
  exact ⟨h', S, by simpa using acts_exec l (.nil (X := X) (s := s)) h1 (.inl rfl), h2⟩

/-- A schedule without I/O errors. -/
theorem Exec.scheduled_calm {s : Rocks} (l : List Act) (P : List AppEv → App → Bool) (hc : l.all Act.calm = true)
    (hd : (acts X l (.init s)).map (fun r => P r.1 r.2) = some true) : ∃ h S, Exec X false s h S ∧ P h S = true := by
  obtain ⟨⟨h', S⟩, h1, h2⟩ := Option.map_eq_some_iff.1 hd
  exact ⟨h', S, by simpa using acts_exec l (.nil (X := X) (s := s)) h1 (.inr hc), h2⟩

end Rocks.App

def W.knownItem : BulkInsertItem → Bool
  | .vertexProperty _ _ v => decide (v ∈ W.values)
  | .edgeProperty _ _ v => decide (v ∈ W.values)
  | _ => true

/-- The values a call writes are in `W.values`. -/
def W.known : Access → Bool
  | .lib (.setProperties _ _ v) => decide (v ∈ W.values)
  | .lib (.bulkInsert l) => l.all W.knownItem
  | .write (.setVertexProperties _ _ v) => decide (v ∈ W.values)
  | .write (.setEdgeProperties _ _ v) => decide (v ∈ W.values)
  | .write (.bulkInsert l) => l.all W.knownItem
  | _ => true

/-- All calls made write values of `W.values`. -/
def W.knownAll (h : List Rocks.AppEv) : Bool := h.all (fun e => match e with
  | .enter _ a => W.known a
  | _ => true)

theorem W.known_ok {a : Access} (h : W.known a = true) : a.ValuesOk (· ∈ W.values) := by
  have items : ∀ l : List BulkInsertItem, l.all W.knownItem = true → ∀ i ∈ l, i.Values (· ∈ W.values) := by
    intro l hl i hi
    have := List.all_eq_true.1 hl i hi
    cases i with
    | vertexProperty id n v => exact of_decide_eq_true (p := v ∈ W.values) this
    | edgeProperty e n v => exact of_decide_eq_true (p := v ∈ W.values) this
    | _ => trivial
  cases a with
  | lib op =>
    cases op with
    | setProperties q n v => exact of_decide_eq_true (p := v ∈ W.values) h
    | bulkInsert l => exact items l h
    | _ => trivial
  | write w =>
    cases w with
    | setVertexProperties q n v => exact of_decide_eq_true (p := v ∈ W.values) h
    | setEdgeProperties q n v => exact of_decide_eq_true (p := v ∈ W.values) h
    | bulkInsert l => exact items l h
    | _ => trivial
  | _ => trivial

theorem W.knownAll_ok {h : List Rocks.AppEv} (hk : W.knownAll h = true) : Rocks.OkEnters (Access.ValuesOk (· ∈ W.values)) h :=
  fun c a ha => W.known_ok (List.all_eq_true.1 hk (.enter c a) ha)

end IndraDB
