import Verif.Proofs.Cut
import Verif.Model.RocksServer
import Verif.Proofs.RocksServer
/-
Executions with values that cannot be read: they look like executions of a database that can read them and meets I/O errors.
-/
namespace IndraDB
namespace Rocks
open Prog
variable {X : Cfg} {d : Bytes → Option Json}

/-- A cut of the entries of an iterator is what it yields if it fails. -/
theorem cut_list {l : List (Bytes × Bytes)} {g : DynIter (Bytes × Bytes)}
    (h : g = l.map .ok ∨ (true = true ∧ ∃ i, i < (l.map Except.ok : DynIter (Bytes × Bytes)).length ∧
      g = (l.map .ok).take i ++ [.error ioFault])) :
    g = l.map .ok ∨ ∃ i, g = (l.take i).map .ok ++ [.error ioFault] := by
  rcases h with h | ⟨_, i, _, h⟩
  · exact .inl h
  · exact .inr ⟨i, by rw [h, List.map_take]⟩

theorem cut_failed {l : List (Bytes × Bytes)} {j : Nat} {g : DynIter (Bytes × Bytes)}
    (h : g = (l.take j).map .ok ++ [.error ioFault] ∨ (true = true ∧ ∃ i,
      i < ((l.take j).map Except.ok ++ [.error ioFault] : DynIter (Bytes × Bytes)).length ∧
      g = ((l.take j).map Except.ok ++ [.error ioFault] : DynIter (Bytes × Bytes)).take i ++ [.error ioFault])) :
    ∃ i, g = (l.take i).map .ok ++ [.error ioFault] := by
  rcases h with h | ⟨_, i, hi, h⟩
  · exact ⟨j, h⟩
  · refine ⟨min i j, ?_⟩
    rw [h]
    simp only [List.length_append, List.length_map, List.length_cons, List.length_nil] at hi
    rw [List.take_append_of_le_length (by rw [List.length_map]; omega), ← List.map_take, List.take_take]

theorem cut_done {α : Type} {r : Res α} {q : Prog α} (h : Cut true (.done r) q) : q = .done r := by
  cases h with
  | fail _ h => cases h
  | done _ => rfl

namespace App

/-- The tasks are at the same place, except that values are read differently. -/
inductive AtSim : TaskAt → TaskAt → Prop
  | unused : AtSim .unused .unused
  | between (t : Task) : AtSim (.between t) (.between t)
  | inside (a : Access) {p q : Prog Answer} (k : Except Error Answer → Task) : Cut true p q → AtSim (.inside a p k) (.inside a q k)
  | finished : AtSim .finished .finished

/-- The processes are in the same state. -/
structure Sim (S S' : App) : Prop where
  db : S'.db = S.db
  writer : S'.writer = S.writer
  readers : S'.readers = S.readers
  log : S'.log = S.log
  tasks : ∀ c, AtSim (S.tasks c) (S'.tasks c)

theorem AtSim.setAt {f g : Nat → TaskAt} (h : ∀ c, AtSim (f c) (g c)) (c : Nat) {x y : TaskAt} (hxy : AtSim x y) :
    ∀ i, AtSim (IndraDB.setAt f c x i) (IndraDB.setAt g c y i) := by
  intro i
  unfold IndraDB.setAt
  split
  · exact hxy
  · exact h i

theorem AtSim.ret (r : Res Answer) (k : Except Error Answer → Task) : AtSim (after k r) (after k r) := by
  cases r with
  | ok x => exact .between _
  | error f => cases f <;> constructor

variable {io : Bool} {S S' T : App} {e : List AppEv}

theorem Sim.step (hd : X.Reader d) (H : Sim S S') (hs : Step X io S e T) : ∃ T', Step (X.reading d) true S' e T' ∧ Sim T T' := by
  cases hs with
  | start c t h =>
    have := H.tasks c; rw [h] at this
    generalize h' : S'.tasks c = x at this
    cases this
    exact ⟨_, .start S' c t h', ⟨H.db, H.writer, H.readers, H.log, AtSim.setAt H.tasks c (.between t)⟩⟩
  | enter c O a k h =>
    have := H.tasks c; rw [h] at this
    generalize h' : S'.tasks c = x at this
    cases this
    exact ⟨_, .enter S' c O a k h', ⟨H.db, H.writer, H.readers, H.log, AtSim.setAt H.tasks c (.inside a k (accessProg_cut hd O a))⟩⟩
  | stop c t h ht =>
    have := H.tasks c; rw [h] at this
    generalize h' : S'.tasks c = x at this
    cases this
    exact ⟨_, .stop S' c t h' ht, ⟨H.db, H.writer, H.readers, H.log, AtSim.setAt H.tasks c .finished⟩⟩
  | get c a k cf b n h =>
    have := H.tasks c; rw [h] at this
    generalize h' : S'.tasks c = x at this
    cases this with
    | inside _ _ hc =>
      cases hc with
      | get P h1 h2 =>
        by_cases hP : P ((S.db.kv cf).get b)
        · exact ⟨_, .getFails S' c a k cf b _ rfl h', ⟨H.db, H.writer, H.readers, H.log,
            AtSim.setAt H.tasks c (.inside a k (.of_eq (h1 _ hP)))⟩⟩
        · refine ⟨_, .get S' c a k cf b _ h', ⟨H.db, H.writer, H.readers, H.log, AtSim.setAt H.tasks c (.inside a k ?_)⟩⟩
          rw [H.db]; exact h2 _ hP
  | getFails c a k cf b n hio h =>
    have := H.tasks c; rw [h] at this
    generalize h' : S'.tasks c = x at this
    cases this with
    | inside _ _ hc =>
      cases hc with
      | get P h1 h2 =>
        exact ⟨_, .getFails S' c a k cf b _ rfl h', ⟨H.db, H.writer, H.readers, H.log, AtSim.setAt H.tasks c (.inside a k (.refl _))⟩⟩
  | scan c a k cf lo n h =>
    have := H.tasks c; rw [h] at this
    generalize h' : S'.tasks c = x at this
    cases this with
    | inside _ _ hc =>
      cases hc with
      | scan g h1 h2 =>
        have h2 := h2 (((S.db.kv cf).rangeFrom lo).map .ok)
        rcases cut_list (h1 (((S.db.kv cf).rangeFrom lo).map .ok)) with hg | ⟨i, hg⟩
        · refine ⟨_, .scan S' c a k cf lo _ h', ⟨H.db, H.writer, H.readers, H.log, AtSim.setAt H.tasks c (.inside a k ?_)⟩⟩
          rw [hg] at h2; rw [H.db]; exact h2
        · refine ⟨_, .scanFails S' c i a k cf lo _ rfl h', ⟨H.db, H.writer, H.readers, H.log, AtSim.setAt H.tasks c (.inside a k ?_)⟩⟩
          rw [hg] at h2; rw [H.db]; exact h2
  | scanFails c j a k cf lo n hio h =>
    have := H.tasks c; rw [h] at this
    generalize h' : S'.tasks c = x at this
    cases this with
    | inside _ _ hc =>
      cases hc with
      | scan g h1 h2 =>
        have h2 := h2 ((((S.db.kv cf).rangeFrom lo).take j).map .ok ++ [.error ioFault])
        obtain ⟨i, hg⟩ := cut_failed (h1 ((((S.db.kv cf).rangeFrom lo).take j).map .ok ++ [.error ioFault]))
        refine ⟨_, .scanFails S' c i a k cf lo _ rfl h', ⟨H.db, H.writer, H.readers, H.log, AtSim.setAt H.tasks c (.inside a k ?_)⟩⟩
        rw [hg] at h2; rw [H.db]; exact h2
  | write c a k b n h =>
    have := H.tasks c; rw [h] at this
    generalize h' : S'.tasks c = x at this
    cases this with
    | inside _ _ hc =>
      cases hc with
      | write h2 =>
        exact ⟨_, .write S' c a k b _ h', ⟨by show Rocks.mk _ _ = Rocks.mk _ _; rw [H.db], H.writer, H.readers,
          by show S'.log ++ _ = _; rw [H.log], AtSim.setAt H.tasks c (.inside a k h2)⟩⟩
  | writeFails c a k b n hio h =>
    have := H.tasks c; rw [h] at this
    generalize h' : S'.tasks c = x at this
    cases this with
    | inside _ _ hc =>
      cases hc with
      | write h2 =>
        exact ⟨_, .writeFails S' c a k b _ rfl h', ⟨H.db, H.writer, H.readers, H.log, AtSim.setAt H.tasks c (.inside a k (.refl _))⟩⟩
  | flushFails c a k hio h ha =>
    have := H.tasks c; rw [h] at this
    generalize h' : S'.tasks c = x at this
    cases this
    exact ⟨_, .flushFails S' c a k rfl h' ha, ⟨H.db, H.writer, H.readers, H.log, AtSim.setAt H.tasks c (.inside a k (.refl _))⟩⟩
  | readLock c a k held n h hw =>
    have := H.tasks c; rw [h] at this
    generalize h' : S'.tasks c = x at this
    cases this with
    | inside _ _ hc =>
      cases hc with
      | readLock h2 =>
        refine ⟨_, .readLock S' c a k held _ h' (by rw [H.writer, hw]), ⟨H.db, H.writer, ?_, H.log, AtSim.setAt H.tasks c (.inside a k ?_)⟩⟩
        · show (if held then c :: S'.readers else S'.readers) = _
          rw [H.readers]
        · rw [H.db]; exact h2 _
  | writeLock c a k n h hw hr =>
    have := H.tasks c; rw [h] at this
    generalize h' : S'.tasks c = x at this
    cases this with
    | inside _ _ hc =>
      cases hc with
      | writeLock h2 =>
        refine ⟨_, .writeLock S' c a k _ h' (by rw [H.writer, hw]) (by rw [H.readers, hr]), ⟨H.db, rfl, H.readers, H.log,
          AtSim.setAt H.tasks c (.inside a k ?_)⟩⟩
        rw [H.db]; exact h2 _
  | setIndexed c a k ix n h =>
    have := H.tasks c; rw [h] at this
    generalize h' : S'.tasks c = x at this
    cases this with
    | inside _ _ hc =>
      cases hc with
      | setIndexed h2 =>
        exact ⟨_, .setIndexed S' c a k ix _ h', ⟨by show Rocks.mk _ _ = Rocks.mk _ _; rw [H.db], H.writer, H.readers, H.log,
          AtSim.setAt H.tasks c (.inside a k h2)⟩⟩
  | unlock c a k r h hw =>
    have := H.tasks c; rw [h] at this
    generalize h' : S'.tasks c = x at this
    cases this with
    | inside _ _ hc =>
      cases cut_done hc
      exact ⟨_, .unlock S' c a k r h' (by rw [H.writer, hw]), ⟨H.db, rfl, H.readers, H.log, H.tasks⟩⟩
  | unlockRead c a k r h hr =>
    have := H.tasks c; rw [h] at this
    generalize h' : S'.tasks c = x at this
    cases this with
    | inside _ _ hc =>
      cases cut_done hc
      exact ⟨_, .unlockRead S' c a k r h' (by rw [H.readers]; exact hr), ⟨H.db, H.writer, by show S'.readers.filter _ = _; rw [H.readers],
        H.log, H.tasks⟩⟩
  | leave c a k r h hw hr =>
    have := H.tasks c; rw [h] at this
    generalize h' : S'.tasks c = x at this
    cases this with
    | inside _ _ hc =>
      cases cut_done hc
      exact ⟨_, .leave S' c a k r h' (by rw [H.writer]; exact hw) (by rw [H.readers]; exact hr), ⟨H.db, H.writer, H.readers, H.log,
        AtSim.setAt H.tasks c (AtSim.ret r k)⟩⟩

theorem Sim.init (s : Rocks) : Sim (.init s) (.init s) := ⟨rfl, rfl, rfl, rfl, fun _ => .unused⟩

/-- Executions. -/
theorem Exec.reading (hd : X.Reader d) {s : Rocks} {h : List AppEv} (hx : Exec X io s h S) :
    ∃ S', Exec (X.reading d) true s h S' ∧ Sim S S' := by
  induction hx with
  | nil => exact ⟨_, .nil, Sim.init s⟩
  | snoc _ hs ih =>
    obtain ⟨S', h1, h2⟩ := ih
    obtain ⟨T', h3, h4⟩ := h2.step hd hs
    exact ⟨T', h1.snoc h3, h4⟩

end App

theorem AppLife.reading (hd : X.Reader d) {hs : List (List AppEv)} {s : Rocks} (hl : AppLife X hs s) : AppLife (X.reading d) hs s := by
  induction hl with
  | new h => exact .new h
  | again k _ hx hn ih =>
    obtain ⟨S', h1, h2⟩ := hx.reading hd
    exact .again k ih h1 (by rw [h2.log]; exact hn)

namespace Srv
variable {io : Bool} {prep : ServerRequest → ServerResponse ⊕ Handler}

theorem Exec.reading (hd : X.Reader d) {s : Rocks} {h : List SrvEv} {S : Srv} (hx : Exec X io prep s h S) :
    ∃ A, Exec (X.reading d) true prep s h ⟨A, S.reqs⟩ ∧ App.Sim S.app A := by
  induction hx with
  | nil => exact ⟨_, .nil, App.Sim.init s⟩
  | snoc _ hs ih =>
    obtain ⟨A, h1, h2⟩ := ih
    cases hs with
    | reject c req r h hp => exact ⟨A, h1.snoc (.reject ⟨A, _⟩ c req r h hp), h2⟩
    | accept c req t h hp => exact ⟨A, h1.snoc (.accept ⟨A, _⟩ c req t h hp), h2⟩
    | begins c t A' h hp =>
      obtain ⟨B, h3, h4⟩ := h2.step hd hp
      exact ⟨B, h1.snoc (.begins ⟨A, _⟩ c t B h h3), h4⟩
    | enters c a A' hp =>
      obtain ⟨B, h3, h4⟩ := h2.step hd hp
      exact ⟨B, h1.snoc (.enters ⟨A, _⟩ c a B h3), h4⟩
    | works A' hp =>
      obtain ⟨B, h3, h4⟩ := h2.step hd hp
      exact ⟨B, h1.snoc (.works ⟨A, _⟩ B h3), h4⟩
    | returns c a k crash r A' h hp =>
      obtain ⟨B, h3, h4⟩ := h2.step hd hp
      exact ⟨B, h1.snoc (.returns ⟨A, _⟩ c a k crash r B h h3), h4⟩
    | ends c r A' h hp =>
      obtain ⟨B, h3, h4⟩ := h2.step hd hp
      exact ⟨B, h1.snoc (.ends ⟨A, _⟩ c r B h h3), h4⟩
    | respond c r h => exact ⟨A, h1.snoc (.respond ⟨A, _⟩ c r h), h2⟩
    | dropWaiting c t h => exact ⟨A, h1.snoc (.dropWaiting ⟨A, _⟩ c t h), h2⟩
    | dropLeaving c r h => exact ⟨A, h1.snoc (.dropLeaving ⟨A, _⟩ c r h), h2⟩

end Srv

theorem SrvLife.reading (hd : X.Reader d) {hs : List ((ServerRequest → ServerResponse ⊕ Handler) × List SrvEv)} {s : Rocks}
    (hl : SrvLife X hs s) : SrvLife (X.reading d) hs s := by
  induction hl with
  | new h => exact .new h
  | again k _ hx hn ih =>
    obtain ⟨A, h1, h2⟩ := hx.reading hd
    exact .again k ih h1 (by rw [h2.log]; exact hn)

namespace Conc

/-- The calls are at the same place, except that values are read differently. -/
inductive CallSim : RCall → RCall → Prop
  | unused : CallSim .unused .unused
  | running {p q : Prog Reply} : Cut true p q → CallSim (.running p) (.running q)
  | finished : CallSim .finished .finished

/-- The same state. -/
structure Sim (S S' : Conc) : Prop where
  db : S'.db = S.db
  writer : S'.writer = S.writer
  readers : S'.readers = S.readers
  log : S'.log = S.log
  calls : ∀ c, CallSim (S.calls c) (S'.calls c)

theorem CallSim.setAt {f g : Nat → RCall} (h : ∀ c, CallSim (f c) (g c)) (c : Nat) {x y : RCall} (hxy : CallSim x y) :
    ∀ i, CallSim (IndraDB.setAt f c x i) (IndraDB.setAt g c y i) := by
  intro i
  unfold IndraDB.setAt
  split
  · exact hxy
  · exact h i

variable {S S' T : Conc} {e : List Ev}

theorem Sim.fine (hd : X.Reader d) (H : Sim S S') (hs : Step X S e T) : ∃ T', FaultyStep (X.reading d) S' e T' ∧ Sim T T' := by
  cases hs with
  | call c O op h =>
    have := H.calls c; rw [h] at this
    generalize h' : S'.calls c = x at this
    cases this
    exact ⟨_, .fine (.call S' c O op h'), ⟨H.db, H.writer, H.readers, H.log, CallSim.setAt H.calls c (.running (callProg_cut hd O op))⟩⟩
  | get c cf b n h =>
    have := H.calls c; rw [h] at this
    generalize h' : S'.calls c = x at this
    cases this with
    | running hc =>
      cases hc with
      | get P h1 h2 =>
        by_cases hP : P ((S.db.kv cf).get b)
        · exact ⟨_, .getFails S' c cf b _ h', ⟨H.db, H.writer, H.readers, H.log,
            CallSim.setAt H.calls c (.running (.of_eq (h1 _ hP)))⟩⟩
        · refine ⟨_, .fine (.get S' c cf b _ h'), ⟨H.db, H.writer, H.readers, H.log, CallSim.setAt H.calls c (.running ?_)⟩⟩
          rw [H.db]; exact h2 _ hP
  | scan c cf lo n h =>
    have := H.calls c; rw [h] at this
    generalize h' : S'.calls c = x at this
    cases this with
    | running hc =>
      cases hc with
      | scan g h1 h2 =>
        have h2 := h2 (((S.db.kv cf).rangeFrom lo).map .ok)
        rcases cut_list (h1 (((S.db.kv cf).rangeFrom lo).map .ok)) with hg | ⟨i, hg⟩
        · refine ⟨_, .fine (.scan S' c cf lo _ h'), ⟨H.db, H.writer, H.readers, H.log, CallSim.setAt H.calls c (.running ?_)⟩⟩
          rw [hg] at h2; rw [H.db]; exact h2
        · refine ⟨_, .scanFails S' c i cf lo _ h', ⟨H.db, H.writer, H.readers, H.log, CallSim.setAt H.calls c (.running ?_)⟩⟩
          rw [hg] at h2; rw [H.db]; exact h2
  | write c b n h =>
    have := H.calls c; rw [h] at this
    generalize h' : S'.calls c = x at this
    cases this with
    | running hc =>
      cases hc with
      | write h2 =>
        exact ⟨_, .fine (.write S' c b _ h'), ⟨by show Rocks.mk _ _ = Rocks.mk _ _; rw [H.db], H.writer, H.readers,
          by show S'.log ++ _ = _; rw [H.log], CallSim.setAt H.calls c (.running h2)⟩⟩
  | readLock c held n h hw =>
    have := H.calls c; rw [h] at this
    generalize h' : S'.calls c = x at this
    cases this with
    | running hc =>
      cases hc with
      | readLock h2 =>
        refine ⟨_, .fine (.readLock S' c held _ h' (by rw [H.writer, hw])), ⟨H.db, H.writer, ?_, H.log, CallSim.setAt H.calls c (.running ?_)⟩⟩
        · show (if held then c :: S'.readers else S'.readers) = _
          rw [H.readers]
        · rw [H.db]; exact h2 _
  | writeLock c n h hw hr =>
    have := H.calls c; rw [h] at this
    generalize h' : S'.calls c = x at this
    cases this with
    | running hc =>
      cases hc with
      | writeLock h2 =>
        refine ⟨_, .fine (.writeLock S' c _ h' (by rw [H.writer, hw]) (by rw [H.readers, hr])), ⟨H.db, rfl, H.readers, H.log,
          CallSim.setAt H.calls c (.running ?_)⟩⟩
        rw [H.db]; exact h2 _
  | setIndexed c ix n h =>
    have := H.calls c; rw [h] at this
    generalize h' : S'.calls c = x at this
    cases this with
    | running hc =>
      cases hc with
      | setIndexed h2 =>
        exact ⟨_, .fine (.setIndexed S' c ix _ h'), ⟨by show Rocks.mk _ _ = Rocks.mk _ _; rw [H.db], H.writer, H.readers, H.log,
          CallSim.setAt H.calls c (.running h2)⟩⟩
  | unlock c r h hw =>
    have := H.calls c; rw [h] at this
    generalize h' : S'.calls c = x at this
    cases this with
    | running hc =>
      cases cut_done hc
      exact ⟨_, .fine (.unlock S' c r h' (by rw [H.writer, hw])), ⟨H.db, rfl, H.readers, H.log, H.calls⟩⟩
  | unlockRead c r h hr =>
    have := H.calls c; rw [h] at this
    generalize h' : S'.calls c = x at this
    cases this with
    | running hc =>
      cases cut_done hc
      exact ⟨_, .fine (.unlockRead S' c r h' (by rw [H.readers]; exact hr)), ⟨H.db, H.writer, by show S'.readers.filter _ = _; rw [H.readers],
        H.log, H.calls⟩⟩
  | ret c r h hw hr =>
    have := H.calls c; rw [h] at this
    generalize h' : S'.calls c = x at this
    cases this with
    | running hc =>
      cases cut_done hc
      exact ⟨_, .fine (.ret S' c r h' (by rw [H.writer]; exact hw) (by rw [H.readers]; exact hr)), ⟨H.db, H.writer, H.readers, H.log,
        CallSim.setAt H.calls c .finished⟩⟩

theorem Sim.step (hd : X.Reader d) (H : Sim S S') (hs : FaultyStep X S e T) : ∃ T', FaultyStep (X.reading d) S' e T' ∧ Sim T T' := by
  cases hs with
  | fine hs => exact H.fine hd hs
  | getFails c cf b n h =>
    have := H.calls c; rw [h] at this
    generalize h' : S'.calls c = x at this
    cases this with
    | running hc =>
      cases hc with
      | get P h1 h2 =>
        exact ⟨_, .getFails S' c cf b _ h', ⟨H.db, H.writer, H.readers, H.log, CallSim.setAt H.calls c (.running (.refl _))⟩⟩
  | scanFails c j cf lo n h =>
    have := H.calls c; rw [h] at this
    generalize h' : S'.calls c = x at this
    cases this with
    | running hc =>
      cases hc with
      | scan g h1 h2 =>
        have h2 := h2 ((((S.db.kv cf).rangeFrom lo).take j).map .ok ++ [.error ioFault])
        obtain ⟨i, hg⟩ := cut_failed (h1 ((((S.db.kv cf).rangeFrom lo).take j).map .ok ++ [.error ioFault]))
        refine ⟨_, .scanFails S' c i cf lo _ h', ⟨H.db, H.writer, H.readers, H.log, CallSim.setAt H.calls c (.running ?_)⟩⟩
        rw [hg] at h2; rw [H.db]; exact h2
  | writeFails c b n h =>
    have := H.calls c; rw [h] at this
    generalize h' : S'.calls c = x at this
    cases this with
    | running hc =>
      cases hc with
      | write h2 =>
        exact ⟨_, .writeFails S' c b _ h', ⟨H.db, H.writer, H.readers, H.log, CallSim.setAt H.calls c (.running (.refl _))⟩⟩
  | flushFails c h =>
    have := H.calls c; rw [h] at this
    generalize h' : S'.calls c = x at this
    cases this
    exact ⟨_, .flushFails S' c h', ⟨H.db, H.writer, H.readers, H.log, CallSim.setAt H.calls c (.running (.refl _))⟩⟩

/-- Executions. -/
theorem FaultyExec.reading (hd : X.Reader d) {s : Rocks} {h : List Ev} (hx : FaultyExec X s h S) :
    ∃ S', FaultyExec (X.reading d) s h S' ∧ Sim S S' := by
  induction hx with
  | nil => exact ⟨_, .nil, ⟨rfl, rfl, rfl, rfl, fun _ => .unused⟩⟩
  | snoc _ hs ih =>
    obtain ⟨S', h1, h2⟩ := ih
    obtain ⟨T', h3, h4⟩ := h2.step hd hs
    exact ⟨T', h1.snoc h3, h4⟩

end Conc

theorem FaultyLife.reading (hd : X.Reader d) {hs : List (List Ev)} {s : Rocks} (hl : FaultyLife X hs s) : FaultyLife (X.reading d) hs s := by
  induction hl with
  | new h => exact .new h
  | again k _ hx hn ih =>
    obtain ⟨S', h1, h2⟩ := hx.reading hd
    exact .again k ih h1 (by rw [h2.log]; exact hn)

end Rocks
end IndraDB
