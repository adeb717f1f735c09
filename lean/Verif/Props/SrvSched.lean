import Verif.Props.AppSched
import Verif.Spec.RocksServer
/-
For examples: running an execution of the server on a RocksDB datastore by its schedule.
-/
namespace IndraDB
deriving instance DecidableEq for TxnCall
deriving instance DecidableEq for Access

namespace Rocks.Srv

/-- What happens next. -/
inductive Act where
  | arrive (c : Nat) (req : ServerRequest)
  | begin (c : Nat)
  | step (c : Nat) (fail : Option Nat := none)
  | respond (c : Nat)
  | drop (c : Nat)

/-- One step. -/
def act (X : Cfg) (prep : ServerRequest → ServerResponse ⊕ Handler) (S : Srv) : Act → Option (List SrvEv × Srv)
  | .arrive c req => match S.reqs c with
    | .unused => match prep req with
      | .inl r => some ([.call c req], { S with reqs := setAt S.reqs c (.leaving r) })
      | .inr t => some ([.call c req], { S with reqs := setAt S.reqs c (.waiting t) })
    | _ => none
  | .begin c => match S.reqs c with
    | .waiting t => match App.act X S.app (.start c t.task) with
      | some (_, A) => some ([], ⟨A, setAt S.reqs c (.running t)⟩)
      | none => none
    | _ => none
  | .step c fail => match App.act X S.app (.step c fail) with
    | some ([], A) => some ([], { S with app := A })
    | some ([.enter _ _], A) => some ([], { S with app := A })
    | some ([.leave c' a r], A) => match S.reqs c' with
      | .running (.call a' k crash) => if a' = a then some ([], ⟨A, setAt S.reqs c' (next k crash r)⟩) else none
      | _ => none
    | some ([.stop c'], A) => match S.reqs c' with
      | .running (.ret r) => some ([], ⟨A, setAt S.reqs c' (.leaving r)⟩)
      | _ => none
    | _ => none
  | .respond c => match S.reqs c with
    | .leaving r => some ([.ret c r], { S with reqs := setAt S.reqs c .finished })
    | _ => none
  | .drop c => match S.reqs c with
    | .waiting _ => some ([], { S with reqs := setAt S.reqs c .finished })
    | .leaving _ => some ([], { S with reqs := setAt S.reqs c .finished })
    | _ => none

/-- A schedule. -/
def acts (X : Cfg) (prep : ServerRequest → ServerResponse ⊕ Handler) : List Act → Srv → Option (List SrvEv × Srv)
  | [], S => some ([], S)
  | a :: l, S => match act X prep S a with
    | none => none
    | some (e, S') => (acts X prep l S').map (fun r => (e ++ r.1, r.2))

variable {X : Cfg} {prep : ServerRequest → ServerResponse ⊕ Handler}

/-- No I/O error. -/
def Act.calm : Act → Bool
  | .step _ fail => fail.isNone
  | _ => true

theorem start_event {A A' : App} {c : Nat} {t : Task} {e : List AppEv} (h : App.act X A (.start c t) = some (e, A')) : e = [.start c t] := by
  simp only [App.act] at h
  split at h
  · cases h; rfl
  · cases h

theorem act_step {io : Bool} {S S' : Srv} {a : Act} {e : List SrvEv} (h : act X prep S a = some (e, S')) (hio : io = true ∨ a.calm = true) :
    Step X io prep S e S' := by
  cases a with
  | arrive c req =>
    simp only [act] at h
    split at h
    · next hc =>
      split at h
      · next hp => cases h; exact .reject S c req _ hc hp
      · next hp => cases h; exact .accept S c req _ hc hp
    · cases h
  | begin c =>
    simp only [act] at h
    split at h
    · next hc =>
      split at h
      · next e' A ha =>
        cases h
        cases start_event ha
        exact .begins S c _ _ hc (App.act_step ha (.inr rfl))
      · cases h
    · cases h
  | step c fail =>
    have hio' : io = true ∨ (App.Act.step c fail).calm = true := hio
    simp only [act] at h
    split at h
    · next ha => cases h; exact .works S _ (App.act_step ha hio')
    · next ha => cases h; exact .enters S _ _ _ (App.act_step ha hio')
    · next ha =>
      split at h
      · next hc =>
        split at h
        · next e => subst e; cases h; exact .returns S _ _ _ _ _ _ hc (App.act_step ha hio')
        · cases h
      · cases h
    · next ha =>
      split at h
      · next hc => cases h; exact .ends S _ _ _ hc (App.act_step ha hio')
      · cases h
    · cases h
  | respond c =>
    simp only [act] at h
    split at h
    · next hc => cases h; exact .respond S c _ hc
    · cases h
  | drop c =>
    simp only [act] at h
    split at h
    · next hc => cases h; exact .dropWaiting S c _ hc
    · next hc => cases h; exact .dropLeaving S c _ hc
    · cases h

theorem acts_from {io : Bool} {A : Srv} : ∀ (l : List Act) {h h' : List SrvEv} {S S' : Srv}, From X io prep A h S →
    acts X prep l S = some (h', S') → (io = true ∨ l.all Act.calm = true) → From X io prep A (h ++ h') S' := by
  intro l
  induction l with
  | nil => intro h h' S S' e ha _; cases ha; rw [List.append_nil]; exact e
  | cons a l ih =>
    intro h h' S S' e ha hio
    simp only [acts] at ha
    split at ha
    · cases ha
    · next ev S1 h1 =>
      obtain ⟨⟨h2, S2⟩, h3, h4⟩ := Option.map_eq_some_iff.1 ha
      cases h4
      rw [← List.append_assoc]
      have hio' : io = true ∨ (a.calm = true ∧ l.all Act.calm = true) := by
        rcases hio with h | h
        · exact .inl h
        · simp only [List.all_cons, Bool.and_eq_true] at h; exact .inr h
      exact ih (e.snoc (act_step h1 (hio'.imp_right And.left))) h3 (hio'.imp_right And.right)

theorem acts_exec {io : Bool} {s : Rocks} : ∀ (l : List Act) {h h' : List SrvEv} {S S' : Srv}, Exec X io prep s h S →
    acts X prep l S = some (h', S') → (io = true ∨ l.all Act.calm = true) → Exec X io prep s (h ++ h') S' := by
  intro l
  induction l with
  | nil => intro h h' S S' e ha _; cases ha; rw [List.append_nil]; exact e
  | cons a l ih =>
    intro h h' S S' e ha hio
    simp only [acts] at ha
    split at ha
    · cases ha
    · next ev S1 h1 =>
      obtain ⟨⟨h2, S2⟩, h3, h4⟩ := Option.map_eq_some_iff.1 ha
      cases h4
      rw [← List.append_assoc]
      have hio' : io = true ∨ (a.calm = true ∧ l.all Act.calm = true) := by
        rcases hio with h | h
        · exact .inl h
        · simp only [List.all_cons, Bool.and_eq_true] at h; exact .inr h
      exact ih (e.snoc (act_step h1 (hio'.imp_right And.left))) h3 (hio'.imp_right And.right)

/-- Requests arrive only when scheduled. -/
theorem acts_arrive : ∀ (l : List Act) {h : List SrvEv} {S S' : Srv}, acts X prep l S = some (h, S') → ∀ {c req}, SrvEv.call c req ∈ h →
    Act.arrive c req ∈ l := by
  intro l
  induction l with
  | nil => intro h S S' ha c req hm; cases ha; cases hm
  | cons a l ih =>
    intro h S S' ha c req hm
    simp only [acts] at ha
    split at ha
    · cases ha
    · next ev S1 h1 =>
      obtain ⟨⟨h2, S2⟩, h3, h4⟩ := Option.map_eq_some_iff.1 ha
      cases h4
      rcases List.mem_append.1 hm with hm | hm
      · refine List.mem_cons.2 (.inl ?_)
        cases a with
        | arrive c' req' =>
          simp only [act] at h1
          split at h1
          · split at h1 <;> (cases h1; simp only [List.mem_singleton] at hm; cases hm; rfl)
          · cases h1
        | begin c' =>
          simp only [act] at h1
          split at h1
          · split at h1 <;> cases h1; cases hm
          · cases h1
        | step c' =>
          simp only [act] at h1
          split at h1
          · cases h1; cases hm
          · cases h1; cases hm
          · split at h1
            · split at h1 <;> cases h1; cases hm
            · cases h1
          · split at h1 <;> cases h1; cases hm
          · cases h1
        | respond c' =>
          simp only [act] at h1
          split at h1
          · cases h1; simp at hm
          · cases h1
        | drop c' =>
          simp only [act] at h1
          split at h1
          · cases h1; cases hm
          · cases h1; cases hm
          · cases h1
      · exact List.mem_cons_of_mem _ (ih h3 hm)

/-- Two schedules, one after the other. -/
theorem scheduled {io : Bool} {s : Rocks} (l1 l2 : List Act) (P : List SrvEv → Srv → List SrvEv → Srv → Bool)
    (hc1 : io = true ∨ l1.all Act.calm = true) (hc2 : io = true ∨ l2.all Act.calm = true)
    (hd : ((acts X prep l1 (.init s)).bind fun r => (acts X prep l2 r.2).map fun q => P r.1 r.2 q.1 q.2) = some true) :
    ∃ h1 A h2 S, Exec X io prep s h1 A ∧ From X io prep A h2 S ∧ (∀ c req, SrvEv.call c req ∈ h1 → .arrive c req ∈ l1) ∧
      (∀ c req, SrvEv.call c req ∈ h2 → .arrive c req ∈ l2) ∧ P h1 A h2 S = true := by
  obtain ⟨⟨h1, A⟩, a1, hd⟩ := Option.bind_eq_some_iff.1 hd
  obtain ⟨⟨h2, S⟩, a2, hd⟩ := Option.map_eq_some_iff.1 hd
  exact ⟨h1, A, h2, S, by simpa using acts_exec l1 (.nil (X := X) (s := s)) a1 hc1,
    by simpa using acts_from l2 (.nil (X := X) (A := A)) a2 hc2,
    fun _ _ => acts_arrive l1 a1, fun _ _ => acts_arrive l2 a2, hd⟩

/-- Decides equality of databases. -/
def sameDb (a b : Rocks) : Bool :=
  decide (a.indexed = b.indexed) && [CF.vertices, .edgeRanges, .reversedEdgeRanges, .vertexProperties, .edgeProperties,
    .vertexPropertyValues, .edgePropertyValues, .metadata].all (fun cf => decide (a.kv cf = b.kv cf))

theorem sameDb_eq {a b : Rocks} (h : sameDb a b = true) : a = b := by
  simp only [sameDb, Bool.and_eq_true, decide_eq_true_eq, List.all_eq_true] at h
  obtain ⟨h1, h2⟩ := h
  cases a; cases b
  simp only at h1 h2
  subst h1
  congr 1
  funext cf
  exact h2 cf (by cases cf <;> simp)

/-- A number that tells some tasks apart. -/
def tag : TaskAt → Nat
  | .unused => 0
  | .between _ => 1
  | .finished => 2
  | .inside _ (.done _) _ => 3
  | .inside _ (.get ..) _ => 4
  | .inside _ (.scan ..) _ => 5
  | .inside _ (.write ..) _ => 6
  | .inside _ (.readLock ..) _ => 7
  | .inside _ (.writeLock ..) _ => 8
  | .inside _ (.setIndexed ..) _ => 9

/-- A schedule in which each step leaves the database as it is, or is one of `c` that shows in the tag of its task. -/
def actsOf (X : Cfg) (prep : ServerRequest → ServerResponse ⊕ Handler) (c : Nat) : List Act → Srv → Option (List SrvEv × Srv)
  | [], S => some ([], S)
  | a :: l, S => match act X prep S a with
    | none => none
    | some (e, S') =>
      if sameDb S'.app.db S.app.db || decide (tag (S'.app.tasks c) ≠ tag (S.app.tasks c)) then
        (actsOf X prep c l S').map (fun r => (e ++ r.1, r.2)) else none

theorem actsOf_acts {c : Nat} : ∀ (l : List Act) {r : List SrvEv × Srv} {S : Srv}, actsOf X prep c l S = some r → acts X prep l S = some r := by
  intro l
  induction l with
  | nil => intro r S h; exact h
  | cons a l ih =>
    intro r S h
    simp only [actsOf] at h
    simp only [acts]
    split at h
    · cases h
    · split at h
      · obtain ⟨q, h1, h2⟩ := Option.map_eq_some_iff.1 h
        simp only [ih h1, Option.map_some, h2]
      · cases h

theorem actsOf_undisturbed {io : Bool} {A : Srv} {c : Nat} : ∀ (l : List Act) {h h' : List SrvEv} {S S' : Srv},
    Undisturbed X io prep c A h S → actsOf X prep c l S = some (h', S') → (io = true ∨ l.all Act.calm = true) →
    Undisturbed X io prep c A (h ++ h') S' := by
  intro l
  induction l with
  | nil => intro h h' S S' e ha _; cases ha; rw [List.append_nil]; exact e
  | cons a l ih =>
    intro h h' S S' e ha hio
    simp only [actsOf] at ha
    split at ha
    · cases ha
    · next ev S1 h1 =>
      split at ha
      · next hs =>
        obtain ⟨⟨h2, S2⟩, h3, h4⟩ := Option.map_eq_some_iff.1 ha
        cases h4
        rw [← List.append_assoc]
        have hio' : io = true ∨ (a.calm = true ∧ l.all Act.calm = true) := by
          rcases hio with h | h
          · exact .inl h
          · simp only [List.all_cons, Bool.and_eq_true] at h; exact .inr h
        refine ih (e.snoc (act_step h1 (hio'.imp_right And.left)) fun et => ?_) h3 (hio'.imp_right And.right)
        simp only [Bool.or_eq_true, decide_eq_true_eq] at hs
        rcases hs with hs | hs
        · exact sameDb_eq hs
        · rw [et] at hs; exact absurd rfl hs
      · cases ha

/-- Two schedules, the second undisturbed by others than `c`. -/
theorem scheduled_of {io : Bool} {s : Rocks} (c : Nat) (l1 l2 : List Act) (P : List SrvEv → Srv → List SrvEv → Srv → Bool)
    (hc1 : io = true ∨ l1.all Act.calm = true) (hc2 : io = true ∨ l2.all Act.calm = true)
    (hd : ((acts X prep l1 (.init s)).bind fun r => (actsOf X prep c l2 r.2).map fun q => P r.1 r.2 q.1 q.2) = some true) :
    ∃ h1 A h2 S, Exec X io prep s h1 A ∧ Undisturbed X io prep c A h2 S ∧ (∀ c req, SrvEv.call c req ∈ h1 → .arrive c req ∈ l1) ∧
      (∀ c req, SrvEv.call c req ∈ h2 → .arrive c req ∈ l2) ∧ P h1 A h2 S = true := by
  obtain ⟨⟨h1, A⟩, a1, hd⟩ := Option.bind_eq_some_iff.1 hd
  obtain ⟨⟨h2, S⟩, a2, hd⟩ := Option.map_eq_some_iff.1 hd
  exact ⟨h1, A, h2, S, by simpa using acts_exec l1 (.nil (X := X) (s := s)) a1 hc1,
    by simpa using actsOf_undisturbed l2 (.nil (X := X) (A := A)) a2 hc2,
    fun _ _ => acts_arrive l1 a1, fun _ _ => acts_arrive l2 (actsOf_acts l2 a2), hd⟩

end Rocks.Srv
end IndraDB
