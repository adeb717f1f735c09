import Verif.Proofs.RocksServerRun
import Verif.Proofs.AppProgress
import Verif.Proofs.Progress
/-
Progress of the server on a RocksDB datastore.
-/
namespace IndraDB
namespace Rocks
open Prog LockConc
variable {X : Cfg} {io : Bool} {prep : ServerRequest → ServerResponse ⊕ Handler}

namespace Srv

/-- Where a request can get. -/
inductive Later : Serving → Serving → Prop
  | begins (t) : Later (.running t) (.waiting t)
  | returns (a k crash r) : Later (next k crash r) (.running (.call a k crash))
  | ends (r) : Later (.leaving r) (.running (.ret r))
  | respond (r) : Later .finished (.leaving r)
  | drop (t) : Later .finished (.waiting t)

theorem Later.wf : WellFounded Later := by
  have hf : Acc Later .finished := ⟨_, fun y h => nomatch h⟩
  have hl : ∀ r, Acc Later (.leaving r) := fun r => ⟨_, fun y h => by cases h; exact hf⟩
  have hr : ∀ t, Acc Later (.running t) := by
    intro t
    induction t with
    | ret r => exact ⟨_, fun y h => by cases h; exact hl r⟩
    | call a k crash ih =>
      refine ⟨_, fun y h => ?_⟩
      cases h with
      | returns _ _ _ r =>
        unfold next
        split
        · exact ih _
        · exact ih _
        · exact hl _
  refine ⟨fun x => ?_⟩
  cases x with
  | unused => exact ⟨_, fun y h => nomatch h⟩
  | waiting t => exact ⟨_, fun y h => by cases h <;> first | exact hr t | exact hf⟩
  | running t => exact hr t
  | leaving r => exact hl r
  | finished => exact hf

/-- Where a task can get while its request stays where it is. -/
inductive Work : TaskAt → TaskAt → Prop
  | enter (a p k t) : Work (.inside a p k) (.between t)
  | get (a k cf b n r) : Work (.inside a (n r) k) (.inside a (.get cf b n) k)
  | scan (a k cf b n r) : Work (.inside a (n r) k) (.inside a (.scan cf b n) k)
  | write (a k b n) : Work (.inside a (n ()) k) (.inside a (.write b n) k)
  | readLock (a k h n r) : Work (.inside a (n r) k) (.inside a (.readLock h n) k)
  | writeLock (a k n r) : Work (.inside a (n r) k) (.inside a (.writeLock n) k)
  | setIndexed (a k ix n) : Work (.inside a (n ()) k) (.inside a (.setIndexed ix n) k)
  | fails (a k p r) : (∀ r', p ≠ .done r') → Work (.inside a (.done r) k) (.inside a p k)

theorem Work.wf : WellFounded Work := by
  have hd : ∀ a r k, Acc Work (.inside a (.done r) k) := by
    refine fun a r k => ⟨_, fun y h => ?_⟩
    cases h with
    | fails a k p r' h => exact absurd rfl (h r)
  have hr : ∀ a k p, Acc Work (.inside a p k) := by
    intro a k p
    induction p with
    | done r => exact hd a r k
    | get cf b n ih => exact ⟨_, fun y h => by cases h <;> first | exact hd _ _ _ | exact ih _⟩
    | scan cf b n ih => exact ⟨_, fun y h => by cases h <;> first | exact hd _ _ _ | exact ih _⟩
    | write b n ih => exact ⟨_, fun y h => by cases h <;> first | exact hd _ _ _ | exact ih _⟩
    | readLock b n ih => exact ⟨_, fun y h => by cases h <;> first | exact hd _ _ _ | exact ih _⟩
    | writeLock n ih => exact ⟨_, fun y h => by cases h <;> first | exact hd _ _ _ | exact ih _⟩
    | setIndexed b n ih => exact ⟨_, fun y h => by cases h <;> first | exact hd _ _ _ | exact ih _⟩
  refine ⟨fun x => ?_⟩
  cases x with
  | unused => exact ⟨_, fun y h => nomatch h⟩
  | between t => exact ⟨_, fun y h => by cases h; exact hr _ _ _⟩
  | inside a p k => exact hr a k p
  | finished => exact ⟨_, fun y h => nomatch h⟩

/-- Position of a request. -/
def pos (S : Srv) (c : Nat) : Serving × TaskAt × Nat := (S.reqs c, S.app.tasks c, S.app.guards c)

/-- Positions get smaller. -/
abbrev Less : Serving × TaskAt × Nat → Serving × TaskAt × Nat → Prop := Prod.Lex Later (Prod.Lex Work (fun a b : Nat => a < b))

theorem Less.wf : WellFounded Less :=
  (Prod.lex ⟨Later, Later.wf⟩ (Prod.lex ⟨Work, Work.wf⟩ ⟨fun a b : Nat => a < b, Nat.lt_wfRel.wf⟩)).wf

/-- An access to the database or to the lock. -/
theorem works_less {A A' : App} (hs : App.Step X io A [] A') : ∃ c, A.tasks c ≠ .unused ∧
    Prod.Lex Work (fun a b : Nat => a < b) (A'.tasks c, A'.guards c) (A.tasks c, A.guards c) ∧
    ∀ i, i ≠ c → A'.tasks i = A.tasks i ∧ A'.guards i = A.guards i := by
  have key : ∀ (c : Nat) (t q : TaskAt), A.tasks c = t → t ≠ .unused → A'.tasks = setAt A.tasks c q → Work q t →
      (∀ i, i ≠ c → A'.guards i = A.guards i) → ∃ c, A.tasks c ≠ .unused ∧
      Prod.Lex Work (fun a b : Nat => a < b) (A'.tasks c, A'.guards c) (A.tasks c, A.guards c) ∧
      ∀ i, i ≠ c → A'.tasks i = A.tasks i ∧ A'.guards i = A.guards i := by
    intro c t q hc ht h1 h2 h3
    refine ⟨c, hc ▸ ht, ?_, fun i hi => ⟨by rw [h1, setAt_ne _ _ hi], h3 i hi⟩⟩
    rw [h1, setAt_self, hc]
    exact .left _ _ h2
  have drop : ∀ (c : Nat) (t : TaskAt), A.tasks c = t → t ≠ .unused → A'.tasks = A.tasks → A'.guards c < A.guards c →
      (∀ i, i ≠ c → A'.guards i = A.guards i) → ∃ c, A.tasks c ≠ .unused ∧
      Prod.Lex Work (fun a b : Nat => a < b) (A'.tasks c, A'.guards c) (A.tasks c, A.guards c) ∧
      ∀ i, i ≠ c → A'.tasks i = A.tasks i ∧ A'.guards i = A.guards i := by
    intro c t hc ht h1 h2 h3
    refine ⟨c, hc ▸ ht, ?_, fun i hi => ⟨by rw [h1], h3 i hi⟩⟩
    rw [h1]
    exact .right _ h2
  cases hs with
  | getFails c a k cf b n _ hc => exact key c _ _ hc (by simp) rfl (.fails _ _ _ _ (by simp)) (fun _ _ => rfl)
  | scanFails c i a k cf b n _ hc => exact key c _ _ hc (by simp) rfl (.scan ..) (fun _ _ => rfl)
  | writeFails c a k b n _ hc => exact key c _ _ hc (by simp) rfl (.fails _ _ _ _ (by simp)) (fun _ _ => rfl)
  | get c a k cf b n hc => exact key c _ _ hc (by simp) rfl (.get ..) (fun _ _ => rfl)
  | scan c a k cf b n hc => exact key c _ _ hc (by simp) rfl (.scan ..) (fun _ _ => rfl)
  | write c a k b n hc => exact key c _ _ hc (by simp) rfl (.write ..) (fun _ _ => rfl)
  | readLock c a k held n hc hw =>
    refine key c _ _ hc (by simp) rfl (.readLock ..) (fun i hi => ?_)
    cases held <;> simp [App.guards, hi]
  | writeLock c a k n hc hw hr =>
    refine key c _ _ hc (by simp) rfl (.writeLock ..) (fun i hi => ?_)
    simp [App.guards, hw, Ne.symm hi]
  | setIndexed c a k ix n hc => exact key c _ _ hc (by simp) rfl (.setIndexed ..) (fun _ _ => rfl)
  | unlock c a k r hc hw =>
    refine drop c _ hc (by simp) rfl ?_ (fun i hi => ?_)
    · simp [App.guards, hw]
    · simp [App.guards, hw, Ne.symm hi]
  | unlockRead c a k r hc hr =>
    refine drop c _ hc (by simp) rfl ?_ (fun i hi => ?_)
    · simp [App.guards, hr]
    · simp [App.guards, hi]

/-- From some number on, nothing has arrived. -/
def Below (N : Nat) (S : Srv) : Prop := ∀ c, N ≤ c → S.reqs c = .unused ∧ S.app.tasks c = .unused

theorem Moves.less {polite : Bool} {stays : Nat → Prop} {v v' : View} {N : Nat} (hN : v.2.Below N)
    (h : Moves X polite prep stays v v') : OneLess Less N v'.2.pos v.2.pos ∧ v'.2.Below N := by
  obtain ⟨h0, S⟩ := v
  obtain ⟨h0', S'⟩ := v'
  obtain ⟨e, hs, _, he, _⟩ := h
  simp only at hs hN ⊢
  -- a request moves, and perhaps its task
  have key : ∀ (c : Nat) (q : Serving), S'.reqs = setAt S.reqs c q → Later q (S.reqs c) →
      (∀ i, i ≠ c → S'.app.tasks i = S.app.tasks i ∧ S'.app.guards i = S.app.guards i) →
      OneLess Less N S'.pos S.pos ∧ S'.Below N := by
    intro c q h1 h2 h3
    have hc : c < N := by
      refine Nat.lt_of_not_le (fun hle => ?_)
      rw [(hN c hle).1] at h2; cases h2
    refine ⟨⟨c, hc, ?_, fun i hi => ?_⟩, fun i hi => ?_⟩
    · simp only [pos, h1, setAt_self]; exact .left _ _ h2
    · simp only [pos, h1, setAt_ne _ _ hi, (h3 i hi).1, (h3 i hi).2]
    · rw [h1, setAt_ne _ _ (by omega), (h3 i (by omega)).1]; exact hN i hi
  -- only its task moves
  have work : ∀ c : Nat, S.app.tasks c ≠ .unused → S'.reqs = S.reqs →
      Prod.Lex Work (fun a b : Nat => a < b) (S'.app.tasks c, S'.app.guards c) (S.app.tasks c, S.app.guards c) →
      (∀ i, i ≠ c → S'.app.tasks i = S.app.tasks i ∧ S'.app.guards i = S.app.guards i) →
      OneLess Less N S'.pos S.pos ∧ S'.Below N := by
    intro c h0 h1 h2 h3
    have hc : c < N := by
      refine Nat.lt_of_not_le (fun hle => ?_)
      exact h0 (hN c hle).2
    refine ⟨⟨c, hc, ?_, fun i hi => ?_⟩, fun i hi => ?_⟩
    · simp only [pos, h1]; exact .right _ h2
    · simp only [pos, h1, (h3 i hi).1, (h3 i hi).2]
    · rw [h1, (h3 i (by omega)).1]; exact hN i hi
  cases hs with
  | reject c req r hc => exact absurd (by simp) (he c req)
  | accept c req t hc => exact absurd (by simp) (he c req)
  | begins c t A hc ha =>
    refine key c _ rfl (hc ▸ .begins t) (fun i hi => ?_)
    cases ha with
    | start _ _ _ => exact ⟨setAt_ne _ _ hi, rfl⟩
  | enters c a A ha =>
    cases ha with
    | enter _ O _ k hc =>
      refine work c (by rw [hc]; simp) rfl ?_ (fun i hi => ⟨setAt_ne _ _ hi, rfl⟩)
      show Prod.Lex _ _ (setAt _ _ _ _, _) _
      rw [setAt_self, hc]
      exact .left _ _ (.enter ..)
    | flushFails _ _ k _ hc _ =>
      refine work c (by rw [hc]; simp) rfl ?_ (fun i hi => ⟨setAt_ne _ _ hi, rfl⟩)
      show Prod.Lex _ _ (setAt _ _ _ _, _) _
      rw [setAt_self, hc]
      exact .left _ _ (.enter ..)
  | works A ha =>
    obtain ⟨c, h1, h2, h3⟩ := works_less ha
    exact work c h1 rfl h2 h3
  | returns c a k crash r A hc ha =>
    refine key c _ rfl (hc ▸ .returns a k crash r) (fun i hi => ?_)
    cases ha with
    | leave => exact ⟨setAt_ne _ _ hi, rfl⟩
  | ends c r A hc ha =>
    refine key c _ rfl (hc ▸ .ends r) (fun i hi => ?_)
    cases ha with
    | stop => exact ⟨setAt_ne _ _ hi, rfl⟩
  | respond c r hc => exact key c _ rfl (hc ▸ .respond r) (fun _ _ => ⟨rfl, rfl⟩)
  | dropWaiting c t hc => exact key c _ rfl (hc ▸ .drop t) (fun _ _ => ⟨rfl, rfl⟩)
  | dropLeaving c r hc => exact key c _ rfl (hc ▸ .respond r) (fun _ _ => ⟨rfl, rfl⟩)

theorem Moves.acc {polite : Bool} {stays : Nat → Prop} (N : Nat) (f : Nat → Serving × TaskAt × Nat) : ∀ v : View, v.2.pos = f →
    v.2.Below N → Acc (fun x y => Moves X polite prep stays y x) v := by
  induction f using (OneLess.wf Less.wf N).induction with
  | _ f ih =>
    intro v hv hN
    refine ⟨_, fun v' h => ?_⟩
    obtain ⟨h1, h2⟩ := Moves.less hN h
    exact ih _ (hv ▸ h1) v' rfl h2

theorem _root_.IndraDB.Rocks.Srv.Step.weaken {S S' : Srv} {e : List SrvEv} (hs : Srv.Step X io prep S e S') : Srv.Step X true prep S e S' := by
  cases hs with
  | reject c req r hc hp => exact .reject _ c req r hc hp
  | accept c req t hc hp => exact .accept _ c req t hc hp
  | begins c t A hc ha => exact .begins _ c t A hc ha.weaken
  | enters c a A ha => exact .enters _ c a A ha.weaken
  | works A ha => exact .works _ A ha.weaken
  | returns c a k crash r A hc ha => exact .returns _ c a k crash r A hc ha.weaken
  | ends c r A hc ha => exact .ends _ c r A hc ha.weaken
  | respond c r hc => exact .respond _ c r hc
  | dropWaiting c t hc => exact .dropWaiting _ c t hc
  | dropLeaving c r hc => exact .dropLeaving _ c r hc

theorem _root_.IndraDB.Rocks.Srv.Exec.weaken {s : Rocks} {h : List SrvEv} {S : Srv} (hx : Srv.Exec X io prep s h S) : Srv.Exec X true prep s h S := by
  induction hx with
  | nil => exact .nil
  | snoc _ hs ih => exact ih.snoc hs.weaken

theorem Exec.linked {s : Rocks} {h : List SrvEv} {S : Srv} (hx : Exec X io prep s h S) : ∀ c, S.Linked c := by
  induction hx with
  | nil => exact linked_init s
  | snoc _ hs ih => exact hs.linked ih

theorem Exec.bounded {s : Rocks} {h : List SrvEv} {S : Srv} (hx : Exec X io prep s h S) : ∃ N, S.Below N := by
  have reqs : ∃ N, ∀ c, N ≤ c → S.reqs c = .unused := by
    have key : ∀ (S S' : Srv) (c : Nat) (q : Serving), S'.reqs = setAt S.reqs c q →
        (∃ N, ∀ c, N ≤ c → S.reqs c = .unused) → ∃ N, ∀ c, N ≤ c → S'.reqs c = .unused := by
      rintro S S' c q h ⟨N, hN⟩
      refine ⟨max N (c + 1), fun i hi => ?_⟩
      rw [h, setAt_ne _ _ (by omega)]
      exact hN i (by omega)
    induction hx with
    | nil => exact ⟨0, fun _ _ => rfl⟩
    | snoc _ hs ih =>
      cases hs with
      | reject c => exact key _ _ c _ rfl ih
      | accept c => exact key _ _ c _ rfl ih
      | begins c => exact key _ _ c _ rfl ih
      | enters => exact ih
      | works => exact ih
      | returns c => exact key _ _ c _ rfl ih
      | ends c => exact key _ _ c _ rfl ih
      | respond c => exact key _ _ c _ rfl ih
      | dropWaiting c => exact key _ _ c _ rfl ih
      | dropLeaving c => exact key _ _ c _ rfl ih
  obtain ⟨N, hN⟩ := reqs
  refine ⟨N, fun c hc => ⟨hN c hc, ?_⟩⟩
  have := hx.linked c
  unfold Linked at this
  rw [hN c hc] at this
  exact this

/-- No request of a client that stays has been dropped. -/
def Served (stays : Nat → Prop) (v : View) : Prop := ∀ c, stays c → v.2.reqs c = .finished → ∃ r, SrvEv.ret c r ∈ v.1

theorem Moves.star {polite : Bool} {stays : Nat → Prop} {s : Rocks} {v v' : View} (hx : Exec X true prep s v.1 v.2) (hd : Served stays v)
    (hs : Star (Moves X polite prep stays) v v') : Exec X true prep s v'.1 v'.2 ∧ Served stays v' := by
  induction hs with
  | refl => exact ⟨hx, hd⟩
  | @tail u w _ hm ih =>
    obtain ⟨e, h1, h2, h3, h4, _⟩ := hm
    refine ⟨h2 ▸ ih.1.snoc h1, fun c hc hf => ?_⟩
    rw [h2]
    by_cases hb : u.2.reqs c = .finished
    · exact (ih.2 c hc hb).imp fun r hr => List.mem_append_left _ hr
    · exact (h4 c hc hb hf).imp fun r hr => List.mem_append_right _ hr

/-- A step of a task that does not wait for the read lock. -/
theorem not_reads {A A' : App} {c : Nat} {q : TaskAt} (h : A'.tasks = setAt A.tasks c q) (hc : ∀ a held n k, A.tasks c ≠ .inside a (.readLock held n) k) :
    ¬ App.GetsRead A A' := by
  rintro ⟨c', a', held, n, k', hc', hS'⟩
  by_cases hcc : c' = c
  · subst hcc; exact hc _ _ _ _ hc'
  · have e1 : A'.tasks c' = A.tasks c' := by rw [h, setAt_ne _ _ hcc]
    rw [hS', setAt_self, hc'] at e1
    exact App.read_ne (by injection e1)

theorem not_reads_same {A A' : App} (h : A'.tasks = A.tasks) : ¬ App.GetsRead A A' := by
  rintro ⟨c', a', held, n, k', hc', hS'⟩
  have e1 : A'.tasks c' = A.tasks c' := by rw [h]
  rw [hS', setAt_self, hc'] at e1
  exact App.read_ne (by injection e1)

/-- As long as a request has not been answered or dropped, some request can make a step. -/
theorem stuck {polite : Bool} {stays : Nat → Prop} {s : Rocks} {h : List SrvEv} {D : Srv} (hx : Exec X true prep s h D)
    (hend : ∀ w, ¬ Moves X polite prep stays (h, D) w) (c : Nat) : D.reqs c = .unused ∨ D.reqs c = .finished := by
  have L := hx.linked
  have other : ∀ (c : Nat) (x : Serving), x ≠ .finished → ∀ i, stays i → D.reqs i ≠ .finished → setAt D.reqs c x i = .finished →
      ∃ r, SrvEv.ret i r ∈ ([] : List SrvEv) := by
    intro c x hx i _ h1 h2
    by_cases hi : i = c
    · subst hi; rw [setAt_self] at h2; exact absurd h2 hx
    · rw [setAt_ne _ _ hi] at h2; exact absurd h2 h1
  have same : ∀ i, stays i → D.reqs i ≠ .finished → D.reqs i = .finished → ∃ r, SrvEv.ret i r ∈ ([] : List SrvEv) :=
    fun i _ h1 h2 => absurd h2 h1
  cases hc : D.reqs c with
  | unused => exact .inl rfl
  | finished => exact .inr rfl
  | leaving r =>
    refine (hend (_, _) ⟨_, .respond D c r hc, rfl, by simp, ?_, fun _ hg => absurd hg (not_reads_same rfl)⟩).elim
    intro i _ h1 h2
    by_cases hi : i = c
    · subst hi; exact ⟨r, by simp⟩
    · have h2' : setAt D.reqs c .finished i = .finished := h2
      rw [setAt_ne _ _ hi] at h2'; exact absurd h2' h1
  | waiting t =>
    have l := L c
    unfold Linked at l
    rw [hc] at l
    refine (hend (_, _) ⟨_, .begins D c t _ hc (.start D.app c t.task l), rfl, by simp, other c _ (by simp), fun _ hg => ?_⟩).elim
    exact absurd hg (not_reads rfl (fun a held n k h => by rw [l] at h; cases h))
  | running t =>
    have l := L c
    unfold Linked at l
    rw [hc] at l
    exfalso
    rcases l with l | ⟨a, k, crash, p, rfl, l⟩
    · have nr : ∀ a held n k, D.app.tasks c ≠ .inside a (.readLock held n) k := fun a held n k h => by rw [l] at h; cases h
      cases t with
      | ret r =>
        exact hend (_, _) ⟨_, .ends D c r _ hc (.stop D.app c _ l (.inl rfl)), rfl, by simp, other c _ (by simp),
          fun _ hg => absurd hg (not_reads rfl nr)⟩
      | call a k crash =>
        exact hend (_, _) ⟨_, .enters D c a _ (.enter D.app c .sorted a _ l), rfl, by simp, same,
          fun _ hg => absurd hg (not_reads rfl nr)⟩
    · obtain ⟨g, _, _, B⟩ := Both.mk' hx .nil
      obtain ⟨A', e, hs, n1, n2, hp⟩ := (App.LockInv.exec B.app).progress (X := X) (polite := polite) l
      have silent : ∀ A', App.Step X true D.app [] A' → (polite = true → App.GetsRead D.app A' → ¬ App.WriterWaits D.app) → False :=
        fun A' hs hp => hend (_, _) ⟨_, .works D A' hs, rfl, by simp, same, hp⟩
      cases hs with
      | start c t _ => exact n1 c t (by simp)
      | enter c O a k _ => exact n2 c a (by simp)
      | flushFails c a k _ _ _ => exact n2 c a (by simp)
      | stop i t hi ht =>
        have li := L i
        unfold Linked at li
        split at li
        · rw [hi] at li; cases li
        · rw [hi] at li; cases li
        · next t' hq =>
          rcases li with li | ⟨_, _, _, _, _, li⟩
          · rw [hi] at li
            cases li
            cases t' with
            | ret r =>
              exact hend (_, _) ⟨_, .ends D i r _ hq (.stop D.app i _ hi ht), rfl, by simp, other i _ (by simp), hp⟩
            | call => rcases ht with h | h <;> cases h
          · rw [hi] at li; cases li
        · rw [hi] at li; rcases li with li | li <;> cases li
        · rw [hi] at li; rcases li with li | li <;> cases li
      | leave i a k r hi hw hr =>
        have li := L i
        unfold Linked at li
        split at li
        · rw [hi] at li; cases li
        · rw [hi] at li; cases li
        · next t' hq =>
          rcases li with li | ⟨a', k', crash', p', rfl, li⟩
          · rw [hi] at li; cases li
          · rw [hi] at li
            cases li
            refine hend (_, _) ⟨_, .returns D i a k' crash' r _ hq (.leave D.app i a _ r hi hw hr), rfl, by simp, other i _ ?_, hp⟩
            unfold next
            split <;> simp
        · rw [hi] at li; rcases li with li | li <;> cases li
        · rw [hi] at li; rcases li with li | li <;> cases li
      | get c a k cf b n hc => exact silent _ (.get _ c a k cf b n hc) hp
      | scan c a k cf b n hc => exact silent _ (.scan _ c a k cf b n hc) hp
      | write c a k b n hc => exact silent _ (.write _ c a k b n hc) hp
      | getFails c a k cf b n h hc => exact silent _ (.getFails _ c a k cf b n h hc) hp
      | scanFails c i a k cf b n h hc => exact silent _ (.scanFails _ c i a k cf b n h hc) hp
      | writeFails c a k b n h hc => exact silent _ (.writeFails _ c a k b n h hc) hp
      | readLock c a k held n hc hw => exact silent _ (.readLock _ c a k held n hc hw) hp
      | writeLock c a k n hc hw hr => exact silent _ (.writeLock _ c a k n hc hw hr) hp
      | setIndexed c a k ix n hc => exact silent _ (.setIndexed _ c a k ix n hc) hp
      | unlock c a k r hc hw => exact silent _ (.unlock _ c a k r hc hw) hp
      | unlockRead c a k r hc hr => exact silent _ (.unlockRead _ c a k r hc hr) hp

end Srv
end Rocks
end IndraDB
