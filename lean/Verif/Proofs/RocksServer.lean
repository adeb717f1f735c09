import Verif.Spec.RocksServer
import Verif.Proofs.AppFill
import Verif.Proofs.AppMoments
/-
Server executions are executions of the process.
-/
namespace IndraDB
namespace Rocks
open LockConc
variable {X : Cfg} {io : Bool} {prep : ServerRequest → ServerResponse ⊕ Handler}

/-! ### The process -/

namespace App

theorem Through.from {A S : App} {h : List AppEv} {l : List Rocks} (ht : Through X io A h l S) : From X io A h S := by
  induction ht with
  | nil => exact .nil
  | snoc _ hs ih => exact ih.snoc hs

theorem Through.last {A S : App} {h : List AppEv} {l : List Rocks} (ht : Through X io A h l S) : S.db ∈ l := by
  cases ht with
  | nil => exact List.mem_singleton.2 rfl
  | snoc => exact List.mem_append_right _ (List.mem_singleton.2 rfl)

theorem Step.inside_from {S S' : App} {e : List AppEv} (hs : Step X io S e S') {c : Nat} {a : Access} {p : Prog Answer}
    {k : Except Error Answer → Task} (hq : S'.tasks c = .inside a p k) :
    (∃ p, S.tasks c = .inside a p k) ∨ (e = [.enter c a] ∧ S.tasks c = .between (.call a k) ∧
      ((∃ O, p = accessProg X O a) ∨ io = true)) := by
  cases hs with
  | start i t hi =>
    rcases setAt_eq hq with ⟨rfl, h4⟩ | ⟨_, h4⟩
    · cases h4
    · exact .inl ⟨_, h4⟩
  | stop i t hi =>
    rcases setAt_eq hq with ⟨rfl, h4⟩ | ⟨_, h4⟩
    · cases h4
    · exact .inl ⟨_, h4⟩
  | leave i b j r hi =>
    rcases setAt_eq hq with ⟨rfl, h4⟩ | ⟨_, h4⟩
    · exact absurd h4 (Rocks.after_outside j r _ _ _)
    · exact .inl ⟨_, h4⟩
  | unlock i => exact .inl ⟨_, hq⟩
  | unlockRead i => exact .inl ⟨_, hq⟩
  | enter i O b j hi =>
    rcases setAt_eq hq with ⟨rfl, h4⟩ | ⟨_, h4⟩
    · cases h4; exact .inr ⟨rfl, hi, .inl ⟨O, rfl⟩⟩
    · exact .inl ⟨_, h4⟩
  | flushFails i b j hi hb =>
    rcases setAt_eq hq with ⟨rfl, h4⟩ | ⟨_, h4⟩
    · cases h4; exact .inr ⟨rfl, hb, .inr hi⟩
    · exact .inl ⟨_, h4⟩
  | getFails i b j _ _ _ _ hi =>
    rcases setAt_eq hq with ⟨rfl, h4⟩ | ⟨_, h4⟩
    · cases h4; exact .inl ⟨_, hi⟩
    · exact .inl ⟨_, h4⟩
  | scanFails i b j _ _ _ _ _ hi =>
    rcases setAt_eq hq with ⟨rfl, h4⟩ | ⟨_, h4⟩
    · cases h4; exact .inl ⟨_, hi⟩
    · exact .inl ⟨_, h4⟩
  | writeFails i b j _ _ _ hi =>
    rcases setAt_eq hq with ⟨rfl, h4⟩ | ⟨_, h4⟩
    · cases h4; exact .inl ⟨_, hi⟩
    · exact .inl ⟨_, h4⟩
  | readLock i b j _ _ hi _ =>
    rcases setAt_eq hq with ⟨rfl, h4⟩ | ⟨_, h4⟩
    · cases h4; exact .inl ⟨_, hi⟩
    · exact .inl ⟨_, h4⟩
  | writeLock i b j _ hi _ _ =>
    rcases setAt_eq hq with ⟨rfl, h4⟩ | ⟨_, h4⟩
    · cases h4; exact .inl ⟨_, hi⟩
    · exact .inl ⟨_, h4⟩
  | _ =>
    rename_i hi
    rcases setAt_eq hq with ⟨rfl, h4⟩ | ⟨_, h4⟩
    · cases h4; exact .inl ⟨_, hi⟩
    · exact .inl ⟨_, h4⟩

/-- What calls report is explained by the moments since a time when the task was outside. -/
theorem Through.answered {s : Rocks} {h1 h2 : List AppEv} {A S : App} {l : List Rocks} (hs : Sound X (CanRead X) s.kv)
    (hx : Exec X false s h1 A) (ht : Through X false A h2 l S) (ho : OkEnters (Access.ValuesOk (CanRead X)) (h1 ++ h2)) {c : Nat}
    (hc : A.Outside c) (a : Access) (x : Answer) (hr : AppEv.leave c a (.ok x) ∈ h2) (hk : a.isRead = true ∨ ∃ q, a = .lib (.get q)) :
    Moment.Answered (moments X (· ∈ l)) rocksEdgeLt a x := by
  -- all states are well formed
  have ok : ∀ {g l' S'}, Through X false A g l' S' → OkEnters (Access.ValuesOk (CanRead X)) (h1 ++ g) → ∀ t ∈ l', Sound X (CanRead X) t.kv := by
    intro g l' S' ht
    induction ht with
    | nil =>
      intro ho t h
      rw [List.mem_singleton] at h; subst h
      exact ((appRules (io := false)).exec hs hx (by rwa [List.append_nil] at ho)).db
    | @snoc g e l' S1 S2 ht hst ih =>
      intro ho t h
      have ho' : OkEnters (Access.ValuesOk (CanRead X)) (h1 ++ g) := by
        rw [← List.append_assoc] at ho; exact ho.left
      rcases List.mem_append.1 h with h | h
      · exact ih ho' t h
      · rw [List.mem_singleton] at h; subst h
        exact ((appRules (io := false)).exec hs ((ht.from.exec hx).snoc hst) (by rw [List.append_assoc]; exact ho)).db
  have hok := ok ht ho
  have hM : ∀ t, t ∈ l → Wf X t.kv := fun t h => (hok t h).wf
  have hR : ∀ t, t ∈ l → Readable X t.kv := fun t h => (hok t h).values.readable
  have key : ∀ {g l' S'}, Through X false A g l' S' → (∀ t ∈ l', t ∈ l) →
      (∀ a p k, S'.tasks c = .inside a p k → Looks X (· ∈ l) a p) ∧
      ∀ a x, AppEv.leave c a (.ok x) ∈ g → (a.isRead = true ∨ ∃ q, a = .lib (.get q)) →
        Moment.Answered (moments X (· ∈ l)) rocksEdgeLt a x := by
    intro g l' S' ht
    induction ht with
    | nil => exact fun _ => ⟨fun a p k h => absurd h (hc a p k), fun a x h => (nomatch h)⟩
    | @snoc g e l' S1 S2 ht hst ih =>
      intro hl
      obtain ⟨i1, i2⟩ := ih (fun t h => hl t (List.mem_append_left _ h))
      have hm : S1.db ∈ l := hl _ (List.mem_append_left _ ht.last)
      constructor
      · by_cases he : ∃ a, AppEv.enter c a ∈ e
        · obtain ⟨b, hb⟩ := he
          cases hst.enter_only hb
          intro a p k hp
          rcases hst.inside_from hp with ⟨p', h⟩ | ⟨e1, _, h⟩
          · cases hst with
            | enter _ O _ j hi => rw [hi] at h; cases h
            | flushFails _ _ _ hf => cases hf
          · rcases h with ⟨O, rfl⟩ | h
            · exact fun hr => saw_access hM hR ⟨_, hm⟩ O _ hr
            · cases h
        · exact Looks.step hst (fun a ha => he ⟨a, ha⟩) hm i1
      · intro a x h hk
        rcases List.mem_append.1 h with h | h
        · exact i2 a x h hk
        · cases hst with
          | leave i b j r hi _ _ =>
            simp only [List.mem_singleton] at h
            cases h
            exact (i1 _ _ _ hi) hk
          | _ => simp at h
  exact (key ht (fun t h => h)).2 a x hr hk

end App

/-! ### The server -/

/-- The response a handler ends with, given what its calls returned. -/
inductive Ran (L : Access → Res Answer → Prop) : Handler → ServerResponse → Prop
  | ret (x) : Ran L (.ret x) x
  | ok {a k crash y x} : L a (.ok y) → Ran L (k (.ok y)) x → Ran L (.call a k crash) x
  | err {a k crash e x} : L a (.error (.err e)) → Ran L (k (.error e)) x → Ran L (.call a k crash) x
  | crash {a k crash} : L a (.error .panic) → Ran L (.call a k crash) crash

theorem Ran.mono {L L' : Access → Res Answer → Prop} (hL : ∀ a r, L a r → L' a r) {t : Handler} {x : ServerResponse} (h : Ran L t x) :
    Ran L' t x := by
  induction h with
  | ret x => exact .ret x
  | ok h _ ih => exact .ok (hL _ _ h) ih
  | err h _ ih => exact .err (hL _ _ h) ih
  | crash h => exact .crash (hL _ _ h)

namespace Srv

/-- Where the task of a request is. -/
def Linked (S : Srv) (c : Nat) : Prop := match S.reqs c with
  | .unused => S.app.tasks c = .unused
  | .waiting _ => S.app.tasks c = .unused
  | .running t => S.app.tasks c = .between t.task ∨
      ∃ a k crash p, t = .call a k crash ∧ S.app.tasks c = .inside a p (fun r => (k r).task)
  | .leaving _ => S.app.tasks c = .unused ∨ S.app.tasks c = .finished
  | .finished => S.app.tasks c = .unused ∨ S.app.tasks c = .finished

theorem Linked.of_eq {S S' : Srv} {c : Nat} (h : S.Linked c) (h1 : S'.reqs c = S.reqs c) (h2 : S'.app.tasks c = S.app.tasks c) :
    S'.Linked c := by
  unfold Linked at h ⊢
  rw [h1, h2]; exact h

/-- What a silent step of the process does to a task. -/
theorem silent_task {A A' : App} (hs : App.Step X io A [] A') (c : Nat) :
    A'.tasks c = A.tasks c ∨ ∃ a p p' k, A.tasks c = .inside a p k ∧ A'.tasks c = .inside a p' k := by
  cases hs with
  | unlock => exact .inl rfl
  | unlockRead => exact .inl rfl
  | getFails i b j _ _ _ _ hi =>
    by_cases h : c = i
    · subst h; exact .inr ⟨_, _, _, _, hi, setAt_self _ _ _⟩
    · exact .inl (setAt_ne _ _ h)
  | scanFails i _ b j _ _ _ _ hi =>
    by_cases h : c = i
    · subst h; exact .inr ⟨_, _, _, _, hi, setAt_self _ _ _⟩
    · exact .inl (setAt_ne _ _ h)
  | writeFails i b j _ _ _ hi =>
    by_cases h : c = i
    · subst h; exact .inr ⟨_, _, _, _, hi, setAt_self _ _ _⟩
    · exact .inl (setAt_ne _ _ h)
  | readLock i b j _ _ hi _ =>
    by_cases h : c = i
    · subst h; exact .inr ⟨_, _, _, _, hi, setAt_self _ _ _⟩
    · exact .inl (setAt_ne _ _ h)
  | writeLock i b j _ hi _ _ =>
    by_cases h : c = i
    · subst h; exact .inr ⟨_, _, _, _, hi, setAt_self _ _ _⟩
    · exact .inl (setAt_ne _ _ h)
  | get i b j _ _ _ hi =>
    by_cases h : c = i
    · subst h; exact .inr ⟨_, _, _, _, hi, setAt_self _ _ _⟩
    · exact .inl (setAt_ne _ _ h)
  | scan i b j _ _ _ hi =>
    by_cases h : c = i
    · subst h; exact .inr ⟨_, _, _, _, hi, setAt_self _ _ _⟩
    · exact .inl (setAt_ne _ _ h)
  | write i b j _ _ hi =>
    by_cases h : c = i
    · subst h; exact .inr ⟨_, _, _, _, hi, setAt_self _ _ _⟩
    · exact .inl (setAt_ne _ _ h)
  | setIndexed i b j _ _ hi =>
    by_cases h : c = i
    · subst h; exact .inr ⟨_, _, _, _, hi, setAt_self _ _ _⟩
    · exact .inl (setAt_ne _ _ h)

/-- A task that makes a call. -/
theorem enter_task {A A' : App} {i : Nat} {a : Access} (hs : App.Step X io A [.enter i a] A') :
    ∃ k p, A.tasks i = .between (.call a k) ∧ A'.tasks = setAt A.tasks i (.inside a p k) := by
  cases hs with
  | enter _ O _ k hi => exact ⟨k, _, hi, rfl⟩
  | flushFails _ _ k _ hi _ => exact ⟨k, _, hi, rfl⟩

theorem task_call {t : Handler} {a : Access} {k : Except Error Answer → Task} (h : t.task = .call a k) :
    ∃ k' crash, t = .call a k' crash ∧ k = fun r => (k' r).task := by
  cases t with
  | ret => cases h
  | call b j crash =>
    simp only [Handler.task] at h
    cases h
    exact ⟨j, crash, rfl, rfl⟩

theorem Step.linked {S S' : Srv} {e : List SrvEv} (hs : Step X io prep S e S') (H : ∀ c, S.Linked c) : ∀ c, S'.Linked c := by
  intro c
  -- a step that concerns another request
  cases hs with
  | reject i req r hi hp =>
    by_cases h : c = i
    · subst h
      have := H c
      unfold Linked at this ⊢
      rw [hi] at this
      simp only [setAt_self]
      exact .inl this
    · exact (H c).of_eq (setAt_ne _ _ h) rfl
  | accept i req t hi hp =>
    by_cases h : c = i
    · subst h
      have := H c
      unfold Linked at this ⊢
      rw [hi] at this
      simp only [setAt_self]
      exact this
    · exact (H c).of_eq (setAt_ne _ _ h) rfl
  | begins i t A hi ha =>
    cases ha with
    | start _ _ hu =>
      by_cases h : c = i
      · subst h
        unfold Linked
        simp only [setAt_self]
        exact .inl trivial
      · exact (H c).of_eq (setAt_ne _ _ h) (setAt_ne _ _ h)
  | enters i a A ha =>
    obtain ⟨k, p, h1, h2⟩ := enter_task ha
    by_cases h : c = i
    · subst h
      have := H c
      unfold Linked at this ⊢
      simp only [h2, setAt_self]
      split at this <;> simp only [h1] at this
      · cases this
      · cases this
      · rename_i t ht
        rcases this with h | ⟨_, _, _, _, _, h⟩
        · injection h with h
          obtain ⟨k', crash, rfl, rfl⟩ := task_call h.symm
          exact .inr ⟨_, _, _, _, rfl, rfl⟩
        · cases h
      · rcases this with h | h <;> cases h
      · rcases this with h | h <;> cases h
    · exact (H c).of_eq rfl (by rw [h2]; exact setAt_ne _ _ h)
  | works A ha =>
    rcases silent_task ha c with h | ⟨a, p, p', k, h1, h2⟩
    · exact (H c).of_eq rfl h
    · have := H c
      unfold Linked at this ⊢
      simp only [h2]
      split at this <;> simp only [h1] at this
      · cases this
      · cases this
      · rcases this with h | ⟨a', k', crash, q, e1, h⟩
        · cases h
        · cases h
          exact .inr ⟨_, _, _, _, e1, rfl⟩
      · rcases this with h | h <;> cases h
      · rcases this with h | h <;> cases h
  | returns i a k crash r A hi ha =>
    cases ha with
    | leave _ _ j _ ht _ _ =>
      by_cases h : c = i
      · subst h
        have := H c
        unfold Linked at this ⊢
        rw [hi] at this
        simp only [setAt_self, ht] at this ⊢
        rcases this with h | ⟨a', k', crash', q, e1, h⟩
        · cases h
        · cases e1
          cases h
          cases r with
          | ok x => exact .inl rfl
          | error f => cases f with
            | err e => exact .inl rfl
            | panic => exact .inr rfl
      · exact (H c).of_eq (setAt_ne _ _ h) (setAt_ne _ _ h)
  | ends i r A hi ha =>
    cases ha with
    | stop _ t ht _ =>
      by_cases h : c = i
      · subst h
        unfold Linked
        simp only [setAt_self]
        exact .inr trivial
      · exact (H c).of_eq (setAt_ne _ _ h) (setAt_ne _ _ h)
  | respond i r hi =>
    by_cases h : c = i
    · subst h
      have := H c
      unfold Linked at this ⊢
      rw [hi] at this
      simp only [setAt_self]
      exact this
    · exact (H c).of_eq (setAt_ne _ _ h) rfl
  | dropWaiting i r hi =>
    by_cases h : c = i
    · subst h
      have := H c
      unfold Linked at this ⊢
      rw [hi] at this
      simp only [setAt_self]
      exact .inl this
    · exact (H c).of_eq (setAt_ne _ _ h) rfl
  | dropLeaving i r hi =>
    by_cases h : c = i
    · subst h
      have := H c
      unfold Linked at this ⊢
      rw [hi] at this
      simp only [setAt_self]
      exact this
    · exact (H c).of_eq (setAt_ne _ _ h) rfl

theorem linked_init (s : Rocks) (c : Nat) : (Srv.init s).Linked c := rfl

theorem Linked.outside {S : Srv} {c : Nat} (h : S.Linked c) (hc : S.reqs c = .unused) : S.app.Outside c := by
  intro a p k hq
  unfold Linked at h
  rw [hc] at h
  rw [show S.app.tasks c = .unused from h] at hq; cases hq

theorem Through.from {A S : Srv} {h : List SrvEv} {l : List Rocks} (ht : Through X io prep A h l S) : From X io prep A h S := by
  induction ht with
  | nil => exact .nil
  | snoc _ hs ih => exact ih.snoc hs

theorem From.through {A S : Srv} {h : List SrvEv} (hf : From X io prep A h S) : ∃ l, Through X io prep A h l S := by
  induction hf with
  | nil => exact ⟨_, .nil⟩
  | snoc _ hs ih => obtain ⟨l, ht⟩ := ih; exact ⟨_, ht.snoc hs⟩

theorem From.exec {s : Rocks} {h h' : List SrvEv} {A S : Srv} (hx : Exec X io prep s h A) (hf : From X io prep A h' S) :
    Exec X io prep s (h ++ h') S := by
  induction hf with
  | nil => rw [List.append_nil]; exact hx
  | snoc _ hs ih => rw [← List.append_assoc]; exact ih.snoc hs

theorem Exec.from {s : Rocks} {h : List SrvEv} {S : Srv} (hx : Exec X io prep s h S) : From X io prep (.init s) h S := by
  induction hx with
  | nil => exact .nil
  | snoc _ hs ih => exact ih.snoc hs

theorem _root_.IndraDB.Rocks.OkRequests.left {ok : Access → Prop} {h e : List SrvEv} (ho : OkRequests ok prep (h ++ e)) : OkRequests ok prep h :=
  fun c req t hc hp => ho c req t (List.mem_append_left _ hc) hp

theorem _root_.IndraDB.Rocks.OkRequests.right {ok : Access → Prop} {h e : List SrvEv} (ho : OkRequests ok prep (h ++ e)) : OkRequests ok prep e :=
  fun c req t hc hp => ho c req t (List.mem_append_right _ hc) hp

theorem _root_.IndraDB.Rocks.OkEnters.append {ok : Access → Prop} {h e : List AppEv} (h1 : OkEnters ok h) (h2 : OkEnters ok e) : OkEnters ok (h ++ e) :=
  fun c a hm => (List.mem_append.1 hm).elim (h1 c a) (h2 c a)

/-- The request got this response from its handler. -/
def Done (prep : ServerRequest → ServerResponse ⊕ Handler) (g : List AppEv) (c : Nat) (req : ServerRequest) (x : ServerResponse) : Prop :=
  prep req = .inl x ∨ ∃ t, prep req = .inr t ∧ Ran (fun a r => AppEv.leave c a r ∈ g) t x

theorem Done.more {g g' : List AppEv} {c : Nat} {req : ServerRequest} {x : ServerResponse} (h : Done prep g c req x) :
    Done prep (g ++ g') c req x := by
  rcases h with h | ⟨t, h1, h2⟩
  · exact .inl h
  · exact .inr ⟨t, h1, h2.mono (fun _ _ h => List.mem_append_left _ h)⟩

/-- Following request `c` from a moment before it arrived. -/
structure ReqAt (prep : ServerRequest → ServerResponse ⊕ Handler) (c : Nat) (h : List SrvEv) (g : List AppEv) (S : Srv) : Prop where
  once : ∀ req req', SrvEv.call c req ∈ h → SrvEv.call c req' ∈ h → req = req'
  at_ : match S.reqs c with
    | .unused => (∀ req, SrvEv.call c req ∉ h) ∧ ∀ x, SrvEv.ret c x ∉ h
    | .waiting t => (∃ req, SrvEv.call c req ∈ h ∧ prep req = .inr t) ∧ ∀ x, SrvEv.ret c x ∉ h
    | .running t => (∃ req t0, SrvEv.call c req ∈ h ∧ prep req = .inr t0 ∧
        ∀ L : Access → Res Answer → Prop, (∀ a r, AppEv.leave c a r ∈ g → L a r) → ∀ x, Ran L t x → Ran L t0 x) ∧ ∀ x, SrvEv.ret c x ∉ h
    | .leaving x => (∃ req, SrvEv.call c req ∈ h ∧ Done prep g c req x) ∧ ∀ x, SrvEv.ret c x ∉ h
    | .finished => ∀ x, SrvEv.ret c x ∈ h → ∃ req, SrvEv.call c req ∈ h ∧ Done prep g c req x

/-- A step that does nothing to the request. -/
theorem ReqAt.stays {S S' : Srv} {c : Nat} {h e : List SrvEv} {g : List AppEv} (H : ReqAt prep c h g S) (g' : List AppEv)
    (hr : S'.reqs c = S.reqs c) (hc : ∀ req, SrvEv.call c req ∉ e) (hx : ∀ x, SrvEv.ret c x ∉ e) : ReqAt prep c (h ++ e) (g ++ g') S' := by
  have at0 := H.at_
  refine ⟨fun req req' h1 h2 => ?_, ?_⟩
  · rcases List.mem_append.1 h1 with h1 | h1
    · rcases List.mem_append.1 h2 with h2 | h2
      · exact H.once _ _ h1 h2
      · exact absurd h2 (hc _)
    · exact absurd h1 (hc _)
  · have nr : (∀ x, SrvEv.ret c x ∉ h) → ∀ x, SrvEv.ret c x ∉ h ++ e := fun h0 x hm => (List.mem_append.1 hm).elim (h0 x) (hx x)
    have nc : (∀ x, SrvEv.call c x ∉ h) → ∀ x, SrvEv.call c x ∉ h ++ e := fun h0 x hm => (List.mem_append.1 hm).elim (h0 x) (hc x)
    rw [hr]
    cases hq : S.reqs c with
    | unused => rw [hq] at at0; exact ⟨nc at0.1, nr at0.2⟩
    | waiting t => rw [hq] at at0; exact ⟨at0.1.imp fun _ h => ⟨List.mem_append_left _ h.1, h.2⟩, nr at0.2⟩
    | running t =>
      rw [hq] at at0
      obtain ⟨⟨req, t0, h1, h2, h3⟩, h4⟩ := at0
      exact ⟨⟨req, t0, List.mem_append_left _ h1, h2, fun L hL => h3 L (fun a r h => hL a r (List.mem_append_left _ h))⟩, nr h4⟩
    | leaving x => rw [hq] at at0; exact ⟨at0.1.imp fun _ h => ⟨List.mem_append_left _ h.1, h.2.more⟩, nr at0.2⟩
    | finished =>
      rw [hq] at at0
      intro x hm
      rcases List.mem_append.1 hm with hm | hm
      · exact (at0 x hm).imp fun _ h => ⟨List.mem_append_left _ h.1, h.2.more⟩
      · exact absurd hm (hx x)

/-- Everything the pending handlers can do satisfies `ok`. -/
def Pending (S : Srv) (ok : Access → Prop) : Prop := ∀ c t, (S.reqs c = .waiting t ∨ S.reqs c = .running t) → t.Within ok

theorem Pending.set {S : Srv} {ok : Access → Prop} (H : S.Pending ok) (i : Nat) (q : Serving)
    (hq : ∀ t, q = .waiting t ∨ q = .running t → t.Within ok) (A : App) : Pending ⟨A, setAt S.reqs i q⟩ ok := by
  intro c t hc
  by_cases h : c = i
  · subst h
    simp only [setAt_self] at hc
    exact hq t hc
  · simp only [setAt_ne _ _ h] at hc
    exact H c t hc

/-- What a step of the server is to the process, to each request, and to the pending handlers. -/
theorem Step.follow {S S' : Srv} {e : List SrvEv} (hs : Step X io prep S e S') (hl : ∀ c, S.Linked c) :
    ∃ g', ((g' = [] ∧ S'.app = S.app) ∨ App.Step X io S.app g' S'.app) ∧
      (∀ c h g, ReqAt prep c h g S → ReqAt prep c (h ++ e) (g ++ g') S') ∧
      ∀ ok, S.Pending ok → OkRequests ok prep e → S'.Pending ok ∧ OkEnters ok g' := by
  have none : ∀ ok, OkEnters ok [] := fun _ _ _ h => (nomatch h)
  cases hs with
  | reject i req r hi hp =>
    refine ⟨[], .inl ⟨rfl, rfl⟩, fun c h g H => ?_, fun ok hp _ => ⟨hp.set i _ (fun t h => ?_) _, none ok⟩⟩
    · by_cases hc : c = i
      · subst hc
        have at0 := H.at_
        rw [hi] at at0
        refine ⟨fun req req' h1 h2 => ?_, ?_⟩
        · simp only [List.mem_append, at0.1, List.mem_singleton, false_or] at h1 h2
          cases h1; cases h2; rfl
        · simp only [setAt_self]
          exact ⟨⟨req, List.mem_append_right _ (List.mem_singleton.2 rfl), .inl hp⟩, fun x hm => by
            simp [at0.2 x] at hm⟩
      · exact H.stays _ (setAt_ne _ _ hc) (by simp [hc]) (by simp)
    · rcases h with h | h <;> cases h
  | accept i req t hi hp =>
    refine ⟨[], .inl ⟨rfl, rfl⟩, fun c h g H => ?_, fun ok hpe ho => ⟨hpe.set i _ (fun t' h => ?_) _, none ok⟩⟩
    · by_cases hc : c = i
      · subst hc
        have at0 := H.at_
        rw [hi] at at0
        refine ⟨fun req req' h1 h2 => ?_, ?_⟩
        · simp only [List.mem_append, at0.1, List.mem_singleton, false_or] at h1 h2
          cases h1; cases h2; rfl
        · simp only [setAt_self]
          exact ⟨⟨req, List.mem_append_right _ (List.mem_singleton.2 rfl), hp⟩, fun x hm => by
            simp [at0.2 x] at hm⟩
      · exact H.stays _ (setAt_ne _ _ hc) (by simp [hc]) (by simp)
    · rcases h with h | h
      · cases h; exact ho i req t (List.mem_singleton.2 rfl) hp
      · cases h
  | begins i t A' hi ha =>
    refine ⟨_, .inr ha, fun c h g H => ?_, fun ok hpe _ => ⟨hpe.set i _ (fun t' h => ?_) _, fun c a hm => by simp at hm⟩⟩
    · by_cases hc : c = i
      · subst hc
        have at0 := H.at_
        rw [hi] at at0
        refine ⟨by simpa using H.once, ?_⟩
        simp only [setAt_self, List.append_nil]
        obtain ⟨⟨req, h1, h2⟩, h3⟩ := at0
        exact ⟨⟨req, t, h1, h2, fun L _ x h => h⟩, h3⟩
      · exact H.stays _ (setAt_ne _ _ hc) (by simp) (by simp)
    · rcases h with h | h
      · cases h
      · cases h; exact hpe i t (.inl hi)
  | enters i a A' ha =>
    refine ⟨_, .inr ha, fun c h g H => H.stays _ rfl (by simp) (by simp), fun ok hpe _ => ⟨hpe, fun c b hm => ?_⟩⟩
    simp only [List.mem_singleton] at hm
    cases hm
    obtain ⟨k, p, h1, h2⟩ := enter_task ha
    have := hl i
    unfold Linked at this
    split at this <;> simp only [h1] at this
    · cases this
    · cases this
    · rename_i t ht
      rcases this with h | ⟨_, _, _, _, _, h⟩
      · injection h with h
        obtain ⟨k', crash, rfl, rfl⟩ := task_call h.symm
        exact (hpe i _ (.inr ht)).1
      · cases h
    · rcases this with h | h <;> cases h
    · rcases this with h | h <;> cases h
  | works A' ha => exact ⟨_, .inr ha, fun c h g H => H.stays _ rfl (by simp) (by simp), fun ok hpe _ => ⟨hpe, none ok⟩⟩
  | returns i a k crash r A' hi ha =>
    refine ⟨_, .inr ha, fun c h g H => ?_, fun ok hpe _ => ⟨hpe.set i _ (fun t' h => ?_) _, fun c a hm => by simp at hm⟩⟩
    · by_cases hc : c = i
      · subst hc
        have at0 := H.at_
        rw [hi] at at0
        refine ⟨by simpa using H.once, ?_⟩
        simp only [setAt_self, List.append_nil]
        obtain ⟨⟨req, t0, h1, h2, h3⟩, h4⟩ := at0
        have hin : AppEv.leave c a r ∈ g ++ [AppEv.leave c a r] := List.mem_append_right _ (List.mem_singleton.2 rfl)
        cases r with
        | ok y => exact ⟨⟨req, t0, h1, h2, fun L hL x hx => h3 L (fun a r h => hL a r (List.mem_append_left _ h)) x (.ok (hL _ _ hin) hx)⟩, h4⟩
        | error f => cases f with
          | err e => exact ⟨⟨req, t0, h1, h2, fun L hL x hx => h3 L (fun a r h => hL a r (List.mem_append_left _ h)) x (.err (hL _ _ hin) hx)⟩, h4⟩
          | panic =>
            exact ⟨⟨req, h1, .inr ⟨t0, h2, h3 _ (fun a r h => List.mem_append_left _ h) _ (.crash hin)⟩⟩, h4⟩
      · exact H.stays _ (setAt_ne _ _ hc) (by simp) (by simp)
    · have hw := (hpe i _ (.inr hi)).2
      cases r with
      | ok x => rcases h with h | h <;> cases h; exact hw _
      | error f => cases f with
        | err => rcases h with h | h <;> cases h; exact hw _
        | panic => rcases h with h | h <;> cases h
  | ends i r A' hi ha =>
    refine ⟨_, .inr ha, fun c h g H => ?_, fun ok hpe _ => ⟨hpe.set i _ (fun t' h => ?_) _, fun c a hm => by simp at hm⟩⟩
    · by_cases hc : c = i
      · subst hc
        have at0 := H.at_
        rw [hi] at at0
        refine ⟨by simpa using H.once, ?_⟩
        simp only [setAt_self, List.append_nil]
        obtain ⟨⟨req, t0, h1, h2, h3⟩, h4⟩ := at0
        exact ⟨⟨req, h1, .inr ⟨t0, h2, h3 _ (fun a r h => List.mem_append_left _ h) _ (.ret r)⟩⟩, h4⟩
      · exact H.stays _ (setAt_ne _ _ hc) (by simp) (by simp)
    · rcases h with h | h <;> cases h
  | respond i r hi =>
    refine ⟨[], .inl ⟨rfl, rfl⟩, fun c h g H => ?_, fun ok hpe _ => ⟨hpe.set i _ (fun t h => ?_) _, none ok⟩⟩
    · by_cases hc : c = i
      · subst hc
        have at0 := H.at_
        rw [hi] at at0
        refine ⟨by simpa using H.once, ?_⟩
        simp only [setAt_self]
        intro x hx
        rcases List.mem_append.1 hx with hx | hx
        · exact absurd hx (at0.2 x)
        · simp only [List.mem_singleton] at hx
          cases hx
          exact at0.1.imp fun _ h => ⟨List.mem_append_left _ h.1, h.2.more⟩
      · exact H.stays _ (setAt_ne _ _ hc) (by simp) (by simp [hc])
    · rcases h with h | h <;> cases h
  | dropWaiting i t hi =>
    refine ⟨[], .inl ⟨rfl, rfl⟩, fun c h g H => ?_, fun ok hpe _ => ⟨hpe.set i _ (fun t h => ?_) _, none ok⟩⟩
    · by_cases hc : c = i
      · subst hc
        have at0 := H.at_
        rw [hi] at at0
        refine ⟨by simpa using H.once, ?_⟩
        simp only [setAt_self, List.append_nil]
        exact fun x hx => absurd hx (at0.2 x)
      · exact H.stays _ (setAt_ne _ _ hc) (by simp) (by simp)
    · rcases h with h | h <;> cases h
  | dropLeaving i t hi =>
    refine ⟨[], .inl ⟨rfl, rfl⟩, fun c h g H => ?_, fun ok hpe _ => ⟨hpe.set i _ (fun t h => ?_) _, none ok⟩⟩
    · by_cases hc : c = i
      · subst hc
        have at0 := H.at_
        rw [hi] at at0
        refine ⟨by simpa using H.once, ?_⟩
        simp only [setAt_self, List.append_nil]
        exact fun x hx => absurd hx (at0.2 x)
      · exact H.stays _ (setAt_ne _ _ hc) (by simp) (by simp)
    · rcases h with h | h <;> cases h

/-- What happens from `A` on is an execution of the process, in which the requests that were unused at `A` can be followed. -/
structure Follow (X : Cfg) (io : Bool) (prep : ServerRequest → ServerResponse ⊕ Handler) (A : Srv) (h : List SrvEv) (l : List Rocks)
    (g : List AppEv) (lg : List Rocks) (S : Srv) : Prop where
  app : App.Through X io A.app g lg S.app
  sub : ∀ t ∈ lg, t ∈ l
  sup : ∀ t ∈ l, t ∈ lg
  linked : ∀ c, S.Linked c
  enters : ∀ ok, A.Pending ok → OkRequests ok prep h → S.Pending ok ∧ OkEnters ok g
  req : ∀ c, A.reqs c = .unused → ReqAt prep c h g S

theorem Follow.through {A S : Srv} {h : List SrvEv} {l : List Rocks} (hl : ∀ c, A.Linked c) (ht : Through X io prep A h l S) :
    ∃ g lg, Follow X io prep A h l g lg S := by
  induction ht with
  | nil =>
    refine ⟨[], _, .nil, fun t h => h, fun t h => h, hl, fun ok hp _ => ⟨hp, fun _ _ h => nomatch h⟩, fun c hc => ⟨fun _ _ h => (nomatch h), ?_⟩⟩
    rw [hc]
    exact ⟨fun _ h => (nomatch h), fun _ h => (nomatch h)⟩
  | snoc ht hs ih =>
    obtain ⟨g, lg, H⟩ := ih
    obtain ⟨g', h1, h2, h3⟩ := hs.follow H.linked
    have en : ∀ ok, A.Pending ok → OkRequests ok prep (_ ++ _) → _ ∧ OkEnters ok (g ++ g') := fun ok hp ho =>
      ⟨(h3 ok (H.enters ok hp ho.left).1 ho.right).1, (H.enters ok hp ho.left).2.append (h3 ok (H.enters ok hp ho.left).1 ho.right).2⟩
    rcases h1 with ⟨rfl, e⟩ | ha
    · refine ⟨g ++ [], lg, ?_, fun t h => List.mem_append_left _ (H.sub t h), fun t h => ?_, hs.linked H.linked, en, fun c hc => h2 c _ _ (H.req c hc)⟩
      · rw [List.append_nil, e]; exact H.app
      · rcases List.mem_append.1 h with h | h
        · exact H.sup t h
        · rw [List.mem_singleton] at h; subst h; rw [e]; exact H.app.last
    · exact ⟨g ++ g', _, H.app.snoc ha, fun t h => (List.mem_append.1 h).elim (fun h => List.mem_append_left _ (H.sub t h))
        (fun h => List.mem_append_right _ h), fun t h => (List.mem_append.1 h).elim (fun h => List.mem_append_left _ (H.sup t h))
        (fun h => List.mem_append_right _ h), hs.linked H.linked, en, fun c hc => h2 c _ _ (H.req c hc)⟩

theorem ReqAt.ret {S : Srv} {c : Nat} {h : List SrvEv} {g : List AppEv} (H : ReqAt prep c h g S)
    {x : ServerResponse} (hx : SrvEv.ret c x ∈ h) : ∃ req, SrvEv.call c req ∈ h ∧ Done prep g c req x := by
  have a := H.at_
  cases hq : S.reqs c with
  | unused => rw [hq] at a; exact absurd hx (a.2 x)
  | waiting => rw [hq] at a; exact absurd hx (a.2 x)
  | running => rw [hq] at a; exact absurd hx (a.2 x)
  | leaving => rw [hq] at a; exact absurd hx (a.2 x)
  | finished => rw [hq] at a; exact a x hx

theorem ReqAt.done {S : Srv} {c : Nat} {h : List SrvEv} {g : List AppEv} (H : ReqAt prep c h g S) {req : ServerRequest}
    (hc : SrvEv.call c req ∈ h) {x : ServerResponse} (hx : SrvEv.ret c x ∈ h) : Done prep g c req x := by
  obtain ⟨req', h1, h2⟩ := H.ret hx
  rw [H.once _ _ hc h1]; exact h2

theorem Step.used {S S' : Srv} {e : List SrvEv} (hs : Step X io prep S e S') {c : Nat} (hc : S.reqs c ≠ .unused) :
    S'.reqs c ≠ .unused ∧ ∀ req, SrvEv.call c req ∉ e := by
  have key : ∀ (i : Nat) (q : Serving), q ≠ .unused → setAt S.reqs i q c ≠ .unused := by
    intro i q hq h
    rcases setAt_eq h with ⟨_, h4⟩ | ⟨_, h4⟩
    · exact hq h4
    · exact hc h4
  cases hs with
  | reject i req r hi hp => exact ⟨key i _ (by simp), fun req' hm => by simp at hm; exact hc (hm.1 ▸ hi)⟩
  | accept i req r hi hp => exact ⟨key i _ (by simp), fun req' hm => by simp at hm; exact hc (hm.1 ▸ hi)⟩
  | begins i => exact ⟨key i _ (by simp), by simp⟩
  | enters i => exact ⟨hc, by simp⟩
  | works => exact ⟨hc, by simp⟩
  | returns i a k crash r =>
    refine ⟨key i _ ?_, by simp⟩
    cases r with
    | ok x => simp [next]
    | error f => cases f <;> simp [next]
  | ends i => exact ⟨key i _ (by simp), by simp⟩
  | respond i => exact ⟨key i _ (by simp), by simp⟩
  | dropWaiting i => exact ⟨key i _ (by simp), by simp⟩
  | dropLeaving i => exact ⟨key i _ (by simp), by simp⟩

/-- A request that arrives was not there before. -/
theorem From.unused {A S : Srv} {h : List SrvEv} (hf : From X io prep A h S) {c : Nat} {req : ServerRequest} (hc : SrvEv.call c req ∈ h) :
    A.reqs c = .unused := by
  have key : A.reqs c ≠ .unused → ∀ {h S}, From X io prep A h S → S.reqs c ≠ .unused ∧ ∀ req, SrvEv.call c req ∉ h := by
    intro hn h S hf
    induction hf with
    | nil => exact ⟨hn, fun _ h => (nomatch h)⟩
    | snoc _ hs ih =>
      obtain ⟨h1, h2⟩ := hs.used ih.1
      exact ⟨h1, fun req hm => (List.mem_append.1 hm).elim (ih.2 req) (h2 req)⟩
  cases hq : A.reqs c with
  | unused => rfl
  | _ => exact absurd hc ((key (by rw [hq]; simp) hf).2 req)

/-- An execution of the server up to `A`, and from there to `S`. -/
structure Both (X : Cfg) (io : Bool) (prep : ServerRequest → ServerResponse ⊕ Handler) (s : Rocks) (A : Srv) (h1 h2 : List SrvEv)
    (l : List Rocks) (S : Srv) (g1 g2 : List AppEv) (lg : List Rocks) : Prop where
  app : App.Exec X io s g1 A.app
  linked : ∀ c, A.Linked c
  enters : ∀ ok, OkRequests ok prep h1 → A.Pending ok ∧ OkEnters ok g1
  req : ∀ c, ReqAt prep c h1 g1 A
  rest : Follow X io prep A h2 l g2 lg S

theorem Both.mk' {s : Rocks} {h1 h2 : List SrvEv} {l : List Rocks} {A S : Srv} (hx : Exec X io prep s h1 A)
    (ht : Through X io prep A h2 l S) : ∃ g1 g2 lg, Both X io prep s A h1 h2 l S g1 g2 lg := by
  obtain ⟨l1, ht1⟩ := hx.from.through
  obtain ⟨g1, lg1, F1⟩ := Follow.through (linked_init s) ht1
  obtain ⟨g2, lg, F2⟩ := Follow.through F1.linked ht
  refine ⟨g1, g2, lg, ?_, F1.linked, fun ok ho => F1.enters ok (fun c t h => ?_) ho, fun c => F1.req c rfl, F2⟩
  · have := F1.app.from.exec .nil
    rwa [List.nil_append] at this
  · rcases h with h | h <;> cases h

end Srv

/-- Lives of servers are lives of processes. -/
theorem SrvLife.app {hs : List ((ServerRequest → ServerResponse ⊕ Handler) × List SrvEv)} {s : Rocks} (hl : SrvLife X hs s) :
    ∃ gs, AppLife X gs s ∧ ∀ ok, (∀ p ∈ hs, OkRequests ok p.1 p.2) → ∀ g ∈ gs, OkEnters ok g := by
  induction hl with
  | new h => exact ⟨[], .new h, fun _ _ g h => (nomatch h)⟩
  | @again hs s t prep h S k _ hx ht ih =>
    obtain ⟨gs, h1, h2⟩ := ih
    obtain ⟨g1, g2, lg, B⟩ := Srv.Both.mk' hx .nil
    refine ⟨gs ++ [g1], .again k h1 B.app ht, fun ok ho g hg => ?_⟩
    rcases List.mem_append.1 hg with hg | hg
    · exact h2 ok (fun p hp => ho p (List.mem_append_left _ hp)) g hg
    · rw [List.mem_singleton] at hg; subst hg
      exact (B.enters ok (ho (prep, h) (List.mem_append_right _ (List.mem_singleton.2 rfl)))).2

end Rocks
end IndraDB
