import Verif.Proofs.RocksServer
import Verif.Proofs.ServerConc
/-
What handlers answer: library calls return replies; a request that nobody disturbs is served as by the sequential server.
-/
namespace IndraDB
namespace Rocks
open LockConc Prog
variable {X : Cfg} {io : Bool} {prep : ServerRequest → ServerResponse ⊕ Handler}

/-! ### Library calls return replies -/

theorem _root_.IndraDB.Prog.AllIf.any {α : Type} (p : Prog α) : p.AllIf (fun _ => True) (fun _ => True) (fun _ => True) := by
  induction p with
  | done r => cases r <;> trivial
  | get _ _ _ ih => exact fun r => ih r
  | scan _ _ _ ih => exact fun r => ih r
  | write _ _ ih => exact ⟨trivial, ih ()⟩
  | readLock _ _ ih => exact fun r _ => ih r
  | writeLock _ ih => exact fun r _ => ih r
  | setIndexed _ _ ih => exact ⟨trivial, ih ()⟩

/-- It ends with a result that satisfies `Q`, or fails. -/
abbrev _root_.IndraDB.Prog.Ends {α : Type} (p : Prog α) (Q : α → Prop) : Prop := p.AllIf (fun _ => True) (fun _ => True) Q

theorem _root_.IndraDB.Prog.Ends.bind {α β : Type} (p : Prog α) {f : α → Prog β} {Q : β → Prop} (h : ∀ a, (f a).Ends Q) :
    (p >>= f).Ends Q := (AllIf.any p).bind (fun a _ => h a)

theorem ends_query (q : Query) : ∀ out, (queryP X q out).Ends (fun l => l ≠ []) := by
  have app : ∀ (l : List Output) (o : Output), (pure (l ++ [o]) : Prog (List Output)).Ends (fun l => l ≠ []) := fun l o => by
    show l ++ [o] ≠ []
    simp
  have one : ∀ {α : Type} (p : Prog α) (l : List Output) (f : α → Output), (p >>= fun a => pure (l ++ [f a])).Ends (fun l => l ≠ []) :=
    fun p l f => Ends.bind p (fun a => app l _)
  have stage : ∀ inner p f, (runStageP inner p f).Ends (fun l => l ≠ []) := by
    intro inner p f
    unfold runStageP
    refine Ends.bind p (fun l => ?_)
    split
    · trivial
    · exact Ends.bind _ (fun a => app _ _)
  induction q with
  | allVertex => exact fun out => Ends.bind _ (fun _ => one _ _ _)
  | rangeVertex limit t st => exact fun out => by cases st <;> exact Ends.bind _ (fun _ => one _ _ _)
  | specificVertex ids => exact fun out => Ends.bind _ (fun _ => one _ _ _)
  | vertexWithPropertyPresence n => exact fun out => Ends.bind _ (fun _ => Ends.bind _ (fun _ => one _ _ _))
  | vertexWithPropertyValue n v => exact fun out => Ends.bind _ (fun _ => Ends.bind _ (fun _ => one _ _ _))
  | edgeWithPropertyPresence n => exact fun out => one _ _ _
  | edgeWithPropertyValue n v => exact fun out => one _ _ _
  | allEdge => exact fun out => Ends.bind _ (fun _ => one _ _ _)
  | specificEdge es => exact fun out => Ends.bind _ (fun _ => one _ _ _)
  | incl inner _ =>
    intro out
    refine Ends.bind _ (fun l => ?_)
    split
    · trivial
    · exact app _ _
  | count inner _ =>
    intro out
    cases inner <;> first | exact one _ _ _ | exact stage _ _ _
  | _ => exact fun out => stage _ _ _

/-- Library calls return nothing but replies, and queries at least one output. -/
theorem replyRules : Rules X io (fun _ => True) (fun _ => True)
    (fun a p => ∀ op, a = .lib op → p.Ends (fun x => ∃ y, x = .reply y ∧ ∀ q, op = .get q → ∃ l, y = .outputs l ∧ l ≠ []))
    (fun _ => True) where
  enter := fun O a _ op ha => by
    subst ha
    cases op with
    | get q =>
      have h : (callProg X O (.get q)).Ends (fun y => ∃ l, y = .outputs l ∧ l ≠ []) :=
        AllIf.bind (ends_query q []) (fun l hl => ⟨l, rfl, hl⟩)
      exact AllIf.bind h (fun y hy => ⟨y, rfl, fun _ _ => hy⟩)
    | _ => exact Ends.bind (callProg X O _) (fun y => ⟨y, rfl, fun q h => nomatch h⟩)
  fault := fun _ _ _ _ => trivial
  get := fun _ _ _ _ _ _ h op ha => h op ha _
  scan := fun _ _ _ _ _ _ h op ha => h op ha _
  scanFails := fun _ _ _ _ _ _ _ _ h op ha => h op ha _
  write := fun _ _ _ _ _ h => ⟨trivial, trivial, fun op ha => (h op ha).2⟩
  readLock := fun _ _ _ _ _ h op ha => h op ha _ trivial
  writeLock := fun _ _ _ _ h op ha => h op ha _ trivial
  setIndexed := fun _ _ _ _ _ h => ⟨trivial, fun op ha => (h op ha).2⟩

theorem lib_reply {s : Rocks} {h : List AppEv} {S : App} (hx : App.Exec X io s h S) {c : Nat} {op : Op} {x : Answer}
    (hr : AppEv.leave c (.lib op) (.ok x) ∈ h) : ∃ y, x = .reply y ∧ ∀ q, op = .get q → ∃ l, y = .outputs l ∧ l ≠ [] :=
  (replyRules.exec trivial hx (fun _ _ _ => trivial)).leaves c _ _ hr op rfl

/-- A library request was answered by its call. -/
theorem Ran.lib {L : Access → Res Answer → Prop} {J : JsonText} {req : Request} {op : Op} {x : ServerResponse}
    (h : Ran L (libHandler J req op) x) : ∃ r, L (.lib op) r ∧
      x = .lib (req.respond J (match r with | .ok y => libResult (.ok y) | .error f => .error f)) := by
  unfold libHandler at h
  cases h with
  | ok h1 h2 => cases h2; exact ⟨_, h1, rfl⟩
  | err h1 h2 => cases h2; exact ⟨_, h1, rfl⟩
  | crash h1 => exact ⟨_, h1, rfl⟩

/-- A plugin request was answered by its plugin, if no call panics. -/
theorem Ran.plugin {L : Access → Res Answer → Prop} {J : JsonText} {describe : PluginError → String} {reset : Nat}
    (hp : ∀ a, ¬ L a (.error .panic)) {p : PluginTask} : ∀ {x : ServerResponse}, Ran L (pluginHandler J describe reset p) x →
    ∃ y, p.Got (fun a r => L a (match r with | .ok z => .ok z | .error e => .error (.err e))) y ∧
      x = .plugin (pluginResponse J describe reset y) := by
  induction p with
  | ret r => intro x h; cases h; exact ⟨_, .ret r, rfl⟩
  | panic => intro x h; cases h; exact ⟨_, .panic, rfl⟩
  | call a k ih =>
    intro x h
    cases h with
    | ok h1 h2 => obtain ⟨y, g1, g2⟩ := ih _ h2; exact ⟨y, .call (r := .ok _) h1 g1, g2⟩
    | err h1 h2 => obtain ⟨y, g1, g2⟩ := ih _ h2; exact ⟨y, .call (r := .error _) h1 g1, g2⟩
    | crash h1 => exact absurd h1 (hp a)

theorem _root_.IndraDB.PluginTask.Got.mono {L L' : Access → Except Error Answer → Prop} (hL : ∀ a r, L a r → L' a r) {p : PluginTask}
    {x : Res (Except PluginError Json)} (h : p.Got L x) : p.Got L' x := by
  induction h with
  | ret r => exact .ret r
  | panic => exact .panic
  | call h _ ih => exact .call (hL _ _ h) ih

/-! ### What a request may still do -/

/-- What is left of a request that has arrived in `h` is within what its handler may do. -/
def Left (prep : ServerRequest → ServerResponse ⊕ Handler) (h : List SrvEv) (S : Srv) (c : Nat) : Prop :=
  ∀ t, (S.reqs c = .waiting t ∨ S.reqs c = .running t) →
    ∃ req t0, SrvEv.call c req ∈ h ∧ prep req = .inr t0 ∧ ∀ ok, t0.Within ok → t.Within ok

theorem Left.set {h e : List SrvEv} {S : Srv} {c : Nat} (H : Left prep h S c) (i : Nat) (q : Serving)
    (hq : c = i → ∀ t, q = .waiting t ∨ q = .running t →
      ∃ req t0, SrvEv.call c req ∈ h ++ e ∧ prep req = .inr t0 ∧ ∀ ok, t0.Within ok → t.Within ok) (A : App) :
    Left prep (h ++ e) ⟨A, setAt S.reqs i q⟩ c := by
  intro t hc
  by_cases h : c = i
  · subst h
    simp only [setAt_self] at hc
    exact hq rfl t hc
  · simp only [setAt_ne _ _ h] at hc
    obtain ⟨req, t0, h1, h2⟩ := H t hc
    exact ⟨req, t0, List.mem_append_left _ h1, h2⟩

theorem Left.step {h e : List SrvEv} {S S' : Srv} (hs : Srv.Step X io prep S e S') {c : Nat} (H : Left prep h S c) :
    Left prep (h ++ e) S' c := by
  have none : ∀ {t q}, (q = Serving.waiting t ∨ q = .running t) → (∀ t, q ≠ .waiting t) → (∀ t, q ≠ .running t) → False := by
    rintro t q (h | h) h1 h2
    · exact h1 _ h
    · exact h2 _ h
  cases hs with
  | reject i req r hi hp => exact H.set i _ (fun _ t h => (none h (by simp) (by simp)).elim) _
  | accept i req t hi hp =>
    refine H.set i _ (fun e t' h => ?_) _
    subst e
    rcases h with h | h <;> cases h
    exact ⟨req, t, List.mem_append_right _ (List.mem_singleton.2 rfl), hp, fun ok h => h⟩
  | begins i t A' hi ha =>
    refine H.set i _ (fun e t' h => ?_) _
    subst e
    rcases h with h | h <;> cases h
    obtain ⟨req, t0, h1, h2⟩ := H t (.inl hi)
    exact ⟨req, t0, List.mem_append_left _ h1, h2⟩
  | enters i a A' ha => rw [List.append_nil]; exact H
  | works A' ha => rw [List.append_nil]; exact H
  | returns i a k crash r A' hi ha =>
    refine H.set i _ (fun e t' h => ?_) _
    subst e
    obtain ⟨req, t0, h1, h2, h3⟩ := H _ (.inr hi)
    refine ⟨req, t0, List.mem_append_left _ h1, h2, fun ok ho => ?_⟩
    have hw := (h3 ok ho).2
    cases r with
    | ok x => rcases h with h | h <;> cases h; exact hw _
    | error f => cases f with
      | err => rcases h with h | h <;> cases h; exact hw _
      | panic => rcases h with h | h <;> cases h
  | ends i r A' hi ha => exact H.set i _ (fun _ t h => (none h (by simp) (by simp)).elim) _
  | respond i r hi => exact H.set i _ (fun _ t h => (none h (by simp) (by simp)).elim) _
  | dropWaiting i t hi => exact H.set i _ (fun _ t h => (none h (by simp) (by simp)).elim) _
  | dropLeaving i t hi => exact H.set i _ (fun _ t h => (none h (by simp) (by simp)).elim) _

theorem Left.exec {s : Rocks} {h : List SrvEv} {S : Srv} (hx : Srv.Exec X io prep s h S) (c : Nat) : Left prep h S c := by
  induction hx with
  | nil => intro t h; rcases h with h | h <;> cases h
  | snoc _ hs ih => exact ih.step hs

/-! ### Undisturbed requests -/

/-- What the handler does alone. -/
def _root_.IndraDB.Handler.run (X : Cfg) : Handler → (Nat → IdentOrder) → Rocks → Rocks × ServerResponse
  | .ret r, _, s => (s, r)
  | .call a k crash, O, s => match (Rocks.txn X (O 0)).access a s with
    | (s', .ok x) => (k (.ok x)).run X (fun i => O (i + 1)) s'
    | (s', .error (.err e)) => (k (.error e)).run X (fun i => O (i + 1)) s'
    | (s', .error .panic) => (s', crash)

/-- What it does after its call did this. -/
def afterCall (X : Cfg) (k : Except Error Answer → Handler) (crash : ServerResponse) (O : Nat → IdentOrder) :
    Rocks × Res Answer → Rocks × ServerResponse
  | (s', .ok x) => (k (.ok x)).run X O s'
  | (s', .error (.err e)) => (k (.error e)).run X O s'
  | (s', .error .panic) => (s', crash)

theorem run_call (a : Access) (k : Except Error Answer → Handler) (crash : ServerResponse) (O : Nat → IdentOrder) (s : Rocks) :
    (Handler.call a k crash).run X O s = afterCall X k crash (fun i => O (i + 1)) ((accessProg X (O 0) a).run s) := by
  rw [App.accessProg_run, Handler.run]
  rcases (Rocks.txn X (O 0)).access a s with ⟨s', x | f⟩
  · cases x <;> rfl
  · rfl

/-- How far an undisturbed request is: what its handler does from here on is what it does in all, from the database `s0`. -/
def AloneAt (X : Cfg) (prep : ServerRequest → ServerResponse ⊕ Handler) (s0 : Rocks) (c : Nat) (h : List SrvEv) (S : Srv) : Prop :=
  match S.reqs c with
  | .unused => S.app.db = s0 ∧ (∀ req, SrvEv.call c req ∉ h) ∧ ∀ x, SrvEv.ret c x ∉ h
  | .waiting t => S.app.db = s0 ∧ (∃ req, SrvEv.call c req ∈ h ∧ prep req = .inr t) ∧ ∀ x, SrvEv.ret c x ∉ h
  | .running t => (∃ req t0, SrvEv.call c req ∈ h ∧ prep req = .inr t0 ∧
      ((S.app.tasks c = .between t.task ∧ ∀ O', ∃ O, t0.run X O s0 = t.run X O' S.app.db) ∨
       (∃ a k crash p, t = .call a k crash ∧ S.app.tasks c = .inside a p (fun r => (k r).task) ∧
        ∀ O', ∃ O, t0.run X O s0 = afterCall X k crash O' (p.run S.app.db)))) ∧ ∀ x, SrvEv.ret c x ∉ h
  | .leaving x => (∃ req, SrvEv.call c req ∈ h ∧ ((prep req = .inl x ∧ S.app.db = s0) ∨
      ∃ t0 O, prep req = .inr t0 ∧ t0.run X O s0 = (S.app.db, x))) ∧ ∀ x, SrvEv.ret c x ∉ h
  | .finished => ∀ x, SrvEv.ret c x ∈ h → ∃ req, SrvEv.call c req ∈ h ∧ ((prep req = .inl x ∧ S.app.db = s0) ∨
      ∃ t0 O, prep req = .inr t0 ∧ t0.run X O s0 = (S.app.db, x))

/-- A step that does nothing to the request, its task and the database. -/
theorem AloneAt.stays {s0 : Rocks} {c : Nat} {h e : List SrvEv} {S S' : Srv} (H : AloneAt X prep s0 c h S) (hr : S'.reqs c = S.reqs c)
    (ht : S'.app.tasks c = S.app.tasks c) (hd : S'.app.db = S.app.db) (hc : ∀ req, SrvEv.call c req ∉ e) (hx : ∀ x, SrvEv.ret c x ∉ e) :
    AloneAt X prep s0 c (h ++ e) S' := by
  have nr : (∀ x, SrvEv.ret c x ∉ h) → ∀ x, SrvEv.ret c x ∉ h ++ e := fun h0 x hm => (List.mem_append.1 hm).elim (h0 x) (hx x)
  have nc : (∀ x, SrvEv.call c x ∉ h) → ∀ x, SrvEv.call c x ∉ h ++ e := fun h0 x hm => (List.mem_append.1 hm).elim (h0 x) (hc x)
  unfold AloneAt at H ⊢
  rw [hr, ht, hd]
  cases hq : S.reqs c with
  | unused => rw [hq] at H; exact ⟨H.1, nc H.2.1, nr H.2.2⟩
  | waiting t => rw [hq] at H; exact ⟨H.1, H.2.1.imp fun _ h => ⟨List.mem_append_left _ h.1, h.2⟩, nr H.2.2⟩
  | running t =>
    rw [hq] at H
    obtain ⟨⟨req, t0, h1, h2⟩, h4⟩ := H
    exact ⟨⟨req, t0, List.mem_append_left _ h1, h2⟩, nr h4⟩
  | leaving x => rw [hq] at H; exact ⟨H.1.imp fun _ h => ⟨List.mem_append_left _ h.1, h.2⟩, nr H.2⟩
  | finished =>
    rw [hq] at H
    intro x hm
    rcases List.mem_append.1 hm with hm | hm
    · exact (H x hm).imp fun _ h => ⟨List.mem_append_left _ h.1, h.2⟩
    · exact absurd hm (hx x)

/-- A silent step of the process without I/O errors: another task's, or one of the program of `c`, which goes on as it would alone. -/
theorem silent_alone {A A' : App} (hs : App.Step X false A [] A') (c : Nat) :
    A'.tasks c = A.tasks c ∨
    ∃ a p p' k, A.tasks c = .inside a p k ∧ A'.tasks c = .inside a p' k ∧ p'.run A'.db = p.run A.db := by
  cases hs with
  | unlock => exact .inl rfl
  | unlockRead => exact .inl rfl
  | getFails i b j _ _ _ h => cases h
  | scanFails i _ b j _ _ _ h => cases h
  | writeFails i b j _ _ h => cases h
  | readLock i b j _ _ hi _ =>
    by_cases h : c = i
    · subst h; exact .inr ⟨_, _, _, _, hi, setAt_self _ _ _, rfl⟩
    · exact .inl (setAt_ne _ _ h)
  | writeLock i b j _ hi _ _ =>
    by_cases h : c = i
    · subst h; exact .inr ⟨_, _, _, _, hi, setAt_self _ _ _, rfl⟩
    · exact .inl (setAt_ne _ _ h)
  | get i b j _ _ _ hi =>
    by_cases h : c = i
    · subst h; exact .inr ⟨_, _, _, _, hi, setAt_self _ _ _, rfl⟩
    · exact .inl (setAt_ne _ _ h)
  | scan i b j _ _ _ hi =>
    by_cases h : c = i
    · subst h; exact .inr ⟨_, _, _, _, hi, setAt_self _ _ _, rfl⟩
    · exact .inl (setAt_ne _ _ h)
  | write i b j _ _ hi =>
    by_cases h : c = i
    · subst h; exact .inr ⟨_, _, _, _, hi, setAt_self _ _ _, rfl⟩
    · exact .inl (setAt_ne _ _ h)
  | setIndexed i b j _ _ hi =>
    by_cases h : c = i
    · subst h; exact .inr ⟨_, _, _, _, hi, setAt_self _ _ _, rfl⟩
    · exact .inl (setAt_ne _ _ h)

theorem AloneAt.step {s0 : Rocks} {c : Nat} {h e : List SrvEv} {S S' : Srv} (H : AloneAt X prep s0 c h S)
    (hl : S.Linked c) (hs : Srv.Step X false prep S e S')
    (hd : S'.app.tasks c = S.app.tasks c → S'.app.db = S.app.db) :
    AloneAt X prep s0 c (h ++ e) S' := by
  cases hs with
  | reject i req r hi hp =>
    by_cases hc : c = i
    · subst hc
      unfold AloneAt at H ⊢
      rw [hi] at H
      simp only [setAt_self]
      exact ⟨⟨req, List.mem_append_right _ (List.mem_singleton.2 rfl), .inl ⟨hp, H.1⟩⟩, fun x hm => by simp [H.2.2 x] at hm⟩
    · exact H.stays (setAt_ne _ _ hc) rfl rfl (by simp [hc]) (by simp)
  | accept i req t hi hp =>
    by_cases hc : c = i
    · subst hc
      unfold AloneAt at H ⊢
      rw [hi] at H
      simp only [setAt_self]
      exact ⟨H.1, ⟨req, List.mem_append_right _ (List.mem_singleton.2 rfl), hp⟩, fun x hm => by simp [H.2.2 x] at hm⟩
    · exact H.stays (setAt_ne _ _ hc) rfl rfl (by simp [hc]) (by simp)
  | begins i t A' hi ha =>
    cases ha with
    | start _ _ hu =>
      by_cases hc : c = i
      · subst hc
        unfold AloneAt at H ⊢
        rw [hi] at H
        simp only [setAt_self, List.append_nil]
        obtain ⟨h0, ⟨req, h1, h2⟩, h3⟩ := H
        exact ⟨⟨req, t, h1, h2, .inl ⟨trivial, fun O => ⟨O, by rw [h0]⟩⟩⟩, h3⟩
      · exact H.stays (setAt_ne _ _ hc) (setAt_ne _ _ hc) rfl (by simp) (by simp)
  | enters i a A' ha =>
    cases ha with
    | flushFails _ _ _ hf => cases hf
    | enter _ O a k hi =>
      by_cases hc : c = i
      · subst hc
        unfold AloneAt at H ⊢
        simp only [setAt_self, List.append_nil]
        cases hq : S.reqs c with
        | running t =>
          rw [hq] at H
          obtain ⟨⟨req, t0, h1, h2, h3⟩, h4⟩ := H
          refine ⟨⟨req, t0, h1, h2, .inr ?_⟩, h4⟩
          rcases h3 with ⟨h3, h5⟩ | ⟨a', k', crash, p, _, h3, _⟩
          · rw [hi] at h3
            injection h3 with h3
            obtain ⟨k', crash, rfl, rfl⟩ := Srv.task_call h3.symm
            refine ⟨a, k', crash, _, rfl, rfl, fun O' => ?_⟩
            obtain ⟨O1, h6⟩ := h5 (fun i => if i = 0 then O else O' (i - 1))
            refine ⟨O1, h6.trans ?_⟩
            rw [run_call]; rfl
          · rw [hi] at h3; cases h3
        | unused => rw [hq] at H; exact H
        | waiting => rw [hq] at H; exact H
        | leaving => rw [hq] at H; exact H
        | finished => rw [hq] at H; exact H
      · exact H.stays rfl (setAt_ne _ _ hc) rfl (by simp) (by simp)
  | works A' ha =>
    rcases silent_alone ha c with h1 | ⟨a, p, p', k, h1, h2, h3⟩
    · exact H.stays rfl h1 (hd h1) (by simp) (by simp)
    · unfold Srv.Linked at hl
      unfold AloneAt at H ⊢
      simp only [List.append_nil]
      cases hq : S.reqs c with
      | running t =>
        rw [hq] at H
        obtain ⟨⟨req, t0, g1, g2, g3⟩, g4⟩ := H
        rcases g3 with ⟨g3, _⟩ | ⟨a', k', crash, p, e1, g3, g5⟩
        · rw [h1] at g3; cases g3
        · rw [h1] at g3; cases g3
          exact ⟨⟨req, t0, g1, g2, .inr ⟨_, _, _, _, e1, h2, fun O' => by rw [h3]; exact g5 O'⟩⟩, g4⟩
      | unused => rw [hq, h1] at hl; cases hl
      | waiting => rw [hq, h1] at hl; cases hl
      | leaving => rw [hq, h1] at hl; rcases hl with hl | hl <;> cases hl
      | finished => rw [hq, h1] at hl; rcases hl with hl | hl <;> cases hl
  | returns i a k crash r A' hi ha =>
    cases ha with
    | leave _ _ j _ ht _ _ =>
      by_cases hc : c = i
      · subst hc
        unfold AloneAt at H ⊢
        rw [hi] at H
        simp only [setAt_self, List.append_nil]
        obtain ⟨⟨req, t0, h1, h2, h3⟩, h4⟩ := H
        rcases h3 with ⟨h3, h5⟩ | ⟨a', k', crash', p, e1, h3, h5⟩
        · rw [ht] at h3; cases h3
        · cases e1
          rw [ht] at h3; cases h3
          cases r with
          | ok x => exact ⟨⟨req, t0, h1, h2, .inl ⟨rfl, h5⟩⟩, h4⟩
          | error f => cases f with
            | err e => exact ⟨⟨req, t0, h1, h2, .inl ⟨rfl, h5⟩⟩, h4⟩
            | panic =>
              obtain ⟨O, h5⟩ := h5 (fun _ => .sorted)
              exact ⟨⟨req, h1, .inr ⟨t0, O, h2, h5⟩⟩, h4⟩
      · exact H.stays (setAt_ne _ _ hc) (setAt_ne _ _ hc) rfl (by simp) (by simp)
  | ends i r A' hi ha =>
    cases ha with
    | stop _ t ht _ =>
      by_cases hc : c = i
      · subst hc
        unfold AloneAt at H ⊢
        rw [hi] at H
        simp only [setAt_self, List.append_nil]
        obtain ⟨⟨req, t0, h1, h2, h3⟩, h4⟩ := H
        rcases h3 with ⟨h3, h5⟩ | ⟨a', k', crash', p, e1, h3, h5⟩
        · obtain ⟨O, h5⟩ := h5 (fun _ => .sorted)
          exact ⟨⟨req, h1, .inr ⟨t0, O, h2, h5⟩⟩, h4⟩
        · cases e1
      · exact H.stays (setAt_ne _ _ hc) (setAt_ne _ _ hc) rfl (by simp) (by simp)
  | respond i r hi =>
    by_cases hc : c = i
    · subst hc
      unfold AloneAt at H ⊢
      rw [hi] at H
      simp only [setAt_self]
      intro x hx
      rcases List.mem_append.1 hx with hx | hx
      · exact absurd hx (H.2 x)
      · simp only [List.mem_singleton] at hx
        cases hx
        exact H.1.imp fun _ h => ⟨List.mem_append_left _ h.1, h.2⟩
    · exact H.stays (setAt_ne _ _ hc) rfl rfl (by simp) (by simp [hc])
  | dropWaiting i t hi =>
    by_cases hc : c = i
    · subst hc
      unfold AloneAt at H ⊢
      rw [hi] at H
      simp only [setAt_self, List.append_nil]
      exact fun x hx => absurd hx (H.2.2 x)
    · exact H.stays (setAt_ne _ _ hc) rfl rfl (by simp) (by simp)
  | dropLeaving i t hi =>
    by_cases hc : c = i
    · subst hc
      unfold AloneAt at H ⊢
      rw [hi] at H
      simp only [setAt_self, List.append_nil]
      exact fun x hx => absurd hx (H.2 x)
    · exact H.stays (setAt_ne _ _ hc) rfl rfl (by simp) (by simp)

theorem AloneAt.undisturbed {c : Nat} {h : List SrvEv} {A S : Srv} (hl : ∀ c, A.Linked c) (hc : A.reqs c = .unused)
    (hu : Srv.Undisturbed X false prep c A h S) : AloneAt X prep A.app.db c h S ∧ ∀ c, S.Linked c := by
  induction hu with
  | nil =>
    refine ⟨?_, hl⟩
    unfold AloneAt
    rw [hc]
    exact ⟨rfl, (fun _ h => nomatch h), fun _ h => nomatch h⟩
  | snoc _ hs hd ih => exact ⟨ih.1.step (ih.2 c) hs hd, hs.linked ih.2⟩

theorem _root_.IndraDB.Rocks.Srv.Undisturbed.from {c : Nat} {h : List SrvEv} {A S : Srv} (hu : Srv.Undisturbed X io prep c A h S) :
    Srv.From X io prep A h S := by
  induction hu with
  | nil => exact .nil
  | snoc _ hs _ ih => exact ih.snoc hs

/-- A handler of a library request alone. -/
theorem run_lib (letter : Char → Bool) (J : JsonText) (req : Request) (op : Op) (h : req.op letter J = .ok op) (O : Nat → IdentOrder) (s : Rocks) :
    (libHandler J req op).run X O s =
      (((rocksStore X).handle letter J (O 0) req s).1, .lib ((rocksStore X).handle letter J (O 0) req s).2) := by
  have e0 := handle_eq letter J (rocksStore X) (O 0) req s
  rw [h] at e0
  refine Eq.trans ?_ (congrArg (fun u : Rocks × Except Status Response => (u.1, ServerResponse.lib u.2)) e0.symm)
  simp only [libHandler, Handler.run, Transaction.access]
  have e : (rocksStore X).step (O 0) op s = dbStep (Rocks.txn X (O 0)) op s := rfl
  rw [e]
  rcases dbStep (Rocks.txn X (O 0)) op s with ⟨s', x | x⟩
  · cases x <;> rfl
  · rfl

/-- A handler of a plugin request alone. -/
theorem run_plugin (J : JsonText) (describe : PluginError → String) (reset : Nat) (p : PluginTask) : ∀ (O : Nat → IdentOrder) (s : Rocks),
    (pluginHandler J describe reset p).run X O s = ((p.run X O s).1, .plugin (pluginResponse J describe reset (p.run X O s).2)) := by
  induction p with
  | ret r => exact fun O s => rfl
  | panic => exact fun O s => rfl
  | call a k ih =>
    intro O s
    simp only [pluginHandler, Handler.run, PluginTask.run]
    rcases (Rocks.txn X (O 0)).access a s with ⟨s', x | x⟩
    · cases x with
      | err e => exact ih _ _ _
      | panic => rfl
    · exact ih _ _ _

end Rocks
end IndraDB
