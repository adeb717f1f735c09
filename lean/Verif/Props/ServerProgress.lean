import Verif.Props.ServerConc
import Verif.Proofs.Progress
/-
C71: the server on the memory datastore answers every request whose client stays.
-/
namespace IndraDB

/-- What is seen of the server so far, and where its requests are. -/
abbrev Service.View (S : Service) := List S.SEv × S.Conc

/-- A step of the requests that have arrived already, in which no request of a client that `stays` is dropped. -/
def Service.Moves {S : Service} (prep : S.Env → S.Req → S.Resp ⊕ Body S.State S.Resp) (stays : Nat → Prop) (v v' : S.View) : Prop :=
  ∃ e, Service.Conc.Step prep v.2 e v'.2 ∧ v'.1 = v.1 ++ e ∧ (∀ c req, SEv.call c req ∉ e) ∧
    ∀ c, stays c → v.2.calls c ≠ .finished → v'.2.calls c = .finished → ∃ r, SEv.ret c r ∈ e

namespace Service
open LockConc (setAt_self setAt_ne)
variable {S : Service} {prep : S.Env → S.Req → S.Resp ⊕ Body S.State S.Resp}

/-- Where a request can get in one step. -/
inductive Kid : S.Phase → S.Phase → Prop
  | lock (p) : Kid (.inside p) (.waiting p)
  | work (f : S.State → S.State) (n : S.State → Body S.State S.Resp) (s : S.State) : Kid (.inside (n s)) (.inside (.act f n))
  | unlock (r) : Kid (.leaving r) (.inside (.done r))
  | ret (r) : Kid .finished (.leaving r)
  | drop (p) : Kid .finished (.waiting p)

theorem Kid.wf : WellFounded (Kid (S := S)) := by
  have hf : Acc (Kid (S := S)) .finished := ⟨_, fun y h => nomatch h⟩
  have hl : ∀ r, Acc (Kid (S := S)) (.leaving r) := fun r => ⟨_, fun y h => by cases h; exact hf⟩
  have hi : ∀ p, Acc (Kid (S := S)) (.inside p) := by
    intro p
    induction p with
    | done r => exact ⟨_, fun y h => by cases h; exact hl r⟩
    | act f n ih => exact ⟨_, fun y h => by cases h; exact ih _⟩
  refine ⟨fun a => ?_⟩
  cases a with
  | unused => exact ⟨_, fun y h => nomatch h⟩
  | waiting p => exact ⟨_, fun y h => by cases h <;> first | exact hi p | exact hf⟩
  | inside p => exact hi p
  | leaving r => exact hl r
  | finished => exact hf

theorem Moves.less {stays : Nat → Prop} {v v' : S.View} {N : Nat}
    (hN : ∀ c, N ≤ c → v.2.calls c = .unused) (h : Moves prep stays v v') :
    OneLess Kid N v'.2.calls v.2.calls ∧ ∀ c, N ≤ c → v'.2.calls c = .unused := by
  obtain ⟨h0, C⟩ := v
  obtain ⟨h0', C'⟩ := v'
  have key : ∀ (c : Nat) (q : S.Phase), C'.calls = setAt C.calls c q → Kid q (C.calls c) →
      OneLess Kid N C'.calls C.calls ∧ ∀ c, N ≤ c → C'.calls c = .unused := by
    intro c q h1 h2
    have hc : c < N := by
      refine Nat.lt_of_not_le (fun hle => ?_)
      rw [hN c hle] at h2; cases h2
    refine ⟨⟨c, hc, by rw [h1, setAt_self]; exact h2, fun i hi => by rw [h1, setAt_ne _ _ hi]⟩, fun i hi => ?_⟩
    rw [h1, setAt_ne _ _ (by omega)]; exact hN i hi
  obtain ⟨e, hs, _, he, _⟩ := h
  cases hs with
  | reject c env op r hc => exact absurd (by simp) (he c op)
  | accept c env op p hc => exact absurd (by simp) (he c op)
  | lock c p hc ho => exact key c _ rfl (hc ▸ .lock p)
  | work c f n hc => exact key c _ rfl (hc ▸ .work f n _)
  | unlock c r hc => exact key c _ rfl (hc ▸ .unlock r)
  | respond c r hc => exact key c _ rfl (hc ▸ .ret r)
  | dropWaiting c p hc => exact key c _ rfl (hc ▸ .drop p)
  | dropLeaving c r hc => exact key c _ rfl (hc ▸ .ret r)

theorem Moves.acc {stays : Nat → Prop} (N : Nat) (f : Nat → S.Phase) : ∀ v : S.View, v.2.calls = f →
    (∀ c, N ≤ c → v.2.calls c = .unused) → Acc (fun x y => Moves prep stays y x) v := by
  induction f using (OneLess.wf (Kid.wf (S := S)) N).induction with
  | _ f ih =>
    intro v hv hN
    refine ⟨_, fun v' h => ?_⟩
    obtain ⟨h1, h2⟩ := Moves.less hN h
    exact ih _ (hv ▸ h1) v' rfl h2

theorem Conc.Exec.bounded {h : List S.SEv} {C : S.Conc} (hx : Conc.Exec prep h C) : ∃ N, ∀ c, N ≤ c → C.calls c = .unused := by
  have key : ∀ (C C' : S.Conc) (c : Nat) (q : S.Phase), C'.calls = setAt C.calls c q →
      (∃ N, ∀ c, N ≤ c → C.calls c = .unused) → ∃ N, ∀ c, N ≤ c → C'.calls c = .unused := by
    rintro S S' c q h ⟨N, hN⟩
    refine ⟨max N (c + 1), fun i hi => ?_⟩
    rw [h, setAt_ne _ _ (by omega)]
    exact hN i (by omega)
  induction hx with
  | nil => exact ⟨0, fun c _ => rfl⟩
  | snoc hx hs ih =>
    cases hs with
    | reject c env op r hc => exact key _ _ c _ rfl ih
    | accept c env op p hc => exact key _ _ c _ rfl ih
    | lock c p hc ho => exact key _ _ c _ rfl ih
    | work c f n hc => exact key _ _ c _ rfl ih
    | unlock c r hc => exact key _ _ c _ rfl ih
    | respond c r hc => exact key _ _ c _ rfl ih
    | dropWaiting c p hc => exact key _ _ c _ rfl ih
    | dropLeaving c r hc => exact key _ _ c _ rfl ih

/-- No request of a client that stays has been dropped. -/
def Served (stays : Nat → Prop) (v : S.View) : Prop := ∀ c, stays c → v.2.calls c = .finished → ∃ r, SEv.ret c r ∈ v.1

theorem Moves.star {stays : Nat → Prop} {v v' : S.View} (hx : Conc.Exec prep v.1 v.2) (hd : Served stays v)
    (hs : Star (Moves prep stays) v v') : Conc.Exec prep v'.1 v'.2 ∧ Served stays v' := by
  induction hs with
  | refl => exact ⟨hx, hd⟩
  | @tail u w _ hm ih =>
    obtain ⟨e, h1, h2, h3, h4⟩ := hm
    refine ⟨h2 ▸ ih.1.snoc h1, fun c hc hf => ?_⟩
    rw [h2]
    by_cases hb : u.2.calls c = .finished
    · exact (ih.2 c hc hb).imp fun r hr => List.mem_append_left _ hr
    · exact (h4 c hc hb hf).imp fun r hr => List.mem_append_right _ hr

/-- For every service whose handlers work under one mutex. -/
theorem inevitable (hb : ∀ env op p, prep env op = .inr p → ∀ s, p.run s = S.step env op s)
    (hj : ∀ env op r, prep env op = .inl r → ∀ s, S.step env op s = (s, r)) (stays : Nat → Prop) (h : List S.SEv) (C : S.Conc)
    (hx : Conc.Exec prep h C) (hd : Served stays (h, C)) :
    Inevitably (Moves prep stays) (h, C) (fun v => ∀ c req, SEv.call c req ∈ v.1 → stays c → ∃ r, SEv.ret c r ∈ v.1) := by
  obtain ⟨N, hN⟩ := hx.bounded
  refine Acc.inevitably (Moves.acc N _ (h, C) rfl hN) fun v hs hend c req hcall hst => ?_
  obtain ⟨hx', hd'⟩ := Moves.star hx hd hs
  obtain ⟨h', D⟩ := v
  obtain ⟨L, t, H⟩ := LInv.exec (S := S) (prep := prep) hb hj hx'
  have other : ∀ (c : Nat) (x : S.Phase), x ≠ .finished → ∀ i, stays i → D.calls i ≠ .finished → setAt D.calls c x i = .finished →
      ∃ r, SEv.ret i r ∈ ([] : List S.SEv) := by
    intro c x hx i _ h1 h2
    by_cases hi : i = c
    · subst hi; rw [setAt_self] at h2; exact absurd h2 hx
    · rw [setAt_ne _ _ hi] at h2; exact absurd h2 h1
  have inside : ∀ c p, D.calls c = .inside p → False := by
    intro c p hp
    cases p with
    | done r => exact hend (_, _) ⟨_, .unlock D c r hp, rfl, by simp, other c _ (by simp)⟩
    | act f n => exact hend (_, _) ⟨_, .work D c f n hp, rfl, by simp, other c _ (by simp)⟩
  cases hc : D.calls c with
  | unused => have := H.calls c; rw [hc] at this; exact absurd hcall (this.1 req)
  | finished => exact hd' c hst hc
  | inside p => exact (inside c p hc).elim
  | leaving r =>
    refine (hend (_, _) ⟨_, .respond D c r hc, rfl, by simp, ?_⟩).elim
    intro i _ h1 h2
    by_cases hi : i = c
    · subst hi; exact ⟨r, by simp⟩
    · have h2' : setAt D.calls c .finished i = .finished := h2
      rw [setAt_ne _ _ hi] at h2'; exact absurd h2' h1
  | waiting p =>
    cases ho : D.owner with
    | none => exact (hend (_, _) ⟨_, .lock D c p hc ho, rfl, by simp, other c _ (by simp)⟩).elim
    | some c' =>
      obtain ⟨_, _, p', hp', _⟩ := H.held c' ho
      exact (inside c' p' hp').elim

end Service

variable (letter : Char → Bool) (J : JsonText) (b : Build) (describe : PluginError → String) (reset : Nat)
  (entries : Entries (Json → PluginProg))

/-- C71: whatever requests have arrived, whatever plugins do (including panics) and whatever clients go away, the requests that have
arrived take only finitely many further steps; and when no step is possible any more, every request whose client stays has a
response. Hypothesis `hd`: none of those was dropped before. -/
theorem C71_memory (stays : Nat → Prop) (h : List (memServer letter J b describe reset entries).SEv)
    (C : (memServer letter J b describe reset entries).Conc)
    (hx : Service.Conc.Exec (memPrep letter J b describe reset entries) h C)
    (hd : ∀ c, stays c → C.calls c = .finished → ∃ r, Service.SEv.ret c r ∈ h) :
    Inevitably (Service.Moves (memPrep letter J b describe reset entries) stays) (h, C)
      (fun v => ∀ c req, Service.SEv.call c req ∈ v.1 → stays c → ∃ r, Service.SEv.ret c r ∈ v.1) :=
  Service.inevitable (S := memServer letter J b describe reset entries) (memPrep_inr letter J) (memPrep_inl letter J) stays h C hx hd

/-- C71: and the response is the right one: that of the request in the one-at-a-time execution of C68. -/
theorem C71_memory_right (stays : Nat → Prop) (h : List (memServer letter J b describe reset entries).SEv)
    (C : (memServer letter J b describe reset entries).Conc)
    (hx : Service.Conc.Exec (memPrep letter J b describe reset entries) h C)
    (hd : ∀ c, stays c → C.calls c = .finished → ∃ r, Service.SEv.ret c r ∈ h)
    (v : (memServer letter J b describe reset entries).View)
    (hs : Star (Service.Moves (memPrep letter J b describe reset entries) stays) (h, C) v)
    (hend : ∀ w, ¬ Service.Moves (memPrep letter J b describe reset entries) stays v w) :
    ∃ L t, (memServer letter J b describe reset entries).Linearization v.1 L t ∧
      ∀ c req, Service.SEv.call c req ∈ v.1 → stays c → ∃ env r, Service.SEv.ret c r ∈ v.1 ∧ ⟨c, env, req, r⟩ ∈ L := by
  obtain ⟨hx', _⟩ := Service.Moves.star (v := (h, C)) (stays := stays) hx hd hs
  obtain ⟨t, ⟨L, H⟩, _⟩ := C68_memory letter J b describe reset entries v.1 v.2 hx'
  refine ⟨L, t, H, fun c req hc hst => ?_⟩
  obtain ⟨r, hr⟩ := (C71_memory letter J b describe reset entries stays h C hx hd).2 v hs hend c req hc hst
  obtain ⟨env, he⟩ := H.returned c req r hc hr
  exact ⟨env, r, hr, he⟩

/-- A client sends a plugin request, another one a library request; neither has begun. Both stay. -/
example : ∃ C, Service.Conc.Exec (S := memServer letter J b describe reset (fun _ => some (fun _ => .panic)))
      (memPrep letter J b describe reset (fun _ => some (fun _ => .panic)))
      [.call 0 (ServerRequest.plugin ⟨"bad", none⟩), .call 1 (ServerRequest.lib .sync), .call 2 (ServerRequest.plugin ⟨"bad", none⟩)] C ∧
    ∀ c, c ≤ 1 → C.calls c ≠ .finished := by
  have e := Service.Conc.Exec.nil (S := memServer letter J b describe reset (fun _ => some (fun _ => .panic)))
    (prep := memPrep letter J b describe reset (fun _ => some (fun _ => .panic)))
  have e := e.snoc (.accept _ 0 W.penv (ServerRequest.plugin ⟨"bad", none⟩) _ rfl rfl)
  have e := e.snoc (.accept _ 1 W.penv (ServerRequest.lib .sync) _ rfl rfl)
  have e := e.snoc (.accept _ 2 W.penv (ServerRequest.plugin ⟨"bad", none⟩) _ rfl rfl)
  have e := e.snoc (.dropWaiting _ 2 _ rfl)
  refine ⟨_, e, fun c hc => ?_⟩
  match c, hc with
  | 0, _ => simp [setAt, Service.Conc.start]
  | 1, _ => simp [setAt, Service.Conc.start]

end IndraDB
