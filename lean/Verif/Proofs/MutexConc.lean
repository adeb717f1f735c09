import Verif.Model.MutexConc
import Verif.Proofs.Linear
import Verif.Proofs.MemoryStore
/-
Calls that run under one mutex are linearizable.
-/
namespace IndraDB
namespace LockConc

@[simp] theorem setAt_self {α : Type} (f : Nat → α) (c : Nat) (a : α) : setAt f c a c = a := by simp [setAt]
theorem setAt_ne {α : Type} (f : Nat → α) {c i : Nat} (a : α) (h : i ≠ c) : setAt f c a i = f i := by simp [setAt, h]

variable {S : Store} {body : S.Env → Op → Body S.State (Res Reply)}

/-- What holds of a call number, given where the call is. -/
def CallOk (body : S.Env → Op → Body S.State (Res Reply)) (h : List Ev) (L : List S.Lin) (owner : Option Nat) (c : Nat) :
    LockCall S.State → Prop
  | .unused => (∀ op, Ev.call c op ∉ h) ∧ (∀ r, Ev.ret c r ∉ h)
  | .waiting p => (∃ env op, Ev.call c op ∈ h ∧ p = body env op) ∧ (∀ r, Ev.ret c r ∉ h) ∧ c ∉ L.map (·.c)
  | .inside _ => owner = some c
  | .leaving r => (∃ op, Ev.call c op ∈ h) ∧ (∀ op, Ev.call c op ∈ h → ∃ env, ⟨c, env, op, r⟩ ∈ L) ∧ ∀ r, Ev.ret c r ∉ h
  | .finished => ∃ op, Ev.call c op ∈ h

structure LInv (body : S.Env → Op → Body S.State (Res Reply)) (h : List Ev) (C : LockConc S.State) (L : List S.Lin)
    (t : S.State) : Prop where
  lin : S.Linearization (fun _ => True) h L t
  calls : ∀ c, CallOk body h L C.owner c (C.calls c)
  uniq : ∀ c op op', Ev.call c op ∈ h → Ev.call c op' ∈ h → op = op'
  rets : ∀ c r, Ev.ret c r ∈ h → ∃ op, Ev.call c op ∈ h
  free : C.owner = none → C.db = t
  held : ∀ c, C.owner = some c → ∃ env op p, C.calls c = .inside p ∧ Ev.call c op ∈ h ∧ (∀ r, Ev.ret c r ∉ h) ∧
    c ∉ L.map (·.c) ∧ p.run C.db = S.step env op t

theorem CallOk.mono {h h' : List Ev} {L L' : List S.Lin} {o o' : Option Nat} {c : Nat} {x : LockCall S.State}
    (H : CallOk body h L o c x) (h1 : ∀ op, Ev.call c op ∈ h' ↔ Ev.call c op ∈ h) (h2 : ∀ r, Ev.ret c r ∈ h' ↔ Ev.ret c r ∈ h)
    (h3 : ∀ y ∈ L, y ∈ L') (h4 : c ∈ L'.map (·.c) → c ∈ L.map (·.c)) (h5 : o = some c → o' = some c) :
    CallOk body h' L' o' c x := by
  cases x with
  | unused => exact ⟨fun op hh => H.1 op ((h1 op).1 hh), fun r hh => H.2 r ((h2 r).1 hh)⟩
  | waiting p =>
    obtain ⟨⟨env, op, hc, hp⟩, hr, hl⟩ := H
    exact ⟨⟨env, op, (h1 op).2 hc, hp⟩, fun r hh => hr r ((h2 r).1 hh), fun hh => hl (h4 hh)⟩
  | inside p => exact h5 H
  | leaving r =>
    obtain ⟨⟨op, hop⟩, h6, h7⟩ := H
    refine ⟨⟨op, (h1 op).2 hop⟩, fun op hh => ?_, fun r hh => h7 r ((h2 r).1 hh)⟩
    obtain ⟨e, he⟩ := h6 op ((h1 op).1 hh)
    exact ⟨e, h3 _ he⟩
  | finished => exact H.imp (fun op hh => (h1 op).2 hh)

theorem LInv.step (hb : ∀ env op s, (body env op).run s = S.step env op s) {h e : List Ev} {C C' : LockConc S.State}
    {L : List S.Lin} {t : S.State} (H : LInv body h C L t) (hs : Step body C e C') :
    ∃ L' t', LInv body (h ++ e) C' L' t' := by
  cases hs with
  | call c env op hc =>
    have H1 := H.calls c
    rw [hc] at H1
    obtain ⟨hn, hr⟩ := H1
    have hL : c ∉ L.map (·.c) := by
      intro hx
      obtain ⟨x, hm, rfl⟩ := List.mem_map.1 hx
      exact hn _ (H.lin.called x hm).1
    refine ⟨L, t, H.lin.call c op hn hr, ?_, ?_, ?_, H.free, ?_⟩
    · intro i
      by_cases hi : i = c
      · subst hi
        show CallOk _ _ _ _ _ (setAt _ _ _ _)
        rw [setAt_self]
        exact ⟨⟨env, op, by simp, rfl⟩, by simpa using hr, hL⟩
      · show CallOk _ _ _ _ _ (setAt _ _ _ _)
        rw [setAt_ne _ _ hi]
        exact (H.calls i).mono (by simp [hi]) (by simp) (fun _ h => h) id id
    · intro i op1 op2 h1 h2
      by_cases hi : i = c
      · subst hi
        have e1 : op1 = op := by simpa [hn] using h1
        have e2 : op2 = op := by simpa [hn] using h2
        rw [e1, e2]
      · exact H.uniq i op1 op2 (by simpa [hi] using h1) (by simpa [hi] using h2)
    · intro i r h1
      obtain ⟨op1, h2⟩ := H.rets i r (by simpa using h1)
      exact ⟨op1, List.mem_append_left _ h2⟩
    · intro i ho
      obtain ⟨env', op', p, h1, h2, h3, h4, h5⟩ := H.held i ho
      have hi : i ≠ c := by rintro rfl; rw [hc] at h1; cases h1
      refine ⟨env', op', p, ?_, List.mem_append_left _ h2, by simpa using h3, h4, h5⟩
      show setAt _ _ _ _ = _
      rw [setAt_ne _ _ hi]; exact h1
  | lock c p hc ho =>
    have H1 := H.calls c
    rw [hc] at H1
    obtain ⟨⟨env, op, hop, hp⟩, hr, hL⟩ := H1
    refine ⟨L, t, by simpa using H.lin, ?_, by simpa using H.uniq, by simpa using H.rets, by simp, ?_⟩
    · intro i
      show CallOk _ _ _ _ _ (setAt _ _ _ _)
      by_cases hi : i = c
      · subst hi; rw [setAt_self]; exact rfl
      · rw [setAt_ne _ _ hi]
        exact (H.calls i).mono (by simp) (by simp) (fun _ h => h) id (fun h => by rw [ho] at h; cases h)
    · rintro i hi
      cases hi
      refine ⟨env, op, p, setAt_self _ _ _, by simpa using hop, by simpa using hr, hL, ?_⟩
      show p.run C.db = _
      rw [H.free ho, hp]; exact hb env op t
  | work c f n hc =>
    have H1 := H.calls c
    rw [hc] at H1
    have ho : C.owner = some c := H1
    obtain ⟨env, op, p, h1, h2, h3, h4, h5⟩ := H.held c ho
    rw [hc] at h1
    cases h1
    refine ⟨L, t, by simpa using H.lin, ?_, by simpa using H.uniq, by simpa using H.rets, ?_, ?_⟩
    · intro i
      show CallOk _ _ _ _ _ (setAt _ _ _ _)
      by_cases hi : i = c
      · subst hi; rw [setAt_self]; exact ho
      · rw [setAt_ne _ _ hi]
        exact (H.calls i).mono (by simp) (by simp) (fun _ h => h) id id
    · intro h; have h' : C.owner = none := h; rw [ho] at h'; cases h'
    · intro i hi
      have hi' : C.owner = some i := hi
      rw [ho] at hi'; cases hi'
      exact ⟨env, op, _, setAt_self _ _ _, by simpa using h2, by simpa using h3, h4, h5⟩
  | unlock c r hc =>
    have H1 := H.calls c
    rw [hc] at H1
    have ho : C.owner = some c := H1
    obtain ⟨env, op, p, h1, h2, h3, h4, h5⟩ := H.held c ho
    rw [hc] at h1
    cases h1
    have h5a : C.db = (S.step env op t).1 := congrArg Prod.fst h5
    have h5b : r = (S.step env op t).2 := congrArg Prod.snd h5
    refine ⟨_, _, by simpa using H.lin.lin c env op h2 trivial h4 H.rets, ?_, by simpa using H.uniq, by simpa using H.rets,
      fun _ => h5a, by simp⟩
    intro i
    show CallOk _ _ _ _ _ (setAt _ _ _ _)
    by_cases hi : i = c
    · subst hi; rw [setAt_self]
      refine ⟨⟨op, by simpa using h2⟩, ?_, by simpa using h3⟩
      intro op' hop'
      have := H.uniq i op' op (by simpa using hop') h2
      subst this
      exact ⟨env, by rw [h5b]; simp⟩
    · rw [setAt_ne _ _ hi]
      refine (H.calls i).mono (by simp) (by simp) (fun _ h => List.mem_append_left _ h) (fun h => ?_) (fun h => ?_)
      · rw [List.map_append] at h
        rcases List.mem_append.1 h with h | h
        · exact h
        · simp at h; exact absurd h hi
      · rw [ho] at h; cases h; exact absurd rfl hi
  | ret c r hc =>
    have H1 := H.calls c
    rw [hc] at H1
    obtain ⟨⟨op, hop⟩, h1, h2⟩ := H1
    refine ⟨L, t, H.lin.ret c r (fun op h _ => h1 op h), ?_, by simpa using H.uniq, ?_, H.free, ?_⟩
    · intro i
      show CallOk _ _ _ _ _ (setAt _ _ _ _)
      by_cases hi : i = c
      · subst hi; rw [setAt_self]; exact ⟨op, List.mem_append_left _ hop⟩
      · rw [setAt_ne _ _ hi]
        exact (H.calls i).mono (by simp) (by simp [hi]) (fun _ h => h) id id
    · intro i r' h3
      rcases List.mem_append.1 h3 with h3 | h3
      · obtain ⟨op', h4⟩ := H.rets i r' h3
        exact ⟨op', List.mem_append_left _ h4⟩
      · simp at h3; obtain ⟨rfl, rfl⟩ := h3; exact ⟨op, List.mem_append_left _ hop⟩
    · intro i ho
      obtain ⟨env', op', p, h3, h4, h5, h6, h7⟩ := H.held i ho
      have hi : i ≠ c := by rintro rfl; rw [hc] at h3; cases h3
      refine ⟨env', op', p, ?_, List.mem_append_left _ h4, by simpa [hi] using h5, h6, h7⟩
      show setAt _ _ _ _ = _
      rw [setAt_ne _ _ hi]; exact h3

theorem LInv.exec (hb : ∀ env op s, (body env op).run s = S.step env op s) {h : List Ev} {C : LockConc S.State}
    (hx : Exec body S.init h C) : ∃ L t, LInv body h C L t := by
  induction hx with
  | nil =>
    refine ⟨[], S.init, .nil, ?_, by simp, by simp, fun _ => rfl, ?_⟩
    · intro c; exact ⟨by simp, by simp⟩
    · intro c hc; cases hc
  | snoc _ hs ih =>
    obtain ⟨L, t, H⟩ := ih
    exact H.step hb hs

end LockConc

namespace Mem
variable {K : Finder} {b : Build}

theorem guarded_run {α : Type} (upd : Mem → Upd Mem α) (reply : α → Reply) (d : MemDb) :
    (guarded upd reply).run d = match Upd.map reply (upd d.mem) with
      | (m, .error .panic) => (⟨m, true⟩, .error .panic)
      | (m, r) => (⟨m, false⟩, r) := by
  simp only [guarded, Body.run, Upd.map]
  generalize upd d.mem = u
  obtain ⟨m, r⟩ := u
  cases r with
  | ok a => rfl
  | error f => cases f <;> rfl

theorem failing_run (f : Fault) (d : MemDb) : (failing f).run d = match (d.mem, (Except.error f : Res Reply)) with
      | (m, .error .panic) => (⟨m, true⟩, .error .panic)
      | (m, r) => (⟨m, false⟩, r) := by
  cases f <;> rfl

theorem bulkBody_run (items : List BulkInsertItem) : ∀ d : MemDb, d.poisoned = false → (bulkBody K b items).run d =
    match Upd.map (fun _ => Reply.unit) (bulkInsert K b items d.mem) with
      | (m, .error .panic) => (⟨m, true⟩, .error .panic)
      | (m, r) => (⟨m, false⟩, r) := by
  induction items with
  | nil => intro d hp; obtain ⟨m, p⟩ := d; cases hp; rfl
  | cons i r ih =>
    intro d hp
    simp only [bulkBody, Body.run, bulkInsert, forEach]
    generalize defaultBulkItem createVertex createEdge (setVertexProperties K b) (setEdgeProperties K b) i d.mem = u
    obtain ⟨m, x⟩ := u
    cases x with
    | ok a => exact ih ⟨m, false⟩ rfl
    | error f => cases f <;> rfl

/-- The small steps of a call add up to the call. -/
theorem body_run (O : HashOrder) (op : Op) (d : MemDb) : (body K b O op).run d = MemDb.step K b O op d := by
  simp only [body, Body.run, MemDb.step]
  by_cases hp : d.poisoned = true
  · simp [hp, Body.run]
  · rw [if_neg hp, if_neg hp]
    have hp' : d.poisoned = false := by simpa using hp
    cases op with
    | sync => exact guarded_run (fun m => (m, .ok ())) (fun _ => .unit) d
    | createVertex v => exact guarded_run _ _ d
    | createVertexFromType id t => exact guarded_run _ _ d
    | createEdge e => exact guarded_run _ _ d
    | get q =>
      simp only [callBody, Body.run, dbStep, txn]
      cases getQuery (reads K O d.mem) q with
      | ok l => obtain ⟨m, p⟩ := d; cases hp'; rfl
      | error f => cases f <;> rfl
    | delete q =>
      simp only [callBody, Body.run, dbStep, dbDelete, txn]
      cases lastOutput (reads K O d.mem) q with
      | error f => cases f <;> rfl
      | ok v => cases v with
        | count n => obtain ⟨m, p⟩ := d; cases hp'; rfl
        | _ => exact guarded_run _ _ d
    | setProperties q n x =>
      simp only [callBody, Body.run, dbStep, dbSetProperties, txn]
      cases lastOutput (reads K O d.mem) q with
      | error f => cases f <;> rfl
      | ok v => cases v with
        | vertices vs => exact guarded_run _ _ d
        | edges es => exact guarded_run _ _ d
        | _ => obtain ⟨m, p⟩ := d; cases hp'; rfl
    | bulkInsert items => exact bulkBody_run items d hp'
    | indexProperty n => exact guarded_run _ _ d

end Mem
end IndraDB
