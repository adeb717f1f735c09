import Verif.Spec.Progress
import Verif.Proofs.Locks
import Verif.Proofs.MutexConc
/-
Concurrent calls end: the steps of a call decrease its program, and somebody can always make a step.
-/
namespace IndraDB

theorem Acc.inevitably {α : Type} {r : α → α → Prop} {a : α} {done : α → Prop} (h : Acc (fun x y => r y x) a)
    (hd : ∀ b, Star r a b → (∀ c, ¬ r b c) → done b) : Inevitably r a done := by
  refine ⟨?_, hd⟩
  rintro ⟨f, h0, hf⟩
  have : ∀ a, Acc (fun x y => r y x) a → ∀ i, f i ≠ a := by
    intro a h
    induction h with
    | intro x _ ih => intro i e; exact ih (f (i + 1)) (e ▸ hf i) (i + 1) rfl
  exact this a h 0 h0

/-- One of the first `N` components decreases, and all others stay. -/
def OneLess {P : Type} (r : P → P → Prop) (N : Nat) (f' f : Nat → P) : Prop :=
  ∃ c, c < N ∧ r (f' c) (f c) ∧ ∀ i, i ≠ c → f' i = f i

theorem OneLess.wf {P : Type} {r : P → P → Prop} (hr : WellFounded r) (N : Nat) : WellFounded (OneLess r N) := by
  induction N with
  | zero => exact ⟨fun f => ⟨_, fun g ⟨c, hc, _⟩ => absurd hc (Nat.not_lt_zero _)⟩⟩
  | succ N ih =>
    have key : ∀ x, ∀ f, f N = x → Acc (OneLess r (N + 1)) f := by
      intro x
      induction x using hr.induction with
      | _ x ihx =>
        intro f
        induction f using ih.induction with
        | _ f ihf =>
          intro hf
          refine ⟨_, fun g ⟨c, hc, h1, h2⟩ => ?_⟩
          by_cases hN : c = N
          · subst hN
            exact ihx (g c) (hf ▸ h1) g rfl
          · refine ihf g ⟨c, by omega, h1, h2⟩ ?_
            rw [h2 N (Ne.symm hN)]; exact hf
    exact ⟨fun f => key _ f rfl⟩

/-! ### Memory -/

namespace LockConc
variable {σ Env : Type}

/-- Where a call can get in one step. -/
inductive Kid : LockCall σ → LockCall σ → Prop
  | lock (p) : Kid (.inside p) (.waiting p)
  | work (f : σ → σ) (n : σ → Body σ (Res Reply)) (s : σ) : Kid (.inside (n s)) (.inside (.act f n))
  | unlock (r) : Kid (.leaving r) (.inside (.done r))
  | ret (r) : Kid .finished (.leaving r)

theorem Kid.wf : WellFounded (Kid (σ := σ)) := by
  have hf : Acc (Kid (σ := σ)) .finished := ⟨_, fun y h => nomatch h⟩
  have hl : ∀ r, Acc (Kid (σ := σ)) (.leaving r) := fun r => ⟨_, fun y h => by cases h; exact hf⟩
  have hi : ∀ p, Acc (Kid (σ := σ)) (.inside p) := by
    intro p
    induction p with
    | done r => exact ⟨_, fun y h => by cases h; exact hl r⟩
    | act f n ih => exact ⟨_, fun y h => by cases h; exact ih _⟩
  refine ⟨fun a => ?_⟩
  cases a with
  | unused => exact ⟨_, fun y h => nomatch h⟩
  | waiting p => exact ⟨_, fun y h => by cases h; exact hi p⟩
  | inside p => exact hi p
  | leaving r => exact hl r
  | finished => exact hf

theorem Moves.less {body : Env → Op → Body σ (Res Reply)} {S S' : LockConc σ} {N : Nat}
    (hN : ∀ c, N ≤ c → S.calls c = .unused) (h : S.Moves body S') :
    OneLess Kid N S'.calls S.calls ∧ ∀ c, N ≤ c → S'.calls c = .unused := by
  have key : ∀ (c : Nat) (q : LockCall σ), S'.calls = setAt S.calls c q → Kid q (S.calls c) →
      OneLess Kid N S'.calls S.calls ∧ ∀ c, N ≤ c → S'.calls c = .unused := by
    intro c q h1 h2
    have hc : c < N := by
      refine Nat.lt_of_not_le (fun hle => ?_)
      rw [hN c hle] at h2; cases h2
    refine ⟨⟨c, hc, by rw [h1, setAt_self]; exact h2, fun i hi => by rw [h1, setAt_ne _ _ hi]⟩, fun i hi => ?_⟩
    rw [h1, setAt_ne _ _ (by omega)]; exact hN i hi
  obtain ⟨e, hs, he⟩ := h
  cases hs with
  | call c env op hc => exact absurd (by simp) (he c op)
  | lock c p hc ho => exact key c _ rfl (hc ▸ .lock p)
  | work c f n hc => exact key c _ rfl (hc ▸ .work f n _)
  | unlock c r hc => exact key c _ rfl (hc ▸ .unlock r)
  | ret c r hc => exact key c _ rfl (hc ▸ .ret r)

theorem Moves.acc {body : Env → Op → Body σ (Res Reply)} (N : Nat) (f : Nat → LockCall σ) : ∀ S : LockConc σ, S.calls = f →
    (∀ c, N ≤ c → S.calls c = .unused) → Acc (fun x y => Moves body y x) S := by
  induction f using (OneLess.wf (Kid.wf (σ := σ)) N).induction with
  | _ f ih =>
    intro S hS hN
    refine ⟨_, fun S' h => ?_⟩
    obtain ⟨h1, h2⟩ := Moves.less hN h
    exact ih _ (hS ▸ h1) S' rfl h2

theorem Exec.bounded {body : Env → Op → Body σ (Res Reply)} {s : σ} {h : List Ev} {S : LockConc σ} (hx : Exec body s h S) :
    ∃ N, ∀ c, N ≤ c → S.calls c = .unused := by
  have key : ∀ (S S' : LockConc σ) (c : Nat) (q : LockCall σ), S'.calls = setAt S.calls c q →
      (∃ N, ∀ c, N ≤ c → S.calls c = .unused) → ∃ N, ∀ c, N ≤ c → S'.calls c = .unused := by
    rintro S S' c q h ⟨N, hN⟩
    refine ⟨max N (c + 1), fun i hi => ?_⟩
    rw [h, setAt_ne _ _ (by omega)]
    exact hN i (by omega)
  induction hx with
  | nil => exact ⟨0, fun c _ => rfl⟩
  | snoc hx hs ih =>
    cases hs with
    | call c env op hc => exact key _ _ c _ rfl ih
    | lock c p hc ho => exact key _ _ c _ rfl ih
    | work c f n hc => exact key _ _ c _ rfl ih
    | unlock c r hc => exact key _ _ c _ rfl ih
    | ret c r hc => exact key _ _ c _ rfl ih

end LockConc

/-! ### RocksDB -/

namespace Rocks.Conc
open Prog LockConc
variable {X : Cfg}

/-- Where a call can get in one step. -/
inductive Kid : RCall → RCall → Prop
  | get (cf k n r) : Kid (.running (n r)) (.running (.get cf k n))
  | scan (cf k n r) : Kid (.running (n r)) (.running (.scan cf k n))
  | write (b n) : Kid (.running (n ())) (.running (.write b n))
  | readLock (h n r) : Kid (.running (n r)) (.running (.readLock h n))
  | writeLock (n r) : Kid (.running (n r)) (.running (.writeLock n))
  | setIndexed (ix n) : Kid (.running (n ())) (.running (.setIndexed ix n))
  | fails (p r) : (∀ r', p ≠ .done r') → Kid (.running (.done r)) (.running p)
  | ret (p) : Kid .finished (.running p)

theorem Kid.wf : WellFounded Kid := by
  have hf : Acc Kid .finished := ⟨_, fun y h => nomatch h⟩
  have hd : ∀ r, Acc Kid (.running (.done r)) := by
    refine fun r => ⟨_, fun y h => ?_⟩
    cases h with
    | fails p r' h => exact absurd rfl (h r)
    | ret p => exact hf
  have hr : ∀ p, Acc Kid (.running p) := by
    intro p
    induction p with
    | done r => exact hd r
    | get cf k n ih => exact ⟨_, fun y h => by cases h <;> first | exact hf | exact hd _ | exact ih _⟩
    | scan cf k n ih => exact ⟨_, fun y h => by cases h <;> first | exact hf | exact hd _ | exact ih _⟩
    | write b n ih => exact ⟨_, fun y h => by cases h <;> first | exact hf | exact hd _ | exact ih _⟩
    | readLock b n ih => exact ⟨_, fun y h => by cases h <;> first | exact hf | exact hd _ | exact ih _⟩
    | writeLock n ih => exact ⟨_, fun y h => by cases h <;> first | exact hf | exact hd _ | exact ih _⟩
    | setIndexed b n ih => exact ⟨_, fun y h => by cases h <;> first | exact hf | exact hd _ | exact ih _⟩
  refine ⟨fun a => ?_⟩
  cases a with
  | unused => exact ⟨_, fun y h => nomatch h⟩
  | running p => exact hr p
  | finished => exact hf

/-- The number of guards a call holds. -/
def guards (S : Conc) (c : Nat) : Nat := (if S.writer = some c then 1 else 0) + (if c ∈ S.readers then 1 else 0)

/-- Position of a call. -/
def pos (S : Conc) (c : Nat) : RCall × Nat := (S.calls c, S.guards c)

theorem lexWf : WellFounded (Prod.Lex Kid (fun a b : Nat => a < b)) :=
  (Prod.lex ⟨Kid, Kid.wf⟩ ⟨fun a b : Nat => a < b, Nat.lt_wfRel.wf⟩).wf

theorem FaultyMoves.less {polite : Bool} {S S' : Conc} {N : Nat} (hN : ∀ c, N ≤ c → S.calls c = .unused)
    (h : S.FaultyMoves X polite S') :
    OneLess (Prod.Lex Kid (fun a b : Nat => a < b)) N S'.pos S.pos ∧ ∀ c, N ≤ c → S'.calls c = .unused := by
  have key : ∀ (c : Nat) (q : RCall), S'.calls = setAt S.calls c q → Kid q (S.calls c) →
      (∀ i, i ≠ c → S'.guards i = S.guards i) →
      OneLess (Prod.Lex Kid (fun a b : Nat => a < b)) N S'.pos S.pos ∧ ∀ c, N ≤ c → S'.calls c = .unused := by
    intro c q h1 h2 h3
    have hc : c < N := by
      refine Nat.lt_of_not_le (fun hle => ?_)
      rw [hN c hle] at h2; cases h2
    refine ⟨⟨c, hc, ?_, fun i hi => ?_⟩, fun i hi => ?_⟩
    · simp only [pos, h1, setAt_self]
      exact .left _ _ h2
    · simp only [pos, h1, setAt_ne _ _ hi, h3 i hi]
    · rw [h1, setAt_ne _ _ (by omega)]; exact hN i hi
  have drop : ∀ (c : Nat) (p : Prog Reply), S.calls c = .running p → S'.calls = S.calls → S'.guards c < S.guards c →
      (∀ i, i ≠ c → S'.guards i = S.guards i) →
      OneLess (Prod.Lex Kid (fun a b : Nat => a < b)) N S'.pos S.pos ∧ ∀ c, N ≤ c → S'.calls c = .unused := by
    intro c p hp h1 h2 h3
    have hc : c < N := by
      refine Nat.lt_of_not_le (fun hle => ?_)
      rw [hN c hle] at hp; cases hp
    refine ⟨⟨c, hc, ?_, fun i hi => ?_⟩, fun i hi => by rw [h1]; exact hN i hi⟩
    · simp only [pos, h1]; exact .right _ h2
    · simp only [pos, h1, h3 i hi]
  obtain ⟨e, hs, he, _⟩ := h
  cases hs with
  | getFails c cf k n hc => exact key c _ rfl (hc ▸ .fails _ _ (by simp)) (fun _ _ => rfl)
  | scanFails c i cf k n hc => exact key c _ rfl (hc ▸ .scan ..) (fun _ _ => rfl)
  | writeFails c b n hc => exact key c _ rfl (hc ▸ .fails _ _ (by simp)) (fun _ _ => rfl)
  | flushFails c hc => exact absurd (by simp) (he c .sync)
  | fine hs =>
  cases hs with
  | call c env op hc => exact absurd (by simp) (he c op)
  | get c cf k n hc => exact key c _ rfl (hc ▸ .get ..) (fun _ _ => rfl)
  | scan c cf k n hc => exact key c _ rfl (hc ▸ .scan ..) (fun _ _ => rfl)
  | write c b n hc => exact key c _ rfl (hc ▸ .write ..) (fun _ _ => rfl)
  | readLock c held n hc hw =>
    refine key c _ rfl (hc ▸ .readLock ..) (fun i hi => ?_)
    cases held <;> simp [guards, hi]
  | writeLock c n hc hw hr =>
    refine key c _ rfl (hc ▸ .writeLock ..) (fun i hi => ?_)
    simp [guards, hw, Ne.symm hi]
  | setIndexed c ix n hc => exact key c _ rfl (hc ▸ .setIndexed ..) (fun _ _ => rfl)
  | unlock c r hc hw =>
    refine drop c _ hc rfl ?_ (fun i hi => ?_)
    · simp [guards, hw]
    · simp [guards, hw, Ne.symm hi]
  | unlockRead c r hc hr =>
    refine drop c _ hc rfl ?_ (fun i hi => ?_)
    · simp [guards, hr]
    · simp [guards, hi]
  | ret c r hc _ _ => exact key c _ rfl (hc ▸ .ret _) (fun _ _ => rfl)

theorem FaultyMoves.acc {polite : Bool} (N : Nat) (f : Nat → RCall × Nat) : ∀ S : Conc, S.pos = f →
    (∀ c, N ≤ c → S.calls c = .unused) → Acc (fun x y => FaultyMoves X polite y x) S := by
  induction f using (OneLess.wf lexWf N).induction with
  | _ f ih =>
    intro S hS hN
    refine ⟨_, fun S' h => ?_⟩
    obtain ⟨h1, h2⟩ := FaultyMoves.less hN h
    exact ih _ (hS ▸ h1) S' rfl h2

theorem Moves.faulty {polite : Bool} {S S' : Conc} (h : S.Moves X polite S') : S.FaultyMoves X polite S' := by
  obtain ⟨e, h1, h2⟩ := h
  exact ⟨e, .fine h1, h2⟩

theorem Moves.acc {polite : Bool} (N : Nat) (S : Conc) (hN : ∀ c, N ≤ c → S.calls c = .unused) :
    Acc (fun x y => Moves X polite y x) S := by
  have := FaultyMoves.acc (X := X) (polite := polite) N _ S rfl hN
  induction this with
  | intro S _ ih => exact ⟨_, fun S' h => ih S' h.faulty (FaultyMoves.less hN h.faulty).2⟩

theorem Exec.faulty {s : Rocks} {h : List Ev} {S : Conc} (hx : Exec X s h S) : FaultyExec X s h S := by
  induction hx with
  | nil => exact .nil
  | snoc _ hs ih => exact ih.snoc (.fine hs)

theorem FaultyExec.bounded {s : Rocks} {h : List Ev} {S : Conc} (hx : FaultyExec X s h S) :
    ∃ N, ∀ c, N ≤ c → S.calls c = .unused := by
  have key : ∀ (S S' : Conc) (c : Nat) (q : RCall), S'.calls = setAt S.calls c q →
      (∃ N, ∀ c, N ≤ c → S.calls c = .unused) → ∃ N, ∀ c, N ≤ c → S'.calls c = .unused := by
    rintro S S' c q h ⟨N, hN⟩
    refine ⟨max N (c + 1), fun i hi => ?_⟩
    rw [h, setAt_ne _ _ (by omega)]
    exact hN i (by omega)
  induction hx with
  | nil => exact ⟨0, fun c _ => rfl⟩
  | snoc hx hs ih =>
    cases hs with
    | getFails c cf k n hc => exact key _ _ c _ rfl ih
    | scanFails c i cf k n hc => exact key _ _ c _ rfl ih
    | writeFails c b n hc => exact key _ _ c _ rfl ih
    | flushFails c hc => exact key _ _ c _ rfl ih
    | fine hs =>
    cases hs with
    | unlock c r hc hw => exact ih
    | unlockRead c r hc hw => exact ih
    | call c _ _ hc => exact key _ _ c _ rfl ih
    | get c cf k n hc => exact key _ _ c _ rfl ih
    | scan c cf k n hc => exact key _ _ c _ rfl ih
    | write c b n hc => exact key _ _ c _ rfl ih
    | readLock c held n hc hw => exact key _ _ c _ rfl ih
    | writeLock c n hc hw hr => exact key _ _ c _ rfl ih
    | setIndexed c ix n hc => exact key _ _ c _ rfl ih
    | ret c r hc _ _ => exact key _ _ c _ rfl ih

theorem Exec.bounded {s : Rocks} {h : List Ev} {S : Conc} (hx : Exec X s h S) : ∃ N, ∀ c, N ≤ c → S.calls c = .unused :=
  hx.faulty.bounded

/-- Who holds a lock is running and takes no other. -/
structure LockInv (S : Conc) : Prop where
  once : ∀ c p, S.calls c = .running p → p.LockOnce
  writer : ∀ c, S.writer = some c → ∃ p, S.calls c = .running p ∧ p.Takes false
  readers : ∀ c, c ∈ S.readers → ∃ p, S.calls c = .running p ∧ p.Takes false

/-- A step of the running call `c` that changes no lock. -/
theorem LockInv.silent {S S' : Conc} (H : LockInv S) {c : Nat} {p p' : Prog Reply} (hc : S.calls c = .running p)
    (h1 : S'.calls = setAt S.calls c (.running p')) (h2 : S'.writer = S.writer) (h3 : S'.readers = S.readers)
    (ho : p.LockOnce → p'.LockOnce) (ht : p.Takes false → p'.Takes false) : LockInv S' := by
  refine ⟨fun i q hi => ?_, fun i hi => ?_, fun i hi => ?_⟩
  · rw [h1] at hi
    rcases setAt_eq hi with ⟨rfl, e⟩ | ⟨_, e⟩
    · cases e; exact ho (H.once i p hc)
    · exact H.once i q e
  · rw [h2] at hi
    obtain ⟨q, hq, hq'⟩ := H.writer i hi
    rw [h1]
    by_cases hic : i = c
    · subst hic
      rw [hc] at hq; cases hq
      exact ⟨p', setAt_self _ _ _, ht hq'⟩
    · exact ⟨q, by rw [setAt_ne _ _ hic]; exact hq, hq'⟩
  · rw [h3] at hi
    obtain ⟨q, hq, hq'⟩ := H.readers i hi
    rw [h1]
    by_cases hic : i = c
    · subst hic
      rw [hc] at hq; cases hq
      exact ⟨p', setAt_self _ _ _, ht hq'⟩
    · exact ⟨q, by rw [setAt_ne _ _ hic]; exact hq, hq'⟩

theorem LockInv.start {S : Conc} (H : LockInv S) {c : Nat} (hc : S.calls c = .unused) {p : Prog Reply} (hp : p.LockOnce) :
    LockInv { S with calls := setAt S.calls c (.running p) } := by
  have ne : ∀ i (p : Prog Reply), S.calls i = .running p → i ≠ c := by
    rintro i p hi rfl; rw [hc] at hi; cases hi
  refine ⟨fun i q hi => ?_, fun i hi => ?_, fun i hi => ?_⟩
  · rcases setAt_eq hi with ⟨_, e⟩ | ⟨_, e⟩
    · cases e; exact hp
    · exact H.once i q e
  · obtain ⟨q, hq, hq'⟩ := H.writer i hi
    exact ⟨q, by show setAt _ _ _ _ = _; rw [setAt_ne _ _ (ne i q hq)]; exact hq, hq'⟩
  · obtain ⟨q, hq, hq'⟩ := H.readers i hi
    exact ⟨q, by show setAt _ _ _ _ = _; rw [setAt_ne _ _ (ne i q hq)]; exact hq, hq'⟩

theorem LockInv.step {S S' : Conc} {e : List Ev} (H : LockInv S) (hs : Step X S e S') : LockInv S' := by
  cases hs with
  | call c O op hc => exact H.start hc (lo_call O op)
  | get c cf k n hc => exact H.silent hc rfl rfl rfl (fun h => h _) (fun h => h _)
  | scan c cf k n hc => exact H.silent hc rfl rfl rfl (fun h => h _) (fun h => h _)
  | write c b n hc => exact H.silent (p' := n ()) hc rfl rfl rfl (fun h => h) (fun h => h)
  | setIndexed c ix n hc => exact H.silent (p' := n ()) hc rfl rfl rfl (fun h => h) (fun h => h)
  | readLock c held n hc hw =>
    cases held with
    | false => exact H.silent hc rfl rfl rfl (fun h => h _) (fun h => h.2 _)
    | true =>
      have hn := H.once c _ hc
      refine ⟨fun i q hi => ?_, fun i hi => ?_, fun i hi => ?_⟩
      · rcases setAt_eq hi with ⟨_, e⟩ | ⟨_, e⟩
        · cases e; exact (hn _).toLockOnce
        · exact H.once i q e
      · exact absurd (hw.symm.trans hi) (by simp)
      · by_cases hic : i = c
        · subst hic; exact ⟨_, setAt_self _ _ _, hn _⟩
        · obtain ⟨q, hq, hq'⟩ := H.readers i (by simpa [hic] using hi)
          exact ⟨q, by show setAt _ _ _ _ = _; rw [setAt_ne _ _ hic]; exact hq, hq'⟩
  | writeLock c n hc hw hr =>
    have hn := H.once c _ hc
    refine ⟨fun i q hi => ?_, fun i hi => ?_, fun i hi => ?_⟩
    · rcases setAt_eq hi with ⟨_, e⟩ | ⟨_, e⟩
      · cases e; exact Takes.toLockOnce (hn _)
      · exact H.once i q e
    · cases hi; exact ⟨_, setAt_self _ _ _, hn _⟩
    · exact absurd (hr ▸ hi : i ∈ []) (by simp)
  | unlock c r hc hw => exact ⟨H.once, fun i hi => (nomatch hi), H.readers⟩
  | unlockRead c r hc hr => exact ⟨H.once, H.writer, fun i hi => H.readers i (List.mem_filter.1 hi).1⟩
  | ret c r hc hw hr =>
    refine ⟨fun i q hi => ?_, fun i hi => ?_, fun i hi => ?_⟩
    · rcases setAt_eq hi with ⟨_, e⟩ | ⟨_, e⟩
      · cases e
      · exact H.once i q e
    · have hic : i ≠ c := by rintro rfl; exact hw hi
      obtain ⟨q, hq, hq'⟩ := H.writer i hi
      exact ⟨q, by show setAt _ _ _ _ = _; rw [setAt_ne _ _ hic]; exact hq, hq'⟩
    · have hic : i ≠ c := by rintro rfl; exact hr hi
      obtain ⟨q, hq, hq'⟩ := H.readers i hi
      exact ⟨q, by show setAt _ _ _ _ = _; rw [setAt_ne _ _ hic]; exact hq, hq'⟩

theorem LockInv.faultyStep {S S' : Conc} {e : List Ev} (H : LockInv S) (hs : FaultyStep X S e S') : LockInv S' := by
  cases hs with
  | fine hs => exact H.step hs
  | getFails c cf k n hc => exact H.silent hc rfl rfl rfl (fun _ => trivial) (fun _ => trivial)
  | scanFails c i cf k n hc => exact H.silent hc rfl rfl rfl (fun h => h _) (fun h => h _)
  | writeFails c b n hc => exact H.silent hc rfl rfl rfl (fun _ => trivial) (fun _ => trivial)
  | flushFails c hc => exact H.start hc trivial

theorem LockInv.exec {s : Rocks} {h : List Ev} {S : Conc} (hx : FaultyExec X s h S) : LockInv S := by
  induction hx with
  | nil => exact ⟨(by intro c p h; cases h), (by intro c h; cases h), by intro c h; cases h⟩
  | snoc _ hs ih => exact ih.faultyStep hs

/-- A step of a call that takes no lock. -/
theorem free_move {polite : Bool} {S : Conc} {c : Nat} {p : Prog Reply} (hc : S.calls c = .running p)
    (hl : ∀ held n, p ≠ .readLock held n) (hl' : ∀ n, p ≠ .writeLock n) : ∃ S', S.Moves X polite S' := by
  have key : ∀ (S' : Conc) (e : List Ev), Step X S e S' → (∀ c op, Ev.call c op ∉ e) →
      (S'.calls = S.calls ∨ ∃ q, S'.calls = setAt S.calls c q) → ∃ S', S.Moves X polite S' := by
    intro S' e hs he h
    refine ⟨S', e, hs, he, ?_⟩
    rintro _ ⟨c', held, n, hc', hS'⟩
    exfalso
    by_cases hcc : c' = c
    · subst hcc
      rw [hc] at hc'
      cases hc'
      exact hl _ _ rfl
    · have e1 : S'.calls c' = S.calls c' := by
        rcases h with h | ⟨q, h⟩
        · rw [h]
        · rw [h, setAt_ne _ _ hcc]
      rw [hS', setAt_self, hc'] at e1
      have : ∀ (p : Prog Reply) (held : Bool) (n : SSet Identifier → Prog Reply) (r : SSet Identifier),
          p = .readLock held n → n r ≠ p := by
        intro p
        induction p with
        | readLock held' n' ih =>
          intro held n r hp
          injection hp with h1 h2
          subst h1 h2
          intro e
          exact ih r held' n' r e rfl
        | _ => intro held n r hp; cases hp
      exact this _ held n S.db.indexed rfl (by injection e1)
  cases p with
  | done r =>
    by_cases hw : S.writer = some c
    · exact key _ _ (.unlock S c r hc hw) (by simp) (Or.inl rfl)
    · by_cases hr : c ∈ S.readers
      · exact key _ _ (.unlockRead S c r hc hr) (by simp) (Or.inl rfl)
      · exact key _ _ (.ret S c r hc hw hr) (by simp) (Or.inr ⟨_, rfl⟩)
  | get cf k n => exact key _ _ (.get S c cf k n hc) (by simp) (Or.inr ⟨_, rfl⟩)
  | scan cf k n => exact key _ _ (.scan S c cf k n hc) (by simp) (Or.inr ⟨_, rfl⟩)
  | write b n => exact key _ _ (.write S c b n hc) (by simp) (Or.inr ⟨_, rfl⟩)
  | setIndexed ix n => exact key _ _ (.setIndexed S c ix n hc) (by simp) (Or.inr ⟨_, rfl⟩)
  | readLock held n => exact absurd rfl (hl held n)
  | writeLock n => exact absurd rfl (hl' n)

/-- As long as a call is under way, some call can make a step. -/
theorem LockInv.progress {polite : Bool} {S : Conc} (H : LockInv S) {c : Nat} {p : Prog Reply} (hc : S.calls c = .running p) :
    ∃ S', S.Moves X polite S' := by
  have holder : ∀ c, (∃ p, S.calls c = .running p ∧ p.Takes false) → ∃ S', S.Moves X polite S' := by
    rintro c ⟨p, hp, ht⟩
    refine free_move hp ?_ ?_
    · rintro held n rfl; exact absurd ht.1.2 (by simp)
    · rintro n rfl; exact ht
  cases hw : S.writer with
  | some w => exact holder w (H.writer w hw)
  | none =>
    cases hr : S.readers with
    | cons r rs => exact holder r (H.readers r (by rw [hr]; simp))
    | nil =>
      by_cases hww : S.WriterWaits
      · obtain ⟨c', n, hc'⟩ := hww
        refine ⟨_, [], .writeLock S c' n hc' hw hr, by simp, ?_⟩
        rintro _ ⟨c'', held, n'', h1, h2⟩
        exfalso
        have hne : c'' ≠ c' := by rintro rfl; rw [hc'] at h1; cases h1
        have e1 := congrFun h2 c'
        simp only at e1
        rw [setAt_self, setAt_ne _ _ (Ne.symm hne), hc'] at e1
        have : ∀ (p : Prog Reply) (n : SSet Identifier → Prog Reply) (r : SSet Identifier), p = .writeLock n → n r ≠ p := by
          intro p
          induction p with
          | writeLock n' ih =>
            intro n r hp
            injection hp with hp
            subst hp
            intro e
            exact ih r n' r e rfl
          | _ => intro n r hp; cases hp
        exact this _ n S.db.indexed rfl (by injection e1)
      · cases p with
        | readLock held n => exact ⟨_, [], .readLock S c held n hc hw, by simp, fun _ _ => hww⟩
        | writeLock n => exact absurd ⟨c, n, hc⟩ hww
        | _ => exact free_move hc (by simp) (by simp)

end Rocks.Conc
end IndraDB
