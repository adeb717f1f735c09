import Verif.Proofs.Progress
import Verif.Props.MemoryConc
import Verif.Props.RocksRace
/-
C58: concurrent calls do not block each other forever.
-/
namespace IndraDB

/-! ### Memory -/

namespace LockConc
variable {σ Env : Type} {body : Env → Op → Body σ (Res Reply)}

theorem Exec.star {s : σ} {h : List Ev} {S S' : LockConc σ} (hx : Exec body s h S) (hs : Star (Moves body) S S') :
    ∃ h', Exec body s (h ++ h') S' ∧ ∀ c op, Ev.call c op ∉ h' := by
  induction hs with
  | refl => exact ⟨[], by simpa using hx, by simp⟩
  | tail _ hm ih =>
    obtain ⟨h', h1, h2⟩ := ih
    obtain ⟨e, hs, he⟩ := hm
    refine ⟨h' ++ e, by rw [← List.append_assoc]; exact h1.snoc hs, fun c op hm => ?_⟩
    rcases List.mem_append.1 hm with h | h
    · exact h2 c op h
    · exact he c op h

/-- What the history says about a call. -/
theorem Exec.seen {s : σ} {h : List Ev} {S : LockConc σ} (hx : Exec body s h S) (c : Nat) :
    (∀ op, Ev.call c op ∈ h → S.calls c ≠ .unused) ∧ (S.calls c = .finished → ∃ r, Ev.ret c r ∈ h) := by
  induction hx with
  | nil => exact ⟨by simp, fun h => (nomatch h)⟩
  | snoc hx hs ih =>
    obtain ⟨i1, i2⟩ := ih
    cases hs with
    | call c' env op hc =>
      by_cases hcc : c = c'
      · subst hcc
        simp only [setAt_self]
        exact ⟨fun _ _ h => (nomatch h), fun h => (nomatch h)⟩
      · simp only [setAt_ne _ _ hcc]
        refine ⟨fun op' h' => i1 op' ?_, fun h => (i2 h).imp fun r => List.mem_append_left _⟩
        rcases List.mem_append.1 h' with h | h
        · exact h
        · simp at h; exact absurd h.1 hcc
    | ret c' r hc =>
      by_cases hcc : c = c'
      · subst hcc
        simp only [setAt_self]
        exact ⟨fun _ _ h => (nomatch h), fun _ => ⟨r, by simp⟩⟩
      · simp only [setAt_ne _ _ hcc]
        refine ⟨fun op' h' => i1 op' ?_, fun h => (i2 h).imp fun r => List.mem_append_left _⟩
        rcases List.mem_append.1 h' with h | h
        · exact h
        · simp at h
    | lock c' p hc _ =>
      by_cases hcc : c = c'
      · subst hcc
        simp only [setAt_self]
        exact ⟨fun _ _ h => (nomatch h), fun h => (nomatch h)⟩
      · simpa only [setAt_ne _ _ hcc, List.append_nil] using ⟨i1, i2⟩
    | work c' f n hc =>
      by_cases hcc : c = c'
      · subst hcc
        simp only [setAt_self]
        exact ⟨fun _ _ h => (nomatch h), fun h => (nomatch h)⟩
      · simpa only [setAt_ne _ _ hcc, List.append_nil] using ⟨i1, i2⟩
    | unlock c' r hc =>
      by_cases hcc : c = c'
      · subst hcc
        simp only [setAt_self]
        exact ⟨fun _ _ h => (nomatch h), fun h => (nomatch h)⟩
      · simpa only [setAt_ne _ _ hcc, List.append_nil] using ⟨i1, i2⟩

end LockConc

/-- C58 for every store whose calls run under one mutex. -/
theorem LockConc.inevitable {S : Store} (body : S.Env → Op → Body S.State (Res Reply))
    (hb : ∀ env op s, (body env op).run s = S.step env op s) (h : List Ev) (C : LockConc S.State)
    (hx : LockConc.Exec body S.init h C) : Inevitably (LockConc.Moves body) C LockConc.AllReturned := by
  obtain ⟨N, hN⟩ := hx.bounded
  refine Acc.inevitably (LockConc.Moves.acc N _ C rfl hN) fun D hs hend c => ?_
  obtain ⟨h', hx', _⟩ := hx.star hs
  obtain ⟨L, t, H⟩ := LockConc.LInv.exec (S := S) (body := body) hb hx'
  have inside : ∀ c p, D.calls c = .inside p → False := by
    intro c p hp
    cases p with
    | done r => exact hend _ ⟨_, .unlock D c r hp, by simp⟩
    | act f n => exact hend _ ⟨_, .work D c f n hp, by simp⟩
  cases hc : D.calls c with
  | unused => exact Or.inl rfl
  | finished => exact Or.inr rfl
  | inside p => exact (inside c p hc).elim
  | leaving r => exact (hend _ ⟨_, .ret D c r hc, by simp⟩).elim
  | waiting p =>
    cases ho : D.owner with
    | none => exact (hend _ ⟨_, .lock D c p hc ho, by simp⟩).elim
    | some c' =>
      obtain ⟨_, _, p', hp', _⟩ := H.held c' ho
      exact (inside c' p' hp').elim

/-- C58, memory: from every reachable situation of concurrent calls, whatever the schedule, the calls made so far take only
finitely many further steps, and when none is possible any more, each of them has returned. This is so for every division
`body` of the calls into small steps. -/
theorem C58_memory (K : HashEq) (b : Build) (body : HashOrder → Op → Body MemDb (Res Reply))
    (hb : ∀ O op d, (body O op).run d = MemDb.step K b O op d) (h : List Ev) (C : LockConc MemDb)
    (hx : LockConc.Exec body MemDb.new h C) : Inevitably (LockConc.Moves body) C LockConc.AllReturned :=
  LockConc.inevitable (S := memStore K b) body hb h C hx

/-- C58, memory, in terms of histories: where no further step is possible, every call made has returned. -/
theorem C58_memory_returns (K : HashEq) (b : Build) (h : List Ev) (C : LockConc MemDb)
    (hx : LockConc.Exec (Mem.body K b) MemDb.new h C)
    (hend : ∀ e C', LockConc.Step (Mem.body K b) C e C' → ∃ c op, Ev.call c op ∈ e) (c : Nat) (op : Op)
    (hc : Ev.call c op ∈ h) : ∃ r, Ev.ret c r ∈ h := by
  have := (C58_memory K b _ Mem.body_run h C hx).2 C (.refl C)
    (fun C' ⟨e, hs, he⟩ => by obtain ⟨c, op, h⟩ := hend e C' hs; exact he c op h) c
  rcases this with h1 | h1
  · exact absurd h1 ((hx.seen c).1 op hc)
  · exact (hx.seen c).2 h1

/-! ### RocksDB -/

namespace Rocks.Conc
open LockConc
variable {X : Cfg}

theorem Exec.star {s : Rocks} {polite : Bool} {h : List Ev} {S S' : Conc} (hx : Exec X s h S)
    (hs : Star (Moves X polite) S S') : ∃ h', Exec X s (h ++ h') S' ∧ ∀ c op, Ev.call c op ∉ h' := by
  induction hs with
  | refl => exact ⟨[], by simpa using hx, by simp⟩
  | tail _ hm ih =>
    obtain ⟨h', h1, h2⟩ := ih
    obtain ⟨e, hs, he, _⟩ := hm
    refine ⟨h' ++ e, by rw [← List.append_assoc]; exact h1.snoc hs, fun c op hm => ?_⟩
    rcases List.mem_append.1 hm with h | h
    · exact h2 c op h
    · exact he c op h

/-- What the history says about a call. -/
theorem Exec.seen {s : Rocks} {h : List Ev} {S : Conc} (hx : Exec X s h S) (c : Nat) :
    (∀ op, Ev.call c op ∈ h → S.calls c ≠ .unused) ∧ (S.calls c = .finished → ∃ r, Ev.ret c r ∈ h) := by
  induction hx with
  | nil => exact ⟨by simp, fun h => (nomatch h)⟩
  | @snoc h S S' e hx hs ih =>
    obtain ⟨i1, i2⟩ := ih
    have quiet : ∀ c' q, S'.calls = setAt S.calls c' (.running q) → e = [] →
        (∀ op, Ev.call c op ∈ h ++ e → S'.calls c ≠ .unused) ∧ (S'.calls c = .finished → ∃ r, Ev.ret c r ∈ h ++ e) := by
      rintro c' q hq rfl
      rw [hq, List.append_nil]
      by_cases hcc : c = c'
      · subst hcc
        simp only [setAt_self]
        exact ⟨fun _ _ h => (nomatch h), fun h => (nomatch h)⟩
      · simp only [setAt_ne _ _ hcc]
        exact ⟨i1, i2⟩
    cases hs with
    | call c' env op hc =>
      by_cases hcc : c = c'
      · subst hcc
        simp only [setAt_self]
        exact ⟨fun _ _ h => (nomatch h), fun h => (nomatch h)⟩
      · simp only [setAt_ne _ _ hcc]
        refine ⟨fun op' h' => i1 op' ?_, fun h => (i2 h).imp fun r => List.mem_append_left _⟩
        rcases List.mem_append.1 h' with h | h
        · exact h
        · simp at h; exact absurd h.1 hcc
    | ret c' r hc =>
      by_cases hcc : c = c'
      · subst hcc
        simp only [setAt_self]
        exact ⟨fun _ _ h => (nomatch h), fun _ => ⟨r, by simp⟩⟩
      · simp only [setAt_ne _ _ hcc]
        refine ⟨fun op' h' => i1 op' ?_, fun h => (i2 h).imp fun r => List.mem_append_left _⟩
        rcases List.mem_append.1 h' with h | h
        · exact h
        · simp at h
    | unlock c' r hc => simpa only [List.append_nil] using ⟨i1, i2⟩
    | unlockRead c' r hc => simpa only [List.append_nil] using ⟨i1, i2⟩
    | get c' => exact quiet c' _ rfl rfl
    | scan c' => exact quiet c' _ rfl rfl
    | write c' => exact quiet c' _ rfl rfl
    | readLock c' => exact quiet c' _ rfl rfl
    | writeLock c' => exact quiet c' _ rfl rfl
    | setIndexed c' => exact quiet c' _ rfl rfl

end Rocks.Conc

/-- C58, RocksDB: from every reachable situation of concurrent calls, whatever the schedule, the calls made so far take
only finitely many further steps, and when none is possible any more, each of them has returned. This is so whether or not
a waiting writer keeps new readers of the set of indexed names out. -/
theorem C58_rocks (X : Cfg) (s : Rocks) (polite : Bool) (h : List Ev) (S : Rocks.Conc)
    (hx : Rocks.Conc.Exec X s h S) : Inevitably (Rocks.Conc.Moves X polite) S Rocks.Conc.AllReturned := by
  obtain ⟨N, hN⟩ := hx.bounded
  refine Acc.inevitably (Rocks.Conc.Moves.acc N S hN) fun D hs hend c => ?_
  obtain ⟨h', hx', _⟩ := hx.star hs
  cases hc : D.calls c with
  | unused => exact Or.inl rfl
  | finished => exact Or.inr rfl
  | running p =>
    obtain ⟨D', hm⟩ := (Rocks.Conc.LockInv.exec hx'.faulty).progress (X := X) (polite := polite) hc
    exact (hend D' hm).elim

theorem Rocks.Conc.FaultyExec.star {X : Cfg} {s : Rocks} {polite : Bool} {h : List Ev} {S S' : Rocks.Conc}
    (hx : Rocks.Conc.FaultyExec X s h S) (hs : Star (Rocks.Conc.FaultyMoves X polite) S S') :
    ∃ h', Rocks.Conc.FaultyExec X s (h ++ h') S' := by
  induction hs with
  | refl => exact ⟨[], by simpa using hx⟩
  | tail _ hm ih =>
    obtain ⟨h', h1⟩ := ih
    obtain ⟨e, hs, he, _⟩ := hm
    exact ⟨h' ++ e, by rw [← List.append_assoc]; exact h1.snoc hs⟩

/-- C58, RocksDB, if I/O errors may occur at any time: they do not make calls hang. -/
theorem C58_rocks_faulty (X : Cfg) (s : Rocks) (polite : Bool) (h : List Ev) (S : Rocks.Conc)
    (hx : Rocks.Conc.FaultyExec X s h S) : Inevitably (Rocks.Conc.FaultyMoves X polite) S Rocks.Conc.AllReturned := by
  obtain ⟨N, hN⟩ := hx.bounded
  refine Acc.inevitably (Rocks.Conc.FaultyMoves.acc N _ S rfl hN) fun D hs hend c => ?_
  obtain ⟨h', hx'⟩ := hx.star hs
  cases hc : D.calls c with
  | unused => exact Or.inl rfl
  | finished => exact Or.inr rfl
  | running p =>
    obtain ⟨D', hm⟩ := (Rocks.Conc.LockInv.exec hx').progress (X := X) (polite := polite) hc
    exact (hend D' hm.faulty).elim

/-- A write fails while a call holds a read lock on the set of indexed names and another call waits for the write lock: both
will return. -/
example (X : Cfg) (s : Rocks) (polite : Bool) : ∃ h S, Rocks.Conc.FaultyExec X s h S ∧ S.readers = [0] ∧ S.WriterWaits ∧
    S.calls 0 = .running (.done (.error (.err .datastore))) ∧
    Inevitably (Rocks.Conc.FaultyMoves X polite) S Rocks.Conc.AllReturned := by
  have e := Rocks.Conc.FaultyExec.nil (X := X) (s := s)
  have e := e.snoc (.fine (.call _ 0 .sorted (.bulkInsert [.vertex ⟨W.u 1, W.t⟩]) rfl))
  have e := e.snoc (.fine (.call _ 1 .sorted (.indexProperty W.p) rfl))
  have e := e.snoc (.fine (.readLock _ 0 true _ rfl rfl))
  have e := e.snoc (.writeFails _ 0 _ _ rfl)
  exact ⟨_, _, e, rfl, ⟨1, _, rfl⟩, rfl, C58_rocks_faulty X s polite _ _ e⟩

/-- C58, RocksDB, in terms of histories: where no further step is possible, every call made has returned. -/
theorem C58_rocks_returns (X : Cfg) (s : Rocks) (h : List Ev) (S : Rocks.Conc) (hx : Rocks.Conc.Exec X s h S)
    (hend : ∀ e S', Rocks.Conc.Step X S e S' → ∃ c op, Ev.call c op ∈ e) (c : Nat) (op : Op)
    (hc : Ev.call c op ∈ h) : ∃ r, Ev.ret c r ∈ h := by
  have := (C58_rocks X s false h S hx).2 S (.refl S)
    (fun C' ⟨e, hs, he, _⟩ => by obtain ⟨c, op, h⟩ := hend e C' hs; exact he c op h) c
  rcases this with h1 | h1
  · exact absurd h1 ((hx.seen c).1 op hc)
  · exact (hx.seen c).2 h1

/-- A situation in which calls stand in each other's way, on every database: `index_property` holds the write lock on the
set of indexed names, and a second `index_property` waits for it. They will return. -/
example (X : Cfg) (s : Rocks) (polite : Bool) : ∃ h S, Rocks.Conc.Exec X s h S ∧ S.writer = some 0 ∧ S.WriterWaits ∧
    Inevitably (Rocks.Conc.Moves X polite) S Rocks.Conc.AllReturned := by
  have e := Rocks.Conc.Exec.nil (X := X) (s := s)
  have e := e.snoc (.call _ 0 .sorted (.indexProperty W.p) rfl)
  have e := e.snoc (.call _ 1 .sorted (.indexProperty W.p) rfl)
  have e := e.snoc (.writeLock _ 0 _ rfl rfl rfl)
  exact ⟨_, _, e, rfl, ⟨1, _, rfl⟩, C58_rocks X s polite _ _ e⟩

/-- A program that takes the write lock while holding a read lock, unlike those of the calls, would wait for itself. -/
example (X : Cfg) (s : Rocks) (polite : Bool) :
    ¬ Inevitably (Rocks.Conc.Moves X polite)
      { Rocks.Conc.init s with readers := [0], calls := setAt (fun _ => .unused) 0 (.running (.writeLock fun _ => .done (.ok .unit))) }
      Rocks.Conc.AllReturned := by
  intro h
  have := h.2 _ (.refl _) ?_ 0
  · rcases this with h | h <;> exact nomatch h
  · rintro S' ⟨e, hs, he, _⟩
    have key : ∀ c p, (setAt (fun _ => Rocks.RCall.unused) 0 (.running (.writeLock fun _ => .done (.ok .unit)))) c = .running p →
        p = .writeLock fun _ => .done (.ok .unit) := by
      intro c p h
      by_cases hc : c = 0
      · subst hc; cases h; rfl
      · rw [LockConc.setAt_ne _ _ hc] at h; cases h
    cases hs with
    | call c O op => exact he c op (by simp)
    | writeLock c n hc hw hr => cases hr
    | get c cf k n hc => exact nomatch key c _ hc
    | scan c cf k n hc => exact nomatch key c _ hc
    | write c b n hc => exact nomatch key c _ hc
    | readLock c hd n hc => exact nomatch key c _ hc
    | setIndexed c ix n hc => exact nomatch key c _ hc
    | unlock c r hc => exact nomatch key c _ hc
    | unlockRead c r hc => exact nomatch key c _ hc
    | ret c r hc => exact nomatch key c _ hc

/-- Memory: two calls wait for the mutex. -/
example (K : HashEq) (b : Build) (O : HashOrder) : ∃ h C, LockConc.Exec (Mem.body K b) MemDb.new h C ∧ C.owner = some 1 ∧
    (∃ p, C.calls 0 = .waiting p) ∧ Inevitably (LockConc.Moves (Mem.body K b)) C LockConc.AllReturned := by
  have e := LockConc.Exec.nil (body := Mem.body K b) (s := MemDb.new)
  have e := e.snoc (.call _ 0 O (.createVertex ⟨W.u 1, W.t⟩) rfl)
  have e := e.snoc (.call _ 1 O (.createVertex ⟨W.u 1, W.t2⟩) rfl)
  have e := e.snoc (.lock _ 1 _ rfl rfl)
  exact ⟨_, _, e, rfl, ⟨_, rfl⟩, C58_memory K b _ Mem.body_run _ _ e⟩

end IndraDB
