import Verif.Proofs.MutexConc
import Verif.Props.Witness
/-
C33: concurrent calls on the memory datastore.
-/
namespace IndraDB
open LockConc

/-- C33: every concurrent execution of calls on the memory datastore, of any number of calls and with any interleaving,
is explained by a sequential execution of the same calls; and whenever nobody holds the mutex, the database is in the
state after that sequential execution. This is so for every division `body` of the calls into small steps. -/
theorem C33_memory (K : HashEq) (b : Build) (body : HashOrder → Op → Body MemDb (Res Reply))
    (hb : ∀ O op d, (body O op).run d = MemDb.step K b O op d) (h : List Ev) (C : LockConc MemDb)
    (hx : Exec body MemDb.new h C) :
    ∃ t, (memStore K b).Linearizable h t ∧ (C.owner = none → C.db = t) := by
  obtain ⟨L, t, H⟩ := LInv.exec (S := memStore K b) (body := body) hb hx
  exact ⟨t, ⟨L, H.lin⟩, H.free⟩

/-- C33 for the steps of `Mem.body`. -/
theorem C33_memory_steps (K : HashEq) (b : Build) (h : List Ev) (C : LockConc MemDb)
    (hx : Exec (Mem.body K b) MemDb.new h C) :
    ∃ t, (memStore K b).Linearizable h t ∧ (C.owner = none → C.db = t) :=
  C33_memory K b _ Mem.body_run h C hx

/-- Two calls never work on the data at the same time. -/
theorem C33_memory_exclusive (K : HashEq) (b : Build) (h : List Ev) (C : LockConc MemDb)
    (hx : Exec (Mem.body K b) MemDb.new h C) (c c' : Nat) (p p' : Body MemDb (Res Reply))
    (h1 : C.calls c = .inside p) (h2 : C.calls c' = .inside p') : c = c' := by
  obtain ⟨L, t, H⟩ := LInv.exec (S := memStore K b) (body := Mem.body K b) Mem.body_run hx
  have e1 := H.calls c
  have e2 := H.calls c'
  rw [h1] at e1; rw [h2] at e2
  have e1' : C.owner = some c := e1
  have e2' : C.owner = some c' := e2
  rw [e1'] at e2'; exact Option.some.inj e2'

/-- There is no deadlock: as long as a call has been made and has not returned, some call can make a step that does not
start another call. -/
theorem C33_memory_progress (K : HashEq) (b : Build) (h : List Ev) (C : LockConc MemDb)
    (hx : Exec (Mem.body K b) MemDb.new h C) (c : Nat) (h1 : C.calls c ≠ .unused) (h2 : C.calls c ≠ .finished) :
    ∃ e C', LockConc.Step (Mem.body K b) C e C' ∧ ∀ c op, Ev.call c op ∉ e := by
  obtain ⟨L, t, H⟩ := LInv.exec (S := memStore K b) (body := Mem.body K b) Mem.body_run hx
  have inside : ∀ c p, C.calls c = .inside p → ∃ e C', LockConc.Step (Mem.body K b) C e C' ∧ ∀ c op, Ev.call c op ∉ e := by
    intro c p hp
    cases p with
    | done r => exact ⟨_, _, .unlock C c r hp, by simp⟩
    | act f n => exact ⟨_, _, .work C c f n hp, by simp⟩
  cases hc : C.calls c with
  | unused => exact absurd hc h1
  | finished => exact absurd hc h2
  | inside p => exact inside c p hc
  | leaving r => exact ⟨_, _, .ret C c r hc, by simp⟩
  | waiting p =>
    cases ho : C.owner with
    | none => exact ⟨_, _, .lock C c p hc ho, by simp⟩
    | some c' =>
      obtain ⟨_, _, p', hp', _⟩ := H.held c' ho
      exact inside c' p' hp'

/-- A concurrent execution: two calls that create the same vertex overlap; the second one made gets the mutex first. -/
example (K : HashEq) (O : HashOrder) : ∃ C, Exec (Mem.body K .debug) MemDb.new
      [.call 0 (.createVertex ⟨W.u 1, W.t⟩), .call 1 (.createVertex ⟨W.u 1, W.t2⟩),
       .ret 1 (.ok (.bool true)), .ret 0 (.ok (.bool false))] C ∧
    C.owner = none ∧ C.db.mem.vertices.get (W.u 1) = some W.t2 := by
  have e := Exec.nil (body := Mem.body K .debug) (s := MemDb.new)
  have e := e.snoc (.call _ 0 O (.createVertex ⟨W.u 1, W.t⟩) rfl)
  have e := e.snoc (.call _ 1 O (.createVertex ⟨W.u 1, W.t2⟩) rfl)
  have e := e.snoc (.lock _ 1 _ rfl rfl)
  have e := e.snoc (.work _ 1 _ _ rfl)
  have e := e.snoc (.work _ 1 _ _ rfl)
  have e := e.snoc (.unlock _ 1 _ rfl)
  have e := e.snoc (.lock _ 0 _ rfl rfl)
  have e := e.snoc (.ret _ 1 _ rfl)
  have e := e.snoc (.work _ 0 _ _ rfl)
  have e := e.snoc (.work _ 0 _ _ rfl)
  have e := e.snoc (.unlock _ 0 _ rfl)
  have e := e.snoc (.ret _ 0 _ rfl)
  exact ⟨_, e, rfl, rfl⟩

end IndraDB
