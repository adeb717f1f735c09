import Verif.Props.MemoryConc
import Verif.Props.Progress
import Verif.Props.MemoryAny
/-
C33 and C58 when every call finds JSON keys in its own way (`memStoreAny`).
-/
namespace IndraDB
open LockConc

/-- C33, whatever lookups of JSON keys find in each call: every concurrent execution is explained by a sequential
execution of the same calls, and whenever nobody holds the mutex, the database is in the state after it. -/
theorem C33_memory_any (b : Build) (body : Finder × HashOrder → Op → Body MemDb (Res Reply))
    (hb : ∀ e op d, (body e op).run d = MemDb.step e.1 b e.2 op d) (h : List Ev) (C : LockConc MemDb)
    (hx : Exec body MemDb.new h C) :
    ∃ t, (memStoreAny b).Linearizable h t ∧ (C.owner = none → C.db = t) := by
  obtain ⟨L, t, H⟩ := LInv.exec (S := memStoreAny b) (body := body) hb hx
  exact ⟨t, ⟨L, H.lin⟩, H.free⟩

/-- C33 for the steps of `Mem.body`. -/
theorem C33_memory_any_steps (b : Build) (h : List Ev) (C : LockConc MemDb)
    (hx : Exec (fun e : Finder × HashOrder => Mem.body e.1 b e.2) MemDb.new h C) :
    ∃ t, (memStoreAny b).Linearizable h t ∧ (C.owner = none → C.db = t) :=
  C33_memory_any b _ (fun e op d => Mem.body_run (K := e.1) e.2 op d) h C hx

/-- C58, whatever lookups of JSON keys find in each call. -/
theorem C58_memory_any (b : Build) (body : Finder × HashOrder → Op → Body MemDb (Res Reply))
    (hb : ∀ e op d, (body e op).run d = MemDb.step e.1 b e.2 op d) (h : List Ev) (C : LockConc MemDb)
    (hx : Exec body MemDb.new h C) : Inevitably (Moves body) C AllReturned :=
  inevitable (S := memStoreAny b) body hb h C hx

/-- Two overlapping calls with different lookups. -/
example (b : Build) : ∃ C, Exec (fun e : Finder × HashOrder => Mem.body e.1 b e.2) MemDb.new
      [.call 0 (.createVertex ⟨W.u 1, W.t⟩), .call 1 (.indexProperty W.p), .ret 1 (.ok .unit), .ret 0 (.ok (.bool true))] C ∧
    C.owner = none ∧ C.db.mem.vertices.get (W.u 1) = some W.t := by
  have e := Exec.nil (body := fun e : Finder × HashOrder => Mem.body e.1 b e.2) (s := MemDb.new)
  have e := e.snoc (.call _ 0 (Finder.byEq, HashOrder.sorted) (.createVertex ⟨W.u 1, W.t⟩) rfl)
  have e := e.snoc (.call _ 1 (HashEq.byHash.finder, HashOrder.sorted) (.indexProperty W.p) rfl)
  have e := e.snoc (.lock _ 1 _ rfl rfl)
  have e := e.snoc (.work _ 1 _ _ rfl)
  have e := e.snoc (.work _ 1 _ _ rfl)
  have e := e.snoc (.unlock _ 1 _ rfl)
  have e := e.snoc (.lock _ 0 _ rfl rfl)
  have e := e.snoc (.ret _ 1 _ rfl)
  have e := e.snoc (.work _ 0 _ _ rfl)
  have e := e.snoc (.work _ 0 _ _ rfl)
  have e := e.snoc (.unlock _ 0 _ rfl)
  have e := e.snoc (.ret _ 0 _ rfl)
  exact ⟨_, e, rfl, rfl⟩

end IndraDB
