import Verif.Proofs.RocksCalm
import Verif.Props.RocksConc
/-
C60: no call on a RocksDB datastore panics, and the database can always be opened again.
-/
namespace IndraDB
open Rocks
variable {X : Cfg}

/-- C60: a database is created, used by overlapping calls of any kind – with any queries, also such that the constructors
would refuse, and any values, also such that cannot be read back – while I/O errors occur at any moments, dies at any
moment losing any number of the last writes, is opened again, and so on. Then no call in any of the sessions panics, in debug and release builds
(so no lock is poisoned either), none fails because of an entry that cannot be decoded (`Error::Io`), and the next opening
succeeds. -/
theorem C60_rocks (hs : List (List Ev)) (s : Rocks) (hl : FaultyLife X hs s) (h : List Ev) (S : Conc)
    (hx : Conc.FaultyExec X s h S) :
    (∀ c r, Ev.ret c r ∈ h ∨ S.calls c = .running (.done r) → r ≠ .error .panic ∧ r ≠ .error (.err .io)) ∧
    ∀ k, ∃ t, (newDb (Dir.full ((S.log.take k).foldl (fun kv x => kv.write x.2) s.kv))).2 = .ok t := by
  have hs := Sound.life hl (fun h _ => OkCalls.any h)
  have H := CalmInv.exec hs hx (OkCalls.any h)
  refine ⟨fun c r hc => ?_, fun k => ?_⟩
  · have key : ∀ f, r = .error f → Mild (Perms.lax X) f := by
      rcases hc with hc | hc
      · rintro f rfl; exact H.rets c f hc
      · exact (H.calls c _ hc).1.1
    exact ⟨fun e => (by obtain ⟨_, h, _⟩ := key _ e; cases h), fun e => (by obtain ⟨_, h, h'⟩ := key _ e; cases h; exact h' rfl)⟩
  obtain ⟨t, ht, _⟩ := (hs.replay (l := S.log.take k) (fun x hx => H.log x (List.mem_of_mem_take hx))).opens
  exact ⟨t, ht⟩

/-- C60 for calls one after the other. -/
theorem C60_rocks_sequential (hs : List (List Ev)) (s : Rocks) (hl : FaultyLife X hs s) (O : IdentOrder) (op : Op) :
    (Rocks.step X O op s).2 ≠ .error .panic ∧ (Rocks.step X O op s).2 ≠ .error (.err .io) := by
  have rd : (Perms.lax X).Reads (fun _ => True) := fun _ _ => trivial
  have key : ∀ (p : Prog Reply) (s : Rocks), Sound X (fun _ => True) s.kv → p.Calm (Perms.lax X) (fun _ => True) →
      p.All (BatchOk X (fun _ => True)) (fun _ => True) → ∀ f, (p.run s).2 = .error f → Mild (Perms.lax X) f := by
    intro p
    induction p with
    | done r => exact fun s _ h _ => h.1
    | get cf k n ih => exact fun s hw h ha => ih _ s hw (h _ (fun v hv => hw.entry rd hv)) (ha _)
    | scan cf k n ih => exact fun s hw h ha => ih _ s hw (h _ (hw.all_items rd _ _)) (ha _)
    | write b n ih => exact fun s hw h ha => ih () _ (hw.write ha.1) h ha.2
    | readLock _ n ih => exact fun s hw h ha => ih _ s hw (h _ trivial) (ha _)
    | writeLock n ih => exact fun s hw h ha => ih _ s hw (h _ trivial) (ha _)
    | setIndexed ix n ih => exact fun s hw h ha => ih () _ hw h.2 ha
  rw [← callProg_run]
  have ht : Tame (Perms.lax X) (fun _ => True) (callProg X O op) :=
    tame_call O op (permits_lax op) (OkCalls.any [.call 0 op] 0 op (by simp))
  have key := key _ s (Sound.life hl (fun h _ => OkCalls.any h)) ht.1 ht.2
  exact ⟨fun e => (by obtain ⟨_, h, _⟩ := key _ e; cases h), fun e => (by obtain ⟨_, h, h'⟩ := key _ e; cases h; exact h' rfl)⟩

/-- A life: in the first session two overlapping calls, one of which meets an I/O error; then the process dies while a
call is under way; the next session begins with a database that holds one vertex. -/
example : ∃ hs s, FaultyLife (W.cfg .debug) hs s ∧ hs.length = 1 ∧
    (s.kv .vertices).contains (vertexKey (W.cfg .debug) (W.u 1)) = true := by
  have l := FaultyLife.new (X := W.cfg .debug) (s := Rocks.init) rfl
  have e := Conc.FaultyExec.nil (X := W.cfg .debug) (s := Rocks.init)
  have e := e.snoc (.fine (.call _ 0 .sorted (.bulkInsert [.vertex ⟨W.u 1, W.t⟩]) rfl))
  have e := e.snoc (.fine (.call _ 1 .sorted (.indexProperty W.p) rfl))
  have e := e.snoc (.fine (.call _ 2 .sorted (.get .allVertex) rfl))
  have e := e.snoc (.scanFails _ 2 0 _ _ _ rfl)
  have e := e.snoc (.fine (.readLock _ 0 true _ rfl rfl))
  have e := e.snoc (.fine (.write _ 0 _ _ rfl))
  have l := l.again (t := ⟨KV.empty.write (vertexCreate (W.cfg .debug) ⟨W.u 1, W.t⟩), SMap.empty⟩) 5 e (by
    have : (getIndexed.run ⟨KV.empty.write (vertexCreate (W.cfg .debug) ⟨W.u 1, W.t⟩), SMap.empty⟩).2 = .ok SMap.empty :=
      getIndexed_none (by decide +kernel)
    have : load (Dir.full (KV.empty.write (vertexCreate (W.cfg .debug) ⟨W.u 1, W.t⟩))) =
        .ok ⟨KV.empty.write (vertexCreate (W.cfg .debug) ⟨W.u 1, W.t⟩), SMap.empty⟩ := by simp only [load, Dir.full, this]
    exact this)
  exact ⟨_, _, l, rfl, by decide +kernel⟩

/-- Such outcomes are possible in the model: with an entry that no call writes, a query panics in a debug build, and fails
in a release build. -/
example : (Rocks.step (W.cfg .debug) .sorted (.get .allVertex)
      ⟨KV.empty.write [.put .vertices [1] []], SMap.empty⟩).2 = .error .panic ∧
    (Rocks.step (W.cfg .release) .sorted (.get .allVertex)
      ⟨KV.empty.write [.put .vertices [1] []], SMap.empty⟩).2 = .error (.err .io) := by
  decide +kernel

end IndraDB
