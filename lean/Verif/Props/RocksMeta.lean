import Verif.Proofs.RocksMeta
/-
C30 while calls overlap.
-/
namespace IndraDB
open Rocks Rocks.Conc
variable {X : Cfg}

/-- What is true of C30, with overlapping calls: let the process be killed at any moment of a session without I/O errors
(earlier sessions may have had some, and may have lost writes), all values being readable. Opening the database again succeeds
and changes no data. Indexed are then at least the properties that were indexed when the session began or for which
`index_property` has returned, and at most those that counted as indexed when the process was killed; if no
`index_property` was under way, the state is the very same. Missing: unreadable values (`C30_rocks_refuted`). -/
theorem C30_rocks_concurrent_partial (hs : List (List Ev)) (s : Rocks) (hl : FaultyLife X hs s)
    (hv : ∀ h ∈ hs, OkCalls (CanRead X) h) (h : List Ev) (S : Conc) (hx : Exec X s h S) (ho : OkCalls (CanRead X) h)
    (hn : S.db.indexed.elems.length < 2 ^ 64) :
    ∃ t, newDb (Dir.full S.db.kv) = ([Dir.full S.db.kv], .ok t) ∧ t.kv = S.db.kv ∧
      (∀ m, (Rocks.graph X t).indexed m = true → (Rocks.graph X S.db).indexed m = true) ∧
      (∀ m, (Rocks.graph X s).indexed m = true ∨ IndexedIn h m → (Rocks.graph X t).indexed m = true) ∧
      ((∀ c n, Ev.call c (.indexProperty n) ∈ h → ∃ r, Ev.ret c r ∈ h) → t = S.db) := by
  obtain ⟨md, H⟩ := MetaInv.exec hl hv hx ho hn
  have F := Exec.toFaulty' hx
  have N := NamesInv.exec F
  refine ⟨⟨S.db.kv, md⟩, ?_, rfl, H.sub, ?_, fun hc => ?_⟩
  · have := H.disk
    unfold OnDisk at this
    rw [newDb_full] at this ⊢
    exact congrArg _ this
  · rintro m (hm | ⟨c, a, h1, h2⟩)
    · exact H.base m hm
    · exact H.rets c m a h1 h2
  · have hw : S.writer = none := by
      cases hw : S.writer with
      | none => rfl
      | some c =>
        obtain ⟨p, hp, _⟩ := (LockInv.exec F).writer c hw
        obtain ⟨op, hop, _⟩ := N.calls c p hp
        obtain ⟨⟨n, rfl⟩, _⟩ := H.writer c p op hw hp hop
        obtain ⟨r, hr⟩ := hc c n hop
        exact absurd hr (running_no_ret F c p hp r)
    rw [H.free hw]

/-- The conditions are met, and the two sets can differ: an `index_property` is under way and has not yet written. -/
example : ∃ S, FaultyLife (W.cfg .debug) [] Rocks.init ∧ Exec (W.cfg .debug) Rocks.init [.call 0 (.indexProperty W.p)] S ∧
    OkCalls (CanRead (W.cfg .debug)) [.call 0 (.indexProperty W.p)] ∧ S.db.indexed.elems = [W.p] ∧
    (newDb (Dir.full S.db.kv)).2 = .ok Rocks.init := by
  have e := Exec.nil (X := W.cfg .debug) (s := Rocks.init)
  have e := e.snoc (.call _ 0 .sorted (.indexProperty W.p) rfl)
  have e := e.snoc (.writeLock _ 0 _ rfl rfl rfl)
  have e := e.snoc (.setIndexed _ 0 _ _ rfl)
  refine ⟨_, .new rfl, e, ?_, by decide +kernel, ?_⟩
  · intro c op hm
    simp at hm
    obtain ⟨_, rfl⟩ := hm
    trivial
  · have : OnDisk KV.empty SMap.empty := onDisk_iff.2 (getIndexed_none rfl)
    exact this

end IndraDB
