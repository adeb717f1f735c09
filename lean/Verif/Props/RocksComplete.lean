import Verif.Proofs.RocksComplete
import Verif.Props.RocksRace
import Verif.Proofs.Progress
/-
C63: the index of a property never loses an owner.
-/
namespace IndraDB
open Rocks Rocks.Conc

/-- C63: once `n` is indexed by a history that keeps to `Op.IndexSafe`, and whatever happens afterwards (sessions of calls
overlapping in any way, with I/O errors, each ended by a crash at any moment; and then again such calls, some of which may
not have returned), the query for the owners of `n` lists every vertex and every edge with the property. -/
theorem C63_rocks (X : Cfg) (n : Identifier) (hist : List (IdentOrder × Op)) (ho : (rocksStore X).OkHist hist)
    (ha : (rocksStore X).Along (fun g op => op.IndexSafe X g) hist Rocks.init)
    (hn : ((rocksStore X).graph ((rocksStore X).run hist Rocks.init)).indexed n = true)
    (hs : List (List Ev)) (t : Rocks) (hl : Sessions X ((rocksStore X).run hist Rocks.init) hs t)
    (hos : ∀ h ∈ hs, OkCalls (CanRead X) h)
    (h : List Ev) (S : Conc) (hx : FaultyExec X t h S) (hoh : OkCalls (CanRead X) h) :
    (rocksStoreFrom X (CanRead X) S.db).ListsOwners n S.db := by
  have hi := inv_run hist _ Inv.init ho
  have K := (kept_of_cinv (cinv_run hist _ CInv.init ho ha) (md_run hist _ Inv.init MetaOk.init ho) hn hi.values).mono
    (R' := fun _ _ => True) (fun _ _ _ => trivial)
  have E : Enters X (CanRead X) (fun _ _ => True) := fun _ _ _ _ => trivial
  exact ((K.sessions E (fun _ h => h) hl hos).exec E (fun _ h => h) hx hoh).lists

/-- C63 for values: if moreover every value is read back with the hash it was entered under (`SameHash`), the query for the
owners of `n` with value `x` lists every vertex and every edge whose property has the value `x`. -/
theorem C63_rocks_value (X : Cfg) (n : Identifier) (hist : List (IdentOrder × Op)) (ho : (rocksStore X).OkHist hist)
    (ha : (rocksStore X).Along (fun g op => op.IndexSafe X g) hist Rocks.init)
    (hn : ((rocksStore X).graph ((rocksStore X).run hist Rocks.init)).indexed n = true)
    (hs : List (List Ev)) (t : Rocks) (hl : Sessions X ((rocksStore X).run hist Rocks.init) hs t)
    (hos : ∀ h ∈ hs, OkCalls (fun x => CanRead X x ∧ SameHash X x) h)
    (h : List Ev) (S : Conc) (hx : FaultyExec X t h S) (hoh : OkCalls (fun x => CanRead X x ∧ SameHash X x) h) :
    (rocksStoreFrom X (CanRead X) S.db).ListsValueOwners n S.db := by
  have hi := inv_run hist _ Inv.init ho
  have K := kept_of_cinv (cinv_run hist _ CInv.init ho ha) (md_run hist _ Inv.init MetaOk.init ho) hn hi.values
  have E : Enters X (fun x => CanRead X x ∧ SameHash X x) (fun w k => X.H w.stream = k) := by
    intro x w hv hw
    have := hv.2
    rw [SameHash, Cfg.stored, hw] at this
    exact this
  exact ((K.sessions E (fun _ h => h.1) hl hos).exec E (fun _ h => h.1) hx hoh).listsValues

/-! ### Example -/

/-- `p` is indexed in `W.ready`. Two overlapping calls set it on vertex 1 (to 7 and to 8); the process dies and nothing of
them survives; the database is opened again, and the same happens, without a crash. This meets all the conditions. -/
theorem W.kept : ∃ a a' t S,
    let h := [Ev.call 0 (W.set 7), .call 1 (W.set 8), .ret 0 (.ok a), .ret 1 (.ok a')]
    (RS .debug).OkHist (W.calm [.createVertex ⟨W.u 1, W.t⟩, .indexProperty W.p]) ∧
    (RS .debug).Along (fun g op => op.IndexSafe (W.cfg .debug) g) (W.calm [.createVertex ⟨W.u 1, W.t⟩, .indexProperty W.p])
      Rocks.init ∧
    ((RS .debug).graph W.ready).indexed W.p = true ∧ Sessions (W.cfg .debug) W.ready [h] t ∧
    FaultyExec (W.cfg .debug) t h S ∧ OkCalls (fun x => CanRead (W.cfg .debug) x ∧ SameHash (W.cfg .debug) x) h := by
  obtain ⟨b, hb⟩ := W.pending 7 (Or.inl rfl)
  obtain ⟨b', hb'⟩ := W.pending 8 (Or.inr rfl)
  obtain ⟨a, a', S, e, hS⟩ := Exec.race hb hb'
  have H : ∀ k, W.n k ∈ W.values → (W.set k).ValuesOk (fun x => CanRead (W.cfg .debug) x ∧ SameHash (W.cfg .debug) x) := by
    intro k hk
    refine ⟨W.canRead hk, ?_⟩
    show Sip.hash ((W.codec.dec (W.codec.enc (W.n k))).getD .null).stream = _
    rw [W.codec_values _ hk]; rfl
  have hm : MetaOk W.ready := md_run _ _ Inv.init MetaOk.init
    (W.okCalls .debug _ (List.forall_mem_cons.2 ⟨trivial, List.forall_mem_cons.2 ⟨trivial, fun _ h => nomatch h⟩⟩))
  refine ⟨a, a', W.ready, S, ?_, ⟨trivial, trivial, trivial⟩, by decide +kernel, ?_, e.faulty, ?_⟩
  · exact W.okCalls _ _ (List.forall_mem_cons.2 ⟨trivial, List.forall_mem_cons.2 ⟨trivial, fun _ h => nomatch h⟩⟩)
  · refine Sessions.again (hs := []) 0 .none e.faulty ?_ ?_
    · have : ∀ o : Option Bytes, o = (W.ready.kv .metadata).get metaKey → ∀ b, o = some b → b.length < 2 ^ 64 := by
        rintro o rfl
        decide +kernel
      exact this _ rfl
    · show (newDb (Dir.full W.ready.kv)).2 = _
      rw [C30_rocks_partial (W.cfg .debug) W.ready ⟨_, rfl, rfl, W.okCalls _ _ (List.forall_mem_cons.2 ⟨trivial, List.forall_mem_cons.2 ⟨trivial, fun _ h => nomatch h⟩⟩)⟩ (by decide +kernel)]
  · intro c op hm
    simp only [List.mem_cons, Ev.call.injEq, reduceCtorEq, List.not_mem_nil, or_false] at hm
    rcases hm with ⟨_, rfl⟩ | ⟨_, rfl⟩
    · exact H 7 (by simp [W.values])
    · exact H 8 (by simp [W.values])

end IndraDB
