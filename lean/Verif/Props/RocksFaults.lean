import Verif.Proofs.RocksFaults
import Verif.Props.RocksConc
/-
C59: I/O errors of RocksDB.
-/
namespace IndraDB
open Rocks
variable {X : Cfg}

/-- What is true of C59: any call except `index_property` and except counting all vertices or all edges, in any state and
whatever I/O errors occur during it, does and returns exactly what it would have without them, or returns an error and
changes nothing. Missing: `index_property` and those counts, for which it is false (`C59_rocks_index_refuted`,
`C59_rocks_count_refuted`). -/
theorem C59_rocks_partial (O : IdentOrder) (op : Op) (h1 : op.isIndexing = false) (h2 : op.countsAll = false)
    (s s' : Rocks) (r : Res Reply) (h : FaultyCall X O op s s' r) :
    (s', r) = Rocks.step X O op s ∨ (s' = s ∧ r = .error (.err .datastore)) := by
  rcases h with h | ⟨_, h⟩
  · rw [← callProg_run]; exact safe_call O op h1 h2 _ _ _ h
  · exact Or.inr h

/-- Calls that meet I/O errors: a failed write, and a failure of an iterator beyond the limit of the query, which goes
unnoticed. -/
example (O : IdentOrder) :
    FaultyCall (W.cfg .debug) O (.createVertex ⟨W.u 5, W.t⟩) (W.rdemo .debug) (W.rdemo .debug) (.error (.err .datastore)) ∧
    FaultyCall (W.cfg .debug) O (.get (.rangeVertex 1 none none)) (W.rdemo .debug) (W.rdemo .debug)
      (.ok (.outputs [.vertices [⟨W.u 1, W.t⟩]])) := by
  refine ⟨Or.inl ?_, Or.inl ?_⟩
  · have key : ∀ b : Bool, b = false → (Prog.bind (if b = true then pure false else do
        Prog.writeBatch (vertexCreate (W.cfg .debug) ⟨W.u 5, W.t⟩); return true) (fun b => .done (.ok (Reply.bool b)))).Runs
          (W.rdemo .debug) (W.rdemo .debug) (.error (.err .datastore)) := by
      rintro _ rfl
      exact .writeFails _ _ _
    exact .get (key (((W.rdemo .debug).kv .vertices).get (vertexKey (W.cfg .debug) (W.u 5))).isSome (by decide +kernel))
  · have key : ∀ r : Res (List Vertex), r = .ok [⟨W.u 1, W.t⟩] →
        (Prog.bind (Prog.bind (Prog.lift r) (fun l => .done (.ok ([] ++ [Output.vertices l])))) (fun l => .done (.ok (Reply.outputs l)))).Runs
          (W.rdemo .debug) (W.rdemo .debug) (.ok (.outputs [.vertices [⟨W.u 1, W.t⟩]])) := by
      rintro _ rfl
      exact .done _ _
    exact .scanFails 1 (key _ (by decide +kernel))

/-- What is true of `index_property`: it does and returns what it would have without I/O errors; or it returns an error and
nothing has been written, so that after closing and opening the database again everything is as before the call. -/
theorem C59_rocks_index_partial (O : IdentOrder) (n : Identifier) (s s' : Rocks) (r : Res Reply)
    (hs : (rocksStore X).Reach s) (hn : s.indexed.elems.length < 2 ^ 64) (h : FaultyCall X O (.indexProperty n) s s' r) :
    (s', r) = Rocks.step X O (.indexProperty n) s ∨
    (r = .error (.err .datastore) ∧ newDb (Dir.full s'.kv) = ([Dir.full s'.kv], .ok s)) := by
  rcases safe_indexCall O n s s' r h with h | ⟨hr, rfl⟩
  · exact Or.inl h
  · exact Or.inr ⟨hr, C30_rocks_partial X s hs hn⟩

/-- Histories: if calls meet I/O errors at any moments, but `index_property` does not fail and all vertices or edges are
not counted, then the final state is the one after some of the calls alone without any I/O error: all those that did not
return an error of the datastore are among them, and all of them returned what they returned. -/
theorem C59_rocks_history_partial (s t : Rocks) (L : List (IdentOrder × Op × Res Reply)) (h : FaultyHistory X s L t)
    (hi : ∀ x ∈ L, x.2.1.isIndexing = true → x.2.2 ≠ .error (.err .datastore))
    (hc : ∀ x ∈ L, x.2.1.countsAll = false) :
    ∃ L' : List (IdentOrder × Op × Res Reply), L'.Sublist L ∧ (L.filter (fun x => x.2.2 ≠ .error (.err .datastore))).Sublist L' ∧
      t = (rocksStore X).run (L'.map (fun x => (x.1, x.2.1))) s ∧
      (rocksStore X).replies (L'.map (fun x => (x.1, x.2.1))) s = L'.map (·.2.2) := by
  induction h with
  | nil s => exact ⟨[], .slnil, .slnil, rfl, rfl⟩
  | @cons O op r s s' t L h _ ih =>
    obtain ⟨L', i1, i2, i3, i4⟩ := ih (fun x hx => hi x (List.mem_cons_of_mem _ hx)) (fun x hx => hc x (List.mem_cons_of_mem _ hx))
    have key : (s', r) = Rocks.step X O op s ∨ (s' = s ∧ r = .error (.err .datastore)) := by
      cases hx : op.isIndexing with
      | false => exact C59_rocks_partial O op hx (hc _ List.mem_cons_self) s s' r h
      | true =>
        left
        have hr : r ≠ .error (.err .datastore) := hi _ List.mem_cons_self hx
        cases op with
        | indexProperty n =>
          rcases safe_indexCall O n s s' r h with h | ⟨h, _⟩
          · exact h
          · exact absurd h hr
        | _ => cases hx
    rcases key with key | ⟨rfl, rfl⟩
    · refine ⟨(O, op, r) :: L', i1.cons_cons _, ?_, ?_, ?_⟩
      · rw [List.filter_cons]
        split
        · exact i2.cons_cons _
        · exact i2.cons _
      · show t = (rocksStore X).run _ (Rocks.step X O op s).1
        rw [← key]; exact i3
      · show (Rocks.step X O op s).2 :: (rocksStore X).replies _ (Rocks.step X O op s).1 = _
        rw [← key]
        exact congrArg (r :: ·) i4
    · refine ⟨L', i1.cons _, ?_, i3, i4⟩
      rw [List.filter_cons, if_neg (by simp)]
      exact i2

/-- C59 fails for counts: in every state, if reading the first vertex (edge) fails, `count` of all vertices (edges) returns
1 and no error. -/
theorem C59_rocks_count_refuted (O : IdentOrder) (s : Rocks) :
    FaultyCall X O (.get (.count .allVertex)) s s (.ok (.outputs [.count 1])) ∧
    FaultyCall X O (.get (.count .allEdge)) s s (.ok (.outputs [.count 1])) :=
  ⟨Or.inl (.scanFails 0 (.done _ _)), Or.inl (.scanFails 0 (.done _ _))⟩

/-- The example database has two vertices and three edges. -/
example : (RS .debug).value .sorted (.count .allVertex) (W.rdemo .debug) = .ok (.count 2) ∧
    (RS .debug).value .sorted (.count .allEdge) (W.rdemo .debug) = .ok (.count 3) := by decide +kernel

/-- A database in which vertex 1 has the property `p`. -/
def W.withP : Rocks :=
  (RS .debug).run (W.calm [.createVertex ⟨W.u 1, W.t⟩, .setProperties (.specificVertex [W.u 1]) W.p (W.n 7)]) Rocks.init

/-- C59 fails for `index_property`: a call fails because of an I/O error. Before it, the query for the owners of the property
was refused; after it, it returns nothing, although vertex 1 has the property; and calling `index_property` again succeeds
and changes nothing. -/
theorem C59_rocks_index_refuted : (RS .debug).Reach W.withP ∧ ∃ s',
    FaultyCall (W.cfg .debug) .sorted (.indexProperty W.p) W.withP s' (.error (.err .datastore)) ∧
    (RS .debug).value .sorted (.vertexWithPropertyPresence W.p) W.withP = .error (.err .notIndexed) ∧
    (RS .debug).value .sorted (.vertexWithPropertyPresence W.p) s' = .ok (.vertices []) ∧
    (Rocks.graph (W.cfg .debug) s').vprop (W.u 1) W.p = some (W.n 7) ∧
    Rocks.step (W.cfg .debug) .sorted (.indexProperty W.p) s' = (s', .ok .unit) := by
  refine ⟨⟨_, rfl, rfl, W.okCalls _ _ ?_⟩, { W.withP with indexed := W.withP.indexed.add W.p }, Or.inl ?_, ?_, ?_, ?_, ?_⟩
  · refine List.forall_mem_cons.2 ⟨trivial, List.forall_mem_cons.2 ⟨?_, fun _ h => nomatch h⟩⟩
    show W.n 7 ∈ W.values
    simp [W.values]
  · have hn : W.withP.indexed.contains W.p = false := by decide +kernel
    have hp : callProg (W.cfg .debug) .sorted (.indexProperty W.p)
        = (indexProperty (W.cfg .debug) .sorted W.p).bind (fun _ => .done (.ok .unit)) := rfl
    rw [hp]
    refine .writeLock ?_
    have key : ∀ b : Bool, b = false → (Prog.bind (if b = true then pure () else .setIndexed (W.withP.indexed.add W.p) (fun _ => do
        let b1 ← Prog.forItems (fun v : Vertex => do
          match ← vpGet (W.cfg .debug) v.id W.p with
          | some x => return vpvSet (W.cfg .debug) v.id W.p x
          | none => return []) (← vertexIterate (W.cfg .debug) Uuid.nil)
        let b2 ← Prog.forItems (fun e : Edge => do
          match ← epGet (W.cfg .debug) e W.p with
          | some x => return epvSet (W.cfg .debug) e W.p x
          | none => return []) (← edgeIterateAll .edgeRanges)
        Prog.writeBatch (setIndexedBatch .sorted (W.withP.indexed.add W.p) ++ b1 ++ b2))) (fun _ => .done (.ok Reply.unit))).Runs
          W.withP { W.withP with indexed := W.withP.indexed.add W.p } (.error (.err .datastore)) := by
      rintro _ rfl
      exact .setIndexed (.scanFails 0 (.done _ _))
    exact key _ hn
  · decide +kernel
  · decide +kernel
  · decide +kernel
  · rfl

end IndraDB
