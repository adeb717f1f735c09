import Verif.Proofs.Gone
import Verif.Props.Stays
import Verif.Props.MemoryAny
/-
C99: what was deleted is gone until it is put in again.
-/
set_option linter.unusedSimpArgs false
namespace IndraDB

/-- C99 for the memory datastore, in debug and release builds, whatever the hash maps do. -/
theorem C99_memory (K : HashEq) (b : Build) : (memStore K b).VerticesGone ∧ (memStore K b).EdgesGone (fun _ _ _ => True) ∧
    (memStore K b).VertexPropertiesGone ∧ (memStore K b).EdgePropertiesGone :=
  ⟨(memConforms K b).verticesGone (memStore_up K b) Sem.intended_drops Sem.intended_makes,
    (memConforms K b).edgesGone (memStore_up K b) Sem.intended_drops Sem.intended_makes (fun _ _ _ _ _ => trivial),
    (memConforms K b).vertexPropertiesGone (memStore_up K b) Sem.intended_drops Sem.intended_keeps,
    (memConforms K b).edgePropertiesGone (memStore_up K b) Sem.intended_drops Sem.intended_keeps⟩

/-- C99 for RocksDB, where an edge is deleted only if its outbound vertex exists (C09). -/
theorem C99_rocks (X : Cfg) : (rocksStore X).VerticesGone ∧ (rocksStore X).EdgesGone (rocksStore X).HasSource ∧
    (rocksStore X).VertexPropertiesGone ∧ (rocksStore X).EdgePropertiesGone :=
  ⟨(Rocks.conforms X).verticesGone (fun _ _ _ _ _ => rfl) (Sem.rocks_drops X) (Sem.rocks_makes X),
    (Rocks.conforms X).edgesGone (fun _ _ _ _ _ => rfl) (Sem.rocks_drops X) (Sem.rocks_makes X) (fun s hr env e ⟨v, hv⟩ => by
      unfold Store.value at hv
      rw [((Rocks.conforms X).vertexQueries s hr env).2.2 [e.outboundId]] at hv
      cases hx : ((rocksStore X).graph s).vertex e.outboundId with
      | some t => rfl
      | none => simp [Graph.lookup, hx] at hv),
    (Rocks.conforms X).vertexPropertiesGone (fun _ _ _ _ _ => rfl) (Sem.rocks_drops X) (Sem.rocks_keeps X),
    (Rocks.conforms X).edgePropertiesGone (fun _ _ _ _ _ => rfl) (Sem.rocks_drops X) (Sem.rocks_keeps X)⟩

/-! ### After the example history, something is deleted, and two more calls follow -/

namespace W
/-- Calls that make another vertex and an edge. -/
def goneAfter {E : Type} (e : E) : List (E × Op) := [(e, .createVertex ⟨u 7, t⟩), (e, .createEdge ⟨u 7, t, u 7⟩)]
theorem gone_untouched {E : Type} (e : E) (n : Identifier) (bad) : Untouched n bad (goneAfter e) :=
  untouched_two n bad _ _ (by rintro m q x ⟨⟩) (by rintro m q x ⟨⟩) (fun _ h => by cases h) (fun _ h => by cases h)
end W

example : ∀ l, (MS .debug).ask HashOrder.sorted .allVertex
      ((MS .debug).run (W.hist ++ (.sorted, .delete (.specificVertex [W.u 2])) :: W.goneAfter .sorted) MemDb.new) = .ok [.vertices l] →
    ∀ w ∈ l, w.id ≠ W.u 2 :=
  fun l h => (C99_memory HashEq.byHash .debug).1 W.hist .sorted (.specificVertex [W.u 2]) [⟨W.u 2, W.t2⟩] ⟨W.u 2, W.t2⟩ (W.goneAfter .sorted)
    (memStore_ok _) (by decide +kernel) (by decide) (by decide +kernel) (by decide) .sorted l h

example : ∀ l, (MS .debug).ask HashOrder.sorted .allEdge
      ((MS .debug).run (W.hist ++ (.sorted, .delete (.specificEdge [W.e12])) :: W.goneAfter .sorted) MemDb.new) = .ok [.edges l] → W.e12 ∉ l :=
  fun l h => (C99_memory HashEq.byHash .debug).2.1 W.hist .sorted (.specificEdge [W.e12]) [W.e12] W.e12 (W.goneAfter .sorted)
    (memStore_ok _) (by decide +kernel) (by decide) trivial (by decide +kernel) (by decide) .sorted l h

example : ∀ l, (MS .debug).ask HashOrder.sorted (.pipeProperty (.specificVertex [W.u 1]) (some W.q))
      ((MS .debug).run (W.hist ++ (.sorted, .delete (.pipeProperty .allVertex none)) :: W.goneAfter .sorted) MemDb.new) = .ok l →
    l = [.vertexProperties []] :=
  fun l h => (C99_memory HashEq.byHash .debug).2.2.1 W.hist .sorted (.pipeProperty .allVertex none)
    [⟨⟨W.u 1, W.t⟩, [⟨W.p, W.n 8⟩, ⟨W.q, W.n 1⟩]⟩, ⟨⟨W.u 2, W.t2⟩, [⟨W.q, W.n 1⟩]⟩]
    ⟨⟨W.u 1, W.t⟩, [⟨W.p, W.n 8⟩, ⟨W.q, W.n 1⟩]⟩ ⟨W.q, W.n 1⟩ (W.goneAfter .sorted)
    (memStore_ok _) (by decide +kernel) List.mem_cons_self (List.mem_cons_of_mem _ List.mem_cons_self) (by decide +kernel)
    (W.gone_untouched _ _ _) .sorted l h

example : ∀ l, (MS .debug).ask HashOrder.sorted (.pipeProperty (.specificEdge [W.e12]) (some W.p))
      ((MS .debug).run (W.hist ++ (.sorted, .delete (.pipeProperty (.specificEdge [W.e12]) none)) :: W.goneAfter .sorted) MemDb.new) = .ok l →
    l = [.edgeProperties []] :=
  fun l h => (C99_memory HashEq.byHash .debug).2.2.2 W.hist .sorted (.pipeProperty (.specificEdge [W.e12]) none)
    [⟨W.e12, [⟨W.p, W.n 3⟩]⟩] ⟨W.e12, [⟨W.p, W.n 3⟩]⟩ ⟨W.p, W.n 3⟩ (W.goneAfter .sorted)
    (memStore_ok _) (by decide +kernel) List.mem_cons_self List.mem_cons_self (by decide +kernel)
    (W.gone_untouched _ _ _) .sorted l h

/-- On RocksDB: the outbound vertex exists. -/
example : ∀ l, (RS .debug).ask IdentOrder.sorted .allEdge
      ((RS .debug).run (W.calm W.calls ++ (.sorted, .delete (.specificEdge [W.e12])) :: W.goneAfter .sorted) Rocks.init) = .ok [.edges l] → W.e12 ∉ l :=
  fun l h => (C99_rocks (W.cfg .debug)).2.1 (W.calm W.calls) .sorted (.specificEdge [W.e12]) [W.e12] W.e12 (W.goneAfter .sorted)
    (by
      intro p hp
      rcases List.mem_append.1 hp with hp | hp
      · exact W.okCalls .debug _ W.calls_ok p hp
      · simp only [W.goneAfter, List.mem_cons, List.not_mem_nil, or_false] at hp
        rcases hp with rfl | rfl | rfl <;> trivial)
    (by decide +kernel) (by decide) ⟨⟨W.u 1, W.t⟩, by decide +kernel⟩ (by decide +kernel) (by decide) .sorted l h

/-! ### The memory datastore, whatever its hash maps do (JSON values that are equal and have different hashes, see C40) -/

theorem memStoreAny_up (b : Build) (env) (op : Op) (s : (memStoreAny b).State) (r : Reply)
    (h : ((memStoreAny b).step env op s).2 = .ok r) : (memStoreAny b).alive s = true := by
  have h' : (MemDb.step env.1 b env.2 op s).2 = .ok r := h
  show (!s.poisoned) = true
  cases hp : s.poisoned with
  | true => simp [MemDb.step, hp] at h'
  | false => rfl

theorem C97_memory_any (b : Build) : (memStoreAny b).OnlyMade :=
  (memAnyConforms b).onlyMade Sem.intended_makes ⟨(fun v h => nomatch h), (fun e h => nomatch h)⟩ (memStoreAny_up b)

theorem C98_memory_any (b : Build) : (memStoreAny b).VerticesStay (fun _ _ => False) ∧ (memStoreAny b).EdgesStay ∧
    (memStoreAny b).VertexPropertiesStay id ∧ (memStoreAny b).EdgePropertiesStay id :=
  ⟨(memAnyConforms b).verticesStay (memStoreAny_up b) Sem.intended_keeps, (memAnyConforms b).edgesStay (memStoreAny_up b) Sem.intended_keeps,
    (memAnyConforms b).vertexPropertiesStay (memStoreAny_up b) Sem.intended_keeps,
    (memAnyConforms b).edgePropertiesStay (memStoreAny_up b) Sem.intended_keeps⟩

theorem C99_memory_any (b : Build) : (memStoreAny b).VerticesGone ∧ (memStoreAny b).EdgesGone (fun _ _ _ => True) ∧
    (memStoreAny b).VertexPropertiesGone ∧ (memStoreAny b).EdgePropertiesGone :=
  ⟨(memAnyConforms b).verticesGone (memStoreAny_up b) Sem.intended_drops Sem.intended_makes,
    (memAnyConforms b).edgesGone (memStoreAny_up b) Sem.intended_drops Sem.intended_makes (fun _ _ _ _ _ => trivial),
    (memAnyConforms b).vertexPropertiesGone (memStoreAny_up b) Sem.intended_drops Sem.intended_keeps,
    (memAnyConforms b).edgePropertiesGone (memStoreAny_up b) Sem.intended_drops Sem.intended_keeps⟩

/-- A history with equal values of different hashes: the counts, and a vertex made at the start. -/
example := C97_memory_any .debug W.mixed (memAny_ok _) W.look
example : (memStoreAny .debug).ask W.look (.count .allVertex) W.any = .ok [.count (W.mixed.flatMap (·.2.newVertices)).length] := by decide +kernel

end IndraDB
