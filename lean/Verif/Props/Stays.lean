import Verif.Proofs.Stays
import Verif.Props.Made
/-
C98: what was put into a database stays there.
-/
set_option linter.unusedSimpArgs false
namespace IndraDB

theorem memStore_up (K : HashEq) (b : Build) (env) (op : Op) (s : (memStore K b).State) (r : Reply)
    (h : ((memStore K b).step env op s).2 = .ok r) : (memStore K b).alive s = true := (memStore_answers K b env op s r h).1

/-- C98 for the memory datastore: only deletions remove anything, and only writes of the property itself change it. -/
theorem C98_memory (K : HashEq) (b : Build) : (memStore K b).VerticesStay (fun _ _ => False) ∧ (memStore K b).EdgesStay ∧
    (memStore K b).VertexPropertiesStay id ∧ (memStore K b).EdgePropertiesStay id :=
  ⟨(memConforms K b).verticesStay (memStore_up K b) Sem.intended_keeps, (memConforms K b).edgesStay (memStore_up K b) Sem.intended_keeps,
    (memConforms K b).vertexPropertiesStay (memStore_up K b) Sem.intended_keeps,
    (memConforms K b).edgePropertiesStay (memStore_up K b) Sem.intended_keeps⟩

/-- C98 for RocksDB: here a bulk insertion may give a vertex another type. -/
theorem C98_rocks (X : Cfg) : (rocksStore X).VerticesStay (fun v i => ∃ w : Vertex, i = .vertex w ∧ w.id = v.id ∧ w ≠ v) ∧
    (rocksStore X).EdgesStay ∧ (rocksStore X).VertexPropertiesStay X.stored ∧ (rocksStore X).EdgePropertiesStay X.stored :=
  ⟨(Rocks.conforms X).verticesStay (fun _ _ _ _ _ => rfl) (Sem.rocks_keeps X), (Rocks.conforms X).edgesStay (fun _ _ _ _ _ => rfl) (Sem.rocks_keeps X),
    (Rocks.conforms X).vertexPropertiesStay (fun _ _ _ _ _ => rfl) (Sem.rocks_keeps X),
    (Rocks.conforms X).edgePropertiesStay (fun _ _ _ _ _ => rfl) (Sem.rocks_keeps X)⟩

/-! ### The example history: things made at its start are there at its end -/

namespace W
theorem calls_plain : ∀ o ∈ calls, (∀ q, o ≠ .delete q) ∧ ∀ items, o ≠ .bulkInsert items := by
  intro o ho
  simp only [calls, List.mem_cons, List.not_mem_nil, or_false] at ho
  rcases ho with rfl | rfl | rfl | rfl | rfl | rfl | rfl | rfl | rfl | rfl <;> exact ⟨nofun, nofun⟩
theorem plain {E : Type} {e : E} {k : Nat} : ∀ p ∈ (calls.map (fun o => (e, o))).drop k, (∀ q, p.2 ≠ .delete q) ∧ ∀ items, p.2 ≠ .bulkInsert items := by
  intro p hp
  obtain ⟨o, ho, rfl⟩ := List.mem_map.1 (List.mem_of_mem_drop hp)
  exact calls_plain o ho
theorem untouched_two {E : Type} (n : Identifier) (bad) (a b : E × Op) (ha : ∀ m q x, a.2 = .setProperties q m x → m ≠ n)
    (hb : ∀ m q x, b.2 = .setProperties q m x → m ≠ n) (ha' : ∀ items, a.2 ≠ .bulkInsert items) (hb' : ∀ items, b.2 ≠ .bulkInsert items) :
    Untouched n bad [a, b] := by
  intro p hp
  rcases List.mem_cons.1 hp with rfl | hp
  · exact ⟨fun q x h => ha _ _ _ h rfl, fun items h => absurd h (ha' _)⟩
  · cases List.mem_singleton.1 hp
    exact ⟨fun q x h => hb _ _ _ h rfl, fun items h => absurd h (hb' _)⟩
end W

/-- The vertex 1, made by the first call. -/
example : ∀ l, (MS .debug).ask HashOrder.sorted .allVertex ((MS .debug).run W.hist MemDb.new) = .ok [.vertices l] → (⟨W.u 1, W.t⟩ : Vertex) ∈ l :=
  fun l h => (C98_memory HashEq.byHash .debug).1 [] .sorted ⟨W.u 1, W.t⟩ (W.hist.drop 1) (memStore_ok _) (by decide +kernel)
    (fun p hp => (W.plain p hp).1) (fun _ _ _ _ _ _ => id) .sorted l h

/-- The edge from 1 to 2. -/
example : ∀ l, (MS .debug).ask HashOrder.sorted .allEdge ((MS .debug).run W.hist MemDb.new) = .ok [.edges l] → W.e12 ∈ l :=
  fun l h => (C98_memory HashEq.byHash .debug).2.1 (W.hist.take 2) .sorted W.e12 (W.hist.drop 3) (memStore_ok _) (by decide +kernel)
    (fun p hp => (W.plain p hp).1) .sorted l h

/-- The property `q` of all vertices, set before two more calls that set `p`. -/
example : ∀ l, (MS .debug).ask HashOrder.sorted (.pipeProperty (.specificVertex [W.u 2]) (some W.q)) ((MS .debug).run W.hist MemDb.new) = .ok l →
    ∃ t, l = [.vertexProperties [⟨⟨W.u 2, t⟩, [⟨W.q, W.n 1⟩]⟩]] :=
  fun l h => (C98_memory HashEq.byHash .debug).2.2.1 (W.hist.take 7) .sorted .allVertex W.q (W.n 1) [⟨W.u 1, W.t⟩, ⟨W.u 2, W.t2⟩] ⟨W.u 2, W.t2⟩
    (W.hist.drop 8) (memStore_ok _) (by decide +kernel) (by decide) (by decide +kernel)
    (fun p hp => (W.plain p hp).1)
    (W.untouched_two _ _ _ _ (by rintro m q x ⟨⟩; decide) (by rintro m q x ⟨⟩; decide) (fun _ h => by cases h) (fun _ h => by cases h)) .sorted l h

/-- The property `p` of an edge, set before one more call. -/
example : ∀ l, (MS .debug).ask HashOrder.sorted (.pipeProperty (.specificEdge [W.e12]) (some W.p))
      ((MS .debug).run (W.hist.take 9 ++ [(.sorted, .setProperties .allEdge W.q (W.n 8)), (.sorted, .indexProperty W.q)]) MemDb.new) = .ok l →
    l = [.edgeProperties [⟨W.e12, [⟨W.p, W.n 3⟩]⟩]] :=
  fun l h => (C98_memory HashEq.byHash .debug).2.2.2 (W.hist.take 8) .sorted .allEdge W.p (W.n 3) [W.e11, W.e12, W.e21] W.e12
    [(.sorted, .setProperties .allEdge W.q (W.n 8)), (.sorted, .indexProperty W.q)]
    (memStore_ok _) (by decide +kernel) (by decide) (by decide +kernel) (by decide +kernel)
    (by intro p hp q h; simp only [List.mem_cons, List.not_mem_nil, or_false] at hp; rcases hp with rfl | rfl <;> cases h)
    (W.untouched_two _ _ _ _ (by rintro m q x ⟨⟩; decide) (by rintro m q x ⟨⟩) (fun _ h => by cases h) (fun _ h => by cases h)) .sorted l h

/-- On RocksDB. -/
example : ∀ l, (RS .debug).ask IdentOrder.sorted .allVertex ((RS .debug).run (W.calm W.calls) Rocks.init) = .ok [.vertices l] →
    (⟨W.u 1, W.t⟩ : Vertex) ∈ l :=
  fun l h => (C98_rocks _).1 [] .sorted ⟨W.u 1, W.t⟩ ((W.calm W.calls).drop 1) (W.okCalls .debug W.calls W.calls_ok) (by decide +kernel)
    (fun p hp => (W.plain p hp).1)
    (fun p hp items h => absurd h ((W.plain p hp).2 items)) .sorted l h

end IndraDB
