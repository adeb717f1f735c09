import Verif.Proofs.Equality
import Verif.Props.Truth
import Verif.Props.Values
/-
C85: `==` and `Hash` on what the API takes and returns.
-/
namespace IndraDB

theorem jsonReflSymm : ReflSymm Json.eq := C40_refl_symm

/-- Vertices are `==` exactly if they have the same id, whatever their types; this is an equivalence, and vertices that are
`==` feed the same bytes to a hasher, different ones different bytes. -/
theorem C85_vertex (a b : Vertex) : (a.eq b = true ↔ a.id = b.id) ∧ (a.eq b = true ↔ a.hashed = b.hashed) := by
  refine ⟨by simp [Vertex.eq], ?_⟩
  simp only [Vertex.eq, Vertex.hashed, decide_eq_true_eq]
  exact ⟨fun h => by rw [h], fun h => Uuid.inj h⟩

example : (⟨W.u 1, W.t⟩ : Vertex).eq ⟨W.u 1, W.t2⟩ = true ∧ (⟨W.u 1, W.t⟩ : Vertex).eq ⟨W.u 2, W.t⟩ = false := by
  decide +kernel

/-- `==` is reflexive and symmetric on vertices, properties, owners with properties, replies, bulk items and queries, for
all contents, as deep as they go. -/
theorem C85_reflSymm : ReflSymm Vertex.eq ∧ ReflSymm NamedProperty.eq ∧ ReflSymm VertexProperties.eq ∧
    ReflSymm EdgeProperties.eq ∧ ReflSymm Output.eq ∧ ReflSymm BulkInsertItem.eq ∧ ReflSymm Query.eq :=
  ⟨Vertex.eq_reflSymm, NamedProperty.eq_reflSymm jsonReflSymm, VertexProperties.eq_reflSymm jsonReflSymm,
    EdgeProperties.eq_reflSymm jsonReflSymm, Output.eq_reflSymm jsonReflSymm, BulkInsertItem.eq_reflSymm jsonReflSymm,
    Query.eq_reflSymm jsonReflSymm⟩

example := C85_reflSymm.2.2.2.2.2.2.1 W.deepQuery

/-- Replies in which all numbers are integers, or all are floats or integers up to `2^53`: `==` is transitive. Missing:
other numbers, for which `==` is not transitive (`C85_transitive_refuted`). -/
theorem C85_transitive_partial (P : Num → Prop) (hP : P = Num.IsInt ∨ P = Num.IsExact) :
    TransOn (fun o : Output => o.ValuesIn (fun v => v.AllNums P)) Output.eq :=
  Output.eq_trans (fun a b c ha hb hc h1 h2 => C40_transitive_partial P hP a b c ha hb hc h1 h2)

/-- `==` on replies is not transitive. -/
theorem C85_transitive_refuted : ¬ TransOn (fun _ => True) Output.eq := by
  intro h
  let o : Json → Output := fun v => .vertexProperties [⟨⟨W.u 1, W.t⟩, [⟨W.p, v⟩]⟩]
  have := h (o (W.n (2^53 + 1))) (o (W.pow2f 53)) (o (W.n (2^53))) trivial trivial trivial (by decide +kernel)
    (by decide +kernel)
  revert this
  decide +kernel

/-- With integers only, or floats only (except `-0.0`): replies and items are `==` exactly if they are identical but for
the types of vertices; queries exactly if they are identical. -/
theorem C85_exact_partial (P : Num → Prop) (hP : P = Num.IsInt ∨ P = Num.IsFloatNotNegZero) :
    (∀ a b : Output, a.ValuesIn (fun v => v.AllNums P) → b.ValuesIn (fun v => v.AllNums P) →
      (a.eq b = true ↔ a.untyped = b.untyped)) ∧
    (∀ a b : BulkInsertItem, a.ValuesIn (fun v => v.AllNums P) → b.ValuesIn (fun v => v.AllNums P) →
      (a.eq b = true ↔ a.untyped = b.untyped)) ∧
    (∀ a b : Query, a.ValuesIn (fun v => v.AllNums P) → b.ValuesIn (fun v => v.AllNums P) →
      (a.eq b = true ↔ a = b)) := by
  have hV : ∀ x y : Json, x.AllNums P → y.AllNums P → (x.eq y = true ↔ x = y) :=
    fun x y hx hy => (C40_hash_partial P hP x y hx hy).1
  exact ⟨Output.eq_iff hV, BulkInsertItem.eq_iff hV, Query.eq_iff hV⟩

/-- The values of a deep query are integers, and it differs from another one. -/
example : W.deepQuery.ValuesIn (fun v => v.AllNums Num.IsInt) ∧ W.deepQuery.eq (.incl W.deepQuery) = false := by
  refine ⟨?_, by decide +kernel⟩
  simp [W.deepQuery, Query.ValuesIn, Query.All, Json.AllNums, W.n, Num.IsInt]

/-- In one state of the memory datastore, outputs of two queries that are `==` are identical: what `==` leaves out is
determined by what it compares. -/
theorem C85_memory_one_state (K : HashEq) (b : Build) : (memStore K b).EqMeansIdentical Query.NoEdgePresence :=
  (C84_memory_partial K b).1.eqIdentical

theorem C85_rocks_one_state (X : Cfg) : (rocksStore X).EqMeansIdentical Query.NoEdgeLookup :=
  (Rocks.C84_rocks_partial X).1.eqIdentical

/-- Two different queries with equal outputs. -/
example := C85_memory_one_state HashEq.byHash .debug _ (W.demo_reach .debug) .sorted .sorted .allVertex
  (.specificVertex [W.u 1, W.u 2]) [.vertices [⟨W.u 1, W.t⟩, ⟨W.u 2, W.t2⟩]] [.vertices [⟨W.u 1, W.t⟩, ⟨W.u 2, W.t2⟩]]
  (by decide +kernel) (by decide +kernel)
  (by intro p hp n; simp only [Query.parts, List.mem_singleton] at hp; rw [hp]; simp)
  (by intro p hp n; simp only [Query.parts, List.mem_singleton] at hp; rw [hp]; simp)

/-- Across states this fails: a vertex that was deleted and created again with another type gives a reply that is `==` to
the old one (memory and RocksDB). -/
theorem C85_replies_refuted (b : Build) : ¬ (MS b).EqRepliesIdentical ∧ ¬ (RS b).EqRepliesIdentical := by
  constructor
  · intro h
    let h1 : List (HashOrder × Op) := [(.sorted, .createVertex ⟨W.u 1, W.t⟩)]
    let h2 : List (HashOrder × Op) := h1 ++ [(.sorted, .delete .allVertex), (.sorted, .createVertex ⟨W.u 1, W.t2⟩)]
    have := h ((MS b).run h1 MemDb.new) ((MS b).run h2 MemDb.new)
      ⟨h1, rfl, by cases b <;> decide +kernel, memStore_ok _⟩ ⟨h2, rfl, by cases b <;> decide +kernel, memStore_ok _⟩
      .sorted .sorted .allVertex (.vertices [⟨W.u 1, W.t⟩]) (.vertices [⟨W.u 1, W.t2⟩]) (by cases b <;> decide +kernel)
      (by cases b <;> decide +kernel) (by decide +kernel)
    revert this
    decide +kernel
  · intro h
    have ok : ∀ l : List Op, (∀ o ∈ l, o.ValuesOk (· ∈ W.values)) →
        (RS b).Reach ((RS b).run (W.calm l) Rocks.init) := fun l hl => ⟨_, rfl, rfl, W.okCalls b l hl⟩
    have := h _ _ (ok [.createVertex ⟨W.u 1, W.t⟩] (by simp [Op.ValuesOk]))
      (ok [.createVertex ⟨W.u 1, W.t⟩, .delete .allVertex, .createVertex ⟨W.u 1, W.t2⟩] (by simp [Op.ValuesOk]))
      .sorted .sorted .allVertex (.vertices [⟨W.u 1, W.t⟩]) (.vertices [⟨W.u 1, W.t2⟩]) (by cases b <;> decide +kernel)
      (by cases b <;> decide +kernel) (by decide +kernel)
    revert this
    decide +kernel

/-- Queries that are `==` need not have the same reply: looking for the value `3` finds edges that looking for `3.0` does not
(memory and RocksDB). -/
theorem C85_queries_refuted (b : Build) : ¬ (MS b).EqQueriesSame ∧ ¬ (RS b).EqQueriesSame := by
  constructor
  · intro h
    have := h _ (W.demo_reach b) .sorted (.edgeWithPropertyValue W.p (W.n 3)) (.edgeWithPropertyValue W.p W.three)
      (by decide +kernel)
    revert this
    cases b <;> decide +kernel
  · intro h
    have := h _ (W.rdemo_reach b) .sorted (.edgeWithPropertyValue W.p (W.n 3)) (.edgeWithPropertyValue W.p W.three)
      (by decide +kernel)
    revert this
    cases b <;> decide +kernel

/-- Bulk-inserting items that are `==` need not give the same contents: the type of a vertex is not compared. -/
theorem C85_items_refuted (b : Build) : ¬ (MS b).EqItemsSame ∧ ¬ (RS b).EqItemsSame := by
  constructor
  · intro h
    have := h _ (W.demo_reach b) .sorted [.vertex ⟨W.u 9, W.t⟩] [.vertex ⟨W.u 9, W.t2⟩] (by decide +kernel)
    have := congrFun (congrArg Graph.vertex this) (W.u 9)
    revert this
    cases b <;> decide +kernel
  · intro h
    have := h _ (W.rdemo_reach b) .sorted [.vertex ⟨W.u 9, W.t⟩] [.vertex ⟨W.u 9, W.t2⟩] (by decide +kernel)
    have := congrFun (congrArg Graph.vertex this) (W.u 9)
    revert this
    cases b <;> decide +kernel

end IndraDB
