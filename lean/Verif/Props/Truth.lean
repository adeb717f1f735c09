import Verif.Proofs.Truth
import Verif.Props.Memory
import Verif.Props.MemoryAny
import Verif.Props.Rocks
/-
C84: whatever the query, everything in its reply is true.
-/
set_option linter.unusedSimpArgs false
namespace IndraDB
open MemDb Mem

theorem Query.NoEdgePresence.every {q : Query} (h : q.NoEdgePresence) :
    q.Every (fun p => ∀ n, p ≠ .edgeWithPropertyPresence n) := h

theorem Query.NoEdgeLookup.every {q : Query} (h : q.NoEdgeLookup) :
    q.Every (fun p => ∀ n, p ≠ .edgeWithPropertyPresence n ∧ ∀ v, p ≠ .edgeWithPropertyValue n v) := h

/-! ### Memory -/

/-- Memory: in every reachable state, all vertices and vertex properties in the reply to any query are true; so are the
edges and edge properties, unless a part of the query lists edges by `EdgeWithPropertyPresence`. And after a history that
writes properties only to existing owners, in debug builds, everything is. Missing: edges listed by
`EdgeWithPropertyPresence` otherwise (`C84_memory_refuted`, `C84_memory_release_refuted`). -/
theorem C84_memory_partial (K : HashEq) (b : Build) :
    (memStore K b).RepliesTrue Query.NoEdgePresence ∧
    (∀ hist, (memStore K .debug).CheckedHist .debug hist MemDb.new →
      (memStore K .debug).alive ((memStore K .debug).run hist MemDb.new) = true →
      (memStore K .debug).RepliesTrueAt (fun _ => True) ((memStore K .debug).run hist MemDb.new)) := by
  constructor
  · intro s hr
    exact (memConforms K b).repliesTrue hr (P := fun p => ∀ n, p ≠ .edgeWithPropertyPresence n)
      (fun _ n h => absurd rfl (h n)) (fun _ n v _ e h => index_edge_exists n v e h)
  · intro hist hc hal env look q os ha o ho
    have hr : (memStore K .debug).Reach ((memStore K .debug).run hist MemDb.new) := ⟨hist, rfl, hal, memStore_ok hist⟩
    have hci := cinv_of_checked K .debug hc hal
    have := (memConforms K .debug).repliesTrue hr (P := fun _ => True)
      (fun _ n _ e h => index_present_exists hci.wf.distinct (hci.wf.sound rfl) hci.noOrphans n e h)
      (fun _ n v _ e h => index_edge_exists n v e h) env look q os ha o ho
    exact ⟨this.1, fun _ => this.2 (fun _ _ => trivial)⟩

/-- With arbitrary hash map lookups (no law assumed of how JSON keys are found). -/
theorem C84_memory_any_partial (b : Build) : (memStoreAny b).RepliesTrue Query.NoEdgePresence := by
  intro s hr
  refine (memAnyConforms b).repliesTrue hr (P := fun p => ∀ n, p ≠ .edgeWithPropertyPresence n)
    (fun _ n h => absurd rfl (h n)) ?_
  rintro ⟨F, O⟩ n v _ e h
  have h' : (s.mem.index F).eValue n v e = true := h
  simp only [Mem.index, Bool.and_eq_true] at h'
  exact h'.2

/-- A query with parts of every kind, and includes: it has three true outputs. -/
def W.deepQuery : Query :=
  .pipeProperty (.incl (.pipeWithPropertyValue (.pipe (.incl (.vertexWithPropertyPresence W.p)) .outbound 9 none)
    W.p (W.n 3) true)) none

example : W.deepQuery.NoEdgePresence := by
  intro p hp n
  simp only [W.deepQuery, Query.parts, List.mem_cons, List.not_mem_nil, or_false] at hp
  rcases hp with rfl | rfl | rfl | rfl | rfl | rfl <;> simp

example : (MS .debug).ask .sorted W.deepQuery (W.demo .debug) =
    .ok [.vertices [⟨W.u 1, W.t⟩], .edges [W.e11, W.e12],
      .edgeProperties [⟨W.e11, [⟨W.p, W.n 3⟩]⟩, ⟨W.e12, [⟨W.p, W.n 3⟩]⟩]] := by decide +kernel

example := (C84_memory_partial HashEq.byHash .debug).1 _ (W.demo_reach .debug) .sorted .sorted W.deepQuery
example := (C84_memory_partial HashEq.byHash .debug).2 W.hist
  ⟨trivial, trivial, trivial, trivial, trivial, Or.inl rfl, trivial, Or.inl rfl, Or.inl rfl, Or.inl rfl, trivial⟩
  (by decide +kernel) HashOrder.sorted .sorted (.edgeWithPropertyPresence W.p) [.edges [W.e11, W.e12, W.e21]]
  (by decide +kernel)
example := C84_memory_any_partial .debug _ W.any_reach W.look W.look W.deepQuery

/-- C84 fails in memory, in debug and release builds: `EdgeWithPropertyPresence` lists an edge that never existed, after
a bulk insertion of a property of it. -/
theorem C84_memory_refuted (b : Build) : ¬ (MS b).RepliesTrue (fun _ => True) := by
  intro h
  let hist : List (HashOrder × Op) :=
    [(HashOrder.sorted, .indexProperty W.p), (HashOrder.sorted, .bulkInsert [.edgeProperty W.e12 W.p .null])]
  have := (h ((MS b).run hist MemDb.new) ⟨hist, rfl, by cases b <;> decide +kernel, memStore_ok _⟩ HashOrder.sorted
    .sorted (.edgeWithPropertyPresence W.p) [.edges [W.e12]] (by cases b <;> decide +kernel) (.edges [W.e12]) (List.mem_singleton.2 rfl)).2 trivial
    W.e12 (List.mem_singleton.2 rfl)
  revert this
  cases b <;> decide +kernel

/-- In release builds it also fails after histories that write properties only to existing owners: the index keeps listing
a deleted edge. -/
theorem C84_memory_release_refuted : ∃ hist, (MS .release).CheckedHist .release hist MemDb.new ∧
    ¬ (MS .release).RepliesTrueAt (fun _ => True) ((MS .release).run hist MemDb.new) := by
  refine ⟨[.createVertex ⟨W.u 1, W.t⟩, .createVertex ⟨W.u 2, W.t⟩, .createEdge W.e12, .indexProperty W.p,
    .setProperties .allEdge W.p .null, .delete .allVertex].map (fun o => (HashOrder.sorted, o)), ?_, ?_⟩
  · exact ⟨trivial, trivial, trivial, trivial, Or.inr trivial, trivial, trivial⟩
  · intro h
    have := (h .sorted .sorted (.edgeWithPropertyPresence W.p) [.edges [W.e12]] (by decide +kernel) (.edges [W.e12]) (List.mem_singleton.2 rfl)).2
      trivial W.e12 (List.mem_singleton.2 rfl)
    revert this
    decide +kernel

end IndraDB

namespace IndraDB.Rocks

/-- RocksDB: in every reachable state, all vertices and vertex properties in the reply to any query are true; so are the
edges and edge properties, unless a part of the query lists edges by a property. And after a history that keeps to
`Op.IndexSafe` (properties are written only to existing owners, values survive being stored), everything is. Missing:
edges listed by a property otherwise (`C84_rocks_refuted`). -/
theorem C84_rocks_partial (X : Cfg) :
    (rocksStore X).RepliesTrue Query.NoEdgeLookup ∧
    (∀ hist, (rocksStore X).OkHist hist → (rocksStore X).Along (fun g op => op.IndexSafe X g) hist Rocks.init →
      (rocksStore X).RepliesTrueAt (fun _ => True) ((rocksStore X).run hist Rocks.init)) := by
  constructor
  · intro s hr
    exact (conforms X).repliesTrue hr
      (P := fun p => ∀ n, p ≠ .edgeWithPropertyPresence n ∧ ∀ v, p ≠ .edgeWithPropertyValue n v)
      (fun _ n h => absurd rfl (h n).1) (fun _ n v h => absurd rfl ((h n).2 v))
  · intro hist ho ha env look q os hq o hm
    have hr : (rocksStore X).Reach ((rocksStore X).run hist Rocks.init) := ⟨hist, rfl, rfl, ho⟩
    have hci := cinv_run hist _ CInv.init ho ha
    have := (conforms X).repliesTrue hr (P := fun _ => True)
      (fun _ n _ e h => hci.idx.ePresent_edge hci.inv.wf hci.noOrphans n e h)
      (fun _ n v _ e h => hci.idx.eValue_edge hci.noOrphans n v e h) env look q os hq o hm
    exact ⟨this.1, fun _ => this.2 (fun _ _ => trivial)⟩

example : (RS .debug).ask .sorted W.deepQuery (W.rdemo .debug) =
    .ok [.vertices [⟨W.u 1, W.t⟩], .edges [W.e11, W.e12],
      .edgeProperties [⟨W.e11, [⟨W.p, W.n 3⟩]⟩, ⟨W.e12, [⟨W.p, W.n 3⟩]⟩]] := by decide +kernel

example := (C84_rocks_partial (W.cfg .debug)).1 _ (W.rdemo_reach .debug) .sorted .sorted W.deepQuery
example := (C84_rocks_partial (W.cfg .debug)).2 (W.calm W.calls) (W.okCalls .debug _ W.calls_ok) (W.rdemo_safe .debug)
  .sorted .sorted (.edgeWithPropertyPresence W.p) [.edges [W.e11, W.e12, W.e21]] (by decide +kernel)

/-- C84 fails in RocksDB as well: both ways of listing edges by a property return an edge that never existed, after a bulk
insertion of a property of it. -/
theorem C84_rocks_refuted (b : Build) : ¬ (RS b).RepliesTrue (fun _ => True) ∧
    ¬ (RS b).RepliesTrue Query.NoEdgePresence := by
  let hist := W.calm [.indexProperty W.p, .bulkInsert [.edgeProperty W.e12 W.p (W.n 7)]]
  have hr : (RS b).Reach ((RS b).run hist Rocks.init) := by
    refine ⟨hist, rfl, rfl, W.okCalls b _ ?_⟩
    intro o ho
    simp only [List.mem_cons, List.not_mem_nil, or_false] at ho
    rcases ho with rfl | rfl
    · trivial
    · intro i hi
      cases List.mem_singleton.1 hi
      simp [BulkInsertItem.Values, W.values]
  constructor
  · intro h
    have := (h _ hr .sorted .sorted (.edgeWithPropertyPresence W.p) [.edges [W.e12]] (by cases b <;> decide +kernel)
      (.edges [W.e12]) (List.mem_singleton.2 rfl)).2 trivial W.e12 (List.mem_singleton.2 rfl)
    revert this
    cases b <;> decide +kernel
  · intro h
    have := (h _ hr .sorted .sorted (.edgeWithPropertyValue W.p (W.n 7)) [.edges [W.e12]] (by cases b <;> decide +kernel)
      (.edges [W.e12]) (List.mem_singleton.2 rfl)).2 (by intro p hp n; simp only [Query.parts, List.mem_singleton] at hp; rw [hp]; simp) W.e12 (List.mem_singleton.2 rfl)
    revert this
    cases b <;> decide +kernel

end IndraDB.Rocks
