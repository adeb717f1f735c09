import Verif.Proofs.ClosedMemory
import Verif.Proofs.ClosedRocks
import Verif.Props.Rocks
/-
C52: queries return only identifiers and values that were written.
-/
namespace IndraDB

/-- Whatever holds of all identifiers and all values in the calls of a history holds of those in the replies, in debug and
release builds, whatever the hash maps do; in particular (take "occurs in the history" for `I` and `V`) nothing is made
up. -/
theorem C52_memory (K : HashEq) (b : Build) (I : Identifier → Prop) (V : Json → Prop) :
    (memStore K b).RepliesClosed I V := memStore_closed K b

/-- The same for RocksDB, if the property of values survives being written and read back. -/
theorem C52_rocks (X : Cfg) (I : Identifier → Prop) (V : Json → Prop) (hV : ∀ x, V x → V (X.stored x)) :
    (rocksStore X).RepliesClosed I V := rocksStore_closed X hV

/-- The hypotheses are met by the example history followed by a query, which returns identifiers and values. -/
example : (∀ p ∈ W.hist ++ [(HashOrder.sorted, Op.get (.pipeProperty .allVertex none))],
      p.2.All (fun i => i ∈ [W.t, W.t2, W.p, W.q]) (fun v => v ∈ [W.n 1, W.n 3, W.n 7, W.n 8])) ∧
    .ok (.outputs [.vertexProperties [⟨⟨W.u 1, W.t⟩, [⟨W.p, W.n 8⟩, ⟨W.q, W.n 1⟩]⟩, ⟨⟨W.u 2, W.t2⟩, [⟨W.q, W.n 1⟩]⟩]]) ∈
      (MS .debug).replies (W.hist ++ [(HashOrder.sorted, .get (.pipeProperty .allVertex none))]) MemDb.new := by
  refine ⟨?_, by decide +kernel⟩
  intro p hp
  simp only [W.hist, W.calls, List.map_cons, List.map_nil, List.cons_append, List.nil_append, List.mem_cons,
    List.not_mem_nil, or_false] at hp
  rcases hp with rfl | rfl | rfl | rfl | rfl | rfl | rfl | rfl | rfl | rfl | rfl <;>
    simp [Op.All, Query.All, W.e12, W.e21, W.e11]

example : (RS .debug).RepliesClosed (fun i => i ∈ [W.t, W.t2, W.p, W.q]) (fun _ => True) ∧
    .ok (.outputs [.vertexProperties [⟨⟨W.u 1, W.t⟩, [⟨W.p, W.n 8⟩, ⟨W.q, W.n 1⟩]⟩, ⟨⟨W.u 2, W.t2⟩, [⟨W.q, W.n 1⟩]⟩]]) ∈
      (RS .debug).replies (W.calm (W.calls ++ [.get (.pipeProperty .allVertex none)])) Rocks.init :=
  ⟨C52_rocks _ _ _ (fun _ _ => trivial), by decide +kernel⟩

example := C52_memory HashEq.byHash .debug (fun i => i ∈ [W.t, W.t2, W.p, W.q]) (fun v => v ∈ [W.n 1, W.n 3, W.n 7, W.n 8])

end IndraDB
