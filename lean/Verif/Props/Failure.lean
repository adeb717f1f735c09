import Verif.Proofs.Failure
import Verif.Props.MemoryAny
import Verif.Props.Rocks
/-
C89: exactly when calls fail, and with which error.
-/
set_option linter.unusedSimpArgs false
namespace IndraDB
open Mem

/-- The calls that write to the database. -/
def Op.Writes : Op → Prop
  | .delete _ | .setProperties _ _ _ | .bulkInsert _ => True
  | _ => False

theorem memConv_bad : (fun id => (memConv HashEq.byHash).propsPanic id = true) = (fun id => id = Uuid.max) := by
  funext id; simp [memConv]

theorem rocksConv_bad (X : Cfg) : (fun id => (Rocks.conv X).propsPanic id = true) = (fun _ => False) := by
  funext id; simp [Rocks.conv]

/-- The memory datastore: a query fails exactly if one part of it cannot be evaluated, with the error of that part; listing all
properties of the vertex with the greatest id panics, and nothing else does. -/
theorem C89_memory (b : Build) : (memStoreAny b).QueryFailuresExact (fun id => id = Uuid.max) ∧
    (memStoreAny b).OnePartFails (fun id => id = Uuid.max) := by
  rw [← memConv_bad]; exact ⟨(memAnyConforms b).queryFailures, (memAnyConforms b).onePartFails⟩

/-- The same for all calls; but in debug builds writes can panic for other reasons (see C35). -/
theorem C89_memory_calls (b : Build) :
    (memStoreAny b).CallFailuresExact (fun id => id = Uuid.max) (fun op => b = .debug ∧ op.Writes) := by
  rw [← memConv_bad]
  refine (memAnyConforms b).callFailures ?_
  rintro d hr ⟨F, O⟩ op _ hn _
  obtain ⟨hp, hi⟩ := memAny_reach hr
  have he := memStep_any (b := b) hp F O op
  rcases dbStep_any (b := b) F O op d.mem hi with ⟨h, _⟩ | ⟨_, h1, h2⟩
  · refine absurd ?_ hn
    show StepWith _ _ _ _ (MemDb.step F b O op d).1.mem.graph (MemDb.step F b O op d).2
    rw [he.1, he.2.1]; exact h
  · refine ⟨h1, ?_⟩
    rcases h2 with ⟨q, rfl⟩ | ⟨q, n, x, rfl⟩ | ⟨l, rfl⟩ <;> trivial

/-- In release builds there are no other reasons. In particular a call panics exactly if its query lists all properties of
the vertex with the greatest id. -/
theorem C89_memory_release {d : MemDb} (hr : (memStoreAny .release).Reach d) (env : Finder × HashOrder) (op : Op) (f : Fault) :
    ((memStoreAny .release).step env op d).2 = .error f ↔
    (memStoreAny .release).CallFails (fun id => id = Uuid.max) env d op f := by
  have h := C89_memory_calls .release d hr env op (memAny_valuesOk op) f
  refine ⟨fun e => ?_, h.1⟩
  rcases h.2 e with h | ⟨_, h, _⟩
  · exact h
  · cases h

namespace Rocks
variable (X : Cfg)

/-- The RocksDB datastore (values that can be read back): as the memory datastore, but nothing panics. -/
theorem C89_rocks : (rocksStore X).QueryFailuresExact (fun _ => False) ∧ (rocksStore X).OnePartFails (fun _ => False) ∧
    (rocksStore X).CallFailuresExact (fun _ => False) (fun _ => False) := by
  rw [← rocksConv_bad X]
  refine ⟨(conforms X).queryFailures, (conforms X).onePartFails, (conforms X).callFailures ?_⟩
  intro s hr env op hv hn _
  refine absurd ?_ hn
  exact (dbStep_spec env op s (inv_reach hr) hv).stepWith

end Rocks

/-! ### Concrete cases -/

/-- A query of five parts in which the second from inside fails. -/
def W.deepFail : Query := .count (.incl (.pipeWithPropertyValue (.pipe (.count .allVertex) .outbound 3 none) W.p .null true))

example : (memStoreAny .debug).ask W.look W.deepFail W.any = .error (.err .operationOnQuery) :=
  ((C89_memory .debug).1 _ W.any_reach W.look _ _).2 ⟨.pipe (.count .allVertex) .outbound 3 none, by simp [W.deepFail, Query.parts],
    .count 2, by decide +kernel, rfl, rfl⟩

/-- A name that is not indexed. -/
example : (memStoreAny .debug).ask W.look (.pipeWithPropertyPresence .allVertex ⟨[90], by decide⟩ true) W.any = .error (.err .notIndexed) :=
  ((C89_memory .debug).1 _ W.any_reach W.look _ _).2 ⟨.pipeWithPropertyPresence .allVertex ⟨[90], by decide⟩ true, by simp [Query.parts],
    .vertices [⟨W.u 1, W.t⟩, ⟨W.u 2, W.t2⟩], by decide +kernel, Or.inr ⟨rfl, by decide +kernel, rfl⟩⟩

/-- The vertex with the greatest id, in a release build. -/
def W.maxHist : List ((Finder × HashOrder) × Op) := [((Finder.byEq, HashOrder.sorted), .createVertex ⟨Uuid.max, W.t⟩)]

example : ((memStoreAny .release).step W.look (.delete (.incl (.pipeProperty .allVertex none)))
    ((memStoreAny .release).run W.maxHist MemDb.new)).2 = .error .panic :=
  (C89_memory_release ⟨W.maxHist, rfl, by decide +kernel, memAny_ok _⟩ W.look _ _).2
    (Or.inl ⟨.pipeProperty .allVertex none, by simp [Query.parts], .vertices [⟨Uuid.max, W.t⟩], by decide +kernel,
      Or.inr ⟨rfl, ⟨_, rfl, _, List.mem_singleton.2 rfl, rfl⟩, rfl⟩⟩)

example : ((RS .debug).step .sorted (.delete (.count .allEdge)) (W.rdemo .debug)).2 = .error (.err .operationOnQuery) :=
  ((Rocks.C89_rocks _).2.2 _ (W.rdemo_reach .debug) .sorted (.delete (.count .allEdge)) trivial _).1
    (Or.inr ⟨.count 3, by decide +kernel, rfl, rfl⟩)

end IndraDB
