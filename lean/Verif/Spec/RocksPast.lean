import Verif.Spec.IndexKept
import Verif.Spec.RocksApp
/-
The past of a RocksDB database: all states it ever was in; and who is listed by the queries that use an index.
-/
namespace IndraDB

/-- The value of property `n` of the owner. -/
def Owner.propertyIn (g : Graph) (n : Identifier) : Owner → Option Json
  | .vertex i => g.vprop i n
  | .edge e => g.eprop e n

/-- The item of a bulk insertion that sets property `n` of the owner to `x`. -/
def Owner.item (n : Identifier) (x : Json) : Owner → BulkInsertItem
  | .vertex i => .vertexProperty i n x
  | .edge e => .edgeProperty e n x

/-- The query for all vertices, or all edges, that have property `n`. -/
def Owner.presence (n : Identifier) : Owner → Query
  | .vertex _ => .vertexWithPropertyPresence n
  | .edge _ => .edgeWithPropertyPresence n

/-- The query for all vertices, or all edges, whose property `n` has the value `x`. -/
def Owner.value (n : Identifier) (x : Json) : Owner → Query
  | .vertex _ => .vertexWithPropertyValue n x
  | .edge _ => .edgeWithPropertyValue n x

/-- The query succeeds and the vertex or edge is in its result. -/
def Store.Gives (S : Store) (q : Query) (s : S.State) (o : Owner) : Prop := ∃ env, match o with
  | .vertex i => ∃ l t, S.value env q s = .ok (.vertices l) ∧ ⟨i, t⟩ ∈ l
  | .edge e => ∃ l, S.value env q s = .ok (.edges l) ∧ e ∈ l

namespace Rocks

/-- `Lived X s h l S`: starting without a database, after sessions of tasks that make library calls and use transactions, all accesses
interleaving, with I/O errors at any moments, each session but the last ended by the death of the process or of the machine (of the
batches written in the session the first `k` survive), the situation is `S`. In all sessions together the events `h` were seen, and
the states of the database were `l`, in order, including those whose changes were lost. The last session began with `s`. -/
inductive Lived (X : Cfg) : Rocks → List AppEv → List Rocks → App → Prop
  | new {s : Rocks} : (newDb none).2 = .ok s → Lived X s [] [s] (.init s)
  | step {s : Rocks} {h e : List AppEv} {l : List Rocks} {S S' : App} : Lived X s h l S → App.Step X true S e S' →
      Lived X s (h ++ e) (l ++ [S'.db]) S'
  | dies {s t : Rocks} {h : List AppEv} {l : List Rocks} {S : App} (k : Nat) : Lived X s h l S →
      (newDb (Dir.full ((S.log.take k).foldl (fun kv x => kv.write x.2) s.kv))).2 = .ok t → Lived X t h (l ++ [t]) (.init t)

/-- One of the calls is a bulk insertion that sets property `n` of the owner to `x` and, with a later item, to a different value. -/
def SetTwice (h : List AppEv) (o : Owner) (n : Identifier) (x : Json) : Prop := ∃ c items y,
  (AppEv.enter c (.lib (.bulkInsert items)) ∈ h ∨ AppEv.enter c (.write (.bulkInsert items)) ∈ h) ∧ y ≠ x ∧
  [o.item n x, o.item n y].Sublist items

end Rocks
end IndraDB
