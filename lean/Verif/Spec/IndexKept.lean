import Verif.Spec.Store
import Verif.Model.RocksFaults
/-
Notions used in the statements about indexes under concurrent calls, I/O errors and crashes.
-/
namespace IndraDB

/-- The queries for the owners of property `n` list at least every vertex and every edge that has it. -/
def Store.ListsOwners (S : Store) (n : Identifier) (s : S.State) : Prop := ∀ env,
  (∃ l, S.value env (.vertexWithPropertyPresence n) s = .ok (.vertices l) ∧
    ∀ v, (S.graph s).vertex v.id = some v.t → (S.graph s).vprop v.id n ≠ none → v ∈ l) ∧
  (∃ l, S.value env (.edgeWithPropertyPresence n) s = .ok (.edges l) ∧
    ∀ e, (S.graph s).edge e = true → (S.graph s).eprop e n ≠ none → e ∈ l)

/-- The queries for the owners of property `n` with value `x` list at least every vertex and every edge that has the
property with this value. -/
def Store.ListsValueOwners (S : Store) (n : Identifier) (s : S.State) : Prop := ∀ env x,
  (∃ l, S.value env (.vertexWithPropertyValue n x) s = .ok (.vertices l) ∧
    ∀ v, (S.graph s).vertex v.id = some v.t → (S.graph s).vprop v.id n = some x → v ∈ l) ∧
  (∃ l, S.value env (.edgeWithPropertyValue n x) s = .ok (.edges l) ∧
    ∀ e, (S.graph s).edge e = true → (S.graph s).eprop e n = some x → e ∈ l)

/-- A vertex or an edge. -/
inductive Owner where
  | vertex (i : Uuid)
  | edge (e : Edge)

/-- The call may create the owner. -/
def Op.Creates : Op → Owner → Prop
  | .createVertex v, .vertex i => v.id = i
  | .createVertexFromType id _, .vertex i => id = i
  | .createEdge e, .edge f => e = f
  | .bulkInsert items, .vertex i => ∃ t, .vertex ⟨i, t⟩ ∈ items
  | .bulkInsert items, .edge e => .edge e ∈ items
  | _, _ => False

/-- The query for the owners of property `n` lists the vertex or edge if it exists and has the property. -/
def Store.ListsOwner (S : Store) (n : Identifier) (o : Owner) (s : S.State) : Prop := ∀ env,
  match o with
  | .vertex i => ∃ l, S.value env (.vertexWithPropertyPresence n) s = .ok (.vertices l) ∧
      ∀ t, (S.graph s).vertex i = some t → (S.graph s).vprop i n ≠ none → ⟨i, t⟩ ∈ l
  | .edge e => ∃ l, S.value env (.edgeWithPropertyPresence n) s = .ok (.edges l) ∧
      ((S.graph s).edge e = true → (S.graph s).eprop e n ≠ none → e ∈ l)

/-- The query for the owners of property `n` with the value `x` lists the vertex or edge if it exists and has the property
with this value. -/
def Store.ListsValueOwner (S : Store) (n : Identifier) (o : Owner) (s : S.State) : Prop := ∀ env x,
  match o with
  | .vertex i => ∃ l, S.value env (.vertexWithPropertyValue n x) s = .ok (.vertices l) ∧
      ∀ t, (S.graph s).vertex i = some t → (S.graph s).vprop i n = some x → ⟨i, t⟩ ∈ l
  | .edge e => ∃ l, S.value env (.edgeWithPropertyValue n x) s = .ok (.edges l) ∧
      ((S.graph s).edge e = true → (S.graph s).eprop e n = some x → e ∈ l)

/-- `Sessions X s hs t`: starting from the database in state `s`, after sessions of overlapping calls with the histories
`hs`, each ended by the death of the process or of the machine at any moment, opening gives `t`. Of the batches written in
a session, the first `k` survive. The record of the indexed names has less than 2^64 bytes (RocksDB itself refuses values
of 4 GiB). -/
inductive Sessions (X : Cfg) (s : Rocks) : List (List Ev) → Rocks → Prop
  | none : Sessions X s [] s
  | again {hs : List (List Ev)} {t u : Rocks} {h : List Ev} {S : Rocks.Conc} (k : Nat) : Sessions X s hs t →
      Rocks.Conc.FaultyExec X t h S →
      (∀ b, ((S.log.take k).foldl (fun kv x => kv.write x.2) t.kv .metadata).get Rocks.metaKey = some b → b.length < 2 ^ 64) →
      (Rocks.newDb (Rocks.Dir.full ((S.log.take k).foldl (fun kv x => kv.write x.2) t.kv))).2 = .ok u →
      Sessions X s (hs ++ [h]) u

end IndraDB
