import Verif.Spec.Store
/-
Histories in which properties are only ever written to existing owners, and the class of queries whose edges are
guaranteed to exist.
-/
namespace IndraDB

/-- The query does not take its edges from the presence index of edges (`EdgeWithPropertyPresence`), whose entries are
not checked for existence. -/
def Query.LiveEdges : Query → Prop
  | .edgeWithPropertyPresence _ => False
  | .pipeWithPropertyPresence i _ _ => i.LiveEdges
  | .pipeWithPropertyValue i _ _ _ => i.LiveEdges
  | .incl i => i.LiveEdges
  | _ => True

/-- Bulk items write properties only to owners that exist at that point of the sequence. -/
def ItemsChecked (f : Graph → BulkInsertItem → Graph) (g : Graph) : List BulkInsertItem → Prop
  | [] => True
  | item :: r =>
    (match item with
      | .vertexProperty id _ _ => g.vertex id ≠ none
      | .edgeProperty e _ _ => g.edge e = true
      | _ => True) ∧ ItemsChecked f (f g item) r

/-- The call writes properties only to existing owners. In release builds the presence index of edges may list deleted
edges, so setting properties on such a listing is excluded there. -/
def Op.Checked (b : Build) (g : Graph) : Op → Prop
  | .bulkInsert items => ItemsChecked Graph.bulkItem g items
  | .setProperties q _ _ => b = .debug ∨ q.LiveEdges
  | _ => True

/-- The call does not create a vertex with the greatest UUID. -/
def Op.AvoidsMax : Op → Prop
  | .createVertex v => v.id ≠ Uuid.max
  | .createVertexFromType id _ => id ≠ Uuid.max
  | .bulkInsert items => ∀ v, BulkInsertItem.vertex v ∈ items → v.id ≠ Uuid.max
  | _ => True

/-- Histories all calls of which are `Checked` in the state they are made in. -/
def Store.CheckedHist (S : Store) (b : Build) : List (S.Env × Op) → S.State → Prop
  | [], _ => True
  | (env, op) :: r, s => op.Checked b (S.graph s) ∧ Store.CheckedHist S b r (S.step env op s).1

/-- The individual call a bulk item stands for. -/
def BulkInsertItem.toOp : BulkInsertItem → Op
  | .vertex v => .createVertex v
  | .edge e => .createEdge e
  | .vertexProperty id n x => .setProperties (.specificVertex [id]) n x
  | .edgeProperty e n x => .setProperties (.specificEdge [e]) n x

/-- C15, second half: after indexing `n`, the index queries for `n` list every existing owner that has property `n`,
whenever it was set. -/
def Store.IndexPropertyCovers (S : Store) (eq : Json → Json → Bool) : Prop := ∀ s, S.Reach s → ∀ env env' n,
  let s' := (S.step env (.indexProperty n) s).1
  (∃ l, S.value env' (.vertexWithPropertyPresence n) s' = .ok (.vertices l) ∧
    ∀ v, (S.graph s).vertex v.id = some v.t → (S.graph s).vprop v.id n ≠ none → v ∈ l) ∧
  (∃ l, S.value env' (.edgeWithPropertyPresence n) s' = .ok (.edges l) ∧
    ∀ e, (S.graph s).edge e = true → (S.graph s).eprop e n ≠ none → e ∈ l) ∧
  (∀ x, ∃ l, S.value env' (.vertexWithPropertyValue n x) s' = .ok (.vertices l) ∧
    ∀ v w, (S.graph s).vertex v.id = some v.t → (S.graph s).vprop v.id n = some w → eq w x = true → v ∈ l) ∧
  (∀ x, ∃ l, S.value env' (.edgeWithPropertyValue n x) s' = .ok (.edges l) ∧
    ∀ e w, (S.graph s).edge e = true → (S.graph s).eprop e n = some w → eq w x = true → e ∈ l)

end IndraDB
