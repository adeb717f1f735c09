import Verif.Spec.RocksSem
/-
C28: two databases give the same replies to the same calls. Index lookups list their results in no particular order (the
memory datastore iterates over a hash set), so values are compared up to reordering.
-/
namespace IndraDB

/-- Position by position. -/
inductive Zip {α β : Type} (R : α → β → Prop) : List α → List β → Prop
  | nil : Zip R [] []
  | cons {a b l m} : R a b → Zip R l m → Zip R (a :: l) (b :: m)

/-- The same value up to the order of its elements. -/
def Output.Same : Output → Output → Prop
  | .vertices a, .vertices b => a.Perm b
  | .edges a, .edges b => a.Perm b
  | .vertexProperties a, .vertexProperties b => a.Perm b
  | .edgeProperties a, .edgeProperties b => a.Perm b
  | .count m, .count n => m = n
  | _, _ => False

/-- The same reply up to the order of elements in values. -/
def SameReply (a b : Res Reply) : Prop :=
  match a, b with
  | .ok (.outputs l), .ok (.outputs m) => Zip Output.Same l m
  | a, b => a = b

/-- C28, exact: for histories in `P`, all replies are the same. -/
def StoresAgree (S T : Store) (P : List ((S.Env × T.Env) × Op) → Prop) : Prop := ∀ hist, P hist →
  Zip SameReply (S.replies (hist.map (fun p => (p.1.1, p.2))) S.init) (T.replies (hist.map (fun p => (p.1.2, p.2))) T.init)

/-! ### The common fragment -/

/-- The order of the results is determined: the query does not start with an index lookup. -/
def Query.Ordered : Query → Prop
  | .vertexWithPropertyPresence _ | .vertexWithPropertyValue _ _ | .edgeWithPropertyPresence _
  | .edgeWithPropertyValue _ _ => False
  | .pipe i _ _ _ | .pipeProperty i _ | .pipeWithPropertyPresence i _ _ | .pipeWithPropertyValue i _ _ _ | .incl i
  | .count i => i.Ordered
  | _ => True

/-- The set of results is determined: a pipe, which may be cut off by its limit, is not applied to the results of an index
lookup. -/
def Query.Determined : Query → Prop
  | .pipe i _ _ _ => i.Ordered
  | .pipeProperty i _ | .pipeWithPropertyPresence i _ _ | .pipeWithPropertyValue i _ _ _ | .incl i
  | .count i => i.Determined
  | _ => True

/-- The query does not use the property index. -/
def Query.NoIndex : Query → Prop
  | .vertexWithPropertyPresence _ | .vertexWithPropertyValue _ _ | .edgeWithPropertyPresence _
  | .edgeWithPropertyValue _ _ | .pipeWithPropertyPresence _ _ _ | .pipeWithPropertyValue _ _ _ _ => False
  | .pipe i _ _ _ | .pipeProperty i _ | .incl i | .count i => i.NoIndex
  | _ => True

/-- All values the query asks for satisfy `V`. -/
def Query.Asks (V : Json → Prop) : Query → Prop
  | .vertexWithPropertyValue _ v | .edgeWithPropertyValue _ v => V v
  | .pipeWithPropertyValue i _ v _ => V v ∧ i.Asks V
  | .pipe i _ _ _ | .pipeProperty i _ | .pipeWithPropertyPresence i _ _ | .incl i | .count i => i.Asks V
  | _ => True

/-- Bulk items that mean the same to both datastores: vertices are new or have the type they already have, edges have both
endpoints, properties belong to existing owners. -/
def ItemsCommon (T : Identifier → Prop) (g : Graph) : List BulkInsertItem → Prop
  | [] => True
  | item :: r =>
    (match item with
      | .vertex v => v.id ≠ Uuid.max ∧ (g.vertex v.id = none ∨ g.vertex v.id = some v.t)
      | .edge e => g.hasEndpoints e = true ∧ T e.t
      | .vertexProperty id _ _ => g.vertex id ≠ none
      | .edgeProperty e _ _ => g.edge e = true) ∧ ItemsCommon T (g.bulkItem item) r

namespace Store
variable (S : Store)

/-- Queries of the common fragment. In release builds, the property index of the memory datastore keeps old entries
(C11), so that queries must not use it. -/
def QueryCommon (b : Build) (V : Json → Prop) (q : Query) : Prop := q.Determined ∧ q.Asks V ∧ (b = .debug ∨ q.NoIndex)

/-- The calls on which the datastores agree, in state `s`. -/
def OpCommon (b : Build) (V : Json → Prop) (T : Identifier → Prop) (env : S.Env) (s : S.State) : Op → Prop
  | .createVertex v => v.id ≠ Uuid.max
  | .createVertexFromType id _ => id ≠ Uuid.max
  | .createEdge e => T e.t
  | .get q => QueryCommon b V q
  | .delete q => QueryCommon b V q ∧
      -- every edge into a deleted vertex starts from a deleted vertex
      ∀ vs, S.value env q s = .ok (.vertices vs) → ∀ e, (S.graph s).edge e = true → e.inboundId ∈ vs.map (·.id) →
        e.outboundId ∈ vs.map (·.id)
  | .setProperties q _ x => QueryCommon b V q ∧ V x
  | .bulkInsert items => (∀ i ∈ items, i.Values V) ∧ (items.filterMap BulkInsertItem.target).Nodup ∧
      ItemsCommon T (S.graph s) items
  | .sync | .indexProperty _ => True

/-- Histories of such calls. -/
def CommonHist (b : Build) (V : Json → Prop) (T : Identifier → Prop) : List (S.Env × Op) → S.State → Prop
  | [], _ => True
  | (env, op) :: r, s => S.OpCommon b V T env s op ∧ CommonHist b V T r (S.step env op s).1

end Store

/-- Edge types on which the edge orders of the two datastores agree; for instance, types of the same length. -/
def SameOrder (T : Identifier → Prop) : Prop := ∀ a b, T a → T b → a.bytes.length < b.bytes.length →
  lexLt a.bytes b.bytes = true

end IndraDB
