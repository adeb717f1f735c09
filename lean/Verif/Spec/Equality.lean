import Verif.Spec.Truth
import Verif.Spec.Proto
import Verif.Spec.Values
import Verif.Model.Equality
/-
What `==` on queries, bulk items and replies should mean (C85).
-/
namespace IndraDB

/-- The vertex without its type. -/
def Vertex.untyped (v : Vertex) : Vertex := ⟨v.id, Identifier.empty⟩

/-- The output without the types of its vertices. -/
def Output.untyped : Output → Output
  | .vertices l => .vertices (l.map Vertex.untyped)
  | .vertexProperties l => .vertexProperties (l.map (fun x => ⟨x.vertex.untyped, x.props⟩))
  | o => o

/-- The item without the type of its vertex. -/
def BulkInsertItem.untyped : BulkInsertItem → BulkInsertItem
  | .vertex v => .vertex v.untyped
  | i => i

/-- All JSON values in the query are in `V`. -/
abbrev Query.ValuesIn (V : Json → Prop) (q : Query) : Prop := q.All (fun _ => True) V
/-- All JSON values in the output are in `V`. -/
abbrev Output.ValuesIn (V : Json → Prop) (o : Output) : Prop := o.All (fun _ => True) V
/-- All JSON values in the item are in `V`. -/
abbrev BulkInsertItem.ValuesIn (V : Json → Prop) (i : BulkInsertItem) : Prop := i.All (fun _ => True) V

/-- `eq` is reflexive and symmetric. -/
def ReflSymm {α : Type} (eq : α → α → Bool) : Prop := (∀ a, eq a a = true) ∧ ∀ a b, eq a b = true → eq b a = true

/-- `eq` is transitive on `D`. -/
def TransOn {α : Type} (D : α → Prop) (eq : α → α → Bool) : Prop :=
  ∀ a b c, D a → D b → D c → eq a b = true → eq b c = true → eq a c = true

namespace Store
variable (S : Store)

/-- C85 (one state): outputs of two queries (with `P`) in the same state, if `==`, are identical. -/
def EqMeansIdentical (P : Query → Prop) : Prop := ∀ s, S.Reach s → ∀ env env' q q' os os',
  S.ask env q s = .ok os → S.ask env' q' s = .ok os' → P q → P q' →
  ∀ o ∈ os, ∀ o' ∈ os', o.eq o' = true → o = o'

/-- C85 (across states): if two replies, possibly in different states, are `==`, they are identical. -/
def EqRepliesIdentical : Prop := ∀ s s', S.Reach s → S.Reach s' → ∀ env env' q o o',
  S.value env q s = .ok o → S.value env' q s' = .ok o' → o.eq o' = true → o = o'

/-- C85 (queries): queries that are `==` have the same reply. -/
def EqQueriesSame : Prop := ∀ s, S.Reach s → ∀ env q q', q.eq q' = true → S.ask env q s = S.ask env q' s

/-- C85 (items): inserting items that are `==` gives the same contents. -/
def EqItemsSame : Prop := ∀ s, S.Reach s → ∀ env l l', vecEq BulkInsertItem.eq l l' = true →
  S.graph (S.step env (.bulkInsert l) s).1 = S.graph (S.step env (.bulkInsert l') s).1

end Store
end IndraDB
