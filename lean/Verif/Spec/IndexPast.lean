import Verif.Spec.Checked
/-
What index queries list when entries are never removed: the owners that had the property at some moment of the past.
-/
namespace IndraDB

/-- The databases one bulk insert passes through, one per item. -/
def Graph.through (g : Graph) : List BulkInsertItem → List Graph
  | [] => []
  | i :: r => g.bulkItem i :: Graph.through (g.bulkItem i) r

/-- The databases in the middle of a call: only a bulk insert has some. -/
def Op.between (g : Graph) : Op → List Graph
  | .bulkInsert items => g.through items
  | _ => []

/-- All databases a history passes through: before the first call, after every call, and after every item of a bulk
insert. -/
def Store.past (S : Store) : List (S.Env × Op) → S.State → List Graph
  | [], s => [S.graph s]
  | (env, op) :: r, s => S.graph s :: (op.between (S.graph s) ++ Store.past S r (S.step env op s).1)

namespace Store
variable (S : Store)

/-- Index queries list only owners that had the property (with a value for which `eq` holds) at some moment since the
name was indexed, each at most once; listed vertices exist, and so do edges listed by value. -/
def IndexRemembersAt (eq : Json → Json → Bool) (past : List Graph) (s : S.State) : Prop := ∀ env n,
  (S.graph s).indexed n = true →
  (∃ l, S.value env (.vertexWithPropertyPresence n) s = .ok (.vertices l) ∧ l.Nodup ∧
    ∀ v ∈ l, (S.graph s).vertex v.id = some v.t ∧ ∃ g ∈ past, g.indexed n = true ∧ g.vprop v.id n ≠ none) ∧
  (∃ l, S.value env (.edgeWithPropertyPresence n) s = .ok (.edges l) ∧ l.Nodup ∧
    ∀ e ∈ l, ∃ g ∈ past, g.indexed n = true ∧ g.eprop e n ≠ none) ∧
  (∀ x, ∃ l, S.value env (.vertexWithPropertyValue n x) s = .ok (.vertices l) ∧ l.Nodup ∧
    ∀ v ∈ l, (S.graph s).vertex v.id = some v.t ∧
      ∃ g ∈ past, g.indexed n = true ∧ ∃ w, g.vprop v.id n = some w ∧ eq w x = true) ∧
  (∀ x, ∃ l, S.value env (.edgeWithPropertyValue n x) s = .ok (.edges l) ∧ l.Nodup ∧
    ∀ e ∈ l, (S.graph s).edge e = true ∧
      ∃ g ∈ past, g.indexed n = true ∧ ∃ w, g.eprop e n = some w ∧ eq w x = true)

/-- Index queries list exactly these. -/
def IndexIsPastAt (eq : Json → Json → Bool) (past : List Graph) (s : S.State) : Prop := ∀ env n,
  (S.graph s).indexed n = true →
  (∃ l, S.value env (.vertexWithPropertyPresence n) s = .ok (.vertices l) ∧ l.Nodup ∧
    ∀ v, v ∈ l ↔ (S.graph s).vertex v.id = some v.t ∧ ∃ g ∈ past, g.indexed n = true ∧ g.vprop v.id n ≠ none) ∧
  (∃ l, S.value env (.edgeWithPropertyPresence n) s = .ok (.edges l) ∧ l.Nodup ∧
    ∀ e, e ∈ l ↔ ∃ g ∈ past, g.indexed n = true ∧ g.eprop e n ≠ none) ∧
  (∀ x, ∃ l, S.value env (.vertexWithPropertyValue n x) s = .ok (.vertices l) ∧ l.Nodup ∧
    ∀ v, v ∈ l ↔ (S.graph s).vertex v.id = some v.t ∧
      ∃ g ∈ past, g.indexed n = true ∧ ∃ w, g.vprop v.id n = some w ∧ eq w x = true) ∧
  (∀ x, ∃ l, S.value env (.edgeWithPropertyValue n x) s = .ok (.edges l) ∧ l.Nodup ∧
    ∀ e, e ∈ l ↔ (S.graph s).edge e = true ∧
      ∃ g ∈ past, g.indexed n = true ∧ ∃ w, g.eprop e n = some w ∧ eq w x = true)

end Store
end IndraDB
