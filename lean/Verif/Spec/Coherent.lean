import Verif.Spec.Checked
import Verif.Model.Json
/-
JSON values for which hash maps behave predictably, and the index properties (C10, C11) for queries about such values.
-/
namespace IndraDB

/-- Values satisfying `V` that are `==` hash equally. (This excludes, for instance, having both `3` and `3.0`.) -/
def Coherent (V : Json → Prop) : Prop := ∀ a b, V a → V b → Json.eq a b = true → a.stream = b.stream

/-- `Store.IndexExactAt` for queries about values that satisfy `V`. -/
def Store.IndexExactOn (S : Store) (V : Json → Prop) (eq : Json → Json → Bool) (once : Prop) (s : S.State) : Prop := ∀ env n,
  (S.graph s).indexed n = true →
  (∃ l, S.value env (.vertexWithPropertyPresence n) s = .ok (.vertices l) ∧ (once → l.Nodup) ∧
    ∀ v, v ∈ l ↔ (S.graph s).vertex v.id = some v.t ∧ (S.graph s).vprop v.id n ≠ none) ∧
  (∃ l, S.value env (.edgeWithPropertyPresence n) s = .ok (.edges l) ∧ (once → l.Nodup) ∧
    ∀ e, e ∈ l ↔ (S.graph s).edge e = true ∧ (S.graph s).eprop e n ≠ none) ∧
  (∀ x, V x → ∃ l, S.value env (.vertexWithPropertyValue n x) s = .ok (.vertices l) ∧ (once → l.Nodup) ∧
    ∀ v, v ∈ l ↔ (S.graph s).vertex v.id = some v.t ∧ ∃ w, (S.graph s).vprop v.id n = some w ∧ eq w x = true) ∧
  (∀ x, V x → ∃ l, S.value env (.edgeWithPropertyValue n x) s = .ok (.edges l) ∧ (once → l.Nodup) ∧
    ∀ e, e ∈ l ↔ (S.graph s).edge e = true ∧ ∃ w, (S.graph s).eprop e n = some w ∧ eq w x = true)

/-- `Store.IndexCompleteAt` for queries about values that satisfy `V`. -/
def Store.IndexCompleteOn (S : Store) (V : Json → Prop) (eq : Json → Json → Bool) (s : S.State) : Prop := ∀ env n,
  (S.graph s).indexed n = true →
  (∃ l, S.value env (.vertexWithPropertyPresence n) s = .ok (.vertices l) ∧
    ∀ v, (S.graph s).vertex v.id = some v.t ∧ (S.graph s).vprop v.id n ≠ none → v ∈ l) ∧
  (∃ l, S.value env (.edgeWithPropertyPresence n) s = .ok (.edges l) ∧
    ∀ e, (S.graph s).edge e = true ∧ (S.graph s).eprop e n ≠ none → e ∈ l) ∧
  (∀ x, V x → ∃ l, S.value env (.vertexWithPropertyValue n x) s = .ok (.vertices l) ∧
    ∀ v, (S.graph s).vertex v.id = some v.t ∧ (∃ w, (S.graph s).vprop v.id n = some w ∧ eq w x = true) → v ∈ l) ∧
  (∀ x, V x → ∃ l, S.value env (.edgeWithPropertyValue n x) s = .ok (.edges l) ∧
    ∀ e, (S.graph s).edge e = true ∧ (∃ w, (S.graph s).eprop e n = some w ∧ eq w x = true) → e ∈ l)

end IndraDB
