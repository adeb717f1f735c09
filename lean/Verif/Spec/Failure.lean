import Verif.Spec.Truth
/-
When calls fail, and with which error: exactly when a part of their query cannot be evaluated.
-/
namespace IndraDB

/-- Vertices or edges. -/
def Output.isElements : Output → Bool
  | .vertices _ | .edges _ => true
  | _ => false

/-- A count. -/
def Output.isCount : Output → Bool
  | .count _ => true
  | _ => false

namespace Store
variable (S : Store)

/-- The outermost stage of the query fails, although what it is applied to can be evaluated: it asks for a name that is not
indexed, is applied to something it cannot be applied to, or lists all properties of a `bad` vertex (which panics). -/
def FailsHere (bad : Uuid → Prop) (env : S.Env) (s : S.State) : Query → Fault → Prop
  | .vertexWithPropertyPresence n, f | .vertexWithPropertyValue n _, f
  | .edgeWithPropertyPresence n, f | .edgeWithPropertyValue n _, f =>
    (S.graph s).indexed n = false ∧ f = .err .notIndexed
  | .pipe i _ _ _, f => ∃ v, S.value env i s = .ok v ∧ v.isElements = false ∧ f = .err .operationOnQuery
  | .pipeProperty i name, f => ∃ v, S.value env i s = .ok v ∧
      ((v.isElements = false ∧ f = .err .operationOnQuery) ∨
       (name = none ∧ (∃ vs, v = .vertices vs ∧ ∃ x ∈ vs, bad x.id) ∧ f = .panic))
  | .pipeWithPropertyPresence i n _, f | .pipeWithPropertyValue i n _ _, f => ∃ v, S.value env i s = .ok v ∧
      ((v.isElements = false ∧ f = .err .operationOnQuery) ∨
       (v.isElements = true ∧ (S.graph s).indexed n = false ∧ f = .err .notIndexed))
  | .count i, f => ∃ v, S.value env i s = .ok v ∧ v.isCount = true ∧ f = .err .operationOnQuery
  | _, _ => False

/-- A query fails exactly if one of its parts fails, and with the error of that part. -/
def QueryFailuresExact (bad : Uuid → Prop) : Prop := ∀ s, S.Reach s → ∀ env q f,
  S.ask env q s = .error f ↔ ∃ p ∈ q.parts, S.FailsHere bad env s p f

/-- No two parts of a query fail. -/
def OnePartFails (bad : Uuid → Prop) : Prop := ∀ s, S.Reach s → ∀ env (q : Query), ∀ p ∈ q.parts, ∀ p' ∈ q.parts, ∀ f f',
  S.FailsHere bad env s p f → S.FailsHere bad env s p' f' → p = p' ∧ f = f'

/-- When a call fails, and with which error. -/
def CallFails (bad : Uuid → Prop) (env : S.Env) (s : S.State) : Op → Fault → Prop
  | .get q, f => ∃ p ∈ q.parts, S.FailsHere bad env s p f
  | .delete q, f => (∃ p ∈ q.parts, S.FailsHere bad env s p f) ∨
      ∃ v, S.value env q s = .ok v ∧ v.isCount = true ∧ f = .err .operationOnQuery
  | .setProperties q _ _, f => (∃ p ∈ q.parts, S.FailsHere bad env s p f) ∨
      ∃ v, S.value env q s = .ok v ∧ v.isElements = false ∧ f = .err .operationOnQuery
  | .createVertexFromType id _, f => (S.graph s).vertex id ≠ none ∧ f = .err .uuidTaken
  | _, _ => False

/-- The reasons for failing are exactly these. `may` are the calls that can panic for other reasons. -/
def CallFailuresExact (bad : Uuid → Prop) (may : Op → Prop) : Prop := ∀ s, S.Reach s → ∀ env op, op.ValuesOk S.okValue → ∀ f,
  (S.CallFails bad env s op f → (S.step env op s).2 = .error f) ∧
  ((S.step env op s).2 = .error f → S.CallFails bad env s op f ∨ (f = .panic ∧ may op))

end Store
end IndraDB
