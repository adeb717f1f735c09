import Verif.Spec.Store
/-
Specification for C55: which kind of result a query has, read off from the query alone.
-/
namespace IndraDB

/-- The kind of the result of the query; `none` if some stage is put on something it cannot work on. Traversals go from
vertices to edges and from edges to vertices; filters keep the kind; counts and properties cannot be used further, except
that properties can be counted. -/
def Query.gives : Query → Option Kind
  | .allVertex | .rangeVertex _ _ _ | .specificVertex _ | .vertexWithPropertyPresence _ | .vertexWithPropertyValue _ _ =>
    some .vertices
  | .allEdge | .specificEdge _ | .edgeWithPropertyPresence _ | .edgeWithPropertyValue _ _ => some .edges
  | .pipe i _ _ _ => match i.gives with
    | some .vertices => some .edges
    | some .edges => some .vertices
    | _ => none
  | .pipeProperty i _ => match i.gives with
    | some .vertices => some .vertexProperties
    | some .edges => some .edgeProperties
    | _ => none
  | .pipeWithPropertyPresence i _ _ | .pipeWithPropertyValue i _ _ _ => match i.gives with
    | some .vertices => some .vertices
    | some .edges => some .edges
    | _ => none
  | .incl i => i.gives
  | .count i => match i.gives with
    | some .count => none
    | some _ => some .count
    | none => none

/-- The query gives vertices or edges. -/
def Query.GivesElements (q : Query) : Prop := q.gives = some .vertices ∨ q.gives = some .edges

instance (q : Query) : Decidable q.GivesElements := inferInstanceAs (Decidable (_ ∨ _))

/-- C55, evaluation: a result always has the kind read off from the query; a query without a kind always fails; a query
with a kind fails only because an index is missing (or, memory datastore, by a panic). -/
def Store.KindsExact (S : Store) : Prop := ∀ s, S.Reach s → ∀ env q,
  (∀ o, S.value env q s = .ok o → q.gives = some o.kind) ∧
  (q.gives = none → ∃ f, S.ask env q s = .error f) ∧
  (∀ k f, q.gives = some k → S.ask env q s = .error f → f = .err .notIndexed ∨ f = .panic)

end IndraDB
