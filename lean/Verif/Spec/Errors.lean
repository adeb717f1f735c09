import Verif.Spec.Kind
/-
Which calls can fail, and why: notions read off from the call alone.
-/
namespace IndraDB

/-- The properties the query looks up in an index. -/
def Query.lookups : Query → List Identifier
  | .vertexWithPropertyPresence n | .vertexWithPropertyValue n _ | .edgeWithPropertyPresence n | .edgeWithPropertyValue n _ => [n]
  | .pipeWithPropertyPresence i n _ | .pipeWithPropertyValue i n _ _ => n :: i.lookups
  | .pipe i _ _ _ | .pipeProperty i _ | .incl i | .count i => i.lookups
  | .allVertex | .rangeVertex _ _ _ | .specificVertex _ | .allEdge | .specificEdge _ => []

/-- The properties the call looks up in an index. -/
def Op.lookups : Op → List Identifier
  | .get q | .delete q | .setProperties q _ _ => q.lookups
  | _ => []

/-- The query of the call fits: every stage works on what it is put on, and the result is something that can be deleted or
can have properties. -/
def Op.QueryFits : Op → Prop
  | .get q => q.gives ≠ none
  | .delete q => q.gives ≠ none ∧ q.gives ≠ some .count
  | .setProperties q _ _ => q.gives = some .vertices ∨ q.gives = some .edges
  | _ => True

end IndraDB
