import Verif.Spec.Store
/-
I/O errors: the queries for which they matter.
-/
namespace IndraDB

/-- Somewhere in the query all vertices or all edges are counted. -/
def Query.countsAll : Query → Bool
  | .allVertex => false
  | .rangeVertex _ _ _ => false
  | .specificVertex _ => false
  | .vertexWithPropertyPresence _ => false
  | .vertexWithPropertyValue _ _ => false
  | .allEdge => false
  | .specificEdge _ => false
  | .edgeWithPropertyPresence _ => false
  | .edgeWithPropertyValue _ _ => false
  | .pipe inner _ _ _ => inner.countsAll
  | .pipeProperty inner _ => inner.countsAll
  | .pipeWithPropertyPresence inner _ _ => inner.countsAll
  | .pipeWithPropertyValue inner _ _ _ => inner.countsAll
  | .incl inner => inner.countsAll
  | .count inner => inner = .allVertex || inner = .allEdge || inner.countsAll

/-- The call counts all vertices or all edges. -/
def Op.countsAll : Op → Bool
  | .get q => q.countsAll
  | .delete q => q.countsAll
  | .setProperties q _ _ => q.countsAll
  | _ => false

/-- The call is `index_property`. -/
def Op.isIndexing : Op → Bool
  | .indexProperty _ => true
  | _ => false

end IndraDB
