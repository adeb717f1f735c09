import Verif.Spec.AppMoments
import Verif.Spec.Faults
/-
What calls report that meet I/O errors themselves.
-/
namespace IndraDB

/-- The items are those of `l'`, or the first of them and then an I/O error. -/
def UpToError {α : Type} (l l' : DynIter α) : Prop := l = l' ∨ ∃ i, l = l'.take i ++ [.error ioFault]

/-- The answers are the same, up to an I/O error among the items of an iterator. -/
def Answer.UpToError : Answer → Answer → Prop
  | .vertices l, x => ∃ l', x = .vertices l' ∧ IndraDB.UpToError l l'
  | .edges l, x => ∃ l', x = .edges l' ∧ IndraDB.UpToError l l'
  | .ids (some l), x => ∃ l', x = .ids (some l') ∧ IndraDB.UpToError l l'
  | .indexedEdges (some l), x => ∃ l', x = .indexedEdges (some l') ∧ IndraDB.UpToError l l'
  | y, x => x = y

/-- The call counts all vertices or all edges. -/
def Access.countsAll : Access → Bool
  | .lib op => op.countsAll
  | .vertexCount => true
  | .edgeCount => true
  | _ => false

end IndraDB
