import Verif.Spec.RocksSem
import Verif.Proofs.RocksReads
/-
Property values that the RocksDB datastore can write but not read (with the real `serde_json`: nested more than 127 levels
deep). Specification: a database that is the same in everything, but can read them.
-/
namespace IndraDB

/-- The same database code, with another way to read stored values. -/
def Cfg.reading (X : Cfg) (d : Bytes → Option Json) : Cfg := { X with codec := ⟨X.codec.enc, d⟩ }

/-- `d` reads everything: what `X` can read is read as `X` reads it, and the rest somehow. -/
structure Cfg.Reader (X : Cfg) (d : Bytes → Option Json) : Prop where
  same : ∀ b v, X.codec.dec b = some v → d b = some v
  total : ∀ b, ∃ v, d b = some v

/-- There always is one: for instance, read the rest as `null`. -/
theorem Cfg.reader_exists (X : Cfg) : X.Reader (fun b => some ((X.codec.dec b).getD .null)) :=
  ⟨fun b v h => by simp [h], fun b => ⟨_, rfl⟩⟩

namespace Rocks
variable (X : Cfg)

/-- A value of the property `n` of the vertex `id` is stored, and cannot be read. -/
def HiddenV (s : Rocks) (id : Uuid) (n : Identifier) : Prop :=
  ∃ b, (s.kv .vertexProperties).get (vpKey X id n) = some b ∧ X.codec.dec b = none

/-- A value of the property `n` of the edge `e` is stored, and cannot be read. -/
def HiddenE (s : Rocks) (e : Edge) (n : Identifier) : Prop :=
  ∃ b, (s.kv .edgeProperties).get (epKey X e n) = some b ∧ X.codec.dec b = none

/-- A vertex cannot be deleted: it has a property that cannot be read, or an edge from it has, or the reverse of an edge to it. -/
def HiddenAround (s : Rocks) (id : Uuid) : Prop :=
  (∃ n, HiddenV X s id n) ∨
  ∃ e, e.outboundId = id ∧ ((graph X s).edge e = true ∨ (graph X s).edge e.reversed = true) ∧ ∃ n, HiddenE X s e n

/-- The item replaces a value of an indexed property that cannot be read. -/
def _root_.IndraDB.BulkInsertItem.Blocked (s : Rocks) : BulkInsertItem → Prop
  | .vertexProperty id n _ => s.indexed.contains n = true ∧ HiddenV X s id n
  | .edgeProperty e n _ => s.indexed.contains n = true ∧ HiddenE X s e n
  | _ => False

/-- Values of the property `n` that `index_property` has to look at cannot be read. -/
def HiddenOwner (s : Rocks) (n : Identifier) : Prop :=
  (∃ id, (graph X s).vertex id ≠ none ∧ HiddenV X s id n) ∨ (∃ e, (graph X s).edge e = true ∧ HiddenE X s e n)

/-- Asking for properties of the vertex, all (`none`) or one of them, meets a value that cannot be read. -/
def HidesV (s : Rocks) (id : Uuid) : Option Identifier → Prop
  | some n => HiddenV X s id n
  | none => ∃ n, HiddenV X s id n

/-- Asking for properties of the edge, all (`none`) or one of them, meets a value that cannot be read. -/
def HidesE (s : Rocks) (e : Edge) : Option Identifier → Prop
  | some n => HiddenE X s e n
  | none => ∃ n, HiddenE X s e n

end Rocks
end IndraDB
