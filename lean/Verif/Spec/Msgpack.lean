import Verif.Model.Msgpack
/-
What is assumed about a database that is to be saved: facts that Rust's types guarantee (`Typed`), and how deeply its values are
nested.
-/
namespace IndraDB

section
variable (utf8 : Bytes → Bool)

/-- The key is smaller than all keys of the object. -/
def JObj.Above (k : Bytes) : JObj → Prop
  | .nil => True
  | .cons k' _ r => Order.lt k k' = true ∧ r.Above k

mutual
/-- What holds of every `serde_json::Value`: strings are UTF-8, and the keys of an object are distinct and come in
increasing order. -/
def Json.Typed : Json → Prop
  | .str s => utf8 s = true
  | .arr a => a.Typed
  | .obj o => o.Typed
  | _ => True
def JArr.Typed : JArr → Prop
  | .nil => True
  | .cons v r => v.Typed ∧ r.Typed
def JObj.Typed : JObj → Prop
  | .nil => True
  | .cons k v r => utf8 k = true ∧ r.Above k ∧ v.Typed ∧ r.Typed
end

mutual
/-- Levels of arrays and objects: 0 for a scalar, 1 for an array or object of scalars, and so on. -/
def Json.levels : Json → Nat
  | .arr a => 1 + a.levels
  | .obj o => 1 + o.levels
  | _ => 0
def JArr.levels : JArr → Nat
  | .nil => 0
  | .cons v r => max v.levels r.levels
def JObj.levels : JObj → Nat
  | .nil => 0
  | .cons _ v r => max v.levels r.levels
end

/-- A member of the index is a vertex, or an edge whose type satisfies `I`. -/
def Member.Holds (I : Identifier → Prop) : Member → Prop
  | .inl _ => True
  | .inr e => I e.t

/-- All identifiers in the image satisfy `I` and all values `V`. -/
structure Image.Holds (I : Identifier → Prop) (V : Json → Prop) (i : Image) : Prop where
  vertices : ∀ e ∈ i.vertices, I e.2
  edges : ∀ e ∈ i.edges, I e.t
  reversedEdges : ∀ e ∈ i.reversedEdges, I e.t
  vertexProperties : ∀ e ∈ i.vertexProperties, I e.1.2 ∧ V e.2
  edgeProperties : ∀ e ∈ i.edgeProperties, I e.1.1.t ∧ I e.1.2 ∧ V e.2
  propertyValues : ∀ e ∈ i.propertyValues, I e.1 ∧ ∀ s ∈ e.2, V s.1 ∧ ∀ m ∈ s.2, Member.Holds I m

/-- A string of UTF-8, as every identifier is. -/
def Identifier.Typed (i : Identifier) : Prop := utf8 i.bytes = true

/-- A value as every value of the type `Json` is, nested at most `n` levels deep. -/
def Json.Fits (n : Nat) (v : Json) : Prop := v.Typed utf8 ∧ v.levels ≤ n

end
end IndraDB
