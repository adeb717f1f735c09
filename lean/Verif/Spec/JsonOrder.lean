import Verif.Model.Json
/-
Specification of the order of sequences: lexicographic, for arbitrary (partial) comparisons of the elements.
-/
namespace IndraDB

/-- The array with the given elements. -/
def JArr.ofList : List Json → JArr
  | [] => .nil
  | v :: r => .cons v (JArr.ofList r)

/-- The object with the given entries, in iteration order. -/
def JObj.ofList : List (Bytes × Json) → JObj
  | [] => .nil
  | (k, v) :: r => .cons k v (JObj.ofList r)

/-- The sequences agree (up to `E`) before position `k`, and there `l` has ended but `m` has not, or the element of `l` is
below (`L`) that of `m`. -/
def LexBelow {α : Type} (E L : α → α → Prop) (l m : List α) : Prop :=
  ∃ k : Nat, (∀ i < k, ∃ x y, l[i]? = some x ∧ m[i]? = some y ∧ E x y) ∧
    ((l[k]? = none ∧ ∃ y, m[k]? = some y) ∨ ∃ x y, l[k]? = some x ∧ m[k]? = some y ∧ L x y)

/-- Same length, and elements at the same position are related by `E`. -/
def Pairwise₂ {α : Type} (E : α → α → Prop) (l m : List α) : Prop :=
  l.length = m.length ∧ ∀ (i : Nat) (x y : α), l[i]? = some x → m[i]? = some y → E x y

end IndraDB
