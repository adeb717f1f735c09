import Verif.Proofs.JsonOrder
import Verif.Props.Values
/-
C56: `<`, `==`, `>` on JSON values (`PartialOrd for Json`, `json.rs:59-144,185-189`).
-/
namespace IndraDB

/-- `a` is less than `b` exactly if `b` is greater than `a`; `a` equals `b` exactly if `b` equals `a`; `a` cannot be
compared with `b` exactly if `b` cannot be compared with `a`. For all values. -/
theorem C56_dual (a b : Json) :
    (a.partialCmp b = some .lt ↔ b.partialCmp a = some .gt) ∧ (a.partialCmp b = some .eq ↔ b.partialCmp a = some .eq) ∧
    (a.partialCmp b = none ↔ b.partialCmp a = none) := by
  rw [Json.cmp_swap a b]
  cases a.partialCmp b with
  | none => simp
  | some o => cases o <;> simp

/-- Values of different kinds (null, boolean, number, string, array, object) cannot be compared; two nulls, booleans,
numbers or strings always can. -/
theorem C56_kinds (x y : Num) (s t : Bytes) (b c : Bool) (a : JArr) (o : JObj) :
    (∃ r, (Json.num x).partialCmp (.num y) = some r) ∧ (∃ r, (Json.str s).partialCmp (.str t) = some r) ∧
    (∃ r, (Json.bool b).partialCmp (.bool c) = some r) ∧ Json.partialCmp .null .null = some .eq ∧
    (∀ v ∈ [Json.null, .bool b, .num x, .str s, .arr a, .obj o], ∀ w ∈ [Json.null, .bool b, .num x, .str s, .arr a, .obj o],
      v ≠ w → v.partialCmp w = none) := by
  refine ⟨⟨_, rfl⟩, ⟨_, rfl⟩, ⟨_, rfl⟩, rfl, ?_⟩
  intro v hv w hw hne
  simp only [List.mem_cons, List.not_mem_nil, or_false] at hv hw
  rcases hv with rfl | rfl | rfl | rfl | rfl | rfl <;> rcases hw with rfl | rfl | rfl | rfl | rfl | rfl <;>
    first | exact absurd rfl hne | rfl

/-- Integers are compared by value, over the whole range from `-2^63` to `2^64 - 1`; strings bytewise; `false < true`. -/
theorem C56_integers (n k : Fin (2^64)) (m l : Fin (2^63)) :
    ((Json.num (.posInt n)).partialCmp (.num (.posInt k)) = some .lt ↔ n.val < k.val) ∧
    ((Json.num (.negInt m)).partialCmp (.num (.negInt l)) = some .lt ↔ -(m.val + 1 : Int) < -(l.val + 1 : Int)) ∧
    (Json.num (.negInt m)).partialCmp (.num (.posInt n)) = some .lt ∧
    (∀ s t : Bytes, (Json.str s).partialCmp (.str t) = some .lt ↔ Order.lt s t = true) ∧
    (∀ b c : Bool, (Json.bool b).partialCmp (.bool c) = some .lt ↔ b = false ∧ c = true) := by
  refine ⟨?_, ?_, ?_, ?_, ?_⟩
  · simp only [Json.partialCmp, Num.cmp_eq, Num.intVal, Option.some.injEq, intCmp_lt]; omega
  · simp only [Json.partialCmp, Num.cmp_eq, Num.intVal, Option.some.injEq, intCmp_lt]
  · simp only [Json.partialCmp, Num.cmp_eq, Num.intVal, Option.some.injEq, intCmp_lt]; omega
  · intro s t
    simp only [Json.partialCmp, Option.some.injEq, bytesCmp]
    split
    · simp; assumption
    · split <;> simp <;> simp_all
  · intro b c; cases b <;> cases c <;> simp [Json.partialCmp, boolCmp]

/-- Arrays are ordered lexicographically by their elements, a proper prefix coming first; objects likewise by their
entries, which are ordered by key and then by value. They are equal if they have the same length and are equal position
by position. -/
theorem C56_sequences (l m : List Json) (p q : List (Bytes × Json)) :
    ((Json.arr (.ofList l)).partialCmp (.arr (.ofList m)) = some .lt ↔
      LexBelow (fun x y => x.partialCmp y = some .eq) (fun x y => x.partialCmp y = some .lt) l m) ∧
    ((Json.arr (.ofList l)).partialCmp (.arr (.ofList m)) = some .eq ↔ Pairwise₂ (fun x y => x.partialCmp y = some .eq) l m) ∧
    ((Json.obj (.ofList p)).partialCmp (.obj (.ofList q)) = some .lt ↔
      LexBelow (fun x y => x.1 = y.1 ∧ x.2.partialCmp y.2 = some .eq)
        (fun x y => Order.lt x.1 y.1 = true ∨ (x.1 = y.1 ∧ x.2.partialCmp y.2 = some .lt)) p q) ∧
    ((Json.obj (.ofList p)).partialCmp (.obj (.ofList q)) = some .eq ↔
      Pairwise₂ (fun x y => x.1 = y.1 ∧ x.2.partialCmp y.2 = some .eq) p q) := by
  simp only [Json.partialCmp, JArr.partialCmp_ofList, JObj.partialCmp_ofList, lexCmp_lt, lexCmp_eq, entryCmp_lt, entryCmp_eq,
    and_self, iff_self]

/-- Between values whose numbers are all integers, or all floats and integers of absolute value at most `2^53`, `<` and
`==` are transitive and compatible with each other: if `a ≤ b` and `b ≤ c` then `a ≤ c`, and `a < c` if one of the two
steps is strict. -/
theorem C56_order_partial (P : Num → Prop) (hP : P = Num.IsInt ∨ P = Num.IsExact) (a b c : Json)
    (ha : a.AllNums P) (hb : b.AllNums P) (hc : c.AllNums P) :
    (a.partialCmp b = some .lt → b.partialCmp c = some .lt → a.partialCmp c = some .lt) ∧
    (a.partialCmp b = some .lt → b.partialCmp c = some .eq → a.partialCmp c = some .lt) ∧
    (a.partialCmp b = some .eq → b.partialCmp c = some .lt → a.partialCmp c = some .lt) ∧
    (a.partialCmp b = some .eq → b.partialCmp c = some .eq → a.partialCmp c = some .eq) := by
  have key : ∀ o o', a.partialCmp b = some o → b.partialCmp c = some o' → o ≠ .gt → o' ≠ .gt →
      a.partialCmp c = some (o.then o') := by
    intro o o'
    rcases hP with rfl | rfl
    · exact Json.cmp_comp Num.int_comp a b c o o' ha hb hc
    · exact Json.cmp_comp Num.exact_comp a b c o o' ha hb hc
  exact ⟨fun h1 h2 => key _ _ h1 h2 (by simp) (by simp), fun h1 h2 => key _ _ h1 h2 (by simp) (by simp),
    fun h1 h2 => key _ _ h1 h2 (by simp) (by simp), fun h1 h2 => key _ _ h1 h2 (by simp) (by simp)⟩

/-- On numbers, of any kind and size, `<` is transitive. -/
theorem C56_numbers (x y z : Num) (h1 : (Json.num x).partialCmp (.num y) = some .lt)
    (h2 : (Json.num y).partialCmp (.num z) = some .lt) : (Json.num x).partialCmp (.num z) = some .lt := by
  simp only [Json.partialCmp, Option.some.injEq] at *
  exact Num.cmp_lt_trans h1 h2

namespace W
/-- An array of two values. -/
def pair (a b : Json) : Json := .arr (.cons a (.cons b .nil))
end W

/-- In general `<` is not transitive on arrays: `[2^53 + 1, 0] < [2^53 as a float, 1] < [2^53, 2]`, but
`[2^53 + 1, 0] > [2^53, 2]`. On numbers `==` and `<` do not fit together: `2^53 + 1 == 2^53 as a float == 2^53`, but
`2^53 < 2^53 + 1`. -/
theorem C56_refuted :
    (∃ a b c : Json, a.partialCmp b = some .lt ∧ b.partialCmp c = some .lt ∧ a.partialCmp c = some .gt) ∧
    (∃ x y z : Num, (Json.num x).partialCmp (.num y) = some .eq ∧ (Json.num y).partialCmp (.num z) = some .eq ∧
      (Json.num z).partialCmp (.num x) = some .lt) :=
  ⟨⟨W.pair (W.n (2^53 + 1)) (W.n 0), W.pair (W.pow2f 53) (W.n 1), W.pair (W.n (2^53)) (W.n 2), by decide +kernel⟩,
   ⟨.posInt (Fin.ofNat _ (2^53 + 1)), .float ⟨false, Fin.ofNat _ (1023 + 53), 0⟩, .posInt (Fin.ofNat _ (2^53)),
    by decide +kernel⟩⟩

/-- Values meeting the hypotheses, at both classes of numbers. -/
example : (W.pair (W.n (2^60)) (W.n 0)).AllNums Num.IsInt ∧ (W.pair (W.n (2^60 + 1)) (W.n 0)).AllNums Num.IsInt ∧
    (W.pair (W.n (2^60)) (W.n 0)).partialCmp (W.pair (W.n (2^60 + 1)) (W.n 0)) = some .lt ∧
    (W.pair W.three (W.n 1)).AllNums Num.IsExact ∧ (W.pair (W.n 3) (W.n 2)).AllNums Num.IsExact ∧
    (W.pair W.three (W.n 1)).partialCmp (W.pair (W.n 3) (W.n 2)) = some .lt := by
  refine ⟨?_, ?_, by decide +kernel, ?_, ?_, by decide +kernel⟩ <;>
    simp [Json.AllNums, JArr.AllNums, W.pair, W.n, W.three, Num.IsInt, Num.IsExact] <;> decide +kernel

example := C56_numbers (.posInt (Fin.ofNat _ 3)) (.posInt (Fin.ofNat _ (2^60))) (.posInt (Fin.ofNat _ (2^64 - 1)))
  (by decide +kernel) (by decide +kernel)
example := (C56_order_partial Num.IsExact (.inr rfl) (W.pair W.three (W.n 1)) (W.pair (W.n 3) (W.n 2)) (W.pair (W.n 4) (W.n 0))
  (by simp [Json.AllNums, JArr.AllNums, W.pair, W.n, W.three, Num.IsExact])
  (by simp [Json.AllNums, JArr.AllNums, W.pair, W.n, Num.IsExact]; decide +kernel)
  (by simp [Json.AllNums, JArr.AllNums, W.pair, W.n, Num.IsExact]; decide +kernel)).1 (by decide +kernel) (by decide +kernel)
example : (Json.arr (.ofList [W.n 1, W.n 2])).partialCmp (.arr (.ofList [W.n 1, W.n 2, W.n 0])) = some .lt ∧
    (Json.str [97]).partialCmp (.num (.posInt 3)) = none := by decide +kernel

end IndraDB
