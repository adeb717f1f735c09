import Verif.Spec.JsonFloat
/-
When a float is near the number that is written (C93).
-/
namespace IndraDB

/-- `f` has the sign of `d`, and its magnitude is that of `d`, up to six parts in `2^53` and four times the least float. -/
structure Decimal.Approx (d : Decimal) (f : F64) : Prop where
  sign : f.neg = d.neg
  near : 2 ^ 53 * d.far f.units ≤ 6 * (d.above * 2 ^ 1074) + 2 ^ 53 * (4 * d.below)

/-- `g` has the sign of `f`, and its magnitude is that of `f`, up to one part in `2^50` and five times the least float. -/
structure F64.Near (f g : F64) : Prop where
  sign : g.neg = f.neg
  above : 2 ^ 50 * g.units ≤ 2 ^ 50 * f.units + (f.units + 2 ^ 50 * 5)
  below : 2 ^ 50 * f.units ≤ 2 ^ 50 * g.units + (f.units + 2 ^ 50 * 5)

mutual
/-- The same value, but for floats, which are near. -/
def Json.Near : Json → Json → Prop
  | .num (.float f), .num (.float g) => f.Near g
  | .arr a, .arr b => a.Near b
  | .obj o, .obj p => o.Near p
  | v, w => v = w
def JArr.Near : JArr → JArr → Prop
  | .nil, .nil => True
  | .cons v r, .cons w s => v.Near w ∧ r.Near s
  | _, _ => False
def JObj.Near : JObj → JObj → Prop
  | .nil, .nil => True
  | .cons k v r, .cons l w s => k = l ∧ v.Near w ∧ r.Near s
  | _, _ => False
end

/-- Numbers in which the digits are digits, and fewer than `2^30`. -/
structure Decimal.Usual (d : Decimal) : Prop where
  int : AllDigits d.int
  frac : AllDigits d.frac
  length : d.int.length + d.frac.length < 2 ^ 30

end IndraDB
