import Verif.Model.JsonText
import Verif.Spec.Msgpack
/-
What becomes of a value that is written as text and read again.
-/
namespace IndraDB

/-- Digits. -/
def AllDigits (b : Bytes) : Prop := ∀ x ∈ b, 48 ≤ x.toNat ∧ x.toNat ≤ 57

/-- A number that is written with a point or an exponent, in the syntax of JSON. -/
structure Decimal.Proper (d : Decimal) : Prop where
  int : AllDigits d.int ∧ d.int ≠ [] ∧ (d.int.head? = some 48 → d.int = [48])
  frac : AllDigits d.frac
  exp : ∀ neg e, d.exp = some (neg, e) → AllDigits e ∧ e ≠ []
  float : d.frac ≠ [] ∨ d.exp ≠ none

/-- What is known about the floats that are written: they look like floats. -/
def Floats.Proper (F : Floats) : Prop := ∀ f, (F.print f).Proper

/-- The float that is read where `f` was written. -/
def Floats.back (F : Floats) (f : F64) : Option F64 := F.parse (F.print f)

/-- A number that is written and read again: integers are unchanged. -/
def Num.back (F : Floats) : Num → Option Num
  | .float f => (F.back f).map .float
  | n => some n

mutual
/-- A value that is written and read again: the same value, with each float replaced; `none` if one of them cannot be read. -/
def Json.back (F : Floats) : Json → Option Json
  | .num n => (n.back F).map .num
  | .arr a => (a.back F).map .arr
  | .obj o => (o.back F).map .obj
  | v => some v
def JArr.back (F : Floats) : JArr → Option JArr
  | .nil => some .nil
  | .cons v r => (v.back F).bind fun v => (r.back F).map fun r => .cons v r
def JObj.back (F : Floats) : JObj → Option JObj
  | .nil => some .nil
  | .cons k v r => (v.back F).bind fun v => (r.back F).map fun r => .cons k v r
end

mutual
/-- All floats in the value satisfy `P`. -/
def Json.FloatsAre (P : F64 → Prop) : Json → Prop
  | .num (.float f) => P f
  | .arr a => a.FloatsAre P
  | .obj o => o.FloatsAre P
  | _ => True
def JArr.FloatsAre (P : F64 → Prop) : JArr → Prop
  | .nil => True
  | .cons v r => v.FloatsAre P ∧ r.FloatsAre P
def JObj.FloatsAre (P : F64 → Prop) : JObj → Prop
  | .nil => True
  | .cons _ v r => v.FloatsAre P ∧ r.FloatsAre P
end

end IndraDB
