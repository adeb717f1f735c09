import Verif.Model.Json
/-
Specification for properties of values: which numbers may occur in a JSON value, and when two values have the same shape.
-/
namespace IndraDB

mutual
/-- Every number in the value, at any depth, satisfies `P`. -/
def Json.AllNums (P : Num → Prop) : Json → Prop
  | .num n => P n
  | .arr a => a.AllNums P
  | .obj o => o.AllNums P
  | _ => True
def JArr.AllNums (P : Num → Prop) : JArr → Prop
  | .nil => True
  | .cons v r => v.AllNums P ∧ r.AllNums P
def JObj.AllNums (P : Num → Prop) : JObj → Prop
  | .nil => True
  | .cons _ v r => v.AllNums P ∧ r.AllNums P
end

mutual
/-- No string or key contains the byte `0xff`. Every UTF-8 string, hence every `serde_json::Value`, satisfies this. -/
def Json.Utf8 : Json → Prop
  | .str s => (255 : UInt8) ∉ s
  | .arr a => a.Utf8
  | .obj o => o.Utf8
  | _ => True
def JArr.Utf8 : JArr → Prop
  | .nil => True
  | .cons v r => v.Utf8 ∧ r.Utf8
def JObj.Utf8 : JObj → Prop
  | .nil => True
  | .cons k v r => (255 : UInt8) ∉ k ∧ v.Utf8 ∧ r.Utf8
end

/-- Neither array nor object. -/
def Json.Scalar : Json → Prop
  | .arr _ => False
  | .obj _ => False
  | _ => True

def JArr.AllScalar : JArr → Prop
  | .nil => True
  | .cons v r => v.Scalar ∧ r.AllScalar

def JObj.AllScalar : JObj → Prop
  | .nil => True
  | .cons _ v r => v.Scalar ∧ r.AllScalar

/-- A scalar, an array of scalars or an object of scalars. -/
def Json.Flat : Json → Prop
  | .arr a => a.AllScalar
  | .obj o => o.AllScalar
  | _ => True

mutual
/-- Same nesting: arrays and objects occur at the same places and have the same number of entries. Scalars, keys and
the kind of a scalar may differ. -/
def Json.SameShape : Json → Json → Prop
  | .arr a, .arr b => a.SameShape b
  | .obj a, .obj b => a.SameShape b
  | .arr _, _ => False
  | _, .arr _ => False
  | .obj _, _ => False
  | _, .obj _ => False
  | _, _ => True
def JArr.SameShape : JArr → JArr → Prop
  | .nil, .nil => True
  | .cons a r, .cons b s => a.SameShape b ∧ r.SameShape s
  | _, _ => False
def JObj.SameShape : JObj → JObj → Prop
  | .nil, .nil => True
  | .cons _ a r, .cons _ b s => a.SameShape b ∧ r.SameShape s
  | _, _ => False
end

namespace Num
/-- An integer. -/
def IsInt : Num → Prop
  | .float _ => False
  | _ => True
/-- An integer in the range of `i64`. -/
def IsI64 : Num → Prop
  | .posInt n => n.val < 2^63
  | .negInt _ => True
  | .float _ => False
/-- A non-negative integer. -/
def IsU64 : Num → Prop
  | .posInt _ => True
  | _ => False
/-- A float. -/
def IsFloat : Num → Prop
  | .float _ => True
  | _ => False
/-- A float that is not negative zero. -/
def IsFloatNotNegZero : Num → Prop
  | .float f => ¬ (f.neg = true ∧ f.exp.val = 0 ∧ f.frac.val = 0)
  | _ => False
/-- A float, or an integer of absolute value at most `2^53` (those are exact as floats). -/
def IsExact : Num → Prop
  | .posInt n => n.val ≤ 2^53
  | .negInt m => m.val + 1 ≤ 2^53
  | .float _ => True
end Num

end IndraDB
