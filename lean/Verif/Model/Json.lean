import Verif.Model.Types
/-
Model of `lib/src/models/json.rs`: the hash input of a JSON value and the (partial) comparison.
-/
namespace IndraDB

/-- 8 bytes, least significant first (`to_ne_bytes` on a little endian host), of `n mod 2^64`.
What `Hash for i64`, `u64` (`lib/src/models/json.rs:31, 33, 36`) feeds to the hasher. -/
def le64 (n : Nat) : Bytes :=
  [UInt8.ofNat n, UInt8.ofNat (n / 2^8), UInt8.ofNat (n / 2^16), UInt8.ofNat (n / 2^24),
   UInt8.ofNat (n / 2^32), UInt8.ofNat (n / 2^40), UInt8.ofNat (n / 2^48), UInt8.ofNat (n / 2^56)]

/-- `f64::to_bits`. Used at `lib/src/models/json.rs:36`. -/
def F64.toBits (f : F64) : Nat := (if f.neg then 2^63 else 0) + f.exp.val * 2^52 + f.frac.val

/-- The 64 bits hashed for a number (`lib/src/models/json.rs:28-38`): two's complement of an i64, the u64, or the float bits. -/
def Num.bits64 : Num → Nat
  | .posInt n => n.val
  | .negInt m => 2^64 - 1 - m.val
  | .float f => f.toBits

mutual
/-- `hash` (`lib/src/models/json.rs:19-57`): the bytes fed to the hasher. `write_u8(tag)`; `bool::hash` writes one byte; integer
`hash` writes 8 bytes; `str::hash` writes the bytes and `0xff`. No lengths are written for arrays and objects. -/
def Json.stream : Json → Bytes
  | .null => [0]
  | .bool b => [1, if b then 1 else 0]
  | .num n => 2 :: le64 n.bits64
  | .str s => 3 :: (s ++ [0xff])
  | .arr a => 4 :: a.stream
  | .obj o => 5 :: o.stream
/-- The loop over an array (`lib/src/models/json.rs:43-48`). -/
def JArr.stream : JArr → Bytes
  | .nil => []
  | .cons v r => v.stream ++ r.stream
/-- The loop over an object (`lib/src/models/json.rs:49-55`). -/
def JObj.stream : JObj → Bytes
  | .nil => []
  | .cons k v r => (k ++ [0xff]) ++ v.stream ++ r.stream
end

/-- `x as f64` for an unsigned integer `n < 2^64`: round to nearest, ties to even. The result is an integer and is
given exactly. Used at `lib/src/models/json.rs:74, 86, 91, 93`. -/
def roundF64 (n : Nat) : Nat :=
  if n < 2^53 then n
  else
    let sh := n.log2 - 52
    let q := n / 2^sh
    let r := n % 2^sh
    let half := 2^(sh - 1)
    if r < half ∨ (r = half ∧ q % 2 = 0) then q * 2^sh else (q + 1) * 2^sh

/-- Exact value of a finite float, scaled by `2^1074`.
The numbers compared by `f64::partial_cmp` at `lib/src/models/json.rs:74, 86, 91, 93, 95`. -/
def F64.scaled (f : F64) : Int :=
  let m : Nat := if f.exp.val = 0 then f.frac.val else (2^52 + f.frac.val) * 2^(f.exp.val - 1)
  if f.neg then - (m : Int) else m

/-- `Number::as_i64`, `some` iff `is_i64` (a non-negative integer is `i64` if it fits).
Used at `lib/src/models/json.rs:30-31, 64-67`. -/
def Num.asI64 : Num → Option Int
  | .posInt n => if n.val < 2^63 then some n.val else none
  | .negInt m => some (-(m.val + 1 : Int))
  | .float _ => none

/-- `Number::as_u64`, `some` iff `is_u64`. Used at `lib/src/models/json.rs:32-33, 76-77`. -/
def Num.asU64 : Num → Option Nat
  | .posInt n => some n.val
  | .negInt _ => none
  | .float _ => none

/-- Value scaled by `2^1074` after conversion to `f64` (`v as f64`, `as_f64`), `lib/src/models/json.rs:74,86,91,93`. -/
def Num.f64Scaled : Num → Int
  | .posInt n => (roundF64 n.val : Int) * 2^1074
  | .negInt m => - ((roundF64 (m.val + 1) : Int) * 2^1074)
  | .float f => f.scaled

/-- `Ordering` of two integers. `partial_cmp` of `i64` and `u64` at `lib/src/models/json.rs:67, 70, 80, 84`. -/
def intCmp (a b : Int) : Ordering := if a < b then .lt else if b < a then .gt else .eq

/-- `partial_cmp` on numbers (`lib/src/models/json.rs:63-98`), branch by branch. Finite floats always compare, so the result is an
`Ordering`. -/
def Num.cmp (a b : Num) : Ordering :=
  match a.asI64 with
  | some x => match b.asI64 with
    | some y => intCmp x y
    | none => match b.asU64 with
      | some y => if y < 2^63 then intCmp x y else .lt
      | none => intCmp a.f64Scaled b.f64Scaled
  | none => match a.asU64 with
    | some x => match b.asI64 with
      | some y => if 0 ≤ y then intCmp x y else .gt
      | none => match b.asU64 with
        | some y => intCmp x y
        | none => intCmp a.f64Scaled b.f64Scaled
    | none => intCmp a.f64Scaled b.f64Scaled

/-- `str::partial_cmp`: bytewise. Used at `lib/src/models/json.rs:99, 107`. -/
def bytesCmp (a b : Bytes) : Ordering := if Order.lt a b then .lt else if Order.lt b a then .gt else .eq

/-- `bool::partial_cmp`. Used at `lib/src/models/json.rs:62`. -/
def boolCmp : Bool → Bool → Ordering
  | false, true => .lt
  | true, false => .gt
  | _, _ => .eq

mutual
/-- `partial_cmp` (`lib/src/models/json.rs:59-115`). -/
def Json.partialCmp : Json → Json → Option Ordering
  | .null, .null => some .eq
  | .bool a, .bool b => some (boolCmp a b)
  | .num a, .num b => some (a.cmp b)
  | .str a, .str b => some (bytesCmp a b)
  | .arr a, .arr b => a.partialCmp b
  | .obj a, .obj b => a.partialCmp b
  | _, _ => none
/-- `partial_cmp_by` (`lib/src/models/json.rs:117-144`) with `partial_cmp`. -/
def JArr.partialCmp : JArr → JArr → Option Ordering
  | .nil, .nil => some .eq
  | .nil, .cons _ _ => some .lt
  | .cons _ _, .nil => some .gt
  | .cons a r, .cons b s => match a.partialCmp b with
    | some .eq => r.partialCmp s
    | nonEq => nonEq
/-- `partial_cmp_by` with the closure `lib/src/models/json.rs:104-111`. -/
def JObj.partialCmp : JObj → JObj → Option Ordering
  | .nil, .nil => some .eq
  | .nil, .cons _ _ _ => some .lt
  | .cons _ _ _, .nil => some .gt
  | .cons k a r, .cons l b s => match bytesCmp k l with
    | .eq => match a.partialCmp b with
      | some .eq => r.partialCmp s
      | nonEq => nonEq
    | nonEq => some nonEq
end

/-- `PartialEq for Json` (`lib/src/models/json.rs:179-183`). -/
def Json.eq (a b : Json) : Bool := a.partialCmp b = some .eq

end IndraDB
