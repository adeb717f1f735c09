import Verif.Model.JsonText
/-
How `serde_json` makes a float of digits when its feature `float_roundtrip` is off, as in this repository (`lib/Cargo.toml:30`,
`proto/Cargo.toml:26`): the digits as an integer of 64 bits, then one multiplication or division by a power of ten, each
rounded. The magnitude of a float is given in units of `2^-1074`, of which every finite float is a multiple.
-/
namespace IndraDB

/-- The magnitude of a float, in units. Read at `lib/src/rdb/managers.rs:338`. -/
def F64.units (f : F64) : Nat := if f.exp.val = 0 then f.frac.val else (2 ^ 52 + f.frac.val) * 2 ^ (f.exp.val - 1)

/-- `n / d` units rounded to the nearest float, ties to even; the exponent is not bounded. The arithmetic of `f64` used at
`lib/src/rdb/managers.rs:338`. -/
def roundUnits (n d : Nat) : Nat :=
  let s := (n / d).log2 - 52
  let t := n / (d * 2 ^ s)
  let r := n % (d * 2 ^ s)
  (if 2 * r < d * 2 ^ s ∨ (2 * r = d * 2 ^ s ∧ t % 2 = 0) then t else t + 1) * 2 ^ s

/-- The float with this magnitude; `none` if it is too large. Read at `lib/src/rdb/managers.rs:338`. -/
def F64.ofUnits (neg : Bool) (u : Nat) : Option F64 :=
  if h : u < 2 ^ 52 then some ⟨neg, ⟨0, by decide⟩, ⟨u, h⟩⟩
  else
    if h : u.log2 - 52 + 1 < 2047 then
      some ⟨neg, ⟨u.log2 - 52 + 1, h⟩, ⟨(u / 2 ^ (u.log2 - 52)) % 4503599627370496, Nat.mod_lt _ (by decide)⟩⟩
    else none

/-- The table of the powers of ten as floats, up to `1e308`. Read at `lib/src/rdb/managers.rs:338`. -/
def pow10 (k : Nat) : Nat := roundUnits (10 ^ k * 2 ^ 1074) 1

/-- `a / b` of floats. Read at `lib/src/rdb/managers.rs:338`. -/
def divUnits (a b : Nat) : Nat := roundUnits (a * 2 ^ 1074) b

/-- `a * b` of floats. Read at `lib/src/rdb/managers.rs:338`. -/
def mulUnits (a b : Nat) : Nat := roundUnits (a * b) (2 ^ 1074)

/-- Divide by `10^k`, by `1e308` at a time, at most `n` times. Part of `f64_from_parts`, read at `lib/src/rdb/managers.rs:338`. -/
def downUnits : Nat → Nat → Nat → Nat
  | 0, f, _ => f
  | n + 1, f, k => if k ≤ 308 then divUnits f (pow10 k) else if f = 0 then 0 else downUnits n (divUnits f (pow10 308)) (k - 308)

/-- `f64_from_parts`: the digits times a power of ten. Read at `lib/src/rdb/managers.rs:338`. -/
def fromParts (neg : Bool) (sig : Nat) : Int → Option F64
  | .ofNat k =>
    if k ≤ 308 then F64.ofUnits neg (mulUnits (roundUnits (sig * 2 ^ 1074) 1) (pow10 k))
    else if sig = 0 then F64.ofUnits neg 0 else none
  | .negSucc k => F64.ofUnits neg (downUnits (k + 1) (roundUnits (sig * 2 ^ 1074) 1) (k + 1))

/-- Append digits to the number read so far while it fits in 64 bits; how many were appended.
`parse_any_number`, `parse_decimal`, read at `lib/src/rdb/managers.rs:338`. -/
def takeDigits (sig n : Nat) : Bytes → Nat × Nat
  | [] => (sig, n)
  | x :: r =>
    if sig * 10 + (x.toNat - 48) < 18446744073709551616 then takeDigits (sig * 10 + (x.toNat - 48)) (n + 1) r else (sig, n)

/-- The digits as an integer and the power of ten to multiply it with, before the exponent that is written. Digits of the integer part that
do not fit count as zeros, those after the point are skipped. Read at `lib/src/rdb/managers.rs:338`. -/
def Decimal.parts (d : Decimal) : Nat × Int :=
  let i := takeDigits 0 0 d.int
  let f := takeDigits i.1 0 d.frac
  (f.1, (d.int.length - i.2 : Nat) - (f.2 : Int))

/-- The exponent that is written. Read at `lib/src/rdb/managers.rs:338`. -/
def Decimal.exponent (d : Decimal) : Int :=
  match d.exp with
  | none => 0
  | some (neg, e) => if neg then - (JsonRead.decVal 0 e : Int) else JsonRead.decVal 0 e

/-- The float that is read for digits. An exponent of more than 31 bits gives zero or an error. Simplification: the numbers of digits
are not bounded. `lib/src/rdb/managers.rs:331, 338, 442, 452`. -/
def Decimal.read (d : Decimal) : Option F64 :=
  let p := d.parts
  if 2147483647 < d.exponent.natAbs then
    if p.1 ≠ 0 ∧ 0 < d.exponent then none else F64.ofUnits d.neg 0
  else fromParts d.neg p.1 (p.2 + d.exponent)

/-- Floats as they are read without `float_roundtrip`; how they are printed (by `ryu`) stays a parameter.
`lib/src/rdb/managers.rs:331, 338, 356, 442, 452, 470`. -/
def serdeFloats (print : F64 → Decimal) : Floats := ⟨print, Decimal.read⟩

end IndraDB
